import Verif.Dom.Table

/-
The probe sequence visits every slot of a table whose size is a power of two: `x ↦ 5x+1` is a single
cycle modulo every power of two.
-/
namespace Verif.Dom.Table

/-- `n` rounds of `x ↦ 5x+1` from 0. -/
def orbit : Nat → Nat
  | 0 => 0
  | n + 1 => 5 * orbit n + 1

theorem orbit_pow (n : Nat) : 4 * orbit n + 1 = 5 ^ n := by
  induction n with
  | zero => rfl
  | succ n ih => rw [Nat.pow_succ, ← ih]; simp only [orbit]; omega

theorem orbit_add (a b : Nat) : orbit (a + b) = orbit a + 5 ^ a * orbit b := by
  induction b with
  | zero => simp [orbit]
  | succ b ih =>
    have := orbit_pow a
    rw [← Nat.add_assoc]
    simp only [orbit, ih, Nat.mul_add, Nat.mul_one]
    have e : 5 ^ a * (5 * orbit b) = 5 * (5 ^ a * orbit b) := Nat.mul_left_comm ..
    omega

theorem orbit_two_pow (k : Nat) : ∃ q, orbit (2 ^ k) = 2 ^ k * (2 * q + 1) := by
  induction k with
  | zero => exact ⟨0, rfl⟩
  | succ k ih =>
    obtain ⟨q, hq⟩ := ih
    have h5 := orbit_pow (2 ^ k)
    have : orbit (2 ^ (k + 1)) = orbit (2 ^ k) * (2 * (2 * orbit (2 ^ k) + 1)) := by
      rw [Nat.pow_succ, Nat.mul_two, orbit_add, ← h5, Nat.add_mul]
      rw [show 2 * (2 * orbit (2 ^ k) + 1) = 4 * orbit (2 ^ k) + 2 by omega, Nat.mul_add,
        Nat.mul_comm (4 * orbit (2 ^ k))]
      omega
    refine ⟨2 * q * orbit (2 ^ k) + q + orbit (2 ^ k), ?_⟩
    rw [this]
    conv => lhs; rw [hq]
    rw [Nat.pow_succ]
    rw [Nat.mul_assoc, Nat.mul_assoc]
    congr 1
    rw [← hq, Nat.mul_left_comm]
    congr 1
    generalize orbit (2 ^ k) = o
    rw [Nat.add_mul, Nat.mul_add, Nat.mul_add, Nat.mul_add]
    rw [show 2 * q * (2 * o) = 2 * (2 * q * o) from Nat.mul_left_comm ..]
    omega

theorem odd_pow5 (n : Nat) : 5 ^ n % 2 = 1 := by have := orbit_pow n; omega

theorem orbit_full (k t : Nat) : ∃ n, n < 2 ^ k ∧ orbit n % 2 ^ k = t % 2 ^ k := by
  induction k with
  | zero => exact ⟨0, by simp, by simp [Nat.mod_one]⟩
  | succ k ih =>
    obtain ⟨n, hn, hm⟩ := ih
    obtain ⟨q, hq⟩ := orbit_two_pow k
    have hpos : 0 < 2 ^ k := Nat.two_pow_pos k
    by_cases hb : orbit n / 2 ^ k % 2 = t / 2 ^ k % 2
    · refine ⟨n, by rw [Nat.pow_succ]; omega, ?_⟩
      rw [Nat.pow_succ, Nat.mod_mul, Nat.mod_mul, hm, hb]
    · refine ⟨n + 2 ^ k, by rw [Nat.pow_succ]; omega, ?_⟩
      have e : orbit (n + 2 ^ k) = orbit n + 2 ^ k * (5 ^ n * (2 * q + 1)) := by
        rw [orbit_add, hq, Nat.mul_left_comm]
      have hodd : (5 ^ n * (2 * q + 1)) % 2 = 1 := by
        rw [Nat.mul_mod, odd_pow5]; omega
      rw [Nat.pow_succ, Nat.mod_mul, Nat.mod_mul, e, Nat.add_mul_mod_self_left,
        Nat.add_mul_div_left _ _ hpos, hm]
      congr 2
      omega

theorem orbit_cover (k x y : Nat) :
    ∃ n, n < 2 * 2 ^ k ∧ (5 ^ n * x + orbit n) % 2 ^ k = y % 2 ^ k := by
  obtain ⟨a, ha, hx⟩ := orbit_full k x
  obtain ⟨b, hb, hy⟩ := orbit_full k y
  by_cases h0 : b + 2 ^ k - a < 2 * 2 ^ k
  · refine ⟨b + 2 ^ k - a, h0, ?_⟩
    obtain ⟨n, hn⟩ : ∃ n, n = b + 2 ^ k - a := ⟨_, rfl⟩
    rw [← hn]
    obtain ⟨q, hq⟩ := orbit_two_pow k
    have e : orbit (n + a) = orbit b + 2 ^ k * (5 ^ b * (2 * q + 1)) := by
      rw [show n + a = b + 2 ^ k by omega, orbit_add, hq, Nat.mul_left_comm]
    have e2 : orbit (n + a) = orbit n + 5 ^ n * orbit a := orbit_add n a
    rw [Nat.add_mod, Nat.mul_mod, ← hx, ← Nat.mul_mod, ← Nat.add_mod, Nat.add_comm, ← e2, e,
      Nat.add_mul_mod_self_left, hy]
  · omega

/-- The state of the probing loop after `n` rounds. -/
def probe (w : Nat) (s : Nat × Nat) : Nat → Nat × Nat
  | 0 => s
  | n + 1 => nextProbe w (probe w s n)

theorem probe_shift (w : Nat) (s : Nat × Nat) (n : Nat) :
    probe w (nextProbe w s) n = probe w s (n + 1) := by
  induction n with
  | zero => rfl
  | succ n ih => rw [probe, ih]; rfl

theorem probe_perturb (w : Nat) (s : Nat × Nat) (n : Nat) : (probe w s n).2 = s.2 / 32 ^ n := by
  induction n with
  | zero => simp [probe]
  | succ n ih => simp only [probe, nextProbe, ih, Nat.pow_succ, Nat.div_div_eq_div_mul]

theorem mod_mod_two_pow {k w : Nat} (hk : k ≤ w) (x : Nat) : x % 2 ^ w % 2 ^ k = x % 2 ^ k :=
  Nat.mod_mod_of_dvd x (Nat.pow_dvd_pow 2 hk)

theorem probe_tail {w k : Nat} (hk : k ≤ w) (s : Nat × Nat) (hs : s.2 < 2 ^ w) (n : Nat) :
    (probe w s (w + n)).1 % 2 ^ k = (5 ^ n * (probe w s w).1 + orbit n) % 2 ^ k := by
  induction n with
  | zero => simp [orbit]
  | succ n ih =>
    have h0 : (probe w s (w + n)).2 = 0 := by
      rw [probe_perturb]
      apply Nat.div_eq_of_lt
      have h1 : 2 ^ w ≤ 32 ^ w := Nat.pow_le_pow_left (by omega) w
      have h2 : 32 ^ w ≤ 32 ^ (w + n) := Nat.pow_le_pow_right (by omega) (by omega)
      omega
    rw [← Nat.add_assoc]
    simp only [probe, nextProbe, h0]
    rw [mod_mod_two_pow hk, show (probe w s (w + n)).1 * 4 + (probe w s (w + n)).1 + 0 + 1 =
      5 * (probe w s (w + n)).1 + 1 by omega, Nat.add_mod, Nat.mul_mod, ih, ← Nat.mul_mod, ← Nat.add_mod]
    congr 1
    simp only [orbit, Nat.pow_succ, Nat.mul_add]
    rw [show 5 ^ n * 5 * (probe w s w).1 = 5 * (5 ^ n * (probe w s w).1) by
      rw [Nat.mul_comm (5 ^ n) 5, Nat.mul_assoc]]
    omega

theorem slotOf_mod (k i : Nat) : slotOf (2 ^ k) i = i % 2 ^ k := Nat.and_two_pow_sub_one_eq_mod i k

/-- Every slot is visited within `rounds`. -/
theorem probe_cover {w k : Nat} (hk : k ≤ w) (s : Nat × Nat) (hs : s.2 < 2 ^ w) {j : Nat}
    (hj : j < 2 ^ k) : ∃ n, n < rounds w (2 ^ k) ∧ slotOf (2 ^ k) (probe w s n).1 = j := by
  obtain ⟨n, hn, he⟩ := orbit_cover k (probe w s w).1 j
  refine ⟨w + n, by unfold rounds; omega, ?_⟩
  rw [slotOf_mod, probe_tail hk s hs, he, Nat.mod_eq_of_lt hj]

end Verif.Dom.Table
