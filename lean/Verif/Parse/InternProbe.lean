import Verif.Parse.InternSpec

/-
The probe of a table reaches every slot: x ↦ 5x + 1 runs through all residues modulo a power of two.
-/
namespace Verif.Parse.Intern

/-- `n` rounds of the probe after `perturb` has become 0. -/
def iter : Nat → Nat → Nat
  | 0, x => x
  | n + 1, x => iter n (5 * x + 1)

theorem iter_add (m n x : Nat) : iter (m + n) x = iter n (iter m x) := by
  induction m generalizing x with
  | zero => simp [iter]
  | succ m ih => rw [show m + 1 + n = (m + n) + 1 from by omega]; simp only [iter]; exact ih _

theorem iter_closed (n x : Nat) : 4 * iter n x + 1 = 5 ^ n * (4 * x + 1) := by
  induction n generalizing x with
  | zero => simp [iter]
  | succ n ih =>
    simp only [iter]
    rw [ih, Nat.pow_succ, Nat.mul_assoc]
    congr 1
    omega

theorem iter_mod (n x y m : Nat) (h : x % m = y % m) : iter n x % m = iter n y % m := by
  induction n generalizing x y with
  | zero => exact h
  | succ n ih =>
    simp only [iter]
    apply ih
    rw [Nat.add_mod, Nat.mul_mod, h, ← Nat.mul_mod, ← Nat.add_mod]

/-- 5 ^ (2 ^ k) is 1 + 2 ^ (k + 2) times an odd number. -/
theorem five_pow (k : Nat) : ∃ q : Nat, 5 ^ (2 ^ k) = 1 + 2 ^ (k + 2) * (2 * q + 1) := by
  induction k with
  | zero => exact ⟨0, by decide⟩
  | succ k ih =>
    obtain ⟨q, hq⟩ := ih
    refine ⟨q + 2 ^ k * ((2 * q + 1) * (2 * q + 1)), ?_⟩
    rw [Nat.pow_succ 2 k, Nat.pow_mul, hq]
    have e1 : 2 ^ (k + 2) = 4 * 2 ^ k := by rw [Nat.pow_add]; omega
    have e2 : 2 ^ (k + 1 + 2) = 8 * 2 ^ k := by rw [show k + 1 + 2 = k + 3 from rfl, Nat.pow_add]; omega
    rw [e1, e2]
    generalize 2 ^ k = a
    grind

theorem iter_pow (k x : Nat) : ∃ q : Nat, iter (2 ^ k) x = x + 2 ^ k * (2 * q + 1) := by
  obtain ⟨q, hq⟩ := five_pow k
  refine ⟨q * (4 * x + 1) + 2 * x, ?_⟩
  have h := iter_closed (2 ^ k) x
  rw [hq] at h
  have e1 : 2 ^ (k + 2) = 4 * 2 ^ k := by rw [Nat.pow_add]; omega
  rw [e1] at h
  generalize 2 ^ k = a at *
  have : 4 * iter a x = 4 * (x + a * (2 * (q * (4 * x + 1) + 2 * x) + 1)) := by grind
  omega

theorem iter_reaches (k : Nat) : ∀ x j : Nat, ∃ n, n < 2 ^ k ∧ iter n x % 2 ^ k = j % 2 ^ k := by
  induction k with
  | zero => intro x j; exact ⟨0, by decide, by simp [Nat.mod_one]⟩
  | succ k ih =>
    intro x j
    obtain ⟨n, hn, hm⟩ := ih x j
    have hp : 2 ^ (k + 1) = 2 * 2 ^ k := by rw [Nat.pow_succ]; omega
    have hpos : 0 < 2 ^ k := Nat.pow_pos (by decide)
    rw [hp]
    by_cases he : iter n x % (2 * 2 ^ k) = j % (2 * 2 ^ k)
    · exact ⟨n, by omega, he⟩
    · refine ⟨n + 2 ^ k, by omega, ?_⟩
      rw [iter_add]
      obtain ⟨q, hq⟩ := iter_pow k (iter n x)
      rw [hq]
      generalize iter n x = y at *
      generalize 2 ^ k = a at *
      have e : y + a * (2 * q + 1) = (y + a) + 2 * a * q := by grind
      rw [e, Nat.add_mul_mod_self_left]
      have s1 : y % (2 * a) = y % a ∨ y % (2 * a) = y % a + a := by
        rw [Nat.mul_comm, Nat.mod_mul]
        rcases Nat.mod_two_eq_zero_or_one (y / a) with h | h <;> simp [h]
      have s2 : j % (2 * a) = j % a ∨ j % (2 * a) = j % a + a := by
        rw [Nat.mul_comm, Nat.mod_mul]
        rcases Nat.mod_two_eq_zero_or_one (j / a) with h | h <;> simp [h]
      have hlt : y % a < a := Nat.mod_lt _ hpos
      rw [Nat.add_mod, Nat.mod_eq_of_lt (show a < 2 * a by omega)]
      rcases s1 with h1 | h1 <;> rcases s2 with h2 | h2
      · exact absurd (by rw [h1, h2, hm]) he
      · rw [h1, h2, hm, Nat.mod_eq_of_lt]; omega
      · rw [h1, h2, hm, show j % a + a + a = j % a + 2 * a by omega, Nat.add_mod_right, Nat.mod_eq_of_lt]; omega
      · exact absurd (by rw [h1, h2, hm]) he

variable {V : Type}

theorem and_mask {mask k : Nat} (hm : mask + 1 = 2 ^ k) (x : Nat) : x &&& mask = x % 2 ^ k := by
  rw [show mask = 2 ^ k - 1 from by omega, Nat.and_two_pow_sub_one_eq_mod]

theorem mod_word {k : Nat} (hk : k ≤ 32) (x : Nat) : x % 2 ^ 32 % 2 ^ k = x % 2 ^ k :=
  Nat.mod_mod_of_dvd _ (Nat.pow_dvd_pow 2 hk)

/-- More fuel changes nothing. -/
theorem probe_more (mask : Nat) (slots : List (Option (Entry V))) (key : UStr) (hash : Nat) :
    ∀ (f i p j : Nat), probe mask slots key hash f i p = some j →
      probe mask slots key hash (f + 1) i p = some j := by
  intro f
  induction f with
  | zero => intro i p j h; simp [probe] at h
  | succ f ih =>
    intro i p j h
    rw [probe] at h ⊢
    split
    · rename_i hs; rw [hs] at h; exact h
    · rename_i hs; rw [hs] at h; exact h
    · rename_i e hs
      rw [hs] at h
      dsimp only at h
      split
      · rename_i hc; rw [if_pos hc] at h; exact h
      · rename_i hc; rw [if_neg hc] at h; exact ih _ _ _ h

/-- With `perturb` 0 the probe finds a slot if it can reach an empty one. -/
theorem probe_zero {mask k : Nat} (slots : List (Option (Entry V))) (key : UStr) (hash : Nat)
    (hm : mask + 1 = 2 ^ k) (hk : k ≤ 32) (hlen : slots.length = 2 ^ k) (z : Nat) (hz : slots[z]? = some none) :
    ∀ (n i : Nat), iter n (5 * i + 1) % 2 ^ k = z → ∃ j, probe mask slots key hash (n + 1) i 0 = some j := by
  intro n
  induction n with
  | zero =>
    intro i h
    simp only [iter] at h
    rw [probe]
    rw [and_mask hm, mod_word hk, show i * 4 + i + 0 + 1 = 5 * i + 1 from by omega, h, hz]
    exact ⟨_, rfl⟩
  | succ n ih =>
    intro i h
    rw [probe]
    rw [and_mask hm, mod_word hk]
    have hlt : (i * 4 + i + 0 + 1) % 2 ^ k < slots.length := by
      rw [hlen]; exact Nat.mod_lt _ (Nat.pow_pos (by decide))
    rw [List.getElem?_eq_getElem hlt]
    cases slots[(i * 4 + i + 0 + 1) % 2 ^ k] with
    | none => exact ⟨_, rfl⟩
    | some e =>
      dsimp only
      split
      · exact ⟨_, rfl⟩
      · apply ih
        rw [← h]
        simp only [iter]
        apply iter_mod
        have : (i * 4 + i + 0 + 1) % 2 ^ 32 % 2 ^ k = (5 * i + 1) % 2 ^ k := by
          rw [mod_word hk, show i * 4 + i + 0 + 1 = 5 * i + 1 from by omega]
        rw [Nat.add_mod, Nat.mul_mod, this, ← Nat.mul_mod, ← Nat.add_mod]

theorem probe_le (mask : Nat) (slots : List (Option (Entry V))) (key : UStr) (hash : Nat) {f g i p j : Nat}
    (hfg : f ≤ g) (h : probe mask slots key hash f i p = some j) : probe mask slots key hash g i p = some j := by
  induction hfg with
  | refl => exact h
  | step _ ih => exact probe_more _ _ _ _ _ _ _ _ ih

theorem probe_total {mask k : Nat} (slots : List (Option (Entry V))) (key : UStr) (hash : Nat)
    (hm : mask + 1 = 2 ^ k) (hk : k ≤ 32) (hlen : slots.length = 2 ^ k) (z : Nat) (hz : slots[z]? = some none) :
    ∀ (c i p : Nat), p < 32 ^ c → ∃ j, probe mask slots key hash (c + (mask + 1)) i p = some j := by
  intro c
  induction c with
  | zero =>
    intro i p hp
    have : p = 0 := by simpa using hp
    subst this
    have hz' : z < slots.length := by
      rcases Nat.lt_or_ge z slots.length with h | h
      · exact h
      · rw [List.getElem?_eq_none h] at hz; exact nomatch hz
    obtain ⟨n, hn, he⟩ := iter_reaches k (5 * i + 1) z
    rw [Nat.mod_eq_of_lt (show z < 2 ^ k by omega)] at he
    obtain ⟨j, hj⟩ := probe_zero slots key hash hm hk hlen z hz n i he
    exact ⟨j, probe_le _ _ _ _ (by omega) hj⟩
  | succ c ih =>
    intro i p hp
    rw [show c + 1 + (mask + 1) = (c + (mask + 1)) + 1 from by omega, probe]
    rw [and_mask hm, mod_word hk]
    have hlt : (i * 4 + i + p + 1) % 2 ^ k < slots.length := by
      rw [hlen]; exact Nat.mod_lt _ (Nat.pow_pos (by decide))
    rw [List.getElem?_eq_getElem hlt]
    cases slots[(i * 4 + i + p + 1) % 2 ^ k] with
    | none => exact ⟨_, rfl⟩
    | some e =>
      dsimp only
      split
      · exact ⟨_, rfl⟩
      · apply ih
        rw [Nat.pow_succ] at hp
        have : (2 : Nat) ^ 5 = 32 := by decide
        rw [this]
        omega

/-- A table with an empty slot always has a slot for a key. -/
theorem lookupEntry_total {mask k : Nat} (slots : List (Option (Entry V))) (key : UStr) (hash : Nat)
    (hm : mask + 1 = 2 ^ k) (hk : k ≤ 32) (hlen : slots.length = 2 ^ k) (z : Nat) (hz : slots[z]? = some none) :
    ∃ j, lookupEntry mask slots key hash = some j := by
  rw [lookupEntry]
  have hlt : hash &&& mask < slots.length := by
    rw [hlen, and_mask hm]; exact Nat.mod_lt _ (Nat.pow_pos (by decide))
  rw [List.getElem?_eq_getElem hlt]
  cases slots[hash &&& mask] with
  | none => exact ⟨_, rfl⟩
  | some e =>
    dsimp only
    split
    · exact ⟨_, rfl⟩
    · apply probe_total slots key hash hm hk hlen z hz
      exact Nat.lt_of_lt_of_le (Nat.mod_lt _ (by decide)) (by decide)

end Verif.Parse.Intern
