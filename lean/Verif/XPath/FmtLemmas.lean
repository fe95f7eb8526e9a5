import Verif.XPath.NumLemmas

/-
Lemmas on the `%0.12g` formatting of numbers.
-/
namespace Verif.XPath
open Verif

theorem rlt_of_le_of_lt {a b c : Rat} (h : a ≤ b) (h' : b < c) : a < c := by grind
theorem rlt_of_lt_of_le {a b c : Rat} (h : a < b) (h' : b ≤ c) : a < c := by grind
theorem abs_mul_pos {x y c : Rat} (hy : 0 ≤ y) (h : x.abs ≤ c) : (x * y).abs ≤ c * y := by
  rcases Rat.le_total (a := 0) (b := x) with h0 | h0
  · rw [Rat.abs_of_nonneg h0] at h
    rw [Rat.abs_of_nonneg (Rat.mul_nonneg h0 hy)]
    exact Rat.mul_le_mul_of_nonneg_right h hy
  · rw [Rat.abs_of_nonpos h0] at h
    have e : x * y = -((-x) * y) := by grind
    rw [e, Rat.abs_neg, Rat.abs_of_nonneg (Rat.mul_nonneg (by grind) hy)]
    exact Rat.mul_le_mul_of_nonneg_right h hy

theorem ten_ne : (10 : Rat) ≠ 0 := by decide +kernel
theorem T_pos (k : Int) : (0 : Rat) < (10 : Rat) ^ k := Rat.zpow_pos (by decide +kernel)
theorem T_add (a b : Int) : (10 : Rat) ^ (a + b) = (10 : Rat) ^ a * (10 : Rat) ^ b := Rat.zpow_add ten_ne a b
theorem T_nat (n : Nat) : (10 : Rat) ^ (n : Int) = ((10 ^ n : Nat) : Rat) := by
  rw [Rat.zpow_natCast]; simp

theorem place_lt (s : Str) (h : ∀ c ∈ s, Spec.Digit c) : Spec.place s < 10 ^ s.length := by
  induction s with
  | nil => simp [Spec.place]
  | cons c cs ih =>
    have := ih (fun x hx => h x (by simp [hx]))
    have hc := h c (by simp)
    unfold Spec.Digit at hc
    simp only [Spec.place, List.length_cons, Nat.pow_succ]
    have : (c.toNat - 48) * 10 ^ cs.length ≤ 9 * 10 ^ cs.length := Nat.mul_le_mul_right _ (by omega)
    omega

theorem toNat_inj {c d : Char} (h : c.toNat = d.toNat) : c = d :=
  Char.ext (UInt32.toNat_inj.1 h)

theorem place_ge (c : Char) (cs : Str) (h : Spec.Digit c) (h0 : c ≠ '0') :
    10 ^ cs.length ≤ Spec.place (c :: cs) := by
  unfold Spec.Digit at h
  have : c.toNat ≠ 48 := fun h' => h0 (toNat_inj h')
  simp only [Spec.place]
  have : 1 * 10 ^ cs.length ≤ (c.toNat - 48) * 10 ^ cs.length := Nat.mul_le_mul_right _ (by omega)
  omega

theorem decimal_spec (n : Nat) :
    (∀ c ∈ decimal n, Spec.Digit c) ∧ decimal n ≠ [] ∧ Spec.place (decimal n) = n ∧
      (n ≠ 0 → (decimal n).head? ≠ some '0') := decAux_spec (n + 1) n (by omega)

theorem decimal_len (n : Nat) (hn : 0 < n) :
    10 ^ ((decimal n).length - 1) ≤ n ∧ n < 10 ^ (decimal n).length ∧ 0 < (decimal n).length := by
  obtain ⟨h1, h2, h3, h4⟩ := decimal_spec n
  have h5 := place_lt _ h1
  cases hd : decimal n with
  | nil => exact absurd hd h2
  | cons c cs =>
    rw [hd] at h1 h3 h4 h5
    have := place_ge c cs (h1 c (by simp)) (by have := h4 (by omega); simpa using this)
    rw [h3] at this h5
    exact ⟨by simpa using this, h5, by simp⟩

theorem decimal_len12 (m : Nat) (h1 : 10 ^ 11 ≤ m) (h2 : m < 10 ^ 12) : (decimal m).length = 12 := by
  obtain ⟨a, b, c⟩ := decimal_len m (by omega)
  have l1 : (decimal m).length - 1 < 12 := by
    apply Classical.byContradiction; intro h
    have := Nat.pow_le_pow_right (n := 10) (by omega) (Nat.not_lt.1 h)
    omega
  have l2 : 11 < (decimal m).length := by
    apply Classical.byContradiction; intro h
    have := Nat.pow_le_pow_right (n := 10) (by omega) (Nat.not_lt.1 h)
    omega
  omega

theorem roundHalfEven_spec (x : Rat) (h : 0 ≤ x) :
    (x - (roundHalfEven x : Rat)).abs ≤ 1 / 2 ∧ x.floor ≤ (roundHalfEven x : Int) ∧
      (roundHalfEven x : Int) ≤ x.floor + 1 := by
  have h0 : 0 ≤ x.floor := Rat.le_floor_iff.2 (by simpa using h)
  have h1 := Rat.floor_le x
  have h2 := Rat.lt_floor_add_one x
  simp at h2
  have habs : ∀ y : Rat, y ≤ 1 / 2 → -(1 / 2) ≤ y → y.abs ≤ 1 / 2 := by
    intro y a b
    rcases Rat.le_total (a := 0) (b := y) with h | h
    · rw [Rat.abs_of_nonneg h]; exact a
    · rw [Rat.abs_of_nonpos h]; grind
  have key : ∃ n : Int, 0 ≤ n ∧ roundHalfEven x = n.toNat ∧ x.floor ≤ n ∧ n ≤ x.floor + 1 ∧
      x - n ≤ 1 / 2 ∧ -(1 / 2) ≤ x - n := by
    unfold roundHalfEven
    simp only
    split
    · exact ⟨_, h0, rfl, by omega, by omega, by grind, by grind⟩
    · split
      · refine ⟨_, by omega, rfl, by omega, by omega, ?_, ?_⟩ <;> simp <;> grind
      · split
        · exact ⟨_, h0, rfl, by omega, by omega, by grind, by grind⟩
        · have hhalf : (1 / 2 : Rat) + 1 / 2 = 1 := by decide +kernel
          have hcast : ((x.floor + 1 : Int) : Rat) = (x.floor : Rat) + 1 := by simp
          refine ⟨_, by omega, rfl, by omega, by omega, ?_, ?_⟩ <;> rw [hcast] <;> grind
  obtain ⟨n, k1, k2, k3, k4, k5, k6⟩ := key
  have e : (roundHalfEven x : Int) = n := by rw [k2]; omega
  have e' : (roundHalfEven x : Rat) = (n : Rat) := by rw [← Rat.intCast_natCast, e]
  refine ⟨?_, by omega, by omega⟩
  rw [e']; exact habs _ k5 k6

theorem sig12_exp (q : Rat) (hq : 0 < q) :
    (10 : Rat) ^ (((decimal q.num.natAbs).length : Int) - (decimal q.den).length - 1) ≤ q ∧
    q < (10 : Rat) ^ (((decimal q.num.natAbs).length : Int) - (decimal q.den).length + 1) := by
  have hnum : 0 < q.num := by
    have h1 : 0 ≤ q.num := Rat.num_nonneg.2 (Rat.le_of_lt hq)
    have h2 : q.num ≠ 0 := fun h => by
      rw [Rat.num_eq_zero.1 h] at hq; exact Rat.lt_irrefl hq
    omega
  obtain ⟨a1, a2, a3⟩ := decimal_len q.num.natAbs (by omega)
  obtain ⟨b1, b2, b3⟩ := decimal_len q.den (Nat.pos_of_ne_zero q.den_nz)
  generalize hn : (decimal q.num.natAbs).length = n at *
  generalize hd : (decimal q.den).length = d at *
  have hden : (0 : Rat) < (q.den : Rat) := by
    have := Nat.pos_of_ne_zero q.den_nz
    exact_mod_cast this
  have hmul : q * (q.den : Rat) = ((q.num.natAbs : Nat) : Rat) := by
    have e : ((q.num.natAbs : Nat) : Rat) = (q.num : Rat) := by
      rw [← Rat.intCast_natCast]; congr 1; omega
    have hne : (q.den : Rat) ≠ 0 := fun h => by rw [h] at hden; exact Rat.lt_irrefl hden
    have hdef : (q.num : Rat) / (q.den : Rat) = q := by
      rw [← Rat.intCast_natCast, ← Rat.divInt_eq_div, Rat.num_divInt_den]
    rw [e]
    have h3 := Rat.div_mul_cancel (a := (q.num : Rat)) hne
    rw [hdef] at h3; exact h3
  have c1 : (10 : Rat) ^ ((n : Int) - 1) ≤ q * q.den := by
    rw [hmul, show ((n : Int) - 1) = ((n - 1 : Nat) : Int) by omega, T_nat]; exact_mod_cast a1
  have c2 : q * q.den < (10 : Rat) ^ (n : Int) := by rw [hmul, T_nat]; exact_mod_cast a2
  have c3 : (10 : Rat) ^ ((d : Int) - 1) ≤ q.den := by
    rw [show ((d : Int) - 1) = ((d - 1 : Nat) : Int) by omega, T_nat]; exact_mod_cast b1
  have c4 : (q.den : Rat) < (10 : Rat) ^ (d : Int) := by rw [T_nat]; exact_mod_cast b2
  constructor
  · -- T(n-d-1) * T d = T(n-1) <= q*den <= q * T d
    have e : (10 : Rat) ^ ((n : Int) - d - 1) * (10 : Rat) ^ (d : Int) = (10 : Rat) ^ ((n : Int) - 1) := by
      rw [← T_add]; congr 1; omega
    have f : q * q.den ≤ q * (10 : Rat) ^ (d : Int) := Rat.mul_le_mul_of_nonneg_left (Rat.le_of_lt c4) (Rat.le_of_lt hq)
    have g : (10 : Rat) ^ ((n : Int) - d - 1) * (10 : Rat) ^ (d : Int) ≤ q * (10 : Rat) ^ (d : Int) := by
      rw [e]; exact Rat.le_trans c1 f
    exact Rat.le_of_mul_le_mul_right g (T_pos _)
  · have e : (10 : Rat) ^ ((n : Int) - d + 1) * (10 : Rat) ^ ((d : Int) - 1) = (10 : Rat) ^ (n : Int) := by
      rw [← T_add]; congr 1; omega
    have f : q * (10 : Rat) ^ ((d : Int) - 1) ≤ q * q.den := Rat.mul_le_mul_of_nonneg_left c3 (Rat.le_of_lt hq)
    have g : q * (10 : Rat) ^ ((d : Int) - 1) < (10 : Rat) ^ ((n : Int) - d + 1) * (10 : Rat) ^ ((d : Int) - 1) := by
      rw [e]; exact rlt_of_le_of_lt f c2
    exact Rat.lt_of_mul_lt_mul_right g (Rat.le_of_lt (T_pos _))

/-- What `sig12` computes. -/
theorem sig12_spec (q : Rat) (hq : 0 < q) :
    ∃ k : Int, (10 : Rat) ^ k ≤ q ∧ q < (10 : Rat) ^ (k + 1) ∧
      10 ^ 11 ≤ (sig12 q).1 ∧ (sig12 q).1 < 10 ^ 12 ∧ ((sig12 q).2 = k ∨ ((sig12 q).2 = k + 1 ∧ (sig12 q).1 = 10 ^ 11)) ∧
      (((sig12 q).1 : Rat) * (10 : Rat) ^ ((sig12 q).2 - 11) - q).abs ≤ 1 / 2 * (10 : Rat) ^ (k - 11) := by
  obtain ⟨l, u⟩ := sig12_exp q hq
  generalize he0 : ((decimal q.num.natAbs).length : Int) - (decimal q.den).length = e0 at l u
  obtain ⟨k, hk⟩ : ∃ k, k = if q < (10 : Rat) ^ e0 then e0 - 1 else e0 := ⟨_, rfl⟩
  have h1 : (10 : Rat) ^ k ≤ q := by
    rw [hk]; split
    · exact l
    · rename_i h; exact Rat.not_lt.1 h
  have h2 : q < (10 : Rat) ^ (k + 1) := by
    rw [hk]; split
    · rename_i h; rw [show e0 - 1 + 1 = e0 by omega]; exact h
    · exact u
  obtain ⟨x, hx⟩ : ∃ x, x = q * (10 : Rat) ^ (11 - k) := ⟨_, rfl⟩
  have hx0 : 0 ≤ x := by rw [hx]; exact Rat.mul_nonneg (Rat.le_of_lt hq) (Rat.le_of_lt (T_pos _))
  have hx1 : ((10 ^ 11 : Int) : Rat) ≤ x := by
    have : (10 : Rat) ^ k * (10 : Rat) ^ (11 - k) ≤ x := by
      rw [hx]; exact Rat.mul_le_mul_of_nonneg_right h1 (Rat.le_of_lt (T_pos _))
    rw [← T_add, show k + (11 - k) = 11 by omega] at this
    exact this
  have hx2 : x < ((10 ^ 12 : Int) : Rat) := by
    have : x < (10 : Rat) ^ (k + 1) * (10 : Rat) ^ (11 - k) := by
      rw [hx]; exact Rat.mul_lt_mul_of_pos_right h2 (T_pos _)
    rw [← T_add, show k + 1 + (11 - k) = 12 by omega] at this
    exact this
  obtain ⟨r1, r2, r3⟩ := roundHalfEven_spec x hx0
  have f1 : (10 ^ 11 : Int) ≤ x.floor := Rat.le_floor_iff.2 hx1
  have f2 : x.floor < (10 ^ 12 : Int) := Rat.floor_lt_iff.2 hx2
  -- the error scaled back
  have herr : ((roundHalfEven x : Rat) * (10 : Rat) ^ (k - 11) - q).abs ≤ 1 / 2 * (10 : Rat) ^ (k - 11) := by
    have hq' : q = x * (10 : Rat) ^ (k - 11) := by
      rw [hx, Rat.mul_assoc, ← T_add, show 11 - k + (k - 11) = 0 by omega, Rat.zpow_zero, Rat.mul_one]
    have : (roundHalfEven x : Rat) * (10 : Rat) ^ (k - 11) - q = (-(x - (roundHalfEven x : Rat))) * (10 : Rat) ^ (k - 11) := by
      rw [hq']; grind
    rw [this]
    exact abs_mul_pos (Rat.le_of_lt (T_pos _)) (by rw [Rat.abs_neg]; exact r1)
  have hsig : sig12 q = if roundHalfEven x = 10 ^ 12 then (10 ^ 11, k + 1) else (roundHalfEven x, k) := by
    rw [hx, hk, ← he0]; rfl
  refine ⟨k, h1, h2, ?_⟩
  rw [hsig]
  by_cases hM : roundHalfEven x = 10 ^ 12
  · rw [if_pos hM]
    refine ⟨by simp, by simp, .inr ⟨rfl, rfl⟩, ?_⟩
    have : ((10 ^ 11 : Nat) : Rat) * (10 : Rat) ^ (k + 1 - 11) = (roundHalfEven x : Rat) * (10 : Rat) ^ (k - 11) := by
      rw [hM, show k + 1 - 11 = 1 + (k - 11) by omega, T_add, ← Rat.mul_assoc]
      congr 1
      decide +kernel
    simp only
    rw [this]; exact herr
  · rw [if_neg hM]
    exact ⟨by omega, by omega, .inl rfl, herr⟩

theorem stripZeros_spec (s : Str) :
    ∃ j : Nat, s = stripZeros s ++ List.replicate j '0' ∧ (stripZeros s).getLast? ≠ some '0' := by
  refine ⟨(s.reverse.takeWhile (· = '0')).length, ?_, ?_⟩
  · have h : s.reverse.takeWhile (· = '0') = List.replicate (s.reverse.takeWhile (· = '0')).length '0' := by
      apply List.eq_replicate_of_mem
      intro c hc
      have := List.all_eq_true.1 (List.all_takeWhile (p := (· = '0')) (l := s.reverse)) c hc
      simpa using this
    have h2 := List.takeWhile_append_dropWhile (p := (· = '0')) (l := s.reverse)
    have h3 := congrArg List.reverse h2
    rw [List.reverse_append, List.reverse_reverse] at h3
    conv => lhs; rw [← h3]
    unfold stripZeros
    congr 1
    conv => lhs; rw [h]
    simp
  · unfold stripZeros
    rw [List.getLast?_reverse]
    intro h
    have := dropWhile_head_false _ _ _ h
    simp at this

theorem place_zeros (j : Nat) : Spec.place (List.replicate j '0') = 0 := by
  induction j with
  | zero => rfl
  | succ j ih => simp [List.replicate_succ, Spec.place, ih]

theorem place_zeros_append (j : Nat) (s : Str) : Spec.place (List.replicate j '0' ++ s) = Spec.place s := by
  rw [place_append, place_zeros]; simp

theorem N10_pos (n : Nat) : (0 : Rat) < ((10 ^ n : Nat) : Rat) := by
  rw [← T_nat]; exact T_pos _

/-- Dropping trailing zeros does not change the value of the decimals. -/
theorem frac_stripZeros (s : Str) :
    (Spec.place (stripZeros s) : Rat) / ((10 ^ (stripZeros s).length : Nat) : Rat)
      = (Spec.place s : Rat) / ((10 ^ s.length : Nat) : Rat) := by
  obtain ⟨j, h, -⟩ := stripZeros_spec s
  generalize hz : stripZeros s = z at *
  rw [h, place_append, place_zeros]
  have e1 : ((Spec.place z * 10 ^ (List.replicate j '0').length + 0 : Nat) : Rat)
      = (Spec.place z : Rat) * ((10 ^ j : Nat) : Rat) := by simp
  have e2 : ((10 ^ (z ++ List.replicate j '0').length : Nat) : Rat)
      = ((10 ^ z.length : Nat) : Rat) * ((10 ^ j : Nat) : Rat) := by
    rw [List.length_append, List.length_replicate, Nat.pow_add]; simp
  rw [e1, e2]
  have p1 := N10_pos z.length
  have p2 := N10_pos j
  generalize ((10 ^ z.length : Nat) : Rat) = A at *
  generalize ((10 ^ j : Nat) : Rat) = B at *
  have hA : A ≠ 0 := fun h => by rw [h] at p1; exact Rat.lt_irrefl p1
  have hB : B ≠ 0 := fun h => by rw [h] at p2; exact Rat.lt_irrefl p2
  grind

theorem stripZeros_length (s : Str) : (stripZeros s).length ≤ s.length := by
  obtain ⟨j, h, -⟩ := stripZeros_spec s
  have := congrArg List.length h
  simp at this; omega

theorem stripZeros_mem (s : Str) (c : Char) (h : c ∈ stripZeros s) : c ∈ s := by
  obtain ⟨j, hj, -⟩ := stripZeros_spec s
  rw [hj]; simp [h]

theorem div_eq_T (m : Rat) (n : Nat) : m / ((10 ^ n : Nat) : Rat) = m * (10 : Rat) ^ (-(n : Int)) := by
  rw [Rat.zpow_neg, T_nat, Rat.div_def]

theorem T_mono {a b : Int} (h : (10 : Rat) ^ a < (10 : Rat) ^ b) : a < b := by
  apply Classical.byContradiction
  intro hc
  obtain ⟨n, hn⟩ : ∃ n : Nat, a = b + n := ⟨(a - b).toNat, by omega⟩
  rw [hn, T_add, T_nat] at h
  have h1 : ((1 : Nat) : Rat) ≤ ((10 ^ n : Nat) : Rat) := by
    exact_mod_cast Nat.pow_pos (n := n) (show 0 < 10 by decide)
  have h2 := Rat.mul_le_mul_of_nonneg_left h1 (Rat.le_of_lt (T_pos b))
  simp at h2 h
  grind

/-- `fmtG12` on numbers that are printed in fixed notation. -/
theorem fmtG12_fixed (q : Rat) (h1 : (10 : Rat) ^ (-4 : Int) ≤ q) (h2 : q ≤ (10 : Rat) ^ (12 : Int) - 1) :
    Spec.IsFixed12 q (fmtG12 q) := by
  have hq : 0 < q := rlt_of_lt_of_le (T_pos _) h1
  obtain ⟨k, a1, a2, a3, a4, a5, a6⟩ := sig12_spec q hq
  have hk1 : -4 < k + 1 := T_mono (rlt_of_le_of_lt h1 a2)
  have hk2 : k < 12 := T_mono (rlt_of_le_of_lt a1 (by grind))
  unfold fmtG12
  simp only
  generalize hm : (sig12 q).1 = m at *
  generalize he : (sig12 q).2 = e at *
  have hlt12 : e < 12 := by
    rcases a5 with a5 | ⟨a5, a5'⟩
    · omega
    · apply Classical.byContradiction
      intro hc
      have hk : k = 11 := by omega
      have he12 : e = 12 := by omega
      subst hk
      rw [he12, a5'] at a6
      have b1 : (((10 ^ 11 : Nat) : Rat) * (10 : Rat) ^ ((12 : Int) - 11)) = (10 : Rat) ^ (12 : Int) := by decide +kernel
      have b2 : (1 / 2 * (10 : Rat) ^ ((11 : Int) - 11)) = 1 / 2 := by decide +kernel
      rw [b1, b2, Rat.abs_of_nonneg (by grind)] at a6
      have hhalf : (1 / 2 : Rat) + 1 / 2 = 1 := by decide +kernel
      have hpos : (0 : Rat) < 1 / 2 := by decide +kernel
      grind
  have hge : -4 ≤ e := by omega
  rw [if_neg (by omega)]
  obtain ⟨d1, d2, d3, d4⟩ := decimal_spec m
  have d4 := d4 (by omega)
  have d5 := decimal_len12 m a3 a4
  generalize decimal m = ds at *
  by_cases hneg : e < 0
  · rw [if_pos hneg]
    obtain ⟨n, hn⟩ : ∃ n : Nat, e = -((n : Int) + 1) := ⟨(-e).toNat - 1, by omega⟩
    have hnat : e.natAbs - 1 = n := by omega
    rw [hnat]
    have hne : stripZeros ds ≠ [] := by
      intro h
      obtain ⟨j, hj, -⟩ := stripZeros_spec ds
      rw [h] at hj
      have : Spec.place ds = 0 := by rw [hj]; exact place_zeros j
      omega
    refine ⟨['0'], List.replicate n '0' ++ stripZeros ds, k, ?_, ?_, by simp, by simp, ?_, ?_, a1, a2, ?_, ?_⟩
    · intro c hc; simp at hc; subst hc; unfold Spec.Digit; decide
    · intro c hc
      simp at hc
      rcases hc with hc | hc
      · rw [hc.2]; unfold Spec.Digit; decide
      · exact d1 c (stripZeros_mem ds c hc)
    · obtain ⟨j, -, hj⟩ := stripZeros_spec ds
      rw [List.getLast?_append]
      cases hl : (stripZeros ds).getLast? with
      | none => exact absurd (List.getLast?_eq_none_iff.1 hl) hne
      | some x => rw [hl] at hj; simpa using hj
    · simp [hne]
    · have := stripZeros_length ds
      simp only [List.length_append, List.length_replicate]
      omega
    · have e1 : (Spec.place (['0'] : Str) : Rat) = 0 := by decide +kernel
      have e2 : (Spec.place (List.replicate n '0' ++ stripZeros ds) : Rat) /
          ((10 ^ (List.replicate n '0' ++ stripZeros ds).length : Nat) : Rat) = (m : Rat) * (10 : Rat) ^ (e - 11) := by
        rw [place_zeros_append, List.length_append, List.length_replicate, Nat.pow_add]
        have hfs := frac_stripZeros ds
        rw [d3, d5, div_eq_T (m : Rat)] at hfs
        have e3 : (((10 ^ n * 10 ^ (stripZeros ds).length : Nat)) : Rat) = ((10 ^ n : Nat) : Rat) * ((10 ^ (stripZeros ds).length : Nat) : Rat) := by simp
        rw [e3, Rat.div_def, Rat.inv_mul_rev, ← Rat.mul_assoc, ← Rat.div_def (Spec.place (stripZeros ds) : Rat), hfs,
          ← Rat.div_def, div_eq_T, Rat.mul_assoc, ← T_add]
        congr 2
        omega
      rw [e1, e2, Rat.zero_add]; exact a6
  · rw [if_neg hneg]
    obtain ⟨n, hn⟩ : ∃ n : Nat, e = (n : Int) := ⟨e.toNat, by omega⟩
    have hnat : e.toNat = n := by omega
    rw [hnat]
    obtain ⟨j, -, hj⟩ := stripZeros_spec (ds.drop (n + 1))
    refine ⟨ds.take (n + 1), stripZeros (ds.drop (n + 1)), k, fun c hc => d1 c (List.mem_of_mem_take hc),
      fun c hc => d1 c (List.mem_of_mem_drop (stripZeros_mem _ c hc)), ?_, ?_, hj, rfl, a1, a2, ?_, ?_⟩
    · intro h
      have := congrArg List.length h
      simp [d5] at this
    · intro h
      exfalso; apply d4
      cases ds with
      | nil => simp at d5
      | cons a l => simpa using h
    · have := stripZeros_length (ds.drop (n + 1))
      rw [List.length_drop, d5] at this
      omega
    · have e2 : ((Spec.place (ds.take (n + 1)) : Rat) + (Spec.place (stripZeros (ds.drop (n + 1))) : Rat) /
          ((10 ^ (stripZeros (ds.drop (n + 1))).length : Nat) : Rat)) = (m : Rat) * (10 : Rat) ^ (e - 11) := by
        rw [frac_stripZeros]
        have hp := place_append (ds.take (n + 1)) (ds.drop (n + 1))
        rw [List.take_append_drop, d3] at hp
        have hl : (ds.drop (n + 1)).length = 11 - n := by rw [List.length_drop, d5]; omega
        rw [hl] at hp ⊢
        rw [show e - 11 = -((11 - n : Nat) : Int) by omega, ← div_eq_T, hp]
        have p := N10_pos (11 - n)
        simp only [Rat.natCast_add, Rat.natCast_mul]
        generalize ((10 ^ (11 - n) : Nat) : Rat) = A at *
        have hA : A ≠ 0 := fun h => by rw [h] at p; exact Rat.lt_irrefl p
        grind
      rw [e2]; exact a6

end Verif.XPath
