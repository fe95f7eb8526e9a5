import Verif.XPath.FmtLemmas

/-
C29 number parsing and formatting, C30 round(), floor(), ceiling() and mod.
-/
namespace Verif.XPath
open Verif

/-- Exact arithmetic is a rounding function, so the theorems are not about an empty class. -/
def exactR : Rounding := ⟨Dbl.fin, fun _ _ => rfl, fun _ h => by cases h⟩

/-! ### C29 -/

theorem isNumber_iff (p : Parts) (h : p.OK) (q : Rat) :
    Spec.IsNumber p.str q ↔ p.rest = [] ∧ (p.ip ≠ [] ∨ p.fp ≠ []) ∧
      q = (if p.neg then -1 else 1) *
        (Spec.place p.ip + (Spec.place p.fp : Rat) / ((10 ^ p.fp.length : Nat) : Rat)) := by
  constructor
  · rintro ⟨w1, w2, ip, fp, neg, dot, h1, h2, h3, h4, h5, h6, h7, h8⟩
    let p' : Parts := ⟨w1, neg, ip, dot, fp, w2, []⟩
    have hp' : p'.OK := by
      refine ⟨fun c hc => isWs_iff.2 (h1 c hc), fun c hc => isDigit_iff.2 (h3 c hc),
        fun c hc => isDigit_iff.2 (h4 c hc), fun c hc => isWs_iff.2 (h2 c hc), h6, by simp [p'], by simp [p'],
        by simp [p'], ?_⟩
      intro _ hi hd
      simp only [p'] at hi hd
      rcases h5 with h5 | h5
      · exact absurd hi h5
      · exact absurd (h6 hd) h5
    have hs : p'.str = p.str := by rw [h7]; simp [Parts.str, p']
    obtain ⟨b, a1, a2, a3, a4⟩ := scan_frac p h
    obtain ⟨b', c1, c2, c3, c4⟩ := scan_frac p' hp'
    rw [hs, a1] at c1
    simp only [Prod.mk.injEq] at c1
    obtain ⟨e1, e2⟩ := c1
    subst e2
    rw [a2] at c2
    rw [a3] at c3
    simp only [Prod.mk.injEq] at c3
    obtain ⟨e3, e4⟩ := c3
    rw [e4, c4] at a4
    refine ⟨a4.symm, by rw [c2, e3]; exact h5, ?_⟩
    rw [h8, e1, c2, e3]
  · rintro ⟨h1, h2, h3⟩
    refine ⟨p.w1, p.w2, p.ip, p.fp, p.neg, p.dot, fun c hc => isWs_iff.1 (h.w1 c hc),
      fun c hc => isWs_iff.1 (h.w2 c hc), fun c hc => isDigit_iff.1 (h.ip c hc),
      fun c hc => isDigit_iff.1 (h.fp c hc), h2, h.nodot, ?_, h3⟩
    simp [Parts.str, h1]

/-- A string that matches the XPath Number grammar, with optional white space and minus sign, is
converted to the double closest to its value. -/
theorem C29_parse_number (R : Rounding) (s : Str) (q : Rat) (hq : Spec.IsNumber s q) :
    numberOfString R s = .ok (mkNumber (R.rnd q)) := by
  obtain ⟨p, hp, rfl⟩ := exists_parts s
  obtain ⟨h1, h2, h3⟩ := (isNumber_iff p hp q).1 hq
  unfold numberOfString
  simp only
  have hlen : ¬ (p.rest.length = p.str.length) := by
    rw [str_length]
    rintro ⟨-, -, h5, h6, -⟩
    rcases h2 with h2 | h2
    · exact h2 h5
    · exact h2 (hp.nodot h6)
  rw [scanNumber_parts p hp, if_neg (by rw [h1] at hlen ⊢; simp at hlen ⊢; omega), pyFloat_parts R p hp, if_neg (by simp [h1]),
    if_neg (by rintro ⟨h5, h6⟩; rcases h2 with h2 | h2 <;> contradiction)]
  simp only
  congr 3
  rw [h3, digitsVal_eq, digitsVal_eq, Rat.mkRat_eq_div, Rat.intCast_natCast]
  cases p.neg <;> simp <;> grind

example : Spec.IsNumber (s!! " -12.50\n") (-(25 / 2)) ∧
    numberOfString exactR (s!! " -12.50\n") = .ok (.obj (.fin (-(25 / 2)))) := by
  refine ⟨⟨s!! " ", s!! "\n", s!! "12", s!! "50", true, true, ?_⟩, by decide +kernel⟩
  refine ⟨?_, ?_, ?_, ?_, by decide, by decide, by decide, by decide +kernel⟩
  all_goals intro c hc; simp at hc; first
    | (subst hc; unfold Spec.Space; decide)
    | (rcases hc with h | h <;> subst h <;> unfold Spec.Digit <;> decide)

theorem digitless_iff (p : Parts) (h : p.OK) :
    Spec.Digitless p.str ↔ p.rest = [] ∧ p.ip = [] ∧ p.fp = [] ∧ p.str ≠ [] := by
  constructor
  · rintro ⟨hne, w1, w2, neg, dot, h1, h2, h7⟩
    -- a string of white space only is all in `w1`
    have key : ∃ w1' w2' : Str, (∀ c ∈ w1', isWs c = true) ∧ (∀ c ∈ w2', isWs c = true) ∧
        (neg = false → dot = false → w2' = []) ∧
        p.str = w1' ++ ((if neg then ['-'] else []) ++ ([] ++ ((if dot then '.' :: [] else []) ++ (w2' ++ [])))) := by
      cases neg with
      | true =>
        exact ⟨w1, w2, fun c hc => isWs_iff.2 (h1 c hc), fun c hc => isWs_iff.2 (h2 c hc), by simp, by rw [h7]; simp⟩
      | false =>
        cases dot with
        | true =>
          exact ⟨w1, w2, fun c hc => isWs_iff.2 (h1 c hc), fun c hc => isWs_iff.2 (h2 c hc), by simp, by rw [h7]; simp⟩
        | false =>
          refine ⟨w1 ++ w2, [], ?_, by simp, by simp, by rw [h7]; simp⟩
          intro c hc
          simp at hc
          rcases hc with hc | hc
          · exact isWs_iff.2 (h1 c hc)
          · exact isWs_iff.2 (h2 c hc)
    obtain ⟨w1', w2', k1, k2, k3, k4⟩ := key
    let p' : Parts := ⟨w1', neg, [], dot, [], w2', []⟩
    have hp' : p'.OK := ⟨k1, by simp [p'], by simp [p'], k2, by simp [p'], by simp [p'], by simp [p'],
      by simp [p'], fun a _ b => k3 a b⟩
    have hs : p'.str = p.str := k4.symm
    obtain ⟨b, a1, a2, a3, a4⟩ := scan_frac p h
    obtain ⟨b', c1, c2, c3, c4⟩ := scan_frac p' hp'
    rw [hs, a1] at c1
    simp only [Prod.mk.injEq] at c1
    obtain ⟨e1, e2⟩ := c1
    subst e2
    rw [a2] at c2
    rw [a3] at c3
    simp only [Prod.mk.injEq] at c3
    obtain ⟨e3, e4⟩ := c3
    rw [e4, c4] at a4
    exact ⟨a4.symm, c2, e3, hne⟩
  · rintro ⟨h1, h2, h3, h4⟩
    refine ⟨h4, p.w1, p.w2, p.neg, p.dot, fun c hc => isWs_iff.1 (h.w1 c hc),
      fun c hc => isWs_iff.1 (h.w2 c hc), ?_⟩
    simp [Parts.str, h1, h2, h3]

/-- A string (without NUL characters, which XML excludes) that does not match the grammar is
converted to NaN, unless it is one of the strings of `Spec.Digitless`, for which see
`C29_digitless` and `C29_refuted`. -/
theorem C29_parse_nan_partial (R : Rounding) (s : Str) (h0 : '\x00' ∉ s)
    (hn : ¬ ∃ q, Spec.IsNumber s q) (hd : ¬ Spec.Digitless s) :
    numberOfString R s = .ok .sNaN := by
  obtain ⟨p, hp, rfl⟩ := exists_parts s
  unfold numberOfString
  simp only
  rw [scanNumber_parts p hp, if_pos]
  cases hr : p.rest with
  | cons c cs =>
    left
    have : c ≠ '\x00' := by
      intro hc
      apply h0
      unfold Parts.str
      rw [hr, hc]; simp
    simpa using this
  | nil =>
    right
    by_cases hdig : p.ip ≠ [] ∨ p.fp ≠ []
    · exact absurd ⟨_, (isNumber_iff p hp _).2 ⟨hr, hdig, rfl⟩⟩ hn
    · have hi : p.ip = [] := by by_cases h : p.ip = []; exact h; exact absurd (.inl h) hdig
      have hf : p.fp = [] := by by_cases h : p.fp = []; exact h; exact absurd (.inr h) hdig
      by_cases hne : p.str = []
      · rw [hne]
      · exact absurd ((digitless_iff p hp).2 ⟨hr, hi, hf, hne⟩) hd

example : numberOfString exactR (s!! "1e3") = .ok .sNaN ∧ numberOfString exactR [] = .ok .sNaN := by decide +kernel

/-- The exception: exactly on a string of white space, minus sign and point without any digit the
conversion raises ValueError instead of returning NaN. -/
theorem C29_digitless (R : Rounding) (s : Str) (h0 : '\x00' ∉ s) :
    numberOfString R s = .error .valueError ↔ Spec.Digitless s := by
  constructor
  · intro h
    apply Classical.byContradiction
    intro hd
    by_cases hn : ∃ q, Spec.IsNumber s q
    · obtain ⟨q, hq⟩ := hn
      rw [C29_parse_number R s q hq] at h; cases h
    · rw [C29_parse_nan_partial R s h0 hn hd] at h; cases h
  · intro hd
    obtain ⟨p, hp, rfl⟩ := exists_parts s
    obtain ⟨h1, h2, h3, h4⟩ := (digitless_iff p hp).1 hd
    unfold numberOfString
    simp only
    rw [scanNumber_parts p hp, if_neg, pyFloat_parts R p hp, if_neg (by simp [h1]), if_pos ⟨h2, h3⟩]
    rw [h1]
    simp only [List.head?_nil, Option.any_none, Bool.false_eq_true, List.length_nil, false_or]
    intro h5
    exact h4 (List.eq_nil_of_length_eq_zero h5.symm)

example : Spec.Digitless (s!! " - ") := by
  refine ⟨by decide, s!! " ", s!! " ", true, false, ?_, ?_, by decide⟩ <;>
    (intro c hc; simp at hc; subst hc; unfold Spec.Space; decide)

/-- `string()` of an integral number is its decimal representation, with a minus sign if it is
negative and without leading zeros. -/
theorem C29_string_integer (n : Int) :
    ∃ t, stringOfNumber (.obj (.fin n)) = .ok t ∧ Spec.IsDecimal n t := by
  refine ⟨decimalInt n, ?_, decimalInt_isDecimal n⟩
  simp [stringOfNumber, Rat.floor_intCast]

example : stringOfNumber (.obj (.fin (-1200 : Int))) = .ok (s!! "-1200") := by decide +kernel

/-- `number(string(n)) = n` for every integer `n` that is a double (which includes all with
`|n| <= 2^53`, see `isDouble_int`). -/
theorem C29_round_trip (R : Rounding) (n : Int) (hn : IsDouble n) :
    ∃ t, stringOfNumber (.obj (.fin n)) = .ok t ∧ numberOfString R t = .ok (.obj (.fin n)) := by
  obtain ⟨t, h1, ds, h2, h3, -, h5, h6⟩ := C29_string_integer n
  refine ⟨t, h1, ?_⟩
  have hnum : Spec.IsNumber t n := by
    refine ⟨[], [], ds, [], decide (n < 0), false, by simp, by simp, h2, by simp, .inl h3, by simp, ?_, ?_⟩
    · rw [h6]; by_cases hneg : n < 0 <;> simp [hneg]
    · rw [h5]
      have e : (Spec.place ([] : Str) : Rat) / ((10 ^ ([] : Str).length : Nat) : Rat) = 0 := by decide +kernel
      rw [e, Rat.add_zero, ← Rat.intCast_natCast]
      by_cases hneg : n < 0
      · simp only [hneg, decide_true, if_true]
        have : (n.natAbs : Int) = -n := by omega
        rw [this, Rat.intCast_neg]; grind
      · simp only [hneg, decide_false, Bool.false_eq_true, if_false]
        have : (n.natAbs : Int) = n := by omega
        rw [this]; grind
  rw [C29_parse_number R t n hnum, R.exact _ hn]
  simp [mkNumber]

/-- All integers of magnitude at most 2^53 are doubles. -/
theorem isDouble_int (n : Int) (h1 : -(2 ^ 53) ≤ n) (h2 : n ≤ 2 ^ 53) : IsDouble n :=
  ⟨n, 0, h1, h2, by decide, by decide, by simp⟩

example : IsDouble (12345 : Int) ∧ numberOfString exactR (s!! "12345") = .ok (.obj (.fin (12345 : Int))) :=
  ⟨isDouble_int _ (by decide) (by decide), by decide +kernel⟩

/-- `string()` of a number that is not an integer, between 1e-4 and 1e12 in magnitude, is in decimal
notation with at most 12 significant digits, correctly rounded (XPath asks for as many digits as are
needed to tell the number apart from all others: see `C29_digits_refuted`). -/
theorem C29_string_fraction_partial (q : Rat) (hq : (q.floor : Rat) ≠ q)
    (h1 : (10 : Rat) ^ (-4 : Int) ≤ q.abs) (h2 : q.abs ≤ (10 : Rat) ^ (12 : Int) - 1) :
    ∃ t, Spec.IsFixed12 q.abs t ∧
      stringOfNumber (.obj (.fin q)) = .ok (if q < 0 then '-' :: t else t) := by
  refine ⟨fmtG12 q.abs, fmtG12_fixed _ h1 h2, ?_⟩
  simp only [stringOfNumber]
  rw [if_neg hq]
  by_cases h : q < 0
  · rw [if_pos h, if_pos h, Rat.abs_of_nonpos (Rat.le_of_lt h)]
  · rw [if_neg h, if_neg h, Rat.abs_of_nonneg (Rat.not_lt.1 h)]

example : (10 : Rat) ^ (-4 : Int) ≤ (mkRat (-5) 400).abs ∧ (mkRat (-5) 400).abs ≤ (10 : Rat) ^ (12 : Int) - 1 ∧
    stringOfNumber (.obj (.fin (mkRat (-5) 400))) = .ok (s!! "-0.0125") := by decide +kernel

/-- Two different numbers have the same string: 1 + 2^-50 is written as `1`; and 2^-20 is written
with an exponent, which is not a number of the XPath grammar. -/
theorem C29_digits_refuted :
    (IsDouble (1 + 1 / 2 ^ 50) ∧ stringOfNumber (.obj (.fin (1 + 1 / 2 ^ 50))) = .ok (s!! "1")) ∧
    (IsDouble (1 / 2 ^ 20) ∧ stringOfNumber (.obj (.fin (1 / 2 ^ 20))) = .ok (s!! "9.53674316406e-07") ∧
      ¬ ∃ q, Spec.IsNumber (s!! "9.53674316406e-07") q) := by
  refine ⟨⟨⟨2 ^ 50 + 1, -50, by decide, by decide, by decide, by decide, by decide +kernel⟩, by decide +kernel⟩,
    ⟨1, -20, by decide, by decide, by decide, by decide, by decide +kernel⟩, by decide +kernel, ?_⟩
  rintro ⟨q, hq⟩
  have h := C29_parse_number exactR _ q hq
  have h2 : numberOfString exactR (s!! "9.53674316406e-07") = .ok .sNaN := by decide +kernel
  rw [h2] at h
  simp [mkNumber] at h

/-- `number("-")` raises an exception instead of returning NaN; the NaN computed by
`number("x") + 1` is written as `nan`, not `NaN`; and `string(1 div 0 + 1)` raises an exception
instead of returning `Infinity`. -/
theorem C29_refuted (R : Rounding) :
    ((¬ ∃ q, Spec.IsNumber (s!! "-") q) ∧ numberOfString R (s!! "-") = .error .valueError) ∧
    (numberOfString R (s!! "x") = .ok .sNaN ∧
      stringOfNumber (numberAdd R .sNaN (.obj (.fin 1))) = .ok (s!! "nan")) ∧
    (numberDiv R (.obj (.fin 1)) (.obj (.fin 0)) = .sPos ∧
      stringOfNumber (numberAdd R .sPos (.obj (.fin 1))) = .error .overflowError) := by
  refine ⟨?_, ?_, ?_⟩
  · have hd : numberOfString R (s!! "-") = .error .valueError := by
      rw [C29_digitless R _ (by decide)]
      exact ⟨by decide, [], [], true, false, by simp, by simp, rfl⟩
    refine ⟨?_, hd⟩
    rintro ⟨q, hq⟩
    rw [C29_parse_number R _ q hq] at hd
    cases hd
  · exact ⟨by rfl, by rfl⟩
  · exact ⟨by rfl, by rfl⟩

/-! ### C30 -/

theorem eq_zero_iff (d : Dbl) : d.eq (.fin 0) = true ↔ d.toRat? = some 0 := by
  cases d <;> simp [Dbl.eq, Dbl.toRat?]

theorem isNormal_iff (v : XNum) : isNormal v = true ↔ ∃ q, v.val.toRat? = some q ∧ q ≠ 0 := by
  unfold isNormal Dbl.isFinite
  have h := eq_zero_iff v.val
  cases hq : v.val.toRat? with
  | none => simp
  | some q =>
    rw [hq] at h
    simp at h ⊢
    cases he : v.val.eq (.fin 0) <;> simp_all

/-- `floor(x)` is the greatest integer that is not greater than `x`; NaN and the infinities are
returned unchanged. -/
theorem C30_floor (v : XNum) :
    (∀ q, v.val.toRat? = some q → ∃ n : Int, (floorFn v).val.toRat? = some (n : Rat) ∧ (n : Rat) ≤ q ∧
      ∀ m : Int, (m : Rat) ≤ q → m ≤ n) ∧
    (v.val.toRat? = none → floorFn v = v) := by
  constructor
  · intro q hq
    refine ⟨q.floor, ?_, Rat.floor_le q, fun m hm => Rat.le_floor_iff.2 hm⟩
    unfold floorFn
    by_cases hn : isNormal v = true
    · rw [if_pos hn, hq]; simp [mkNumber, XNum.val, Dbl.toRat?]
    · rw [if_neg hn, hq]
      have : q = 0 := Classical.byContradiction fun h => hn ((isNormal_iff v).2 ⟨q, hq, h⟩)
      subst this; decide +kernel
  · intro hq
    unfold floorFn
    rw [hq]; simp

example : (floorFn (.obj (.fin (mkRat (-7) 2)))) = .obj (.fin (-4)) := by decide +kernel

/-- `ceiling(x)` is the least integer that is not less than `x`; NaN and the infinities are
returned unchanged. -/
theorem C30_ceiling (v : XNum) :
    (∀ q, v.val.toRat? = some q → ∃ n : Int, (ceilingFn v).val.toRat? = some (n : Rat) ∧ q ≤ (n : Rat) ∧
      ∀ m : Int, q ≤ (m : Rat) → n ≤ m) ∧
    (v.val.toRat? = none → ceilingFn v = v) := by
  constructor
  · intro q hq
    refine ⟨q.ceil, ?_, Rat.le_ceil, fun m hm => Rat.ceil_le_iff.2 hm⟩
    unfold ceilingFn
    by_cases hn : isNormal v = true
    · rw [if_pos hn, hq]; simp [mkNumber, XNum.val, Dbl.toRat?]
    · rw [if_neg hn, hq]
      have : q = 0 := Classical.byContradiction fun h => hn ((isNormal_iff v).2 ⟨q, hq, h⟩)
      subst this; decide +kernel
  · intro hq
    unfold ceilingFn
    rw [hq]; simp

example : (ceilingFn (.obj (.fin (mkRat (-7) 2)))) = .obj (.fin (-3)) := by decide +kernel

theorem abs_lt_of {x y : Rat} (h1 : -y < x) (h2 : x < y) : x.abs < y := by
  rcases Rat.le_total (a := 0) (b := x) with h | h
  · rw [Rat.abs_of_nonneg h]; exact h2
  · rw [Rat.abs_of_nonpos h]; grind

theorem le_abs_self' (x : Rat) : x ≤ x.abs ∧ -x ≤ x.abs := by
  rcases Rat.le_total (a := 0) (b := x) with h | h
  · rw [Rat.abs_of_nonneg h]; grind
  · rw [Rat.abs_of_nonpos h]; grind

/-- The integer closest to `q`, ties up, is the one in `(q - 1/2, q + 1/2]`. -/
theorem closestUp_of {q : Rat} {n : Int} (h1 : q - 1 / 2 < n) (h2 : (n : Rat) ≤ q + 1 / 2) :
    Spec.ClosestUp q n := by
  have key : ∀ m : Int, m ≠ n → (q - n).abs < (q - m).abs ∨ ((q - n).abs = (q - m).abs ∧ m < n) := by
    intro m hm
    have hle : (q - n).abs ≤ 1 / 2 := by
      rcases Rat.le_total (a := 0) (b := q - n) with h | h
      · rw [Rat.abs_of_nonneg h]; grind
      · rw [Rat.abs_of_nonpos h]; grind
    obtain ⟨a1, a2⟩ := le_abs_self' (q - m)
    rcases Int.lt_or_gt_of_ne hm with hlt | hgt
    · have h3 : ((m + 1 : Int) : Rat) ≤ (n : Rat) := Rat.intCast_le_intCast.2 hlt
      simp at h3
      by_cases heq : (q - n).abs = (q - m).abs
      · exact .inr ⟨heq, hlt⟩
      · left
        apply Rat.lt_of_le_of_ne _ heq
        grind
    · have h3 : ((n + 1 : Int) : Rat) ≤ (m : Rat) := Rat.intCast_le_intCast.2 hgt
      simp at h3
      left
      grind
  constructor
  · intro m
    by_cases hm : m = n
    · rw [hm]; exact Rat.le_refl
    · rcases key m hm with h | h
      · exact Rat.le_of_lt h
      · rw [h.1]; exact Rat.le_refl
  · intro m heq
    by_cases hm : m = n
    · omega
    · rcases key m hm with h | h
      · rw [heq] at h; exact absurd h Rat.lt_irrefl
      · omega

theorem fmodQ_one_nonneg {q : Rat} (h : 0 ≤ q) : fmodQ q 1 = q - q.floor := by
  unfold fmodQ
  have e : q / 1 = q := by grind
  simp only [e]
  rw [if_neg (Rat.not_lt.2 h)]; grind

theorem fmodQ_one_neg {q : Rat} (h : q < 0) : fmodQ q 1 = q - q.ceil := by
  unfold fmodQ
  have e : q / 1 = q := by grind
  simp only [e]
  rw [if_pos h]; grind

/-- The fractional part of a negative double below -1/2 is a double. -/
theorem isDouble_frac {q : Rat} (hq : IsDouble q) (h1 : q < -(1 / 2)) (h2 : q - q.floor < 1 / 2) :
    IsDouble (q - q.floor) := by
  obtain ⟨m, e, hm1, hm2, he1, he2, rfl⟩ := hq
  by_cases he : 0 ≤ e
  · -- an integer
    have : (m : Rat) * (2 : Rat) ^ e = ((m * 2 ^ e.toNat : Int) : Rat) := by
      obtain ⟨k, rfl⟩ : ∃ k : Nat, e = (k : Int) := ⟨e.toNat, by omega⟩
      rw [Rat.zpow_natCast]
      simp
    rw [this, Rat.floor_intCast]
    exact ⟨0, 0, by decide, by decide, by decide, by decide, by grind⟩
  · obtain ⟨k, hk⟩ : ∃ k : Nat, e = -(k : Int) := ⟨(-e).toNat, by omega⟩
    subst hk
    have hp : (0 : Rat) < (2 : Rat) ^ k := Rat.pow_pos (by decide +kernel)
    have hz : (2 : Rat) ^ (-(k : Int)) = ((2 : Rat) ^ k)⁻¹ := by rw [Rat.zpow_neg, Rat.zpow_natCast]
    have hne : (2 : Rat) ^ k ≠ 0 := fun h => by rw [h] at hp; exact Rat.lt_irrefl hp
    obtain ⟨x, hx⟩ : ∃ x : Rat, x = (m : Rat) * (2 : Rat) ^ (-(k : Int)) := ⟨_, rfl⟩
    rw [← hx] at h1 h2 ⊢
    have hxm : x * (2 : Rat) ^ k = m := by
      rw [hx, hz, Rat.mul_assoc, Rat.inv_mul_cancel _ hne, Rat.mul_one]
    obtain ⟨m', hm'⟩ : ∃ m' : Int, m' = m - x.floor * 2 ^ k := ⟨_, rfl⟩
    have hfrac : (m' : Rat) = (x - x.floor) * (2 : Rat) ^ k := by
      rw [hm', Rat.intCast_sub, Rat.intCast_mul, Rat.intCast_pow]
      have e2 : ((2 : Int) : Rat) = 2 := rfl
      rw [e2, ← hxm]; grind
    have hfr0 : 0 ≤ x - x.floor := by have := Rat.floor_le x; grind
    have hm0 : 0 ≤ m' := by
      apply Rat.intCast_nonneg.1
      rw [hfrac]; exact Rat.mul_nonneg hfr0 (Rat.le_of_lt hp)
    -- m' < 2^k / 2 < |m| <= 2^53
    have hlt : (m' : Rat) < ((-m : Int) : Rat) := by
      have a : (x - x.floor) * (2 : Rat) ^ k < (-x) * (2 : Rat) ^ k :=
        Rat.mul_lt_mul_of_pos_right (by grind) hp
      rw [Rat.intCast_neg, ← hxm, hfrac]
      grind
    have hlt' := Rat.intCast_lt_intCast.1 hlt
    refine ⟨m', -(k : Int), by omega, by omega, he1, he2, ?_⟩
    rw [hfrac, hz, Rat.mul_assoc, Rat.mul_inv_cancel _ hne, Rat.mul_one]

theorem isDouble_half : IsDouble (1 / 2) := ⟨1, -1, by decide, by decide, by decide, by decide, by decide +kernel⟩

/-- `round(x)` is the integer closest to `x`, ties towards positive infinity, for every double whose
fractional part is at most 1/2; for the others see `C30_refuted`. -/
theorem C30_round_partial (R : Rounding) (v : XNum) (q : Rat) (hq : v.val.toRat? = some q)
    (hd : IsDouble q) (hfrac : q - q.floor ≤ 1 / 2) :
    ∃ n : Int, (roundFn R v).val.toRat? = some (n : Rat) ∧ Spec.ClosestUp q n := by
  have hfl := Rat.floor_le q
  have hfl1 := Rat.lt_floor_add_one q
  simp at hfl1
  unfold roundFn
  by_cases hn : isNormal v = true
  · rw [if_pos hn, hq]
    simp only
    -- what `arg % 1.0` is
    have hone : ¬ ((XNum.obj (.fin 1)).val.eq (.fin 0) = true) := by decide +kernel
    have hmodeq : (numberRem R v (.obj (.fin 1))).val.eq (.fin (1 / 2)) = decide (q - q.floor = 1 / 2) := by
      unfold numberRem
      rw [if_neg hone]
      have hm : fmodD v.val (XNum.obj (.fin 1)).val = .fin (fmodQ q 1) := by
        have hv : v.val = .nzero ∧ q = 0 ∨ v.val = .fin q := by
          cases h : v.val <;> rw [h] at hq <;> simp_all [Dbl.toRat?]
        rcases hv with ⟨hv, h0⟩ | hv
        · rw [hv, h0]; decide +kernel
        · rw [hv]; simp [fmodD, XNum.val, Dbl.toRat?]
      have hb : (XNum.obj (.fin 1)).val.lt (.fin 0) = false := by decide +kernel
      unfold pyMod
      simp only
      rw [hm, hb]
      have hz : ((Dbl.fin (fmodQ q 1)).eq (.fin 0)) = decide (fmodQ q 1 = 0) := by simp [Dbl.eq, Dbl.toRat?]
      have hl : ((Dbl.fin (fmodQ q 1)).lt (.fin 0)) = decide (fmodQ q 1 < 0) := by simp [Dbl.lt, Dbl.toRat?]
      rw [hz, hl]
      rcases Rat.le_total (a := 0) (b := q) with h0 | h0
      · rw [fmodQ_one_nonneg h0]
        have : ¬ (q - q.floor < 0) := by grind
        simp [this, mkNumber, XNum.val, Dbl.eq, Dbl.toRat?]
      · have hqne : q ≠ 0 := by
          obtain ⟨q', h1, h2⟩ := (isNormal_iff v).1 hn
          rw [hq] at h1; cases h1; exact h2
        have hneg : q < 0 := Rat.lt_of_le_of_ne h0 hqne
        rw [fmodQ_one_neg hneg]
        by_cases hint : (q.floor : Rat) = q
        · -- an integer
          have hc : q.ceil = q.floor := by rw [← hint, Rat.ceil_intCast, Rat.floor_intCast]
          have e1 : q - q.ceil = 0 := by rw [hc]; grind
          have e2 : q - q.floor = 0 := by grind
          rw [e1, e2]
          have e3 : (decide ((0 : Rat) = 0)) = true := rfl
          rw [e3, if_pos rfl]
          decide +kernel
        · have hc : q.ceil = q.floor + 1 := by
            have hc1 : q.ceil ≤ q.floor + 1 := Rat.ceil_le_iff.2 (by simp; grind)
            have hc2 : q.floor < q.ceil := Rat.lt_ceil_iff.2 (Rat.lt_of_le_of_ne hfl hint)
            omega
          have e1 : q - (q.ceil : Rat) = q - q.floor - 1 := by rw [hc]; simp; grind
          have hnz : ¬ (q - (q.ceil : Rat) = 0) := by rw [e1]; grind
          have hl0 : q - (q.ceil : Rat) < 0 := by rw [e1]; grind
          simp only [hnz, decide_false, Bool.false_eq_true, if_false, hl0, decide_true]
          have hone' : (XNum.obj (.fin 1)).val = .fin 1 := rfl
          rw [hone']
          simp only [addD]
          have e3 : q - (q.ceil : Rat) + 1 = q - q.floor := by rw [e1]; grind
          rw [e3]
          have hex : R.rnd (q - q.floor) = .fin (q - q.floor) := by
            apply R.exact
            by_cases hh : q - q.floor = 1 / 2
            · rw [hh]; exact isDouble_half
            · apply isDouble_frac hd _ (Rat.lt_of_le_of_ne hfrac hh)
              have : q.floor ≤ -1 := by
                have : q.floor < 0 := Rat.floor_lt_iff.2 (by simpa using hneg)
                omega
              have h3 : (q.floor : Rat) ≤ ((-1 : Int) : Rat) := Rat.intCast_le_intCast.2 this
              have h4 : ((-1 : Int) : Rat) = -1 := rfl
              have h5 := Rat.lt_of_le_of_ne hfrac hh
              grind
          rw [hex]
          simp [mkNumber, XNum.val, Dbl.eq, Dbl.toRat?]
    rw [hmodeq]
    by_cases hh : q - q.floor = 1 / 2
    · simp only [hh, decide_true, if_true]
      refine ⟨q.ceil, by simp [mkNumber, XNum.val, Dbl.toRat?], ?_⟩
      have hint : (q.floor : Rat) ≠ q := by intro h; grind
      have hc : q.ceil = q.floor + 1 := by
        have hc1 : q.ceil ≤ q.floor + 1 := Rat.ceil_le_iff.2 (by simp; grind)
        have hc2 : q.floor < q.ceil := Rat.lt_ceil_iff.2 (Rat.lt_of_le_of_ne hfl hint)
        omega
      have hcr : (q.ceil : Rat) = q.floor + 1 := by rw [hc]; simp
      have hhalf : (1 / 2 : Rat) + 1 / 2 = 1 := by decide +kernel
      apply closestUp_of <;> grind
    · simp only [hh, decide_false, Bool.false_eq_true, if_false]
      refine ⟨q.floor, by simp [mkNumber, XNum.val, Dbl.toRat?], ?_⟩
      have := Rat.lt_of_le_of_ne hfrac hh
      apply closestUp_of <;> grind
  · rw [if_neg hn, hq]
    have : q = 0 := Classical.byContradiction fun h => hn ((isNormal_iff v).2 ⟨q, hq, h⟩)
    subst this
    exact ⟨0, rfl, closestUp_of (by decide +kernel) (by decide +kernel)⟩

example : IsDouble (-(5 / 2)) ∧ (-(5 / 2) : Rat) - (-(5 / 2) : Rat).floor ≤ 1 / 2 ∧
    roundFn exactR (.obj (.fin (-(5 / 2)))) = .obj (.fin (-2)) := by
  exact ⟨⟨-5, -1, by decide, by decide, by decide, by decide, by decide +kernel⟩, by decide +kernel, by decide +kernel⟩

theorem fmodQ_eq_of_isMod {a b r : Rat} (hb : b ≠ 0) (h : Spec.IsMod a b r) : fmodQ a b = r := by
  obtain ⟨t, ht, hlt, hpos, hneg⟩ := h
  -- the quotient lies between t and t+1 in magnitude
  have hab : a / b * b = a := Rat.div_mul_cancel hb
  obtain ⟨x, hx⟩ : ∃ x : Rat, x = a / b := ⟨_, rfl⟩
  rw [← hx] at hab
  have hr : r = b * (x - t) := by rw [ht]; grind
  have hxt : (x - t).abs < 1 := by
    obtain ⟨b1, b2⟩ := le_abs_self' r
    rcases Rat.le_total (a := 0) (b := b) with h0 | h0
    · have hb0 : 0 < b := Rat.lt_of_le_of_ne h0 (Ne.symm hb)
      rw [Rat.abs_of_nonneg h0] at hlt
      apply abs_lt_of
      · have : b * (-1) < b * (x - t) := by grind
        exact Rat.lt_of_mul_lt_mul_left this h0
      · have : b * (x - t) < b * 1 := by grind
        exact Rat.lt_of_mul_lt_mul_left this h0
    · have hb0 : 0 < -b := by
        have := Rat.lt_of_le_of_ne h0 hb; grind
      rw [Rat.abs_of_nonpos h0] at hlt
      apply abs_lt_of
      · have : (-b) * (-1) < (-b) * (x - t) := by grind
        exact Rat.lt_of_mul_lt_mul_left this (Rat.le_of_lt hb0)
      · have : (-b) * (x - t) < (-b) * 1 := by grind
        exact Rat.lt_of_mul_lt_mul_left this (Rat.le_of_lt hb0)
  obtain ⟨c1, c2⟩ := le_abs_self' (x - t)
  have hxsign : (x < 0 → x ≤ t) ∧ (0 ≤ x → (t : Rat) ≤ x) := by
    rcases Rat.le_total (a := 0) (b := b) with h0 | h0
    · have hb0 : 0 < b := Rat.lt_of_le_of_ne h0 (Ne.symm hb)
      constructor
      · intro hx0
        have ha : a ≤ 0 := by
          have := Rat.mul_lt_mul_of_pos_right hx0 hb0; grind
        have := hneg ha
        rw [hr] at this
        apply Classical.byContradiction
        intro hc
        have : 0 < b * (x - t) := Rat.mul_pos hb0 (by grind)
        grind
      · intro hx0
        have ha : 0 ≤ a := by
          have := Rat.mul_nonneg hx0 h0; grind
        have := hpos ha
        rw [hr] at this
        apply Classical.byContradiction
        intro hc
        have : 0 < b * (t - x) := Rat.mul_pos hb0 (by grind)
        grind
    · have hb0 : 0 < -b := by
        have := Rat.lt_of_le_of_ne h0 hb; grind
      constructor
      · intro hx0
        have ha : 0 ≤ a := by
          have := Rat.mul_lt_mul_of_pos_right hx0 hb0; grind
        have := hpos ha
        rw [hr] at this
        apply Classical.byContradiction
        intro hc
        have : 0 < (-b) * (x - t) := Rat.mul_pos hb0 (by grind)
        grind
      · intro hx0
        have ha : a ≤ 0 := by
          have := Rat.mul_nonneg hx0 (Rat.le_of_lt hb0); grind
        have := hneg ha
        rw [hr] at this
        apply Classical.byContradiction
        intro hc
        have : 0 < (-b) * (t - x) := Rat.mul_pos hb0 (by grind)
        grind
  unfold fmodQ
  simp only
  rw [← hx, ht]
  by_cases hx0 : x < 0
  · rw [if_pos hx0]
    have h1 := hxsign.1 hx0
    have : x.ceil = t := by
      have d1 : x.ceil ≤ t := Rat.ceil_le_iff.2 h1
      have d2 : t - 1 < x.ceil := Rat.lt_ceil_iff.2 (by simp; grind)
      omega
    rw [this]
  · rw [if_neg hx0]
    have h1 := hxsign.2 (Rat.not_lt.1 hx0)
    have : x.floor = t := by
      have d1 : t ≤ x.floor := Rat.le_floor_iff.2 h1
      have d2 : x.floor < t + 1 := Rat.floor_lt_iff.2 (by simp; grind)
      omega
    rw [this]

/-- `a mod b` is the remainder of truncating division when that remainder is zero or has the sign of
the divisor; otherwise see `C30_refuted`. -/
theorem C30_mod_partial (R : Rounding) (a b r : Rat) (hb : b ≠ 0) (h : Spec.IsMod a b r)
    (hs : r = 0 ∨ (0 < r ↔ 0 < b)) :
    (numberRem R (.obj (.fin a)) (.obj (.fin b))).val.toRat? = some r := by
  have hm : fmodD (XNum.obj (.fin a)).val (XNum.obj (.fin b)).val = .fin r := by
    simp only [XNum.val, fmodD, Dbl.toRat?]
    rw [if_neg hb, fmodQ_eq_of_isMod hb h]
  unfold numberRem
  rw [if_neg (by simpa [XNum.val, Dbl.eq, Dbl.toRat?] using hb)]
  unfold pyMod
  simp only
  rw [hm]
  by_cases hr : r = 0
  · subst hr
    rw [if_pos (by decide +kernel)]
    decide +kernel
  · have hs' : 0 < r ↔ 0 < b := by rcases hs with hs | hs; contradiction; exact hs
    rw [if_neg (by simpa [Dbl.eq, Dbl.toRat?] using hr)]
    have : ((XNum.obj (.fin b)).val.lt (.fin 0) != (Dbl.fin r).lt (.fin 0)) = false := by
      simp only [XNum.val, Dbl.lt, Dbl.toRat?]
      have : (b < 0) ↔ (r < 0) := by
        constructor <;> intro h0 <;> apply Classical.byContradiction <;> intro hc
        · have : 0 < r := Rat.lt_of_le_of_ne (Rat.not_lt.1 hc) (Ne.symm hr)
          have := hs'.1 this; grind
        · have : 0 < b := Rat.lt_of_le_of_ne (Rat.not_lt.1 hc) (Ne.symm hb)
          have := hs'.2 this; grind
      simp [this]
    rw [this]
    simp [mkNumber, XNum.val, Dbl.toRat?]

example : Spec.IsMod (-(11 / 2)) (-2) (-(3 / 2)) ∧
    numberRem exactR (.obj (.fin (-(11 / 2)))) (.obj (.fin (-2))) = .obj (.fin (-(3 / 2))) := by
  exact ⟨⟨2, by decide +kernel, by decide +kernel, by decide +kernel, by decide +kernel⟩, by decide +kernel⟩

/-- `round(1.75)` is 1, not 2; `-5 mod 2` is 1, not -1, and `5 mod -2` is -1, not 1. -/
theorem C30_refuted (R : Rounding) :
    (Spec.ClosestUp (mkRat 7 4) 2 ∧ roundFn R (.obj (.fin (mkRat 7 4))) = .obj (.fin 1)) ∧
    (Spec.IsMod (-5) 2 (-1) ∧ numberRem R (.obj (.fin (-5))) (.obj (.fin 2)) = .obj (.fin 1)) ∧
    (Spec.IsMod 5 (-2) 1 ∧ numberRem R (.obj (.fin 5)) (.obj (.fin (-2))) = .obj (.fin (-1))) := by
  have h1 : R.rnd (-1 + 2) = .fin 1 := by
    have : (-1 + 2 : Rat) = ((1 : Int) : Rat) := by decide +kernel
    rw [this, R.exact _ (isDouble_int 1 (by decide) (by decide))]; rfl
  have h2 : R.rnd (1 + -2) = .fin (-1) := by
    have : (1 + -2 : Rat) = ((-1 : Int) : Rat) := by decide +kernel
    rw [this, R.exact _ (isDouble_int (-1) (by decide) (by decide))]; rfl
  refine ⟨⟨closestUp_of (by decide +kernel) (by decide +kernel), ?_⟩,
    ⟨⟨-2, by decide +kernel, by decide +kernel, by decide +kernel, by decide +kernel⟩, ?_⟩,
    ⟨⟨-2, by decide +kernel, by decide +kernel, by decide +kernel, by decide +kernel⟩, ?_⟩⟩
  · have hm : pyMod R (XNum.obj (.fin (mkRat 7 4))).val (XNum.obj (.fin 1)).val = .fin (3 / 4) := by
      have hf : fmodD (XNum.obj (.fin (mkRat 7 4))).val (XNum.obj (.fin 1)).val = .fin (3 / 4) := by decide +kernel
      unfold pyMod
      simp only [hf]
      rw [if_neg (by decide +kernel), if_neg (by decide +kernel)]
    have hr : (numberRem R (.obj (.fin (mkRat 7 4))) (.obj (.fin 1))) = .obj (.fin (3 / 4)) := by
      unfold numberRem
      rw [if_neg (by decide +kernel), hm]; decide +kernel
    unfold roundFn
    rw [if_pos (by decide +kernel)]
    have hv : (XNum.obj (.fin (mkRat 7 4))).val.toRat? = some (mkRat 7 4) := rfl
    rw [hv]
    simp only
    rw [hr, if_neg (by decide +kernel)]
    decide +kernel
  · have hf : fmodD (XNum.obj (.fin (-5))).val (XNum.obj (.fin 2)).val = .fin (-1) := by decide +kernel
    unfold numberRem pyMod
    rw [if_neg (by decide +kernel)]
    simp only [hf]
    rw [if_neg (by decide +kernel), if_pos (by decide +kernel)]
    have : (XNum.obj (.fin 2)).val = .fin 2 := rfl
    rw [this]
    simp only [addD]
    rw [h1]; decide +kernel
  · have hf : fmodD (XNum.obj (.fin 5)).val (XNum.obj (.fin (-2))).val = .fin 1 := by decide +kernel
    unfold numberRem pyMod
    rw [if_neg (by decide +kernel)]
    simp only [hf]
    rw [if_neg (by decide +kernel), if_pos (by decide +kernel)]
    have : (XNum.obj (.fin (-2))).val = .fin (-2) := rfl
    rw [this]
    simp only [addD]
    rw [h2]; decide +kernel

end Verif.XPath
