import Verif.Xslt.DecimalProps

/-
C70: where `format-number()` does not do what XSLT says, and examples that meet the hypotheses of
its theorems.
-/
namespace Verif.Decimal
open Verif Verif.XPath Verif.Decimal.Spec

/-- A rounding to compute with. -/
def exactly : Rounding := ⟨fun q => .fin q, fun _ _ => rfl, fun _ => nofun⟩

/-- The result depends on the rounding only in the multiplication. -/
theorem decimalFormat_rounding (R : Rounding) (sy : Symbols) (q : Rat) (pat : Str)
    (h : ∀ info buf, parsePattern sy pat = .ok (info, buf) → info.multiplier = 1 ∨
      (IsDouble (q * (info.multiplier : Rat)) ∧ IsDouble (-q * (info.multiplier : Rat)))) :
    decimalFormat R sy (.fin q) pat = decimalFormat exactly sy (.fin q) pat := by
  rw [decimalFormat, decimalFormat]
  have hq : ¬ Dbl.fin q = .nan := nofun
  rw [if_neg hq, if_neg hq]
  by_cases hp : pat = []
  · rw [if_pos hp, if_pos hp]
  · rw [if_neg hp, if_neg hp]
    cases hpp : parsePattern sy pat with
    | error e => rfl
    | ok v =>
      obtain ⟨info, buf⟩ := v
      dsimp only
      have hs : ∀ q', q' = q ∨ q' = -q → scale R info.multiplier (.fin q') =
          scale exactly info.multiplier (.fin q') := by
        intro q' hq'
        rw [scale.eq_def, scale.eq_def]
        rcases h info buf hpp with g | g
        · rw [if_pos g, if_pos g]
        · dsimp only
          have : R.rnd (q' * (info.multiplier : Rat)) = exactly.rnd (q' * (info.multiplier : Rat)) := by
            rcases hq' with g' | g'
            · subst g'; exact R.exact _ g.1
            · subst g'; exact R.exact _ g.2
          rw [this]
      have hz : scale R info.multiplier .nzero = scale exactly info.multiplier .nzero := by
        rw [scale.eq_def, scale.eq_def]
      have ha : ∀ p, assemble sy R info p (.fin q) = assemble sy exactly info p (.fin q) := by
        intro p
        rw [assemble.eq_def, assemble.eq_def]; dsimp only; rw [hs q (.inl rfl)]
      have hb : ∀ p, assemble sy R info p (negD (.fin q)) = assemble sy exactly info p (negD (.fin q)) := by
        intro p
        rw [negD]
        split
        · rw [assemble.eq_def, assemble.eq_def]; dsimp only; rw [hz]
        · rw [assemble.eq_def, assemble.eq_def]; dsimp only; rw [hs (-q) (.inr rfl)]
      rw [ha, hb]

/-- The multiplier of a pattern. -/
def mult (sy : Symbols) (pat : Str) : Option Nat :=
  match parsePattern sy pat with
  | .ok (info, _) => some info.multiplier
  | .error _ => none

theorem plain_pattern (R : Rounding) (q : Rat) (pat : Str) (h : mult defaultSymbols pat ≠ some 1 → False)
    {o : Out × Str} (he : decimalFormat exactly defaultSymbols (.fin q) pat = o) :
    decimalFormat R defaultSymbols (.fin q) pat = o := by
  rw [← he]
  apply decimalFormat_rounding
  intro info buf hp
  left
  have : mult defaultSymbols pat = some info.multiplier := by rw [mult, hp]
  by_cases g : info.multiplier = 1
  · exact g
  · exact absurd (by rw [this]; simpa using g) h

theorem bad_pattern (R : Rounding) (q : Rat) (pat : Str) (h : mult defaultSymbols pat = none)
    {o : Out × Str} (he : decimalFormat exactly defaultSymbols (.fin q) pat = o) :
    decimalFormat R defaultSymbols (.fin q) pat = o := by
  rw [← he]
  apply decimalFormat_rounding
  intro info buf hp
  rw [mult, hp] at h
  cases h

/-! ### Refutations -/

/-- **C70 refuted, one more digit.**  `format-number(9.5, '0')` is not `10` (nor `9`): the code
writes the carry in front of its array, and the result is `0`. -/
theorem C70_refuted_carry (R : Rounding) :
    decimalFormat R defaultSymbols (.fin (19 / 2)) (s!! "0") = (.text (s!! "0") true, s!! "0") ∧
    decimalFormat R defaultSymbols (.fin (29 / 30)) (s!! "0.0") = (.text (s!! "0.0") true, s!! "0.0") := by
  constructor <;> exact plain_pattern R _ _ (by decide +kernel) (by decide +kernel)

/-- **C70 refuted, rounding.**  `format-number(1.46875, '0')` is `2`: the number is rounded to
`1.5` first. -/
theorem C70_refuted_rounding (R : Rounding) :
    decimalFormat R defaultSymbols (.fin (47 / 32)) (s!! "0") = (.text (s!! "2") false, s!! "0") ∧
    ¬ Closest (47 / 32) 0 2 := by
  constructor
  · exact plain_pattern R _ _ (by decide +kernel) (by decide +kernel)
  · rw [Closest]; decide +kernel

/-- **C70 refuted, needless zeros.**  `format-number(1, '0.#')` is `1.0`. -/
theorem C70_refuted_zero (R : Rounding) :
    decimalFormat R defaultSymbols (.fin 1) (s!! "0.#") = (.text (s!! "1.0") false, s!! "0.#") :=
  plain_pattern R _ _ (by decide +kernel) (by decide +kernel)

/-- **C70 refuted, negative numbers.**  `format-number(-5, '$0')` is `$5`: the sign gets lost. -/
theorem C70_refuted_sign (R : Rounding) :
    decimalFormat R defaultSymbols (.fin (-5)) (s!! "$0") = (.text (s!! "$5") false, s!! "$0") ∧
    decimalFormat R defaultSymbols (.fin 5) (s!! "$0") = (.text (s!! "$5") false, s!! "$0") := by
  constructor <;> exact plain_pattern R _ _ (by decide +kernel) (by decide +kernel)

theorem isDouble_50 : IsDouble 50 ∧ IsDouble (-50) :=
  ⟨⟨50, 0, by decide, by decide, by decide, by decide, by decide +kernel⟩,
    ⟨-50, 0, by decide, by decide, by decide, by decide, by decide +kernel⟩⟩

/-- **C70 refuted, negative percentages.**  `format-number(-0.5, '0%')` is `-50`: the suffix gets
lost. -/
theorem C70_refuted_suffix (R : Rounding) :
    decimalFormat R defaultSymbols (.fin (-1 / 2)) (s!! "0%") = (.text (s!! "-50") false, s!! "0%") := by
  have he : decimalFormat exactly defaultSymbols (.fin (-1 / 2)) (s!! "0%") =
      (.text (s!! "-50") false, s!! "0%") := by decide +kernel
  rw [← he]
  apply decimalFormat_rounding
  intro info buf hp
  right
  have hm : mult defaultSymbols (s!! "0%") = some info.multiplier := by rw [mult, hp]
  have : info.multiplier = 100 := by
    have h2 : mult defaultSymbols (s!! "0%") = some 100 := by decide +kernel
    rw [h2] at hm
    injection hm with hm
    exact hm.symm
  rw [this]
  have e1 : (-1 / 2 : Rat) * ((100 : Nat) : Rat) = -50 := by decide +kernel
  have e2 : -(-1 / 2 : Rat) * ((100 : Nat) : Rat) = 50 := by decide +kernel
  rw [e1, e2]
  exact ⟨isDouble_50.2, isDouble_50.1⟩

/-- **C70 refuted, quotes.**  With the pattern `'x'0` the call is right, but it changes the pattern
string, a value of the stylesheet: the same call is an error the second time. -/
theorem C70_refuted_quote (R : Rounding) :
    decimalFormat R defaultSymbols (.fin 5) (s!! "'x'0") = (.text (s!! "x5") false, s!! "xx'0") ∧
    decimalFormat R defaultSymbols (.fin 5) (s!! "xx'0") =
      (.syntaxError (s!! "malformed pattern"), s!! "xx'0") := by
  constructor
  · exact plain_pattern R _ _ (by decide +kernel) (by decide +kernel)
  · exact bad_pattern R _ _ (by decide +kernel) (by decide +kernel)

/-- **C70 refuted, quotes in a suffix.**  `format-number(5, "0'x'")` is `5xx'`. -/
theorem C70_refuted_quoted_suffix (R : Rounding) :
    (decimalFormat R defaultSymbols (.fin 5) (s!! "0'x'")).1 = .text (s!! "5xx'") false := by
  have : decimalFormat exactly defaultSymbols (.fin 5) (s!! "0'x'") =
    (.text (s!! "5xx'") false, (decimalFormat exactly defaultSymbols (.fin 5) (s!! "0'x'")).2) := by
    decide +kernel
  rw [plain_pattern R _ _ (by decide +kernel) this]

/-- **C70 refuted, patterns outside of the grammar.**  A pattern with two numbers is taken, and one
without a digit makes the call undefined (a null pointer). -/
theorem C70_refuted_grammar (R : Rounding) :
    (decimalFormat R defaultSymbols (.fin 5) (s!! "0x0")).1 = .text (s!! "0x05x0") false ∧
    (decimalFormat R defaultSymbols (.fin 5) (s!! "abc")).1 = .undefined := by
  have h1 : decimalFormat exactly defaultSymbols (.fin 5) (s!! "0x0") =
    (.text (s!! "0x05x0") false, (decimalFormat exactly defaultSymbols (.fin 5) (s!! "0x0")).2) := by
    decide +kernel
  have h2 : decimalFormat exactly defaultSymbols (.fin 5) (s!! "abc") =
    (.undefined, (decimalFormat exactly defaultSymbols (.fin 5) (s!! "abc")).2) := by
    decide +kernel
  exact ⟨by rw [plain_pattern R _ _ (by decide +kernel) h1],
    by rw [plain_pattern R _ _ (by decide +kernel) h2]⟩

/-- **C70 refuted, zero.**  For the number 0 the code reads its array at an index below zero. -/
theorem C70_refuted_bounds (R : Rounding) :
    decimalFormat R defaultSymbols (.fin 0) (s!! "0.00") = (.text (s!! "0.00") true, s!! "0.00") :=
  plain_pattern R _ _ (by decide +kernel) (by decide +kernel)

/-! ### Examples -/

/-- `#,##0.00` -/
def money : Picture := ⟨[], [.hash, .comma, .hash, .hash, .zero], true, 2, 0, []⟩

/-- `(#,##0.00)` -/
def debit : Picture := ⟨s!! "(", [.hash, .comma, .hash, .hash, .zero], true, 2, 0, s!! ")"⟩

theorem distinct_default : Distinct defaultSymbols := by rw [Distinct]; decide

theorem money_wf : money.WF defaultSymbols :=
  ⟨by simp [Plain, money], by simp [Plain, money], by decide, by decide, by decide, by decide, by decide⟩

theorem debit_wf : debit.WF defaultSymbols :=
  ⟨by simp [Plain, debit, defaultSymbols], by simp [Plain, debit, defaultSymbols], by decide, by decide,
    by decide, by decide, by decide⟩

theorem printed_example : Printed (2469135 / 2) 2 123456750 0 := by
  refine ⟨by decide +kernel, by decide, by decide +kernel, ?_⟩
  exact Nat.lt_of_lt_of_le (by decide : 123456750 < 10 ^ 9) (Nat.pow_le_pow_right (by decide) (by decide))

/-- The hypotheses of `C70_partial` hold for `format-number(-1234567.5, '#,##0.00;(#,##0.00)')` … -/
example (R : Rounding) : ∃ t,
    decimalFormat R defaultSymbols (.fin (-2469135 / 2)) (patternText defaultSymbols money (some debit)) =
      (.text (s!! "(" ++ t ++ s!! ")") false, patternText defaultSymbols money (some debit)) ∧
    IsFormatted defaultSymbols money 123456750 t := by
  obtain ⟨t, h1, h2, _⟩ := C70_partial R defaultSymbols distinct_default money money_wf (some debit)
    (by intro n hn; cases hn; exact debit_wf) (by decide) (by decide) (-2469135 / 2) (2469135 / 2)
    (fun _ => .inl (by decide)) (by rw [Scaled, if_pos (.inl (by decide))]; decide +kernel)
    123456750 0 123456750 printed_example (fun h => absurd h (by decide)) rfl
    (.inr (.inr (.inl (by decide))))
  have e : affixes defaultSymbols money (some debit) (-2469135 / 2) = (s!! "(", s!! ")") := by
    decide +kernel
  rw [e] at h1
  exact ⟨t, h1, h2⟩

/-- … and this is the result. -/
example : patternText defaultSymbols money (some debit) = s!! "#,##0.00;(#,##0.00)" ∧
    decimalFormat exactly defaultSymbols (.fin (-2469135 / 2)) (s!! "#,##0.00;(#,##0.00)") =
      (.text (s!! "(1,234,567.50)") false, s!! "#,##0.00;(#,##0.00)") := by
  constructor <;> decide +kernel

/-- An integer with optional fraction digits, as in `C70_needless_zero`: 1200 as `#,##0.#`. -/
example (R : Rounding) : ∃ ip, value ip = 1200 ∧
    decimalFormat R defaultSymbols (.fin 1200) (s!! "#,##0.#") =
      (.text (grouped defaultSymbols (some 3) ip ++ s!! ".0") false, s!! "#,##0.#") := by
  let p : Picture := ⟨[], [.hash, .comma, .hash, .hash, .zero], true, 0, 1, []⟩
  have hp : p.WF defaultSymbols :=
    ⟨by simp [Plain, p], by simp [Plain, p], by decide, by decide, by decide, by decide, by decide⟩
  obtain ⟨ip, h1, _, _, _, h2⟩ := C70_needless_zero R defaultSymbols distinct_default p hp none
    (by nofun) (by decide) (by decide) 1200 1200 (fun h => absurd h (by decide +kernel))
    (by rw [Scaled, if_pos (.inl (by decide))]; decide +kernel) 12000 0 12000
    ⟨by decide +kernel, by decide, by decide +kernel,
      Nat.lt_of_lt_of_le (by decide : 12000 < 10 ^ 9) (Nat.pow_le_pow_right (by decide) (by decide))⟩
    (fun h => absurd h (by decide)) rfl (by decide) (by decide) (by decide) (by decide)
  refine ⟨ip, h1.trans (by decide), ?_⟩
  have e1 : affixes defaultSymbols p none 1200 = ([], []) := by decide +kernel
  have e2 : patternText defaultSymbols p none = s!! "#,##0.#" := by decide +kernel
  rw [e1, e2] at h2
  rw [h2, List.append_nil]
  rfl

/-- Infinity as a negative amount. -/
example (R : Rounding) : decimalFormat R defaultSymbols .ninf (patternText defaultSymbols money (some debit)) =
    (.text (s!! "(Infinity)") false, patternText defaultSymbols money (some debit)) :=
  (C70_infinity R defaultSymbols distinct_default money money_wf (some debit)
    (by intro n hn; cases hn; exact debit_wf)).2 (fun _ => .inl (by decide))

end Verif.Decimal
