import Verif.XPath.NumProps

/-
C47: the arithmetic operators, unary minus, sum() and string-length() agree with IEEE 754 arithmetic.
The values are compared by `toRat?` (the exact value, if finite) and by the three non-finite values;
zeros of either sign are not told apart except in `C47_refuted`.
-/
namespace Verif.XPath
open Verif

theorem mkNumber_toRat (d : Dbl) : (mkNumber d).val.toRat? = d.toRat? := by
  cases d <;> simp [mkNumber, XNum.val, Dbl.toRat?]

theorem mkNumber_val (d : Dbl) (h : d ≠ .nzero) : (mkNumber d).val = d := by
  simp [mkNumber, XNum.val, h]

theorem mkNumber_nonfinite (d x : Dbl) (hx : x.toRat? = none) : (mkNumber d).val = x ↔ d = x := by
  cases d <;> simp [mkNumber, XNum.val]
  constructor <;> rintro rfl <;> simp [Dbl.toRat?] at hx

/-- Addition: the exact sum if it is a double; otherwise the sum rounded; NaN exactly for a NaN
operand or infinities of opposite signs; an infinite operand decides the result. -/
theorem C47_add (R : Rounding) (v w : XNum) :
    (∀ p q, v.val.toRat? = some p → w.val.toRat? = some q → IsDouble (p + q) →
      (numberAdd R v w).val.toRat? = some (p + q)) ∧
    (∀ p q, v.val = .fin p → w.val = .fin q → (numberAdd R v w).val.toRat? = (R.rnd (p + q)).toRat?) ∧
    ((numberAdd R v w).val = .nan ↔ v.val = .nan ∨ w.val = .nan ∨ (v.val = .pinf ∧ w.val = .ninf) ∨
      (v.val = .ninf ∧ w.val = .pinf)) ∧
    (v.val = .pinf → w.val ≠ .ninf → w.val ≠ .nan → (numberAdd R v w).val = .pinf) ∧
    (v.val = .ninf → w.val ≠ .pinf → w.val ≠ .nan → (numberAdd R v w).val = .ninf) ∧
    numberAdd R v w = numberAdd R w v := by
  unfold numberAdd
  generalize v.val = a
  generalize w.val = b
  refine ⟨?_, ?_, ?_, ?_, ?_, ?_⟩
  · intro p q hp hq hd
    rw [mkNumber_toRat]
    cases a <;> simp [Dbl.toRat?] at hp <;> cases b <;> simp [Dbl.toRat?] at hq <;> subst hp <;> subst hq <;>
      simp [addD, Dbl.toRat?, Rat.zero_add, Rat.add_zero]
    rw [R.exact _ hd]
  · rintro p q rfl rfl
    rw [mkNumber_toRat]; rfl
  · rw [mkNumber_nonfinite _ _ rfl]
    cases a <;> cases b <;> simp [addD, R.notNan]
  · rintro rfl h1 h2
    rw [mkNumber_nonfinite _ _ rfl]
    cases b <;> simp_all [addD]
  · rintro rfl h1 h2
    rw [mkNumber_nonfinite _ _ rfl]
    cases b <;> simp_all [addD]
  · cases a <;> cases b <;> simp [addD, Rat.add_comm]

example : IsDouble (mkRat 3 2 + 5) ∧
    (numberAdd exactR (.obj (.fin (mkRat 3 2))) (.obj (.fin 5))).val = .fin (mkRat 13 2) :=
  ⟨⟨13, -1, by decide, by decide, by decide, by decide, by decide +kernel⟩, by decide +kernel⟩

/-- Unary minus changes the sign, whatever the operand. -/
theorem C47_neg (v : XNum) :
    (∀ p, v.val.toRat? = some p → (numberNeg v).val.toRat? = some (-p)) ∧
    (v.val = .nan → (numberNeg v).val = .nan) ∧
    (v.val = .pinf → (numberNeg v).val = .ninf) ∧ (v.val = .ninf → (numberNeg v).val = .pinf) := by
  unfold numberNeg
  generalize v.val = a
  refine ⟨?_, ?_, ?_, ?_⟩
  · intro p hp
    cases a <;> simp [Dbl.toRat?] at hp <;> subst hp
    · decide +kernel
    · rename_i q
      by_cases h : q = 0
      · subst h; decide +kernel
      · rw [if_neg (by simpa [Dbl.eq, Dbl.toRat?] using h), mkNumber_toRat]
        simp [Dbl.neg, h, Dbl.toRat?]
  all_goals rintro rfl; decide +kernel

example : (numberNeg (.obj (.fin 5))).val = .fin (-5) ∧ (numberNeg (.obj .nzero)).val = .fin 0 := by decide +kernel

/-- Subtraction is addition of the negated operand. -/
theorem C47_sub (R : Rounding) (v w : XNum) :
    (∀ p q, v.val.toRat? = some p → w.val.toRat? = some q → IsDouble (p - q) →
      (numberSub R v w).val.toRat? = some (p - q)) ∧
    ((numberSub R v w).val = .nan ↔ v.val = .nan ∨ w.val = .nan ∨ (v.val = .pinf ∧ w.val = .pinf) ∨
      (v.val = .ninf ∧ w.val = .ninf)) := by
  unfold numberSub
  generalize v.val = a
  generalize w.val = b
  constructor
  · intro p q hp hq hd
    rw [mkNumber_toRat]
    cases a <;> simp [Dbl.toRat?] at hp <;> cases b <;> simp [Dbl.toRat?] at hq <;> subst hp <;> subst hq
    · simp [Dbl.neg, addD, Dbl.toRat?]; decide +kernel
    · rename_i q
      by_cases h : q = 0
      · subst h; simp [Dbl.neg, addD, Dbl.toRat?]; decide +kernel
      · simp [Dbl.neg, h, addD, Dbl.toRat?]; grind
    · rename_i p
      have e : p - 0 = p := by grind
      rw [e] at hd
      simp [Dbl.neg, addD, Dbl.toRat?]
      rw [show p + 0 = p by grind, R.exact _ hd]
      simp; grind
    · rename_i p q
      by_cases h : q = 0
      · subst h; simp [Dbl.neg, addD, Dbl.toRat?]; grind
      · simp only [Dbl.neg, h, if_false, addD]
        rw [show p + -q = p - q by grind, R.exact _ hd]
        rfl
  · rw [mkNumber_nonfinite _ _ rfl]
    have hn : ∀ q : Rat, Dbl.neg (.fin q) = .nzero ∨ Dbl.neg (.fin q) = .fin (-q) := by
      intro q; by_cases h : q = 0 <;> simp [Dbl.neg, h]
    cases b with
    | fin q =>
      rcases hn q with h | h <;> rw [h] <;> cases a <;> simp [addD, R.notNan]
    | _ => cases a <;> simp [addD, Dbl.neg, R.notNan]

example : (numberSub exactR (.obj (.fin 5)) (.obj (.fin 7))).val = .fin (-2) ∧
    (numberSub exactR .sPos .sPos).val = .nan := by decide +kernel

/-- Multiplication: exact if representable; NaN exactly for a NaN operand or zero times infinity;
otherwise an infinite operand gives the infinity with the product of the signs. -/
theorem C47_mul (R : Rounding) (v w : XNum) :
    (∀ p q, v.val.toRat? = some p → w.val.toRat? = some q → IsDouble (p * q) →
      (numberMul R v w).val.toRat? = some (p * q)) ∧
    ((numberMul R v w).val = .nan ↔ v.val = .nan ∨ w.val = .nan ∨
      (v.val.toRat? = some 0 ∧ (w.val = .pinf ∨ w.val = .ninf)) ∨
      (w.val.toRat? = some 0 ∧ (v.val = .pinf ∨ v.val = .ninf))) ∧
    (∀ p, v.val.toRat? = some p → w.val = .pinf →
      (0 < p → (numberMul R v w).val = .pinf) ∧ (p < 0 → (numberMul R v w).val = .ninf)) ∧
    (v.val = .ninf → w.val = .ninf → (numberMul R v w).val = .pinf) := by
  unfold numberMul
  generalize v.val = a
  generalize w.val = b
  refine ⟨?_, ?_, ?_, ?_⟩
  · intro p q hp hq hd
    rw [mkNumber_toRat]
    have hsa : ∃ s, signD a = some s := by cases a <;> simp [signD, Dbl.toRat?] at hp ⊢
    have hsb : ∃ s, signD b = some s := by cases b <;> simp [signD, Dbl.toRat?] at hq ⊢
    obtain ⟨sa, hsa⟩ := hsa
    obtain ⟨sb, hsb⟩ := hsb
    unfold mulD
    rw [hsa, hsb, hp, hq]
    simp only
    by_cases h : p = 0 ∨ q = 0
    · rw [if_pos h]
      have : p * q = 0 := by rcases h with h | h <;> subst h <;> simp
      rw [this]
      split <;> rfl
    · rw [if_neg h, R.exact _ hd]; rfl
  · rw [mkNumber_nonfinite _ _ rfl]
    cases a <;> cases b <;> simp [mulD, signD, Dbl.toRat?] <;> (repeat' split) <;> simp_all [R.notNan]
  · intro p hp hw
    subst hw
    rw [mkNumber_nonfinite _ _ rfl, mkNumber_nonfinite _ _ rfl]
    constructor
    · intro h
      have hne : p ≠ 0 := fun h' => by rw [h'] at h; exact Rat.lt_irrefl h
      have hnl : ¬ p < 0 := by grind
      cases a <;> simp [Dbl.toRat?] at hp <;> subst hp <;> simp_all [mulD, signD, Dbl.toRat?]
    · intro h
      have hne : p ≠ 0 := fun h' => by rw [h'] at h; exact Rat.lt_irrefl h
      cases a <;> simp [Dbl.toRat?] at hp <;> subst hp <;> simp_all [mulD, signD, Dbl.toRat?]
  · rintro rfl rfl; rfl

example : (numberMul exactR (.obj (.fin (-5))) .sPos).val = .ninf ∧
    (numberMul exactR (.obj (.fin 0)) .sPos).val = .nan := by decide +kernel

/-- Division: exact if representable; a positive or negative number divided by (positive) zero is the
infinity of that sign; zero by zero, infinity by infinity and NaN operands give NaN; a finite number
divided by an infinity is zero. -/
theorem C47_div (R : Rounding) (v w : XNum) :
    (∀ p q, v.val.toRat? = some p → w.val.toRat? = some q → q ≠ 0 → IsDouble (p / q) →
      (numberDiv R v w).val.toRat? = some (p / q)) ∧
    (w.val = .fin 0 → ∀ p, v.val.toRat? = some p →
      (0 < p → (numberDiv R v w).val = .pinf) ∧ (p < 0 → (numberDiv R v w).val = .ninf) ∧
      (p = 0 → (numberDiv R v w).val = .nan)) ∧
    (v.val = .nan ∨ w.val = .nan ∨ ((v.val = .pinf ∨ v.val = .ninf) ∧ (w.val = .pinf ∨ w.val = .ninf)) →
      (numberDiv R v w).val = .nan) ∧
    (∀ p, v.val.toRat? = some p → (w.val = .pinf ∨ w.val = .ninf) → (numberDiv R v w).val.toRat? = some 0) ∧
    (w.val = .fin 0 → (v.val = .pinf → (numberDiv R v w).val = .pinf) ∧
      (v.val = .ninf → (numberDiv R v w).val = .ninf)) := by
  unfold numberDiv
  generalize v.val = a
  generalize w.val = b
  refine ⟨?_, ?_, ?_, ?_, ?_⟩
  · intro p q hp hq hq0 hd
    have hz : ¬ (b.eq (.fin 0) = true) := by rw [eq_zero_iff, hq]; simpa using hq0
    rw [if_neg hz, mkNumber_toRat]
    have hsa : ∃ s, signD a = some s := by cases a <;> simp [signD, Dbl.toRat?] at hp ⊢
    have hsb : ∃ s, signD b = some s := by cases b <;> simp [signD, Dbl.toRat?] at hq ⊢
    obtain ⟨sa, hsa⟩ := hsa
    obtain ⟨sb, hsb⟩ := hsb
    unfold divD
    rw [hsa, hsb, hp, hq]
    simp only
    by_cases h : p = 0
    · rw [if_pos h]
      have : p / q = 0 := by subst h; grind
      rw [this]
      split <;> rfl
    · rw [if_neg h, R.exact _ hd]; rfl
  · rintro rfl p hp
    rw [if_pos (by decide +kernel)]
    unfold handleFpe
    have hl : a.lt (.fin 0) = decide (p < 0) := by
      cases a <;> simp [Dbl.toRat?] at hp <;> subst hp <;> simp [Dbl.lt, Dbl.toRat?]
    have hg : (Dbl.fin 0).lt a = decide (0 < p) := by
      cases a <;> simp [Dbl.toRat?] at hp <;> subst hp <;> simp [Dbl.lt, Dbl.toRat?]
    rw [hl, hg]
    refine ⟨fun h => ?_, fun h => ?_, fun h => ?_⟩
    · have : ¬ p < 0 := by grind
      simp [this, h, XNum.val]
    · simp [h, XNum.val]
    · subst h; decide +kernel
  · intro h
    by_cases hz : b.eq (.fin 0) = true
    · rw [if_pos hz]
      rw [eq_zero_iff] at hz
      have hb : b = .nzero ∨ b = .fin 0 := by cases b <;> simp_all [Dbl.toRat?]
      rcases h with rfl | rfl | ⟨_, h⟩
      · decide
      · simp [Dbl.toRat?] at hz
      · rcases h with rfl | rfl <;> simp [Dbl.toRat?] at hz
    · rw [if_neg hz, mkNumber_nonfinite _ _ rfl]
      rcases h with rfl | rfl | ⟨h1, h⟩
      · simp [divD, signD]
      · cases a <;> simp [divD, signD]
      · rcases h1 with rfl | rfl <;> rcases h with rfl | rfl <;> rfl
  · intro p hp hb
    rw [if_neg (by rcases hb with rfl | rfl <;> decide +kernel), mkNumber_toRat]
    have hsa : ∃ s, signD a = some s := by cases a <;> simp [signD, Dbl.toRat?] at hp ⊢
    obtain ⟨sa, hsa⟩ := hsa
    rcases hb with rfl | rfl <;> unfold divD <;> rw [hsa, hp] <;> cases sa <;> rfl
  · rintro rfl
    constructor <;> rintro rfl <;> rfl

example : (numberDiv exactR (.obj (.fin (-5))) (.obj (.fin 0))).val = .ninf ∧
    (numberDiv exactR (.obj (.fin 5)) (.obj (.fin 4))).val = .fin (mkRat 5 4) := by decide +kernel

/-- Every sum of a list of numbers in which each partial sum is a double is exact. -/
theorem sum_exact (R : Rounding) (qs : List Rat) (xs : List XNum) (acc : XNum) (s : Rat)
    (hx : xs.map (fun x => x.val.toRat?) = qs.map some) (ha : acc.val.toRat? = some s)
    (hd : ∀ k, IsDouble (s + (qs.take k).sum)) :
    (xs.foldl (numberAdd R) acc).val.toRat? = some (s + qs.sum) := by
  induction xs generalizing acc s qs with
  | nil =>
    cases qs with
    | nil => simp [ha, Rat.add_zero]
    | cons _ _ => simp at hx
  | cons x xs ih =>
    cases qs with
    | nil => simp at hx
    | cons q qs =>
      simp only [List.map_cons, List.cons.injEq] at hx
      have h1 : (numberAdd R acc x).val.toRat? = some (s + q) := by
        apply (C47_add R acc x).1 s q ha hx.1
        have := hd 1
        simpa [Rat.add_zero] using this
      have := ih qs (numberAdd R acc x) (s + q) hx.2 h1 (by
        intro k
        have := hd (k + 1)
        simpa [Rat.add_assoc] using this)
      simpa [Rat.add_assoc] using this

/-- `sum()` of numbers is their exact sum as long as the partial sums are doubles: in particular for
integers whose magnitudes add up to at most 2^53, whatever their order. -/
theorem C47_sum (R : Rounding) (ns : List Int) (h : (ns.map (fun n => (n.natAbs : Int))).sum ≤ 2 ^ 53) :
    (sumFn R (ns.map fun n : Int => .obj (.fin n))).val.toRat? = some ((ns.sum : Int) : Rat) := by
  have hcast : ∀ l : List Int, (l.map (fun n : Int => (n : Rat))).sum = ((l.sum : Int) : Rat) := by
    intro l
    induction l with
    | nil => rfl
    | cons a l ih => simp [ih, Rat.intCast_add]
  have hb : ∀ l : List Int, -(l.map (fun n => (n.natAbs : Int))).sum ≤ l.sum ∧
      l.sum ≤ (l.map (fun n => (n.natAbs : Int))).sum ∧ 0 ≤ (l.map (fun n => (n.natAbs : Int))).sum := by
    intro l
    induction l with
    | nil => simp
    | cons a l ih => simp only [List.map_cons, List.sum_cons]; omega
  have := sum_exact R (ns.map (fun n : Int => (n : Rat))) (ns.map fun n : Int => .obj (.fin n)) (.obj (.fin 0)) 0
    (by simp [XNum.val, Dbl.toRat?, Function.comp_def]) rfl (by
      intro k
      rw [Rat.zero_add, ← List.map_take, hcast]
      have h1 := hb (ns.take k)
      have h2 : ((ns.take k).map (fun n => (n.natAbs : Int))).sum ≤ (ns.map (fun n => (n.natAbs : Int))).sum := by
        have h3 := hb (ns.drop k)
        have h4 : (ns.map (fun n => (n.natAbs : Int))).sum = ((ns.take k).map (fun n => (n.natAbs : Int))).sum
            + ((ns.drop k).map (fun n => (n.natAbs : Int))).sum := by
          rw [← List.sum_append, ← List.map_append, List.take_append_drop]
        omega
      exact isDouble_int _ (by omega) (by omega))
  rw [Rat.zero_add, hcast] at this
  exact this

example : (sumFn exactR ([3, -5, 10].map fun n : Int => .obj (.fin n))).val = .fin 8 := by decide +kernel

/-- A NaN or, without an infinity of the other sign, an infinity decides the sum. -/
theorem C47_sum_nan (R : Rounding) (xs : List XNum) (h : ∃ x ∈ xs, x.val = .nan) :
    (sumFn R xs).val = .nan := by
  have key : ∀ (xs : List XNum) (acc : XNum), (acc.val = .nan ∨ ∃ x ∈ xs, x.val = .nan) →
      (xs.foldl (numberAdd R) acc).val = .nan := by
    intro xs
    induction xs with
    | nil => intro acc h; rcases h with h | ⟨x, hx, -⟩; exact h; simp at hx
    | cons y ys ih =>
      intro acc h
      apply ih
      rcases h with h | ⟨x, hx, h⟩
      · left; exact (C47_add R acc y).2.2.1.2 (.inl h)
      · simp at hx
        rcases hx with rfl | hx
        · left; exact (C47_add R acc x).2.2.1.2 (.inr (.inl h))
        · right; exact ⟨x, hx, h⟩
  exact key xs _ (.inr h)

example : (sumFn exactR [.obj (.fin 1), .sNaN, .sPos]).val = .nan := by decide +kernel

/-- IEEE 754 (and XPath 3.5) make `1 div -0` negative infinity; the code returns positive infinity. -/
theorem C47_refuted (R : Rounding) :
    (numberNeg (.obj (.fin 0))).val = .nzero ∧
    (numberDiv R (.obj (.fin 1)) (numberNeg (.obj (.fin 0)))).val = .pinf := by
  constructor <;> rfl

end Verif.XPath
