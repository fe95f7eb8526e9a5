import Verif.Compare.Repr
/- `sorted` gives the same list for two lists exactly when they have the same elements. -/
namespace Verif.Compare
open Verif

/-- A total order. -/
structure Linear {α : Type} (le : α → α → Bool) : Prop where
  total : ∀ a b, le a b = true ∨ le b a = true
  trans : ∀ a b c, le a b = true → le b c = true → le a c = true
  anti : ∀ a b, le a b = true → le b a = true → a = b

theorem strLe_linear : Linear strLe where
  total a b := by
    induction a generalizing b with
    | nil => simp [strLe]
    | cons x xs ih =>
      cases b with
      | nil => simp [strLe]
      | cons y ys =>
        by_cases h : x = y
        · subst h; simpa [strLe] using ih ys
        · have h' : y ≠ x := fun e => h e.symm
          have : x.toNat ≠ y.toNat := fun e => h (char_inj e)
          simp only [strLe, h, h', if_false, decide_eq_true_eq]
          omega
  trans a b c := by
    induction a generalizing b c with
    | nil => simp [strLe]
    | cons x xs ih =>
      cases b with
      | nil => simp [strLe]
      | cons y ys =>
        cases c with
        | nil => simp [strLe]
        | cons z zs =>
          simp only [strLe]
          by_cases h : x = y
          · subst h
            by_cases h' : x = z
            · subst h'; simpa using ih ys zs
            · simp [h']
          · by_cases h' : y = z
            · subst h'; simp only [h, if_false, if_true]; intro a _; exact a
            · simp only [h, h', if_false, decide_eq_true_eq]
              intro h1 h2
              have : x ≠ z := by intro e; subst e; omega
              simp only [this, if_false, decide_eq_true_eq]
              omega
  anti a b := by
    induction a generalizing b with
    | nil => cases b <;> simp [strLe]
    | cons x xs ih =>
      cases b with
      | nil => simp [strLe]
      | cons y ys =>
        simp only [strLe]
        by_cases h : x = y
        · subst h
          simp only [if_true]
          intro h1 h2; rw [ih ys h1 h2]
        · have h' : y ≠ x := fun e => h e.symm
          simp only [h, h', if_false, decide_eq_true_eq]
          intro h1 h2; omega

theorem optLe_linear : Linear optLe where
  total a b := by
    cases a <;> cases b <;> simp [optLe]
    exact strLe_linear.total _ _
  trans a b c := by
    cases a <;> cases b <;> cases c <;> simp [optLe]
    exact strLe_linear.trans _ _ _
  anti a b := by
    cases a <;> cases b <;> simp [optLe]
    exact strLe_linear.anti _ _

theorem pairLe_linear {α β : Type} [DecidableEq α] {la : α → α → Bool} {lb : β → β → Bool}
    (ha : Linear la) (hb : Linear lb) : Linear (pairLe la lb) where
  total x y := by
    unfold pairLe
    by_cases h : x.1 = y.1
    · simp only [h, if_true]; exact hb.total _ _
    · have h' : y.1 ≠ x.1 := fun e => h e.symm
      simp only [h, h', if_false]; exact ha.total _ _
  trans x y z := by
    unfold pairLe
    by_cases h : x.1 = y.1
    · by_cases h' : y.1 = z.1
      · simp only [h, h', if_true]; exact hb.trans _ _ _
      · simp only [h, h', if_true, if_false]; intro _ a; exact a
    · by_cases h' : y.1 = z.1
      · have : x.1 ≠ z.1 := fun e => h (e.trans h'.symm)
        simp only [h, h', this, if_true, if_false]; intro a _; rw [← h']; rw [← h'] at a; exact a
      · simp only [h, h', if_false]
        intro h1 h2
        have : x.1 ≠ z.1 := by
          intro e; rw [e] at h1
          exact h' (ha.anti _ _ h2 h1)
        simp only [this, if_false]
        exact ha.trans _ _ _ h1 h2
  anti x y := by
    unfold pairLe
    by_cases h : x.1 = y.1
    · simp only [h, if_true]
      intro h1 h2
      exact Prod.ext h (hb.anti _ _ h1 h2)
    · have h' : y.1 ≠ x.1 := fun e => h e.symm
      simp only [h, h', if_false]
      intro h1 h2
      exact absurd (ha.anti _ _ h1 h2) h

variable {α : Type} {le : α → α → Bool}

theorem insert_perm (x : α) (xs : List α) : (insert le x xs).Perm (x :: xs) := by
  induction xs with
  | nil => exact .refl _
  | cons y ys ih =>
    unfold insert; split
    · exact .refl _
    · exact (ih.cons y).trans (.swap x y ys)

theorem sorted_perm (xs : List α) : (sorted le xs).Perm xs := by
  induction xs with
  | nil => exact .refl _
  | cons x xs ih => exact (insert_perm x _).trans (ih.cons x)

theorem insert_comm (h : Linear le) (x y : α) (xs : List α) :
    insert le x (insert le y xs) = insert le y (insert le x xs) := by
  induction xs with
  | nil =>
    simp only [insert]
    by_cases h1 : le x y = true <;> by_cases h2 : le y x = true
    · rw [h.anti _ _ h1 h2]
    · simp [h1, h2]
    · simp [h1, h2]
    · rcases h.total x y with h3 | h3
      · exact absurd h3 h1
      · exact absurd h3 h2
  | cons z zs ih =>
    by_cases hx : le x z = true <;> by_cases hy : le y z = true
    · simp only [insert, hx, hy, if_true]
      by_cases h1 : le x y = true <;> by_cases h2 : le y x = true
      · rw [h.anti _ _ h1 h2]
      · simp [h1, h2, hy]
      · simp [h1, h2, hx]
      · rcases h.total x y with h3 | h3
        · exact absurd h3 h1
        · exact absurd h3 h2
    · have h1 : ¬ le y x = true := fun e => hy (h.trans _ _ _ e hx)
      simp [insert, hx, hy, h1]
    · have h1 : ¬ le x y = true := fun e => hx (h.trans _ _ _ e hy)
      simp [insert, hx, hy, h1]
    · simp [insert, hx, hy, ih]

theorem sorted_eq_iff (h : Linear le) {xs ys : List α} : sorted le xs = sorted le ys ↔ xs.Perm ys := by
  constructor
  · intro e
    exact (sorted_perm xs).symm.trans (e ▸ sorted_perm ys)
  · intro p
    induction p with
    | nil => rfl
    | cons x _ ih => simp only [sorted, ih]
    | swap x y l => simp only [sorted]; exact insert_comm h _ _ _
    | trans _ _ ih1 ih2 => exact ih1.trans ih2

end Verif.Compare
