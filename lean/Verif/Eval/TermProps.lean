import Verif.Eval.Term
import Verif.Eval.Props

/-
C52 (the context after an evaluation), C53 (evaluation ends).
-/
namespace Verif.Eval
open Verif Verif.XPath Verif.Dom Verif.Dom.Spec Verif.Eval.Spec

variable {d : Doc} {r : Nat}

/-! C52 -/

/-- For the functions that evaluate something in a given context. -/
structure KeepsAt (d : Doc) (fuel : Nat) : Prop where
  eval : ∀ m e c v c', eval d fuel m e c = .ok v c' → Same c c'
  args : ∀ as c vs c', evalArgs d fuel as c = .ok vs c' → Same c c'
  any : ∀ es c v c', evalAny d fuel es c = .ok v c' → Same c c'

theorem keeps_ret {α : Type} {x : Except XErr α} {c c' : Ctx} {a : α} (h : ret x c = .ok a c') : Same c c' := by
  obtain ⟨_, rfl⟩ := ret_ok h
  exact .refl

theorem keeps_restore {α : Type} {x : Out α} {c c' : Ctx} {a : α} (h : restore c x = .ok a c') : Same c c' := by
  obtain ⟨_, _, _, h⟩ := bind_ok h
  cases h
  exact ⟨rfl, rfl, rfl⟩

theorem keeps (fuel : Nat) : KeepsAt d fuel := by
  induction fuel with
  | zero =>
    refine ⟨?_, ?_, ?_⟩
    · intro _ _ _ _ _ h; simp [eval] at h
    · intro _ _ _ _ h; simp [evalArgs] at h
    · intro _ _ _ _ h; simp [evalAny] at h
  | succ fuel ih =>
    refine ⟨?_, ?_, ?_⟩
    · intro m e c v c' h
      cases e with
      | lit b s => exact keeps_ret h
      | var x => exact keeps_ret h
      | position => exact keeps_ret h
      | last => exact keeps_ret h
      | fn ty f args =>
        simp only [eval] at h
        obtain ⟨vs, c1, h1, h⟩ := bind_ok h
        have hs := ih.args _ _ _ _ h1
        cases hf : f vs with
        | error e => rw [hf] at h; cases h
        | ok u => rw [hf] at h; exact hs.trans (keeps_ret h)
      | and a b =>
        simp only [eval] at h
        obtain ⟨u, c1, h1, h⟩ := bind_ok h
        have hs := ih.eval _ _ _ _ _ h1
        split at h
        · obtain ⟨w, c2, h2, h⟩ := bind_ok h
          exact hs.trans ((ih.eval _ _ _ _ _ h2).trans (keeps_ret h))
        · exact hs.trans (keeps_ret h)
      | or a b =>
        simp only [eval] at h
        obtain ⟨u, c1, h1, h⟩ := bind_ok h
        have hs := ih.eval _ _ _ _ _ h1
        split at h
        · exact hs.trans (keeps_ret h)
        · obtain ⟨w, c2, h2, h⟩ := bind_ok h
          exact hs.trans ((ih.eval _ _ _ _ _ h2).trans (keeps_ret h))
      | cmp op a b =>
        simp only [eval] at h
        obtain ⟨u, c1, h1, h⟩ := bind_ok h
        obtain ⟨w, c2, h2, h⟩ := bind_ok h
        have hs := (ih.eval _ _ _ _ _ h1).trans (ih.eval _ _ _ _ _ h2)
        cases hf : compareVals d op u w with
        | error e => rw [hf] at h; cases h
        | ok u => rw [hf] at h; exact hs.trans (keeps_ret h)
      | path ab steps => cases m <;> exact keeps_restore h
      | union es =>
        cases m
        case bool => exact ih.any _ _ _ _ h
        all_goals exact keeps_restore h
      | filter e preds => cases m <;> exact keeps_restore h
      | pathFrom e steps => cases m <;> exact keeps_restore h
    · intro as c vs c' h
      cases as with
      | nil => cases h; exact .refl
      | cons a as =>
        obtain ⟨m, e⟩ := a
        simp only [evalArgs] at h
        obtain ⟨u, c1, h1, h⟩ := bind_ok h
        obtain ⟨w, c2, h2, h⟩ := bind_ok h
        cases h
        exact (ih.eval _ _ _ _ _ h1).trans (ih.args _ _ _ _ h2)
    · intro es c v c' h
      cases es with
      | nil => cases h; exact .refl
      | cons e es =>
        simp only [evalAny] at h
        obtain ⟨u, c1, h1, h⟩ := bind_ok h
        split at h
        · cases h; exact ih.eval _ _ _ _ _ h1
        · exact (ih.eval _ _ _ _ _ h1).trans (ih.any _ _ _ _ h)

/-- C52: after an evaluation that returns, the context has the node, position and size it had before;
for every expression, although predicates, paths and unions change all three while they run. -/
theorem C52 {m : Mode} {e : Expr} {c c' : Ctx} {v : EVal} (h : Evaluates d m e c v c') :
    c'.node = c.node ∧ c'.position = c.position ∧ c'.size = c.size := by
  obtain ⟨fuel, h⟩ := h
  exact (keeps fuel).eval _ _ _ _ _ h

/-- Non-vacuity: a predicate that changes node, position and size while it runs. -/
example : Evaluates sample .any (.path true [desc .any [.cmp .eq .position .last]]) ⟨6, 5, 9, 6⟩ (.nodes [3])
    ⟨6, 5, 9, 6⟩ := ⟨40, by decide +kernel⟩

/-! C53 -/

/-- C53: evaluation of any expression by any method in any context returns or raises. -/
theorem C53_ends (w : WF d.h) (m : Mode) (e : Expr) (c : Ctx) :
    (∃ v c', Evaluates d m e c v c') ∨ ∃ x, Raises d m e c x := by
  obtain ⟨k, hk⟩ := (term w e).1 m c
  cases h : eval d k m e c with
  | stuck => exact absurd h hk
  | raise x => exact .inr ⟨x, k, h⟩
  | ok v c' => exact .inl ⟨v, c', k, h⟩

theorem outcome_unique {m : Mode} {e : Expr} {c : Ctx} {k k' : Nat} (h : eval d k m e c ≠ .stuck)
    (h' : eval d k' m e c ≠ .stuck) : eval d k m e c = eval d k' m e c := by
  rcases Nat.le_total k k' with hk | hk
  · exact (eval_more hk h).symm
  · exact eval_more hk h'

/-- C53: there is one outcome. -/
theorem C53_unique {m : Mode} {e : Expr} {c : Ctx} :
    (∀ v v' c1 c2, Evaluates d m e c v c1 → Evaluates d m e c v' c2 → v = v' ∧ c1 = c2) ∧
    (∀ v c1 x, Evaluates d m e c v c1 → ¬ Raises d m e c x) ∧
    (∀ x y, Raises d m e c x → Raises d m e c y → x = y) := by
  refine ⟨?_, ?_, ?_⟩
  · rintro v v' c1 c2 ⟨k, h⟩ ⟨k', h'⟩
    have := outcome_unique (d := d) (m := m) (e := e) (c := c) (k := k) (k' := k') (by simp [h]) (by simp [h'])
    rw [h, h'] at this
    cases this
    exact ⟨rfl, rfl⟩
  · rintro v c1 x ⟨k, h⟩ ⟨k', h'⟩
    have := outcome_unique (d := d) (m := m) (e := e) (c := c) (k := k) (k' := k') (by simp [h]) (by simp [h'])
    rw [h, h'] at this
    cases this
  · rintro x y ⟨k, h⟩ ⟨k', h'⟩
    have := outcome_unique (d := d) (m := m) (e := e) (c := c) (k := k) (k' := k') (by simp [h]) (by simp [h'])
    rw [h, h'] at this
    cases this
    rfl

/-- Non-vacuity: the heap of the sample is well formed, and there is an expression that returns and one
that raises. -/
example : WF sample.h ∧
    Evaluates sample .any (.path true [desc .any, .mk (.tree .preceding) .any [.last]]) top (.nodes [4, 5])
      ⟨0, 1, 1, 4⟩ ∧
    Raises sample .any (.path true [kids [num (s!! "0")]]) top .valueError :=
  ⟨sample_wf.wf, ⟨40, by decide +kernel⟩, ⟨40, by decide +kernel⟩⟩

end Verif.Eval
