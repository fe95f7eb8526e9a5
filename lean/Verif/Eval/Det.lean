import Verif.Eval.AxisLemmas

/-
The meaning of an expression is unique.
-/
namespace Verif.Eval
open Verif Verif.XPath Verif.Dom Verif.Dom.Spec Verif.Eval.Spec

variable {d : Doc} {r : Nat}

theorem keep_sublist {T : Nat → Nat → Prop} {l : List Nat} {p : Nat} : (keep T p l).Sublist l := by
  induction l generalizing p with
  | nil => simp [keep]
  | cons n l ih =>
    unfold keep
    split
    · exact ih.cons_cons n
    · exact ih.cons n

theorem keep_congr {T T' : Nat → Nat → Prop} {l : List Nat} {p : Nat}
    (hT : ∀ n q, n ∈ l → p ≤ q → q < p + l.length → (T n q ↔ T' n q)) : keep T p l = keep T' p l := by
  induction l generalizing p with
  | nil => rfl
  | cons n l ih =>
    have h1 := hT n p (by simp) (Nat.le_refl _) (by simp)
    have h2 := ih (p := p + 1) (fun n q hn hq hq' =>
      hT n q (by simp [hn]) (by omega) (by simp only [List.length_cons]; omega))
    unfold keep
    rw [h2]
    by_cases h3 : T n p
    · rw [if_pos h3, if_pos (h1.1 h3)]
    · rw [if_neg h3, if_neg (fun h4 => h3 (h1.2 h4))]

theorem converts_det {m : Mode} {w v v' : EVal} (h1 : Converts d m w v) (h2 : Converts d m w v') :
    v = v' := by
  cases m with
  | any => exact Eq.trans h1 h2.symm
  | bool =>
    obtain ⟨b, rfl, h1⟩ := h1
    obtain ⟨b', rfl, h2⟩ := h2
    have : b = b' := by rw [Bool.eq_iff_iff, h1, h2]
    rw [this]
  | num =>
    obtain ⟨b, rfl, h1⟩ := h1
    obtain ⟨b', rfl, h2⟩ := h2
    rcases h1 with h1 | ⟨⟨e, h1⟩, rfl⟩ <;> rcases h2 with h2 | ⟨⟨e', h2⟩, rfl⟩
    · rw [h1] at h2; cases h2; rfl
    · rw [h1] at h2; cases h2
    · rw [h1] at h2; cases h2
    · rfl
  | str =>
    obtain ⟨b, rfl, h1⟩ := h1
    obtain ⟨b', rfl, h2⟩ := h2
    rw [h1] at h2; cases h2; rfl
  | nodes => exact h1.1.trans h2.1.symm

mutual
theorem means_det (w : DocWF d r) : ∀ (e : Expr) {n p s : Nat} {v v' : EVal},
    Means d e n p s v → Means d e n p s v' → v = v'
  | .lit true str, n, p, s, v, v', h1, h2 => by
    simp only [Means] at h1 h2
    obtain ⟨x, rfl, h1⟩ := h1
    obtain ⟨x', rfl, h2⟩ := h2
    rcases h1 with h1 | ⟨⟨e, h1⟩, rfl⟩ <;> rcases h2 with h2 | ⟨⟨e', h2⟩, rfl⟩
    · rw [h1] at h2; cases h2; rfl
    · rw [h1] at h2; cases h2
    · rw [h1] at h2; cases h2
    · rfl
  | .lit false str, n, p, s, v, v', h1, h2 => by
    simp only [Means] at h1 h2; rw [h1, h2]
  | .var x, n, p, s, v, v', h1, h2 => by
    simp only [Means] at h1 h2; rw [h1, h2]
  | .position, n, p, s, v, v', h1, h2 => by
    simp only [Means] at h1 h2; rw [h1, h2]
  | .last, n, p, s, v, v', h1, h2 => by
    simp only [Means] at h1 h2; rw [h1, h2]
  | .fn ty f args, n, p, s, v, v', h1, h2 => by
    simp only [Means] at h1 h2
    obtain ⟨vs, a1, f1⟩ := h1
    obtain ⟨vs', a2, f2⟩ := h2
    rw [argsMean_det w args a1 a2, f2] at f1; cases f1; rfl
  | .and l r, n, p, s, v, v', h1, h2 => by
    simp only [Means] at h1 h2
    obtain ⟨a, a1, h1⟩ := h1
    obtain ⟨a', a2, h2⟩ := h2
    have := means_det w l a1 a2; subst this
    rcases h1 with ⟨t1, rfl⟩ | ⟨t1, b, b1, c1⟩ <;> rcases h2 with ⟨t2, rfl⟩ | ⟨t2, b', b2, c2⟩
    · rfl
    · exact absurd t2 t1
    · exact absurd t1 t2
    · have := means_det w r b1 b2; subst this
      exact converts_det c1 c2
  | .or l r, n, p, s, v, v', h1, h2 => by
    simp only [Means] at h1 h2
    obtain ⟨a, a1, h1⟩ := h1
    obtain ⟨a', a2, h2⟩ := h2
    have := means_det w l a1 a2; subst this
    rcases h1 with ⟨t1, rfl⟩ | ⟨t1, b, b1, c1⟩ <;> rcases h2 with ⟨t2, rfl⟩ | ⟨t2, b', b2, c2⟩
    · rfl
    · exact absurd t1 t2
    · exact absurd t2 t1
    · have := means_det w r b1 b2; subst this
      exact converts_det c1 c2
  | .cmp op l r, n, p, s, v, v', h1, h2 => by
    simp only [Means] at h1 h2
    obtain ⟨a, b, a1, b1, h1⟩ := h1
    obtain ⟨a', b', a2, b2, h2⟩ := h2
    have := means_det w l a1 a2; subst this
    have := means_det w r b1 b2; subst this
    rw [h1] at h2; cases h2; rfl
  | .path ab steps, n, p, s, v, v', h1, h2 => by
    simp only [Means] at h1 h2
    obtain ⟨l, rfl, s1, h1⟩ := h1
    obtain ⟨l', rfl, s2, h2⟩ := h2
    rw [sorted_det w s1 s2 (fun x => by rw [h1, h2])]
  | .union es, n, p, s, v, v', h1, h2 => by
    simp only [Means] at h1 h2
    obtain ⟨l, rfl, s1, h1⟩ := h1
    obtain ⟨l', rfl, s2, h2⟩ := h2
    rw [sorted_det w s1 s2 (fun x => by rw [h1, h2])]
  | .filter e preds, n, p, s, v, v', h1, h2 => by
    simp only [Means] at h1 h2
    obtain ⟨l, a1, rfl⟩ := h1
    obtain ⟨l', a2, rfl⟩ := h2
    have := means_det w e a1 a2; cases this
    rfl
  | .pathFrom e steps, n, p, s, v, v', h1, h2 => by
    simp only [Means] at h1 h2
    obtain ⟨l0, l, a1, rfl, s1, h1⟩ := h1
    obtain ⟨l0', l', a2, rfl, s2, h2⟩ := h2
    have := means_det w e a1 a2; cases this
    rw [sorted_det w s1 s2 (fun x => by rw [h1, h2])]

theorem argsMean_det (w : DocWF d r) : ∀ (as : List Arg) {n p s : Nat} {v v' : List EVal},
    ArgsMean d as n p s v → ArgsMean d as n p s v' → v = v'
  | [], n, p, s, v, v', h1, h2 => by
    simp only [ArgsMean] at h1 h2; rw [h1, h2]
  | a :: as, n, p, s, v, v', h1, h2 => by
    simp only [ArgsMean] at h1 h2
    obtain ⟨x, xs, a1, b1, rfl⟩ := h1
    obtain ⟨x', xs', a2, b2, rfl⟩ := h2
    rw [argMeans_det w a a1 a2, argsMean_det w as b1 b2]

theorem argMeans_det (w : DocWF d r) : ∀ (a : Arg) {n p s : Nat} {v v' : EVal},
    ArgMeans d a n p s v → ArgMeans d a n p s v' → v = v'
  | .mk m e, n, p, s, v, v', h1, h2 => by
    simp only [ArgMeans] at h1 h2
    obtain ⟨x, a1, c1⟩ := h1
    obtain ⟨x', a2, c2⟩ := h2
    have := means_det w e a1 a2; subst this
    exact converts_det c1 c2
end

theorem stepSelects_det (w : DocWF d r) {s : LStep} {n : Nat} {k k' : List Nat}
    (h1 : StepSelects d s n k) (h2 : StepSelects d s n k') : k = k' := by
  cases s with
  | mk ax t preds =>
    simp only [StepSelects] at h1 h2
    obtain ⟨l, a1, rfl⟩ := h1
    obtain ⟨l', a2, rfl⟩ := h2
    have := candidates_det w a1 a2; subst this
    rfl

theorem kept_sublist {es : List Expr} {l : List Nat} : (kept d es l).Sublist l := by
  induction es generalizing l with
  | nil => simp [kept]
  | cons e es ih =>
    simp only [kept]
    exact ih.trans keep_sublist

theorem means_as_det (w : DocWF d r) {m : Mode} {e : Expr} {n p s : Nat} {v v' : EVal}
    (h1 : MeansAs d m e n p s v) (h2 : MeansAs d m e n p s v') : v = v' := by
  obtain ⟨x, a1, c1⟩ := h1
  obtain ⟨x', a2, c2⟩ := h2
  have := means_det w e a1 a2; subst this
  exact converts_det c1 c2

end Verif.Eval
