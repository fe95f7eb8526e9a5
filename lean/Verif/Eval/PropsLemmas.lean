import Verif.Eval.Sample

/-
Lemmas for Verif.Eval.Props: the candidates of a step exist; what `keep` keeps, by index.
-/
namespace Verif.Eval
open Verif Verif.XPath Verif.Dom Verif.Dom.Spec Verif.Eval.Spec

variable {d : Doc} {r : Nat}

theorem inDoc_bound (w : DocWF d r) {x : Nat} (hx : InDoc d r x) : x = r ∨ x < d.h.size := by
  rcases hx.1.1 with h | h
  · exact .inl h.symm
  · cases h with
    | parent hp => exact .inr (w.wf.bounded _ _ hp).1
    | step _ hp => exact .inr (w.wf.bounded _ _ hp).1

open Classical in
theorem candidates_exist (w : DocWF d r) (ax : LAxis) (t : NodeTest) {n : Nat} (hn : InDoc d r n) :
    ∃ l, Candidates d ax t n l := by
  obtain ⟨m, hs, hm⟩ := exists_sorted w
    ((r :: List.range d.h.size).filter fun x => decide (OnLAxis d n x ax ∧ Matches d ax x t))
    (fun x hx => by
      have := (List.mem_filter.1 hx).2
      exact onLAxis_inDoc w hn (of_decide_eq_true this).1)
  have hm' : ∀ x, x ∈ m ↔ OnLAxis d n x ax ∧ Matches d ax x t := by
    intro x
    rw [hm, List.mem_filter, decide_eq_true_iff]
    refine ⟨fun h => h.2, fun h => ⟨?_, h⟩⟩
    rcases inDoc_bound w (onLAxis_inDoc w hn h.1) with rfl | h
    · exact List.mem_cons_self
    · exact List.mem_cons_of_mem _ (List.mem_range.2 h)
  cases hr : ax.reverse with
  | false => exact ⟨m, hm', by rw [hr]; exact hs⟩
  | true =>
    refine ⟨m.reverse, fun x => by rw [List.mem_reverse]; exact hm' x, ?_⟩
    rw [hr]
    exact List.pairwise_reverse.2 hs

open Classical in
theorem keep_step {T : Nat → Nat → Prop} {l : List Nat} {p n : Nat} :
    keep T p (n :: l) = if T n p then n :: keep T (p + 1) l else keep T (p + 1) l := by
  simp only [keep]

theorem keep_mem {T : Nat → Nat → Prop} {l : List Nat} {p x : Nat} :
    x ∈ keep T p l ↔ ∃ i, l[i]? = some x ∧ T x (p + i) := by
  induction l generalizing p with
  | nil => simp [keep]
  | cons n l ih =>
    have tail : (∃ i, l[i]? = some x ∧ T x (p + 1 + i)) ↔ ∃ i, (n :: l)[i + 1]? = some x ∧ T x (p + (i + 1)) := by
      constructor <;> rintro ⟨i, h1, h2⟩ <;> refine ⟨i, by simpa using h1, ?_⟩
      · rwa [show p + (i + 1) = p + 1 + i by omega]
      · rwa [show p + 1 + i = p + (i + 1) by omega]
    have split : (∃ i, (n :: l)[i]? = some x ∧ T x (p + i)) ↔
        (x = n ∧ T x p) ∨ ∃ i, (n :: l)[i + 1]? = some x ∧ T x (p + (i + 1)) := by
      constructor
      · rintro ⟨i, h1, h2⟩
        cases i with
        | zero => simp at h1; exact .inl ⟨h1.symm, h2⟩
        | succ i => exact .inr ⟨i, h1, h2⟩
      · rintro (⟨rfl, h⟩ | ⟨i, h1, h2⟩)
        · exact ⟨0, by simp, h⟩
        · exact ⟨i + 1, h1, h2⟩
    rw [split, ← tail, ← ih, keep_step]
    by_cases hT : T n p
    · rw [if_pos hT, List.mem_cons]
      constructor
      · rintro (rfl | h)
        · exact .inl ⟨rfl, hT⟩
        · exact .inr h
      · rintro (⟨rfl, _⟩ | h)
        · exact .inl rfl
        · exact .inr h
    · rw [if_neg hT]
      exact ⟨.inr, fun h => h.elim (fun h => absurd (h.1 ▸ h.2) hT) id⟩

theorem candidates_nodup (w : DocWF d r) {ax : LAxis} {t : NodeTest} {n : Nat} {l : List Nat}
    (h : Candidates d ax t n l) : l.Nodup := by
  have h2 := h.2
  split at h2
  · exact h2.imp (by rintro a b hab rfl; exact docBefore_irrefl w hab)
  · exact h2.imp (by rintro a b hab rfl; exact docBefore_irrefl w hab)

/-- The node of the list at an index is kept iff `T` holds there. -/
theorem keep_index {T : Nat → Nat → Prop} {l : List Nat} (hn : l.Nodup) {i x : Nat} (hi : l[i]? = some x) :
    x ∈ keep T 1 l ↔ T x (i + 1) := by
  rw [keep_mem]
  constructor
  · rintro ⟨j, hj, hT⟩
    have : j = i := nodup_index hn hj hi
    subst this
    rwa [Nat.add_comm] at hT
  · intro h; exact ⟨i, hi, by rwa [Nat.add_comm]⟩

end Verif.Eval
