import Verif.Xslt.ExsltStrLemmas

/-
There is one way to divide a string for str:replace.
-/
namespace Verif.Xslt.ExsltStr
open Verif Spec

theorem hitAt_isAt {search : List Str} {ps : List Piece} {k i : Nat} {w s : Str} (h : HitAt search ps k i)
    (hi : search[i]? = some w) (hs : source search ps = s) : IsAt w s k := by
  obtain ⟨a, b, rfl, hk⟩ := h
  refine ⟨source search a, source search b, ?_, hk⟩
  rw [← hs, source_append, source_cons]
  simp [Piece.source, List.getD, hi]

theorem hits_disjoint {search : List Str} {ps : List Piece} {k i k' i' : Nat} {w w' : Str}
    (h : HitAt search ps k i) (h' : HitAt search ps k' i') (hi : search[i]? = some w) (hi' : search[i']? = some w') :
    (k = k' ∧ i = i') ∨ k + w.length ≤ k' ∨ k' + w'.length ≤ k := by
  obtain ⟨a, b, rfl, rfl⟩ := h
  obtain ⟨a', b', e, rfl⟩ := h'
  rcases List.append_eq_append_iff.mp e with ⟨c, h1, h2⟩ | ⟨c, h1, h2⟩
  · cases c with
    | nil =>
      simp only [List.nil_append, List.cons.injEq, Piece.hit.injEq] at h2
      left; exact ⟨by simp [h1], h2.1⟩
    | cons p c =>
      simp only [List.cons_append, List.cons.injEq] at h2
      right; left
      rw [h1, source_append, source_cons, ← h2.1]
      simp [Piece.source, List.getD, hi]
  · cases c with
    | nil =>
      simp only [List.nil_append, List.cons.injEq, Piece.hit.injEq] at h2
      left; exact ⟨by simp [h1], h2.1.symm⟩
    | cons p c =>
      simp only [List.cons_append, List.cons.injEq] at h2
      right; right
      rw [h1, source_append, source_cons, ← h2.1]
      simp [Piece.source, List.getD, hi']

theorem hit_mem {search : List Str} {ps : List Piece} {k i : Nat} (h : HitAt search ps k i) : Piece.hit i ∈ ps := by
  obtain ⟨a, b, rfl, -⟩ := h; simp

theorem hit_of_hit {search : List Str} {s : Str} {N : Nat} (hN : ∀ w ∈ search, w.length ≤ N) {ps ps' : List Piece}
    (D : Divided search s ps) (D' : Divided search s ps') (k i : Nat) (h : HitAt search ps k i) :
    HitAt search ps' k i := by
  obtain ⟨w, hi, hw⟩ := D.proper i (hit_mem h)
  obtain ⟨k', i', w', hh, hi', o1, o2, ord⟩ := D'.greedy i w k hi hw (hitAt_isAt h hi D.whole)
  have hl : w.length ≤ N := hN w (List.mem_of_getElem? hi)
  have hl' : w'.length ≤ N := hN w' (List.mem_of_getElem? hi')
  by_cases hsame : k' = k ∧ i' = i
  · obtain ⟨rfl, rfl⟩ := hsame; exact hh
  · have hsmall : Prod.Lex (· < ·) (Prod.Lex (· < ·) (· < ·)) (N - (search.getD i' []).length, i', k')
        (N - (search.getD i []).length, i, k) := by
      have e1 : search.getD i [] = w := by simp [List.getD, hi]
      have e2 : search.getD i' [] = w' := by simp [List.getD, hi']
      unfold Before at ord
      rw [e1, e2] at ord
      rw [e1, e2]
      rcases ord with (hlt | ⟨heq, hlt⟩) | ⟨rfl, hle⟩
      · exact Prod.Lex.left _ _ (by omega)
      · rw [heq]; exact Prod.Lex.right _ (Prod.Lex.left _ _ hlt)
      · have : w = w' := by rw [hi] at hi'; simpa using hi'
        subst this
        exact Prod.Lex.right _ (Prod.Lex.right _ (by omega))
    have hback := hit_of_hit hN D' D k' i' hh
    rcases hits_disjoint h hback hi hi' with ⟨h1, h2⟩ | h1 | h1
    · exact absurd ⟨h1.symm, h2.symm⟩ hsame
    · omega
    · omega
termination_by (N - (search.getD i []).length, i, k)
decreasing_by exact hsmall

theorem hitAt_cons {search : List Str} {p : Piece} {ps : List Piece} {k i : Nat} (hp : p.source search ≠ []) :
    HitAt search (p :: ps) ((p.source search).length + k) i ↔ HitAt search ps k i := by
  constructor
  · rintro ⟨a, b, e, hk⟩
    cases a with
    | nil =>
      have := List.length_pos_iff.mpr hp
      simp [source] at hk; omega
    | cons q a =>
      simp only [List.cons_append, List.cons.injEq] at e
      obtain ⟨rfl, rfl⟩ := e
      refine ⟨a, b, rfl, ?_⟩
      rw [source_cons] at hk
      simp at hk; omega
  · rintro ⟨a, b, rfl, hk⟩
    exact ⟨p :: a, b, rfl, by rw [source_cons]; simp [hk]⟩

theorem hitAt_zero {search : List Str} {p : Piece} {ps : List Piece} {i : Nat} (hp : p.source search ≠ []) :
    HitAt search (p :: ps) 0 i ↔ p = .hit i := by
  constructor
  · rintro ⟨a, b, e, hk⟩
    cases a with
    | nil => simp only [List.nil_append, List.cons.injEq] at e; exact e.1
    | cons q a =>
      simp only [List.cons_append, List.cons.injEq] at e
      obtain ⟨rfl, rfl⟩ := e
      have := List.length_pos_iff.mpr hp
      rw [source_cons, List.length_append] at hk
      omega
  · rintro rfl
    exact ⟨[], ps, rfl, rfl⟩

theorem pieces_ext {search : List Str} {ps ps' : List Piece} (hs : source search ps = source search ps')
    (hne : ∀ p ∈ ps, p.source search ≠ []) (hne' : ∀ p ∈ ps', p.source search ≠ [])
    (hh : ∀ k i, HitAt search ps k i ↔ HitAt search ps' k i) : ps = ps' := by
  induction ps generalizing ps' with
  | nil =>
    cases ps' with
    | nil => rfl
    | cons p ps' =>
      rw [source_cons] at hs
      have := hne' p List.mem_cons_self
      simp [source] at hs
      exact absurd hs.1 this
  | cons p ps ih =>
    have hp := hne p List.mem_cons_self
    cases ps' with
    | nil =>
      rw [source_cons] at hs
      simp [source] at hs
      exact absurd hs.1 hp
    | cons p' ps' =>
      have hp' := hne' p' List.mem_cons_self
      have hpp : p = p' := by
        cases p with
        | hit i => exact ((hitAt_zero hp').mp ((hh 0 i).mp ((hitAt_zero hp).mpr rfl))).symm
        | kept c =>
          cases p' with
          | hit i => exact (hitAt_zero hp).mp ((hh 0 i).mpr ((hitAt_zero hp').mpr rfl))
          | kept d =>
            rw [source_cons, source_cons] at hs
            simp only [Piece.source, List.cons_append, List.cons.injEq] at hs
            rw [hs.1]
      subst hpp
      congr 1
      refine ih ?_ (fun q hq => hne q (List.mem_cons_of_mem _ hq)) (fun q hq => hne' q (List.mem_cons_of_mem _ hq)) ?_
      · rw [source_cons, source_cons] at hs
        exact List.append_cancel_left hs
      · intro k i
        rw [← hitAt_cons hp, hh, hitAt_cons hp]

theorem divided_source {search : List Str} {s : Str} {ps : List Piece} (D : Divided search s ps) :
    ∀ p ∈ ps, p.source search ≠ [] := by
  intro p hp
  cases p with
  | kept c => simp [Piece.source]
  | hit i =>
    obtain ⟨w, hi, hw⟩ := D.proper i hp
    simpa [Piece.source, List.getD, hi] using hw

theorem divided_unique {search : List Str} {s : Str} {ps ps' : List Piece} (D : Divided search s ps)
    (D' : Divided search s ps') : ps = ps' := by
  obtain ⟨N, hN⟩ : ∃ N, ∀ w ∈ search, w.length ≤ N := by
    clear D D'
    induction search with
    | nil => exact ⟨0, by simp⟩
    | cons w l ih =>
      obtain ⟨N, h⟩ := ih
      refine ⟨N + w.length, ?_⟩
      intro x hx
      rcases List.mem_cons.mp hx with rfl | hx
      · omega
      · have := h x hx; omega
  exact pieces_ext (D.whole.trans D'.whole.symm) (divided_source D) (divided_source D')
    (fun k i => ⟨hit_of_hit hN D D' k i, hit_of_hit hN D' D k i⟩)

end Verif.Xslt.ExsltStr
