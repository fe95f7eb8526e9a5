import Verif.Dom.Unwrap
import Verif.Dom.EditProps
/-
C98: unwrapping elements.
-/
namespace Verif.Dom.Unwrap
open Verif.Dom Verif.Dom.Spec

theorem index_split : ∀ {l : List NodeId} {c : NodeId}, c ∈ l →
    ∃ l1 l2, l = l1 ++ c :: l2 ∧ c ∉ l1 ∧ index l c = some l1.length
  | x :: xs, c, h => by
    by_cases e : x = c
    · exact ⟨[], xs, by rw [e]; rfl, by simp, by simp [index, e]⟩
    · have hc : c ∈ xs := by
        rcases List.mem_cons.1 h with h | h
        · exact absurd h.symm e
        · exact h
      obtain ⟨l1, l2, h1, h2, h3⟩ := index_split hc
      refine ⟨x :: l1, l2, by rw [h1]; rfl, ?_, by simp [index, e, h3]⟩
      simp only [List.mem_cons, not_or]
      exact ⟨fun h => e h.symm, h2⟩

/-- Ancestors of a node whose line of parents has not changed. -/
theorem anc_back {h h' : Heap} {p : NodeId} (hp : ∀ x, AncS h x p → h'.parent x = h.parent x) {a b : NodeId}
    (hab : Anc h' a b) : AncS h b p → Anc h a p := by
  induction hab with
  | parent h1 =>
    intro hb
    exact anc_cons (by rw [← hp _ hb]; exact h1) hb
  | step _ h1 ih =>
    intro hb
    exact ih (.inr (anc_cons (by rw [← hp _ hb]; exact h1) hb))

/-- Between the insertions. -/
structure Mid (h0 : Heap) (e p : NodeId) (l1 l2 done todo : List NodeId) (h : Heap) : Prop where
  wf : WF h
  size : h.size = h0.size
  kind : h.kind = h0.kind
  kids_p : h.kids p = l1 ++ done ++ l2
  kids_e : h.kids e = todo
  kids : ∀ x, x ≠ p → x ≠ e → h.kids x = h0.kids x
  parent_e : h.parent e = none
  moved : ∀ x ∈ done, h.parent x = some p
  parent : ∀ x, x ≠ e → x ∉ done → h.parent x = h0.parent x

theorem insertAll_ok {h0 : Heap} (w0 : WF h0) {e p : NodeId} (he : h0.parent e = some p) (l1 l2 : List NodeId) :
    ∀ (todo done : List NodeId) (h : Heap), (∀ x ∈ done, h0.parent x = some e) → Mid h0 e p l1 l2 done todo h →
      ∃ h', insertAll h p (l1.length + done.length) todo = .ok h' p ∧ Mid h0 e p l1 l2 (done ++ todo) [] h'
  | [], done, h, _, m => ⟨h, rfl, by rw [List.append_nil]; exact m⟩
  | c :: cs, done, h, hd, m => by
    have hep : e ≠ p := fun hx => w0.acyclic e (.parent (by rw [he, ← hx]))
    have hce : h.parent c = some e := m.wf.kids_parent _ _ (by rw [m.kids_e]; simp)
    have hcp : h.parent c ≠ some p := by rw [hce]; intro hx; injection hx with hx; exact hep hx
    have hne : c ≠ e := by rintro rfl; rw [m.parent_e] at hce; cases hce
    have hcd : c ∉ done := fun hx => hcp (m.moved c hx)
    have hc0 : h0.parent c = some e := by rw [← m.parent c hne hcd]; exact hce
    have below : ∀ x, AncS h0 x p → x ≠ e ∧ h0.parent x ≠ some e := by
      intro x hx
      constructor
      · rintro rfl
        rcases hx with hx | hx
        · exact hep hx
        · exact w0.acyclic x (.step hx he)
      · intro hxe
        exact w0.acyclic e (.step (anc_cons hxe hx) he)
    have hns : ¬AncS h c p := by
      rintro (hx | hx)
      · subst hx
        exact (below c (.inl rfl)).2 hc0
      · have := anc_back (h := h0) (fun x hx => m.parent x (below x hx).1 (fun hxd => (below x hx).2 (hd x hxd))) hx (.inl rfl)
        exact (below c (.inr this)).2 hc0
    have hsz := m.wf.bounded _ _ hce
    have hck := m.wf.child_kind e c (by rw [m.kids_e]; simp)
    have hps : isContainer (h.kind p) = true := by rw [m.kind]; exact w0.parent_kind _ _ he
    obtain ⟨h', k1, k2, hrun, hk, hlen, hkids, hpar, ho⟩ :=
      C14_insert_partial m.wf (i := ((l1.length + done.length : Nat) : Int)) hcp hps hck hns
    have w' : WF h' := by
      rcases legal_step m.wf (.insert p ((l1.length + done.length : Nat) : Int) c)
        ⟨by rw [m.size]; exact (w0.bounded _ _ he).2, hsz.1, hcp⟩ with ⟨h2, r2, w2⟩ | ⟨err, r2⟩
      · rw [hrun] at r2; injection r2 with r2; rw [r2]; exact w2
      · rw [hrun] at r2; cases r2
    have hk1 : k1 = l1 ++ done ∧ k2 = l2 := by
      rw [m.kids_p] at hk hlen
      have hl : k1.length = (l1 ++ done).length := by
        simp only [position, List.length_append] at hlen ⊢
        split at hlen <;> omega
      exact List.append_inj hk.symm hl
    have m' : Mid h0 e p l1 l2 (done ++ [c]) cs h' := by
      refine ⟨w', by rw [ho.size, m.size], by rw [ho.kind, m.kind], ?_, ?_, ?_, ?_, ?_, ?_⟩
      · rw [hkids, hk1.1, hk1.2]; simp
      · rw [ho.kids e hep, m.kids_e]
        have hnd := m.wf.nodup e
        rw [m.kids_e] at hnd
        have hnd := List.nodup_cons.1 hnd
        rw [List.filter_cons_of_neg (by simp)]
        exact List.filter_eq_self.2 fun x hx => by
          simp; rintro rfl; exact hnd.1 hx
      · intro x hxp hxe
        rw [ho.kids x hxp, m.kids x hxp hxe]
        exact List.filter_eq_self.2 fun y hy => by
          simp; rintro rfl
          have := w0.kids_parent _ _ hy
          rw [hc0] at this; injection this with this; exact hxe this.symm
      · rw [ho.parent e (fun hx => hne hx.symm), m.parent_e]
      · intro x hx
        rcases List.mem_append.1 hx with hx | hx
        · by_cases hxc : x = c
          · rw [hxc]; exact hpar
          · rw [ho.parent x hxc]; exact m.moved x hx
        · rw [List.mem_singleton.1 hx]; exact hpar
      · intro x hxe hxd
        simp only [List.mem_append, List.mem_singleton, not_or] at hxd
        rw [ho.parent x hxd.2]; exact m.parent x hxe hxd.1
    obtain ⟨h'', r, m''⟩ := insertAll_ok w0 he l1 l2 cs (done ++ [c]) h' (by
      intro x hx
      rcases List.mem_append.1 hx with hx | hx
      · exact hd x hx
      · rw [List.mem_singleton.1 hx]; exact hc0) m'
    refine ⟨h'', ?_, by rw [List.append_assoc] at m''; exact m''⟩
    have r' : insertAll h' p (l1.length + done.length + 1) cs = .ok h'' p := by
      rw [← r]; simp [Nat.add_assoc]
    show (match (Edit.insert p ((l1.length + done.length : Nat) : Int) c).run h with
      | .ok h' => insertAll h' p (l1.length + done.length + 1) cs
      | .raised e => .raised e
      | .undefined => .undefined) = _
    rw [hrun]
    exact r'

/-- **C98**: unwrapping an element that has a parent returns the parent, where the children of the element, in order,
have taken its place; the element has neither children nor parent then; and no other node has moved, or changed
its children. -/
theorem C98_unwrap {h : Heap} (w : WF h) {e p : NodeId} (hk : h.kind e = .element) (hp : h.parent e = some p) :
    ∃ h', unwrap h e = .ok h' p ∧ WF h' ∧
      (∃ before after, h.kids p = before ++ e :: after ∧ h'.kids p = before ++ h.kids e ++ after) ∧
      h'.parent e = none ∧ h'.kids e = [] ∧
      (∀ x ∈ h.kids e, h'.parent x = some p) ∧
      (∀ x, x ≠ e → x ∉ h.kids e → h'.parent x = h.parent x) ∧
      (∀ x, x ≠ p → x ≠ e → h'.kids x = h.kids x) ∧
      h'.size = h.size ∧ h'.kind = h.kind := by
  have hmem : e ∈ h.kids p := w.parent_kids _ _ hp (by rw [hk]; rfl)
  have hep : e ≠ p := fun hx => w.acyclic e (.parent (by rw [hp, ← hx]))
  obtain ⟨l1, l2, hl, hnot, hidx⟩ := index_split hmem
  obtain ⟨h1, hrun, hkids, hpar, ho⟩ := (C14_remove w (w.parent_kind _ _ hp)).1 hmem
  have w1 : WF h1 := by
    rcases legal_step w (.remove p e) trivial with ⟨h2, r2, w2⟩ | ⟨err, r2⟩
    · rw [hrun] at r2; injection r2 with r2; rw [r2]; exact w2
    · rw [hrun] at r2; cases r2
  have hother : ∀ x, x ≠ p → h1.kids x = h.kids x := by
    intro x hx
    rw [ho.kids x hx]
    exact List.filter_eq_self.2 fun y hy => by
      simp; rintro rfl
      have := w.kids_parent _ _ hy
      rw [hp] at this; injection this with this; exact hx this.symm
  have m : Mid h e p l1 l2 [] (h.kids e) h1 := by
    refine ⟨w1, ho.size, ho.kind, ?_, hother e hep, fun x hx _ => hother x hx, hpar, by simp, fun x hx _ => ho.parent x hx⟩
    have hnd := w.nodup p
    rw [hl, List.nodup_append] at hnd
    have hnd2 := List.nodup_cons.1 hnd.2.1
    rw [hkids, hl, List.filter_append, List.filter_cons_of_neg (by simp), List.append_nil]
    congr 1
    · exact List.filter_eq_self.2 fun y hy => by simp; rintro rfl; exact hnot hy
    · exact List.filter_eq_self.2 fun y hy => by simp; rintro rfl; exact hnd2.1 hy
  obtain ⟨h', r, m'⟩ := insertAll_ok w hp l1 l2 (h.kids e) [] h1 (by simp) m
  refine ⟨h', ?_, m'.wf, ⟨l1, l2, hl, ?_⟩, m'.parent_e, m'.kids_e, ?_, ?_, m'.kids, m'.size, m'.kind⟩
  · simp only [unwrap, hk, hp, hidx, hrun, isContainer, if_true]
    exact r
  · simpa using m'.kids_p
  · simpa using m'.moved
  · simpa using m'.parent

/-- **C98**, an element without parent, and what cannot have children, is refused, and nothing happens. -/
theorem C98_refused {h : Heap} {e : NodeId} (hn : h.parent e = none ∨ isContainer (h.kind e) = false) :
    unwrap h e = .attribute := by
  unfold unwrap
  rcases hn with hn | hn
  · split
    · rw [hn]
    · rfl
  · rw [hn]; rfl

/-- `<a><x/><b><c/>t</b><y/></a>`: a 0, x 1, b 2, c 3, t 4, y 5. -/
def sample : Heap :=
  { size := 6
    kind := fun n => if n = 4 then .text else .element
    parent := fun n => if n = 1 ∨ n = 2 ∨ n = 5 then some 0 else if n = 3 ∨ n = 4 then some 2 else none
    kids := fun n => if n = 0 then [1, 2, 5] else if n = 2 then [3, 4] else [] }

theorem sample_parent {x y : NodeId} (h : sample.parent x = some y) :
    ((x = 1 ∨ x = 2 ∨ x = 5) ∧ y = 0) ∨ ((x = 3 ∨ x = 4) ∧ y = 2) := by
  simp only [sample] at h
  repeat' split at h
  all_goals simp_all

theorem sample_wf : WF sample := by
  refine ⟨?_, ?_, ?_, ?_, ?_, ?_, ?_, ?_⟩
  · intro p c hc
    simp only [sample] at hc
    repeat' split at hc
    · subst p; simp at hc; rcases hc with rfl | rfl | rfl <;> rfl
    · subst p; simp at hc; rcases hc with rfl | rfl <;> rfl
    · simp at hc
  · intro p c hp hk
    rcases sample_parent hp with ⟨rfl | rfl | rfl, rfl⟩ | ⟨rfl | rfl, rfl⟩ <;> simp [sample]
  · intro p; simp only [sample]; repeat' split
    all_goals simp
  · intro p c _
    simp only [sample]; split <;> rfl
  · intro p c hp
    rcases sample_parent hp with ⟨_, rfl⟩ | ⟨_, rfl⟩ <;> rfl
  · intro c hc
    simp only [sample] at hc
    split at hc <;> cases hc
  · intro a ha
    have key : ∀ x y, Anc sample x y → x < y := by
      intro x y h
      induction h with
      | parent hp => rcases sample_parent hp with ⟨rfl | rfl | rfl, rfl⟩ | ⟨rfl | rfl, rfl⟩ <;> omega
      | step _ hp ih => rcases sample_parent hp with ⟨rfl | rfl | rfl, rfl⟩ | ⟨rfl | rfl, rfl⟩ <;> omega
    exact Nat.lt_irrefl _ (key a a ha)
  · intro p c hp
    rcases sample_parent hp with ⟨rfl | rfl | rfl, rfl⟩ | ⟨rfl | rfl, rfl⟩ <;> simp [sample]

/-- The hypotheses of `C98_unwrap` are met, and what comes out. -/
example : WF sample ∧ sample.kind 2 = .element ∧ sample.parent 2 = some 0 := ⟨sample_wf, rfl, rfl⟩

def seen : Out → List (List NodeId)
  | .ok h p => [[p], h.kids 0, h.kids 2, (h.parent 3).toList, (h.parent 4).toList, (h.parent 2).toList]
  | _ => []

example : seen (unwrap sample 2) = [[0], [1, 3, 4, 5], [], [0], [0], []] := by decide +kernel

end Verif.Dom.Unwrap
