import Verif.XUpdate.Lemmas
import Verif.Dom.AxesLemmas

/-
Lemmas for C71: the loops that move and remove nodes.
-/
namespace Verif.XUpdate
open Verif Verif.Dom Verif.Dom.Spec Verif.XUpdate.Spec

/-- Only `h` changes and the attribute nodes keep their parents. -/
theorem ok_with {s : St} (o : Ok s) {h' : Heap} (w : WF h') (hk : h'.kind = s.h.kind)
    (hp : ∀ a, s.h.kind a = .attr → h'.parent a = s.h.parent a) : Ok { s with h := h' } := by
  refine ⟨w, ?_, o.nodup⟩
  intro e a
  show a ∈ s.attrs e ↔ h'.kind a = .attr ∧ h'.parent a = some e
  rw [o.attr, hk]
  constructor
  · rintro ⟨h1, h2⟩; exact ⟨h1, by rw [hp a h1]; exact h2⟩
  · rintro ⟨h1, h2⟩; exact ⟨h1, by rw [← hp a h1]; exact h2⟩

theorem closed_anc {h : Heap} {P : NodeId → Prop} (hcl : ∀ x y, P x → h.parent x = some y → P y)
    {a b : NodeId} (h1 : Anc h a b) : P b → P a := by
  induction h1 with
  | parent hp => exact fun hb => hcl _ _ hb hp
  | step _ hp ih => exact fun hb => ih (hcl _ _ hb hp)

theorem idxOf_split {l1 l2 : List NodeId} {r : NodeId} (hn : r ∉ l1) :
    (l1 ++ r :: l2).idxOf? r = some l1.length := by
  induction l1 with
  | nil => simp [List.idxOf?_cons]
  | cons a l ih =>
    have h1 : (a == r) = false := by
      rw [beq_eq_false_iff_ne]; rintro rfl; exact hn (.head _)
    rw [List.cons_append, List.idxOf?_cons, h1, ih (fun h => hn (.tail _ h))]
    rfl

theorem clampWhere_nat {i n : Nat} (h : i ≤ n) : clampWhere (i : Int) n = i := by
  have := clampWhere_position (i : Int) n
  unfold position at this
  rw [if_neg (by omega)] at this
  omega

/-- One step: a node of another container is put between `l1` and `l2`. -/
theorem insertAt_ok {h : Heap} (w : WF h) {p c : NodeId} {l1 l2 : List NodeId} {ref : Option NodeId}
    (hl : h.kids p = l1 ++ l2) (hr : ref = l2.head?) (hc : h.parent c ≠ some p)
    (hs : isContainer (h.kind p) = true) (hk : isChildKind (h.kind c) = true) (hns : ¬ AncS h c p) :
    insertAt p ref h c = .ok (link (freed h c) p (l1 ++ c :: l2) c) := by
  subst hr
  cases l2 with
  | nil =>
    rw [List.head?_nil, insertAt, append_ok w hc hs hk hns, hl]
    simp
  | cons r l2 =>
    have hn : r ∉ l1 := by
      have := w.nodup p
      rw [hl, List.nodup_append] at this
      exact fun h => this.2.2 r h r (.head _) rfl
    rw [List.head?_cons, insertAt, hl, idxOf_split hn]
    dsimp only
    rw [insert_foreign w hc hs hk hns, hl, clampWhere_nat (by simp)]
    simp

theorem wf_linked {h : Heap} (w : WF h) {p c : NodeId} {l1 l2 : List NodeId}
    (hl : h.kids p = l1 ++ l2) (hc : h.parent c ≠ some p) (hz : c < h.size) (hp : p < h.size)
    (hs : isContainer (h.kind p) = true) (hk : isChildKind (h.kind c) = true) (hns : ¬ AncS h c p) :
    WF (link (freed h c) p (l1 ++ c :: l2) c) := by
  refine wf_link (freed_wf w c) (freed_parent h c) (fun hh => hns (freed_ancS hh))
    (by rw [freed_kind]; exact hk) (freed_container hs) ?_ (by rw [freed_size]; exact hz)
    (by rw [freed_size]; exact hp)
  rw [freed_kids w, kids_of_foreign w hc, hl]

/-- The nodes `cs` have been moved from `tr` to `p`. -/
structure Moved (s s' : St) (p tr : NodeId) (cs : List NodeId) : Prop where
  size : s'.h.size = s.h.size
  kind : s'.h.kind = s.h.kind
  name : s'.name = s.name
  val : s'.val = s.val
  attrs : s'.attrs = s.attrs
  parent : ∀ x, x ∉ cs → s'.h.parent x = s.h.parent x
  moved : ∀ x, x ∈ cs → s'.h.parent x = some p
  kids : ∀ x, x ≠ p → x ≠ tr → s'.h.kids x = s.h.kids x
  empty : s'.h.kids tr = []

theorem moveAll_spec {p tr : NodeId} {ref : Option NodeId} (P : NodeId → Prop) (htp : tr ≠ p) (hP : P p) :
    ∀ (cs : List NodeId) {s : St} {l1 l2 : List NodeId} {f : Nat}, Ok s → s.h.kids tr = cs →
    s.h.kids p = l1 ++ l2 → ref = l2.head? → p < s.h.size → isContainer (s.h.kind p) = true →
    (∀ x y, P x → s.h.parent x = some y → P y) → (∀ c ∈ cs, ¬ P c) → cs.length < f →
    ∃ s', moveAll (insertAt p ref) tr f s = .ok s' ∧ Ok s' ∧ Moved s s' p tr cs ∧
      s'.h.kids p = l1 ++ (cs ++ l2) := by
  intro cs
  induction cs with
  | nil =>
    intro s l1 l2 f o hk hl hr hp hc hcl hcs hf
    cases f with
    | zero => exact absurd hf (by simp)
    | succ f =>
      refine ⟨s, by rw [moveAll, hk], o, ⟨rfl, rfl, rfl, rfl, rfl, fun _ _ => rfl, nofun, fun _ _ _ => rfl, hk⟩, hl⟩
  | cons c cs ih =>
    intro s l1 l2 f o hk hl hr hp hc hcl hcs hf
    cases f with
    | zero => exact absurd hf (by simp)
    | succ f =>
      have hcm : c ∈ s.h.kids tr := by rw [hk]; exact .head _
      have hpar := o.wf.kids_parent _ _ hcm
      have hck := o.wf.child_kind _ _ hcm
      have hcp : s.h.parent c ≠ some p := by rw [hpar]; intro h; injection h with h; exact htp h
      have hns : ¬ AncS s.h c p := by
        rintro (h | h)
        · exact hcs c (.head _) (h ▸ hP)
        · exact hcs c (.head _) (closed_anc hcl h hP)
      have hz := (o.wf.bounded _ _ hpar).1
      have hnd : (c :: cs).Nodup := by rw [← hk]; exact o.wf.nodup tr
      have hcc : c ∉ cs := (List.nodup_cons.mp hnd).1
      have e1 := insertAt_ok o.wf hl hr hcp hc hck hns
      have w1 := wf_linked o.wf hl hcp hz hp hc hck hns
      have oth := freed_others o.wf p c (l1 ++ c :: l2)
      have hkp : (link (freed s.h c) p (l1 ++ c :: l2) c).kids p = l1 ++ c :: l2 := by
        simp [link, Heap.setParent, Heap.setKids]
      have hpc : (link (freed s.h c) p (l1 ++ c :: l2) c).parent c = some p := by
        simp [link, Heap.setParent]
      generalize hh1 : link (freed s.h c) p (l1 ++ c :: l2) c = h1 at *
      have o1 : Ok { s with h := h1 } := ok_with o w1 oth.kind fun a ha => oth.parent a (by
        rintro rfl; rw [ha] at hck; cases hck)
      have hkt : h1.kids tr = cs := by
        rw [oth.kids tr htp, hk]
        simp only [List.filter_cons, ne_eq, not_true_eq_false, decide_false, Bool.false_eq_true, if_false]
        rw [List.filter_eq_self]
        intro a ha
        simp
        rintro rfl
        exact hcc ha
      obtain ⟨s', r1, r2, r3, r4⟩ := ih (s := { s with h := h1 }) (l1 := l1 ++ [c]) (l2 := l2) (f := f) o1 hkt
        (by rw [hkp]; simp) hr (by rw [oth.size]; exact hp) (by rw [oth.kind]; exact hc)
        (by
          intro x y hx hxy
          refine hcl x y hx ?_
          rw [← oth.parent x (fun h => hcs c (.head _) (h ▸ hx))]
          exact hxy)
        (fun x hx => hcs x (.tail _ hx)) (by simp at hf; omega)
      refine ⟨s', ?_, r2, ⟨?_, ?_, r3.name, r3.val, r3.attrs, ?_, ?_, ?_, r3.empty⟩, ?_⟩
      · rw [moveAll, hk]
        dsimp only
        rw [e1]
        exact r1
      · rw [r3.size]; exact oth.size
      · rw [r3.kind]; exact oth.kind
      · intro x hx
        rw [List.mem_cons, not_or] at hx
        rw [r3.parent x hx.2]
        exact oth.parent x hx.1
      · intro x hx
        rcases List.mem_cons.mp hx with h | h
        · subst h
          rw [r3.parent x hcc]
          exact hpc
        · exact r3.moved x h
      · intro x hxp hxt
        rw [r3.kids x hxp hxt]
        show h1.kids x = _
        rw [oth.kids x hxp]
        exact kids_of_foreign o.wf (by rw [hpar]; intro h; injection h with h; exact hxt h.symm)
      · rw [r4]; simp

/-- The children of `t` have been removed. -/
structure Cleared (s s' : St) (t : NodeId) (cs : List NodeId) : Prop where
  size : s'.h.size = s.h.size
  kind : s'.h.kind = s.h.kind
  name : s'.name = s.name
  val : s'.val = s.val
  attrs : s'.attrs = s.attrs
  parent : ∀ x, x ∉ cs → s'.h.parent x = s.h.parent x
  removed : ∀ x, x ∈ cs → s'.h.parent x = none
  kids : ∀ x, x ≠ t → s'.h.kids x = s.h.kids x
  empty : s'.h.kids t = []

theorem unlink_ok {s : St} (o : Ok s) {p c : NodeId} (hc : c ∈ s.h.kids p) :
    lift s (containerRemove s.h p c) = .ok { s with h := unlink s.h p c } ∧ Ok { s with h := unlink s.h p c } := by
  refine ⟨by rw [containerRemove_ok o.wf hc]; rfl, ok_with o (wf_unlink o.wf (o.wf.kids_parent _ _ hc)) rfl ?_⟩
  intro a ha
  have hck := o.wf.child_kind _ _ hc
  have : a ≠ c := by rintro rfl; rw [ha] at hck; cases hck
  simp only [unlink, Heap.setParent, Heap.setKids, if_neg this]

theorem clear_spec {t : NodeId} : ∀ (cs : List NodeId) {s : St} {f : Nat}, Ok s → s.h.kids t = cs →
    cs.length < f → ∃ s', clear t f s = .ok s' ∧ Ok s' ∧ Cleared s s' t cs := by
  intro cs
  induction cs with
  | nil =>
    intro s f o hk hf
    cases f with
    | zero => exact absurd hf (by simp)
    | succ f =>
      exact ⟨s, by rw [clear, hk], o, rfl, rfl, rfl, rfl, rfl, fun _ _ => rfl, nofun, fun _ _ => rfl, hk⟩
  | cons c cs ih =>
    intro s f o hk hf
    cases f with
    | zero => exact absurd hf (by simp)
    | succ f =>
      have hcm : c ∈ s.h.kids t := by rw [hk]; exact .head _
      have hnd : (c :: cs).Nodup := by rw [← hk]; exact o.wf.nodup t
      have hcc : c ∉ cs := (List.nodup_cons.mp hnd).1
      obtain ⟨e1, o1⟩ := unlink_ok o hcm
      have hkt : (unlink s.h t c).kids t = cs := by
        simp only [unlink, Heap.setParent, Heap.setKids, if_true, hk]
        simp only [List.filter_cons, ne_eq, not_true_eq_false, decide_false, Bool.false_eq_true, if_false]
        rw [List.filter_eq_self]
        intro a ha
        simp
        rintro rfl
        exact hcc ha
      obtain ⟨s', r1, r2, r3⟩ := ih (s := { s with h := unlink s.h t c }) (f := f) o1 hkt (by simp at hf; omega)
      refine ⟨s', ?_, r2, r3.size, r3.kind, r3.name, r3.val, r3.attrs, ?_, ?_, ?_, r3.empty⟩
      · rw [clear, hk]
        dsimp only
        rw [e1]
        exact r1
      · intro x hx
        rw [List.mem_cons, not_or] at hx
        rw [r3.parent x hx.2]
        simp only [unlink, Heap.setParent, Heap.setKids, if_neg hx.1]
      · intro x hx
        rcases List.mem_cons.mp hx with h | h
        · subst h
          rw [r3.parent x hcc]
          simp [unlink, Heap.setParent, Heap.setKids]
        · exact r3.removed x h
      · intro x hx
        rw [r3.kids x hx]
        simp only [unlink, Heap.setParent, Heap.setKids, if_neg hx]

end Verif.XUpdate
