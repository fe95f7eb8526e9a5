import Verif.Dom.EditLemmas

/-
C13 (edits keep the forest well formed) and C14 (what each edit does).
-/
namespace Verif.Dom.Spec
open Verif.Dom

/-- Everything an edit that moves `c` (out of wherever it was) into or out of `s` must leave alone:
the kinds, the parents of the other nodes, and all other child lists, except that `c` is gone from
where it was. -/
structure Others (h h' : Heap) (s c : NodeId) : Prop where
  size : h'.size = h.size
  kind : h'.kind = h.kind
  parent : ∀ x, x ≠ c → h'.parent x = h.parent x
  kids : ∀ p, p ≠ s → h'.kids p = (h.kids p).filter (· ≠ c)

/-- The position meant by the index `i` for a container of `n` children: Python's `list.insert`. -/
def position (i : Int) (n : Nat) : Int := if i < 0 then max 0 (i + n) else min i n

end Verif.Dom.Spec

namespace Verif.Dom
open Spec

theorem legal_step {h : Heap} (w : WF h) (e : Edit) (he : Legal h e) :
    (∃ h', e.run h = .ok h' ∧ WF h') ∨ ∃ err, e.run h = .raised err := by
  cases e with
  | append s c =>
    obtain ⟨h1, h2, h3⟩ := he
    rcases ensureHierarchy_spec w s c with ⟨e, h4, _⟩ | ⟨h4, h5, h6, h7⟩
    · exact .inr ⟨e, by simp only [Edit.run, containerAppend, h4]⟩
    · refine .inl ⟨_, append_ok w h3 h5 h6 h7, ?_⟩
      refine wf_link (freed_wf w c) (freed_parent h c) (fun hh => h7 (freed_ancS hh))
        (by rw [freed_kind]; exact h6) (freed_container h5) ?_ (by rw [freed_size]; exact h2)
        (by rw [freed_size]; exact h1)
      rw [freed_kids w, kids_of_foreign w h3]; simp
  | insert s i c =>
    obtain ⟨h1, h2, h3⟩ := he
    rcases ensureHierarchy_spec w s c with ⟨e, h4, _⟩ | ⟨h4, h5, h6, h7⟩
    · exact .inr ⟨e, by simp only [Edit.run, containerInsert, h4]⟩
    · refine .inl ⟨_, insert_foreign w h3 h5 h6 h7, ?_⟩
      refine wf_link (freed_wf w c) (freed_parent h c) (fun hh => h7 (freed_ancS hh))
        (by rw [freed_kind]; exact h6) (freed_container h5) ?_ (by rw [freed_size]; exact h2)
        (by rw [freed_size]; exact h1)
      rw [freed_kids w, kids_of_foreign w h3, List.take_append_drop]
  | remove s c =>
    by_cases hc : c ∈ h.kids s
    · exact .inl ⟨_, containerRemove_ok w hc, wf_unlink w (w.kids_parent _ _ hc)⟩
    · refine .inr ?_
      simp only [Edit.run, containerRemove]
      split
      · rw [lastIdx_none.2 hc]; exact ⟨_, rfl⟩
      · exact ⟨_, rfl⟩
  | replace s o n =>
    obtain ⟨h1, h2, h3, h4, h5⟩ := he
    by_cases ho : o ∈ h.kids s
    · by_cases hon : o = n
      · subst hon
        obtain ⟨i, hi⟩ := List.getElem?_of_mem ho
        exact .inl ⟨h, by simp [Edit.run, containerReplace, lastIdx_eq (w.nodup s) hi], w⟩
      · obtain ⟨h6, l1, l2, h7, h8⟩ := replace_ok w ho hon h3 h5
        refine .inl ⟨_, h6, ?_⟩
        have hos : (freed h n).parent o = some s := by
          rw [freed_parent_ne hon]; exact w.kids_parent _ _ ho
        rw [h8]
        refine wf_link (wf_unlink (freed_wf w n) hos) ?_ ?_ ?_ ?_ h7 ?_ ?_
        · simp only [unlink, Heap.setParent, Heap.setKids, if_neg (Ne.symm hon)]
          exact freed_parent h n
        · rintro (hh | hh)
          · exact h4 (.inl hh)
          · exact h4 (.inr (freed_anc (anc_of_unlink hh)))
        · show isChildKind ((freed h n).kind n) = true
          rw [freed_kind]; exact h3
        · show isContainer ((freed h n).kind s) = true
          rw [freed_kind]; exact w.parent_kind _ _ (w.kids_parent _ _ ho)
        · show n < (freed h n).size
          rw [freed_size]; exact h2
        · show s < (freed h n).size
          rw [freed_size]; exact h1
    · refine .inr ⟨.value, ?_⟩
      simp only [Edit.run, containerReplace, lastIdx_none.2 ho]

/-- C13: every forest built by creating nodes and by any number of edits is well formed: each node is
listed once, by its `xml_parent` only, and nothing is its own ancestor.  Missing: the uses that
`Legal` rules out, where the code breaks it. -/
theorem C13_partial {h : Heap} (hr : Reach h) : WF h := by
  induction hr with
  | empty => exact wf_empty
  | new k _ ih => exact wf_alloc ih k
  | owner _ he ha h1 h2 ih => exact wf_owner ih he ha h1 h2
  | edit e _ hl hrun ih =>
    rcases legal_step ih e hl with ⟨h', h1, h2⟩ | ⟨err, h1⟩
    · rw [hrun] at h1; cases h1; exact h2
    · rw [hrun] at h1; cases h1

/-- C13: and in such forests an edit never runs into undefined behaviour: it is done, or an exception
is raised and the forest stays as it was. -/
theorem C13_defined_partial {h : Heap} (hr : Reach h) (e : Edit) (he : Legal h e) :
    (∃ h', e.run h = .ok h' ∧ Reach h') ∨ ∃ err, e.run h = .raised err := by
  rcases legal_step (C13_partial hr) e he with ⟨h', h1, _⟩ | h1
  · exact .inl ⟨h', h1, .edit e hr he h1⟩
  · exact .inr h1

def Res.heap : Res → Heap
  | .ok h => h
  | _ => Heap.empty

/-- The forest used in the examples, built with the methods themselves: entity 0 with element 1,
which has the text 2, the element 3 and the text 4; and the free element 5. -/
def built : Heap :=
  let h := (((((Heap.empty.alloc .entity).alloc .element).alloc .text).alloc .element).alloc
    .text).alloc .element
  let h := ((Edit.append 0 1).run h).heap
  let h := ((Edit.append 1 2).run h).heap
  let h := ((Edit.append 1 4).run h).heap
  ((Edit.insert 1 1 3).run h).heap

theorem Reach.do {h : Heap} (hr : Reach h) (e : Edit) (he : Legal h e) (hok : e.run h = .ok (e.run h).heap) :
    Reach (e.run h).heap := .edit e hr he hok

/-- Non-vacuity of C13: a forest with six nodes and two levels is reachable. -/
theorem built_reach : Reach built := by
  unfold built
  refine Reach.do (Reach.do (Reach.do (Reach.do
    (.new _ (.new _ (.new _ (.new _ (.new _ (.new _ .empty))))))
    (.append 0 1) ⟨by decide, by decide, by decide⟩ rfl)
    (.append 1 2) ⟨by decide, by decide, by decide⟩ rfl)
    (.append 1 4) ⟨by decide, by decide, by decide⟩ rfl)
    (.insert 1 1 3) ⟨by decide, by decide, by decide⟩ rfl

example : built.kids 0 = [1] ∧ built.kids 1 = [2, 3, 4] ∧ built.parent 3 = some 1 ∧
    built.parent 5 = none := by decide

/-- Non-vacuity of the `replace` case: in the sample, 3 may be replaced by 4 (a later sibling), and by
the free node 5. -/
example : Legal built (.replace 1 3 4) := by
  refine ⟨by decide, by decide, by decide, ?_, ?_⟩
  · rintro (h | h)
    · exact absurd h (by decide)
    · have := C13_partial built_reach
      have h41 : built.parent 4 = some 1 := by decide
      exact this.acyclic 4 (.step h h41)
  · rintro ⟨i, j, h1, h2, h3⟩
    have hk : built.kids 1 = [2, 3, 4] := by decide
    rw [hk] at h2 h3
    have hi : i = 2 := by
      rcases i with _ | _ | _ | i <;> simp_all
    have : j < 3 := by
      have := (List.getElem?_eq_some_iff.1 h3).1; simpa using this
    omega

/-- C13 is false without the restriction: (1) appending a child to its own parent, and (2)
inserting it there, do what an unwritten cell of memory tells them; (3) replacing a child by an
earlier sibling leaves the replaced node listed with no parent, and drops another one; (4) replacing
a child by the container itself makes it its own parent. -/
theorem C13_refuted :
    Reach built ∧
    (Edit.append 1 2).run built = .undefined ∧
    (Edit.insert 1 0 3).run built = .undefined ∧
    (∃ h', (Edit.replace 1 3 2).run built = .ok h' ∧ h'.kids 1 = [3, 2] ∧ h'.parent 3 = none ∧
      h'.parent 4 = some 1) ∧
    (∃ h', (Edit.replace 1 3 1).run built = .ok h' ∧ h'.parent 1 = some 1) :=
  ⟨built_reach, rfl, rfl, ⟨_, rfl, by decide, by decide, by decide⟩, ⟨_, rfl, by decide⟩⟩

theorem freed_others {h : Heap} (w : WF h) (s c : NodeId) (l : List NodeId) :
    Others h (link (freed h c) s l c) s c := by
  refine ⟨freed_size h c, freed_kind h c, ?_, ?_⟩
  · intro x hx
    simp only [link, Heap.setParent, Heap.setKids, if_neg hx]
    exact freed_parent_ne hx
  · intro p hp
    simp only [link, Heap.setParent, Heap.setKids, if_neg hp]
    exact freed_kids w c p

/-- C14: `xml_append` makes `c` the last child of `s` and removes it from its former place. -/
theorem C14_append_partial {h : Heap} (w : WF h) {s c : NodeId} (hc : h.parent c ≠ some s)
    (hs : isContainer (h.kind s) = true) (hk : isChildKind (h.kind c) = true)
    (hns : ¬ AncS h c s) :
    ∃ h', (Edit.append s c).run h = .ok h' ∧ h'.kids s = h.kids s ++ [c] ∧ h'.parent c = some s ∧
      Others h h' s c :=
  ⟨_, append_ok w hc hs hk hns, by simp [link, Heap.setParent, Heap.setKids],
    by simp [link, Heap.setParent], freed_others w _ _ _⟩

/-- C14: `xml_append` and `xml_insert` raise ValueError for nodes that cannot be children and for
ancestors. -/
theorem C14_rejects {h : Heap} (w : WF h) {s c : NodeId} (i : Int) (hs : isContainer (h.kind s) = true)
    (hb : isChildKind (h.kind c) = false ∨ AncS h c s) :
    (Edit.append s c).run h = .raised .value ∧ (Edit.insert s i c).run h = .raised .value := by
  have he : ensureHierarchy h s c = some (some .value) := by
    unfold ensureHierarchy
    rw [hs]
    cases hc : isChildKind (h.kind c) with
    | false => rfl
    | true =>
      rcases hb with hb | hb
      · simp [hc] at hb
      · obtain ⟨depth, hd, _, hb'⟩ := exists_depth w
        obtain ⟨b, hb1, hb2⟩ := onChain_spec (c := c) hd (h.size + 1) s (by have := hb' s; omega)
        simp [hb1, hb2.2 hb]
  exact ⟨by simp only [Edit.run, containerAppend, he], by simp only [Edit.run, containerInsert, he]⟩

theorem clampWhere_position (i : Int) (n : Nat) : (clampWhere i n : Int) = position i n := by
  unfold clampWhere position; split <;> (try split) <;> omega

/-- C14: `xml_insert` puts `c` at the position meant by the index (negative indices count from the
end); `c` is removed from its former place.  Missing: nodes that are already children of `s`. -/
theorem C14_insert_partial {h : Heap} (w : WF h) {s c : NodeId} {i : Int} (hc : h.parent c ≠ some s)
    (hs : isContainer (h.kind s) = true) (hk : isChildKind (h.kind c) = true)
    (hns : ¬ AncS h c s) :
    ∃ h' l1 l2, (Edit.insert s i c).run h = .ok h' ∧ h.kids s = l1 ++ l2 ∧
      (l1.length : Int) = position i (h.kids s).length ∧ h'.kids s = l1 ++ c :: l2 ∧
      h'.parent c = some s ∧ Others h h' s c := by
  refine ⟨_, (h.kids s).take (clampWhere i (h.kids s).length),
    (h.kids s).drop (clampWhere i (h.kids s).length), insert_foreign w hc hs hk hns,
    (List.take_append_drop _ _).symm, ?_,
    by simp [link, Heap.setParent, Heap.setKids], by simp [link, Heap.setParent], freed_others w _ _ _⟩
  rw [List.length_take, Nat.min_eq_left (clampWhere_le _ _), clampWhere_position]

/-- C14: `xml_remove` removes exactly `c`; if `c` is not a child it raises ValueError. -/
theorem C14_remove {h : Heap} (w : WF h) {s c : NodeId} (hs : isContainer (h.kind s) = true) :
    (c ∈ h.kids s → ∃ h', (Edit.remove s c).run h = .ok h' ∧
      h'.kids s = (h.kids s).filter (· ≠ c) ∧ h'.parent c = none ∧ Others h h' s c) ∧
    (c ∉ h.kids s → (Edit.remove s c).run h = .raised .value) := by
  constructor
  · intro hc
    have hp := w.kids_parent _ _ hc
    have hf : freed h c = unlink h s c := by simp [freed, hp]
    refine ⟨_, containerRemove_ok w hc, by simp [unlink, Heap.setKids], by simp [unlink, Heap.setParent, Heap.setKids], ?_⟩
    rw [← hf]
    exact ⟨freed_size h c, freed_kind h c, fun x hx => freed_parent_ne hx, fun p _ => freed_kids w c p⟩
  · intro hc
    simp only [Edit.run, containerRemove, hs, if_true, lastIdx_none.2 hc]

/-- C14: `xml_replace` puts the new node where the old one was (and takes it from where it was); the
old one becomes free.  Missing: the uses that `Legal` rules out. -/
theorem C14_replace_partial {h : Heap} (w : WF h) {s o n : NodeId} (ho : o ∈ h.kids s) (hon : o ≠ n)
    (hl : Legal h (.replace s o n)) :
    ∃ h', (Edit.replace s o n).run h = .ok h' ∧
      h'.kids s = ((h.kids s).filter (· ≠ n)).map (fun x => if x = o then n else x) ∧
      h'.parent n = some s ∧ h'.parent o = none ∧ h'.size = h.size ∧ h'.kind = h.kind ∧
      (∀ x, x ≠ n → x ≠ o → h'.parent x = h.parent x) ∧
      (∀ p, p ≠ s → h'.kids p = (h.kids p).filter (· ≠ n)) := by
  refine ⟨_, (replace_ok w ho hon hl.2.2.1 hl.2.2.2.2).1, by simp [link, Heap.setParent, Heap.setKids],
    by simp [link, Heap.setParent], ?_, ?_, ?_, ?_, ?_⟩
  · simp [link, unlink, Heap.setParent, Heap.setKids, hon]
  · exact freed_size h n
  · exact freed_kind h n
  · intro x hx hxo
    simp only [link, unlink, Heap.setParent, Heap.setKids, if_neg hx, if_neg hxo]
    exact freed_parent_ne hx
  · intro p hp
    simp only [link, unlink, Heap.setParent, Heap.setKids, if_neg hp]
    exact freed_kids w n p

/-- C14: replacing a node by itself, or replacing what is not a child. -/
theorem C14_replace_trivial {h : Heap} (w : WF h) (s o n : NodeId) :
    (o ∈ h.kids s → (Edit.replace s o o).run h = .ok h) ∧
    (o ∉ h.kids s → (Edit.replace s o n).run h = .raised .value) := by
  constructor
  · intro ho
    obtain ⟨i, hi⟩ := List.getElem?_of_mem ho
    simp [Edit.run, containerReplace, lastIdx_eq (w.nodup s) hi]
  · intro ho
    simp only [Edit.run, containerReplace, lastIdx_none.2 ho]

/-- Non-vacuity of C14: putting a new node between others, moving one into a sibling, refusing an ancestor. -/
example : ∃ h', (Edit.insert 1 (-1) 5).run built = .ok h' ∧ h'.kids 1 = [2, 3, 5, 4] :=
  ⟨_, rfl, by decide⟩
example : ∃ h', (Edit.insert 3 7 2).run built = .ok h' ∧ h'.kids 1 = [3, 4] ∧ h'.kids 3 = [2] :=
  ⟨_, rfl, by decide, by decide⟩
example : ∃ h', (Edit.append 3 2).run built = .ok h' ∧ h'.kids 1 = [3, 4] ∧ h'.kids 3 = [2] :=
  ⟨_, rfl, by decide, by decide⟩
example : (Edit.append 3 1).run built = .raised .value := rfl

/-- C14 fails where C13 does: appending a node to the parent it has, or inserting it there, does not reliably move
it, and replacing 3 by its earlier sibling 2 in [2, 3, 4] gives [3, 2]. -/
theorem C14_refuted :
    (¬ ∃ h', (Edit.append 1 2).run built = .ok h') ∧
    (¬ ∃ h', (Edit.insert 1 0 3).run built = .ok h') ∧
    ∃ h', (Edit.replace 1 3 2).run built = .ok h' ∧ h'.kids 1 = [3, 2] := by
  refine ⟨?_, ?_, ⟨_, rfl, by decide⟩⟩
  · rintro ⟨h', hh⟩
    have : (Edit.append 1 2).run built = .undefined := rfl
    rw [this] at hh
    cases hh
  · rintro ⟨h', hh⟩
    have : (Edit.insert 1 0 3).run built = .undefined := rfl
    rw [this] at hh
    cases hh

end Verif.Dom
