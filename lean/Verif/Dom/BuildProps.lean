import Verif.Dom.BuildDoc

/-
C82: the trees that parsing builds, and what edits during and after a parse do to them, as far as the arrays in memory
are concerned.
-/
namespace Verif.Dom.Build
open Verif.Dom Verif.Dom.Spec

/-- C82: whatever a program does: making nodes, editing, parsing documents, and editing the trees while they are being
parsed: the lists of children and the parents it sees are those of the lists, and the trees are well formed.  No
array is used after it was freed, none is shared, no cell is seen that was not written; it does not matter when the C
library moves an array.  Missing: what `Acts` leaves out, where it is false (below). -/
theorem C82_session_partial (custom : Kind → Bool) (moves : Nat → Bool) {as : List Act} {h : Heap}
    (ha : Acts custom Heap.empty as h) :
    ∃ m, actsM custom (Mem.empty moves) as = some m ∧ Shows m h ∧ WF h := by
  obtain ⟨m, h1, r, w⟩ := Rep.acts ha (rep_empty moves) wf_empty
  exact ⟨m, h1, r.shows, w⟩

/-- C82: parsing a document gives, in any such memory, a new tree: the document's node is the first new one, its
children are the content of the document, all nodes in document order; and the trees that were there stay as they
were. -/
theorem C82_document_partial (custom : Kind → Bool) (moves : Nat → Bool) {as : List Act} {h : Heap}
    (ha : Acts custom Heap.empty as h) {cs : List Content} (ok : OkAll custom cs) :
    ∃ m m' ns, actsM custom (Mem.empty moves) as = some m ∧ parseM custom m (contents cs) = some m' ∧
      (m'.node m.size).kind = .entity ∧ (m'.node m.size).parent = none ∧ m'.children m.size = some ns ∧
      Are m' m.size (m.size + 1) ns cs ∧ m'.size = m.size + 1 + nodesOf cs ∧
      ∀ n, n < m.size → m'.children n = m.children n ∧ (m'.node n).parent = (m.node n).parent ∧
        (m'.node n).kind = (m.node n).kind := by
  obtain ⟨m, h1, r, w⟩ := Rep.acts ha (rep_empty moves) wf_empty
  obtain ⟨h', ns, hrun, hsize, hkids, hare, hstay⟩ := run_many cs (h.alloc .entity) h.size [] ok (by simp [Heap.alloc])
  obtain ⟨m', h2, r', _⟩ := r.parse w hrun
  have hs : m.size = h.size := r.size
  have s := r.shows
  have s' := r'.shows
  have hold := hstay h.size (by simp [Heap.alloc])
  refine ⟨m, m', ns, h1, h2, ?_, ?_, ?_, ?_, ?_, ?_⟩
  · rw [hs, s'.kind, hold.1]; simp [Heap.alloc]
  · rw [hs, s'.parent, hold.2.1]; simp [Heap.alloc]
  · rw [hs, s'.children, hkids]; simp [Heap.alloc]
  · rw [hs]; exact AreH.shows s' hare
  · rw [s'.size, hsize, hs]; rfl
  · intro n hn
    have hne : n ≠ h.size := by omega
    have := hstay n (by simp [Heap.alloc]; omega)
    refine ⟨?_, ?_, ?_⟩
    · rw [s'.children, s.children, this.2.2 hne]; simp [Heap.alloc, hne]
    · rw [s'.parent, s.parent, this.2.1]; simp [Heap.alloc, hne]
    · rw [s'.kind, s.kind, this.1]; simp [Heap.alloc, hne]

/-- C82: the list of children a program gets, for edits of a sound memory one by one. -/
theorem C82_edit_partial (custom : Kind → Bool) (moves : Nat → Bool) {as : List Act} {h h' : Heap} {e : Edit}
    (ha : Acts custom Heap.empty as h) (he : Legal h e) :
    ∃ m, actsM custom (Mem.empty moves) as = some m ∧
      (e.run h = .ok h' → ∃ m', editM m e = .ok m' ∧ Shows m' h') ∧
      (∀ err, e.run h = .raised err → editM m e = .raised err m) := by
  obtain ⟨m, h1, r, w⟩ := Rep.acts ha (rep_empty moves) wf_empty
  have hag := r.edit w e he
  refine ⟨m, h1, fun hr => ?_, fun err hr => ?_⟩
  · rw [hr] at hag
    obtain ⟨m', h2, r2⟩ := hag
    exact ⟨m', h2, r2.shows⟩
  · rw [hr] at hag; exact hag.1

def plain : Kind → Bool := fun _ => false

def never : Nat → Bool := fun _ => false
def always : Nat → Bool := fun _ => true

/-- What `xml_children` gives after some actions. -/
def see (custom : Kind → Bool) (moves : Nat → Bool) (as : List Act) (n : NodeId) : Option (List NodeId) :=
  match actsM custom (Mem.empty moves) as with
  | none => none
  | some m => m.children n

/-- Non-vacuity: `<r>text<e><!-- --></e><?pi?></r>`, with the document 0, r 1, text 2, e 3, comment 4, pi 5. -/
def sample : List Content := [.elem [.leaf .text, .elem [.leaf .comment], .leaf .pi]]

example : OkAll plain sample := by simp [sample, OkAll, Content.Ok, plain]

example : see plain always [.parse (contents sample)] 1 = some [2, 3, 5] ∧
    see plain always [.parse (contents sample)] 3 = some [4] := by decide +kernel

/-- Non-vacuity of `Acts`: a parse in whose end-element callback the finished element 2 is removed from its parent 1,
which is still open (as streaming parsers do), and put into the fragment 3 that the callback makes; more children
follow than fit into the first array; and an edit afterwards. -/
def streaming : List Act :=
  [.parse ([.start [], .start [], .stop, .new .entity, .edit (.append 3 2)] ++
    (List.replicate 7 (.leaf .text) ++ [.stop])), .edit (.insert 3 0 4)]

def streamingTree : Heap :=
  let t := (((Heap.empty.alloc .entity).alloc .element).alloc .element)
  let t := (addChild t 1 2).alloc .entity
  let t := ((Edit.append 3 2).run t).heap
  let t := addChild (t.alloc .text) 1 4
  let t := addChild (t.alloc .text) 1 5
  let t := addChild (t.alloc .text) 1 6
  let t := addChild (t.alloc .text) 1 7
  let t := addChild (t.alloc .text) 1 8
  let t := addChild (t.alloc .text) 1 9
  let t := addChild (t.alloc .text) 1 10
  addChild t 0 1

def streamingHeap : Heap := ((Edit.insert 3 0 4).run streamingTree).heap

theorem streaming_acts : Acts plain Heap.empty streaming streamingHeap := by
  refine Acts.parse (h' := streamingTree) ?_ (Acts.edit (h' := streamingHeap) ?_ .nil)
  · refine .cons (.start .nil ?_ ?_) (.cons (.start .nil ?_ ?_) (.cons .stop (.cons .new (.cons (.edit (.done (h' := ((Edit.append 3 2).run _).heap) ?_ ?_ rfl))
      (.cons (.leaf (.inl rfl)) (.cons (.leaf (.inl rfl)) (.cons (.leaf (.inl rfl)) (.cons (.leaf (.inl rfl))
      (.cons (.leaf (.inl rfl)) (.cons (.leaf (.inl rfl)) (.cons (.leaf (.inl rfl)) (.cons .stop .nil))))))))))))
    · decide
    · decide
    · decide
    · decide
    · exact ⟨by decide, by decide, by decide⟩
    · intro n hn; cases hn; decide
  · refine .done ?_ ?_ rfl
    · exact ⟨by decide, by decide, by decide⟩
    · intro n hn; cases hn; decide

example : see plain always streaming 3 = some [4, 2] ∧ see plain never streaming 3 = some [4, 2] ∧
    see plain never streaming 1 = some [5, 6, 7, 8, 9, 10] ∧ streamingHeap.kids 1 = [5, 6, 7, 8, 9, 10] := by
  decide +kernel

/-- C82 fails if the parse does: the elements that were open, `<r>` here, are left with arrays that have been freed:
the program that has kept the text 2 reaches 1 as its parent, and reading its children is undefined.  (Python's
garbage collector reads them too.) -/
theorem C82_refuted_failed :
    ∃ m, actsM plain (Mem.empty never) [.parse [.start [], .leaf .text, .fail]] = some m ∧
      (m.node 2).parent = some 1 ∧ (m.node 1).count = 1 ∧ m.children 1 = none :=
  ⟨_, rfl, rfl, rfl, rfl⟩

/-- C82 fails for children which the callback of a start tag adds to the new element: here the text 0.  The element 2
then gets the array of a completed sibling, or a new one, and its count stays: it shows the sibling's child 3, whose
parent is another, or a cell that was never written. -/
theorem C82_refuted_start :
    see plain never [.new .text, .parse [.start [], .start [.append 3 0], .stop, .stop]] 3 = none ∧
    see plain never [.new .text, .parse [.start [], .start [], .leaf .text, .stop, .start [.append 5 0], .stop, .stop]] 5 =
      some [4] ∧
    see plain never [.new .text, .parse [.start [], .start [], .leaf .text, .stop, .start [.append 5 0], .stop, .stop]] 3 =
      some [4] := by
  decide +kernel

/-- C82 fails for an element that is given a place before it is complete: the builder adds it where it was found too,
and two nodes list it. -/
theorem C82_refuted_open :
    let as : List Act := [.new .entity, .parse [.start [], .start [], .edit (.append 0 3), .stop, .stop]]
    see plain never as 0 = some [3] ∧ see plain never as 2 = some [3] := by
  decide +kernel

/-- C82 fails for documents with factories for comments or processing instructions: what these return is refused,
since it is no text. -/
theorem C82_refuted_factory (custom : Kind → Bool) (st : BState) (k : Kind) (hk : k = .comment ∨ k = .pi)
    (hc : custom k = true) : step custom st (.leaf k) = .raised st := by
  have : k ≠ .text := by rcases hk with rfl | rfl <;> decide
  simp only [step, if_pos (And.intro hc this)]

/-- 0 had the children 1, 2, 3, 4; 3 has been removed. -/
def shuffled : List Act :=
  [.new .entity, .new .text, .new .text, .new .text, .new .text, .edit (.append 0 1), .edit (.append 0 2),
    .edit (.append 0 3), .edit (.append 0 4), .edit (.remove 0 3)]

/-- C82 fails for `xml_insert` (and `xml_append`) of a node into the parent it already has: an old copy of the node
behind the end of the array is taken for the node.  The children are 1, 2, 4; 4 is put to the front; and to the second
place: then 4 is there twice, and 2 is lost, though it has its parent. -/
theorem C82_refuted_insert :
    see plain never shuffled 0 = some [1, 2, 4] ∧
    see plain never (shuffled ++ [.edit (.insert 0 0 4)]) 0 = some [4, 1, 2] ∧
    see plain never (shuffled ++ [.edit (.insert 0 0 4), .edit (.insert 0 1 4)]) 0 = some [4, 4, 1] := by
  decide +kernel

end Verif.Dom.Build
