import Verif.XUpdate.Rename

/-
C71: what the commands of XUpdate do to a document.
-/
namespace Verif.XUpdate.Spec
open Verif Verif.Dom Verif.XUpdate

/-- A `select` that gives these nodes. -/
def selects (ts : List NodeId) : Select := fun _ => .ok ts
/-- Content that does not depend on the document. -/
def writes (items : List Item) : Content := fun _ => .ok items
/-- What is left of an item outside of an element. -/
def asTree : Item → Option Tree
  | .tree t => some t
  | .attr _ _ => none

end Verif.XUpdate.Spec

namespace Verif.XUpdate
open Verif Verif.Dom Verif.Dom.Spec Verif.XUpdate.Spec

/-- C71, the content that is added: all the elements and leaves that the instructions write, in their
order, whatever attributes are between them. -/
theorem C71_content (items : List Item) : trees items = items.filterMap asTree := by
  induction items with
  | nil => rfl
  | cons i items ih =>
    cases i with
    | tree t => rw [trees, ih]; rfl
    | attr n v => rw [trees, ih]; rfl

/-- C71, append: every target gets the content as its last children, or as those before the child
that the `child` attribute stands for; everything else in the document is as before, and it still is
a document. -/
theorem C71_append {s : St} (o : Ok s) {ts : List NodeId} (hne : ts ≠ []) (hn : ts.Nodup) {items : List Item}
    (hv : ValidAll (trees items)) (child : Option Int)
    (hts : ∀ t ∈ ts, t < s.h.size ∧ isContainer (s.h.kind t) = true ∧
      (slot child (s.h.kids t).length).isSome = true) :
    ∃ s', (Command.append (selects ts) (writes items) (child.map fun i _ _ => .ok i)).run s = .ok s' ∧ Ok s' ∧ Keeps s s' ∧
      (∀ t ∈ ts, ∃ k new, slot child (s.h.kids t).length = some k ∧
        s'.h.kids t = (s.h.kids t).take k ++ new ++ (s.h.kids t).drop k ∧ HoldsAll s' (trees items) new) ∧
      (∀ x, x < s.h.size → x ∉ ts → s'.h.kids x = s.h.kids x) := by
  obtain ⟨s', e, o', k, h1, h2⟩ := append_all hv (content := writes items) (fun _ => rfl) child ts o hn hts
  refine ⟨s', ?_, o', k, ?_, h2⟩
  · cases ts with
    | nil => exact absurd rfl hne
    | cons t ts => exact e
  · intro t ht
    obtain ⟨n, new, a, b, c⟩ := h1 t ht
    exact ⟨n, new, a, by rw [b, List.append_assoc], c.holds⟩

/-- C71, insert-before: the content stands in front of every target; the rest is as before. -/
theorem C71_insert_before {s : St} (o : Ok s) {ts : List NodeId} (hn : ts.Nodup) {items : List Item}
    (hv : ValidAll (trees items)) (hts : ∀ t ∈ ts, ∃ p, t ∈ s.h.kids p) :
    ∃ (s' : St) (new : NodeId → List NodeId), 
      (Command.insertBefore (selects ts) (writes items)).run s = .ok s' ∧ Ok s' ∧ Keeps s s' ∧
      (∀ p, p < s.h.size →
        s'.h.kids p = (s.h.kids p).flatMap (fun k => if k ∈ ts then new k ++ [k] else [k])) ∧
      (∀ t ∈ ts, HoldsAll s' (trees items) (new t)) := by
  obtain ⟨s', new, e, o', k, h1, h2⟩ := beside_all hv (content := writes items) (fun _ => rfl) false ts o hn hts
  exact ⟨s', new, e, o', k, h1, fun t ht => (h2 t ht).holds⟩

/-- C71, insert-after: the content stands behind every target; the rest is as before. -/
theorem C71_insert_after {s : St} (o : Ok s) {ts : List NodeId} (hn : ts.Nodup) {items : List Item}
    (hv : ValidAll (trees items)) (hts : ∀ t ∈ ts, ∃ p, t ∈ s.h.kids p) :
    ∃ (s' : St) (new : NodeId → List NodeId), 
      (Command.insertAfter (selects ts) (writes items)).run s = .ok s' ∧ Ok s' ∧ Keeps s s' ∧
      (∀ p, p < s.h.size →
        s'.h.kids p = (s.h.kids p).flatMap (fun k => if k ∈ ts then k :: new k else [k])) ∧
      (∀ t ∈ ts, HoldsAll s' (trees items) (new t)) := by
  obtain ⟨s', new, e, o', k, h1, h2⟩ := beside_all hv (content := writes items) (fun _ => rfl) true ts o hn hts
  exact ⟨s', new, e, o', k, h1, fun t ht => (h2 t ht).holds⟩

/-- C71, remove: the targets are gone from the children and from the attributes, and nothing else
changes; a target without a parent is ignored. -/
theorem C71_remove {s : St} (o : Ok s) {ts : List NodeId} (hk : ∀ t ∈ ts, s.h.kind t ≠ .ns) :
    ∃ s', (Command.remove (selects ts)).run s = .ok s' ∧ Ok s' ∧ s'.h.size = s.h.size ∧ s'.h.kind = s.h.kind ∧ s'.name = s.name ∧
      s'.val = s.val ∧ (∀ p, s'.h.kids p = (s.h.kids p).filter (· ∉ ts)) ∧
      (∀ p, s'.attrs p = (s.attrs p).filter (· ∉ ts)) ∧
      (∀ x, s'.h.parent x = if x ∈ ts then none else s.h.parent x) := by
  obtain ⟨s', e, o', r⟩ := remove_all ts o hk
  exact ⟨s', e, o', r.size, r.kind, r.name, r.val, r.kids, r.attrs, r.parent⟩

/-- C71, update: elements have the content as their only children, the old ones are free;
attributes, comments and text have the (non-empty) text as their value; the rest is as before. -/
theorem C71_update {s : St} (o : Ok s) {ts : List NodeId} (hne : ts ≠ []) (hn : ts.Nodup) {items : List Item}
    (hv : ValidAll (trees items)) {v : Str} (hv' : v ≠ [])
    (hts : ∀ t ∈ ts, t < s.h.size ∧ (s.h.kind t = .element ∨ s.h.kind t = .attr ∨ s.h.kind t = .comment ∨
      s.h.kind t = .text)) :
    ∃ s', (Command.update (selects ts) (writes items) (fun _ => .ok v)).run s = .ok s' ∧ Ok s' ∧ s.h.size ≤ s'.h.size ∧
      (∀ x, x < s.h.size → s'.h.kind x = s.h.kind x ∧ s'.name x = s.name x ∧ s'.attrs x = s.attrs x) ∧
      (∀ x, x < s.h.size → s'.val x = if x ∈ ts ∧ s.h.kind x ≠ .element then v else s.val x) ∧
      (∀ t ∈ ts, s.h.kind t = .element → HoldsAll s' (trees items) (s'.h.kids t)) ∧
      (∀ x, x < s.h.size → x ∉ ts → s'.h.kids x = s.h.kids x) ∧
      (∀ t ∈ ts, ∀ x ∈ s.h.kids t, s'.h.parent x = none) ∧
      (∀ x, x < s.h.size → (∀ t ∈ ts, x ∉ s.h.kids t) → s'.h.parent x = s.h.parent x) := by
  cases v with
  | nil => exact absurd rfl hv'
  | cons c v =>
    obtain ⟨s', e, o', u, h1⟩ := update_all hv (content := writes items) (str := fun _ => .ok (c :: v)) (fun _ => rfl)
      (fun _ => rfl) ts o hn (fun t ht => by
        obtain ⟨a, b⟩ := hts t ht
        refine ⟨a, ?_⟩
        rcases b with b | b | b | b <;> rw [b] <;> rfl)
    refine ⟨s', ?_, o', u.size, fun x hx => ⟨u.kind x hx, u.name x hx, u.attrs x hx⟩, u.val,
      fun t ht hk => (h1 t ht hk).holds, u.kids, u.gone, u.parent⟩
    cases ts with
    | nil => exact absurd rfl hne
    | cons t ts => exact e

theorem update_empty : ∀ (ts : List NodeId) {s : St} (content : Content), Ok s → ts.Nodup →
    (∀ t ∈ ts, s.h.kind t = .text ∧ (s.h.parent t).isSome = true) →
    forEach (updateOne content fun _ => .ok []) ts s = forEach removeOne ts s := by
  intro ts
  induction ts with
  | nil => intros; rfl
  | cons t ts ih =>
    intro s content o hn hts
    obtain ⟨hn1, hn2⟩ := List.nodup_cons.mp hn
    obtain ⟨hk, hp⟩ := hts t (.head _)
    obtain ⟨p, hp⟩ := Option.isSome_iff_exists.mp hp
    have he : updateOne content (fun _ => .ok []) s t = removeOne s t := by
      rw [updateOne, hk]
      dsimp only
      rw [hp, removeOne, hp]
      dsimp only
      rw [hk]
      rfl
    obtain ⟨s1, e1, o1, r1⟩ := removeOne_spec o (t := t) (by rw [hk]; nofun)
    rw [forEach, forEach, he, e1]
    dsimp only
    refine ih content o1 hn2 fun x hx => ?_
    obtain ⟨a, b⟩ := hts x (.tail _ hx)
    have hxt : x ≠ t := by rintro rfl; exact hn1 hx
    exact ⟨by rw [r1.kind]; exact a, by rw [r1.parent]; simpa [hxt] using b⟩

/-- C71, update of text with empty text: the text is removed. -/
theorem C71_update_empty {s : St} (o : Ok s) {ts : List NodeId} (hne : ts ≠ []) (hn : ts.Nodup) (content : Content)
    (hts : ∀ t ∈ ts, s.h.kind t = .text ∧ (s.h.parent t).isSome = true) :
    (Command.update (selects ts) content (fun _ => .ok [])).run s = (Command.remove (selects ts)).run s := by
  have := update_empty ts content o hn hts
  cases ts with
  | nil => exact absurd rfl hne
  | cons t ts => exact this

/-- C71, rename of elements: the document is the same with another node, of the new name, in the
place of each target: `ν` takes every node to the one that is in its place. -/
theorem C71_rename {s : St} (o : Ok s) {ts : List NodeId} (hne : ts ≠ []) (hn : ts.Nodup) (nm : Name)
    (hts : ∀ t ∈ ts, s.h.kind t = .element ∧ (s.h.parent t).isSome = true) :
    ∃ (s' : St) (ν : NodeId → NodeId), (Command.rename (selects ts) (fun _ => .ok nm)).run s = .ok s' ∧ Ok s' ∧
      (∀ x y, x < s.h.size → y < s.h.size → ν x = ν y → x = y) ∧
      (∀ x, x < s.h.size → x ∉ ts → ν x = x ∧ s'.val x = s.val x) ∧
      (∀ x ∈ ts, s.h.size ≤ ν x) ∧
      (∀ x, x < s.h.size → s'.name (ν x) = if x ∈ ts then nm else s.name x) ∧
      (∀ x, x < s.h.size → s'.h.kind (ν x) = s.h.kind x) ∧
      (∀ x, x < s.h.size → s'.h.kids (ν x) = (s.h.kids x).map ν) ∧
      (∀ x, x < s.h.size → isChildKind (s.h.kind x) = true → s'.h.parent (ν x) = (s.h.parent x).map ν) ∧
      (∀ x, x < s.h.size → (s'.attrs (ν x)).map (fun a => (s'.name a, s'.val a)) =
        (s.attrs x).map (fun a => (s.name a, s.val a))) := by
  obtain ⟨s', ν, e, o', r⟩ := rename_all nm ts o hn hts
  refine ⟨s', ν, ?_, o', r.inj, fun x hx hxt => ⟨r.same x hx hxt, r.val x hx hxt⟩, r.fresh, r.name, r.kind, r.kids, r.parent,
    r.attrs⟩
  cases ts with
  | nil => exact absurd rfl hne
  | cons t ts => exact e

/-- C71: a `select` without nodes is an error for append, update and rename, and for the others the
document stays as it is. -/
theorem C71_empty (s : St) (content : Content) (child : Option (St → NodeId → Except Err Int))
    (str : St → Except Err Str) (nm : Name) :
    (Command.append (selects []) content child).run s = .error .invalidSelect ∧
    (Command.update (selects []) content str).run s = .error .invalidSelect ∧
    (Command.rename (selects []) (fun _ => .ok nm)).run s = .error .invalidSelect ∧
    (Command.insertBefore (selects []) content).run s = .ok s ∧
    (Command.insertAfter (selects []) content).run s = .ok s ∧
    (Command.remove (selects [])).run s = .ok s :=
  ⟨rfl, rfl, rfl, rfl, rfl, rfl⟩

/-- C71: the commands of a request are done one after the other; each sees what those before it have
made, and the first one that fails ends it. -/
theorem C71_order (cs ds : List Command) (s : St) :
    (∀ s1, applyUpdates cs s = .ok s1 → applyUpdates (cs ++ ds) s = applyUpdates ds s1) ∧
    (∀ e, applyUpdates cs s = .error e → applyUpdates (cs ++ ds) s = .error e) ∧
    (∀ c, applyUpdates [c] s = c.run s) := by
  refine ⟨?_, ?_, ?_⟩
  · induction cs generalizing s with
    | nil => intro s1 h; injection h with h; rw [h]; rfl
    | cons c cs ih =>
      intro s1 h
      rw [List.cons_append, applyUpdates]
      rw [applyUpdates] at h
      cases hc : c.run s with
      | error e => rw [hc] at h; cases h
      | ok s2 => rw [hc] at h; exact ih s2 s1 h
  · induction cs generalizing s with
    | nil => intro e h; cases h
    | cons c cs ih =>
      intro e h
      rw [List.cons_append, applyUpdates]
      rw [applyUpdates] at h
      cases hc : c.run s with
      | error e' => rw [hc] at h; exact h
      | ok s2 => rw [hc] at h; exact ih s2 e h
  · intro c
    rw [applyUpdates]
    cases c.run s <;> rfl

/-! ### A document for the examples -/

/-- `<a k="v">x<b/><!--c--><?p d?></a>` in the document 0: the element 1, its attribute 2, the text 3,
the element 4, the comment 5 and the processing instruction 6. -/
def sampleItems : List Item :=
  [.tree (.node .element (none, s!! "a") [] [((none, s!! "k"), s!! "v")]
    [.node .text (none, []) (s!! "x") [] [], .node .element (none, s!! "b") [] [] [],
     .node .comment (none, []) (s!! "c") [] [], .node .pi (none, s!! "p") (s!! "d") [] []])]

def St.empty : St := ⟨Heap.empty, fun _ => (none, []), fun _ => [], fun _ => []⟩

def sample : St := match fragment St.empty sampleItems with
  | .ok s => s
  | .error _ => St.empty

theorem empty_ok : Ok St.empty :=
  ⟨wf_empty, fun e _ => ⟨nofun, fun h => nomatch (show (none : Option NodeId) = some e from h.2)⟩, fun _ => List.nodup_nil⟩

theorem sample_ok : Ok sample := by
  obtain ⟨s', new, e, o, _⟩ := fragment_spec empty_ok sampleItems (by
    simp only [sampleItems, trees, ValidAll, Valid]
    decide)
  unfold sample
  rw [e]
  exact o

example : sample.h.kids 0 = [1] ∧ sample.h.kids 1 = [3, 4, 5, 6] ∧ sample.attrs 1 = [2] ∧ sample.val 3 = s!! "x" := by
  decide

/-- `<i j="1">t</i>` and a comment. -/
def newItems : List Item :=
  [.tree (.node .element (none, s!! "i") [] [((none, s!! "j"), s!! "1")] [.node .text (none, []) (s!! "t") [] []]),
   .tree (.node .comment (none, []) (s!! "n") [] [])]

theorem newItems_valid : ValidAll (trees newItems) := by
  simp only [newItems, trees, ValidAll, Valid]
  decide

/-- Non-vacuity of C71: a target list with a parent and its child, content with an attribute and
children, and what is done. -/
example : ∃ s', (Command.append (selects [1, 4]) (writes newItems) (some 1 |>.map fun i _ _ => .ok i)).run sample = .ok s' ∧
    Ok s' := by
  obtain ⟨s', e, o, _⟩ := C71_append sample_ok (ts := [1, 4]) (by simp) (by decide) newItems_valid (some 1) (by decide)
  exact ⟨s', e, o⟩
example : ∃ s', (Command.insertAfter (selects [3, 4]) (writes newItems)).run sample = .ok s' ∧ Ok s' := by
  obtain ⟨s', _, e, o, _⟩ := C71_insert_after sample_ok (ts := [3, 4]) (by decide) newItems_valid
    (by intro t ht; exact ⟨1, by revert t; decide⟩)
  exact ⟨s', e, o⟩
example : ∃ s', (Command.update (selects [1, 2, 3, 5]) (writes newItems) (fun _ => .ok (s!! "w"))).run sample = .ok s' ∧
    Ok s' := by
  obtain ⟨s', e, o, _⟩ := C71_update sample_ok (ts := [1, 2, 3, 5]) (by simp) (by decide) newItems_valid (v := s!! "w")
    (by decide) (by decide)
  exact ⟨s', e, o⟩
example : ∃ s', (Command.rename (selects [1, 4]) (fun _ => .ok (none, s!! "z"))).run sample = .ok s' ∧ Ok s' := by
  obtain ⟨s', _, e, o, _⟩ := C71_rename sample_ok (ts := [1, 4]) (by simp) (by decide) (none, s!! "z") (by decide)
  exact ⟨s', e, o⟩
example : ∃ s', (Command.remove (selects [0, 2, 4])).run sample = .ok s' ∧ s'.h.kids 1 = [3, 5, 6] ∧ s'.attrs 1 = [] := by
  obtain ⟨s', e, _, _, _, _, _, k, a, _⟩ := C71_remove sample_ok (ts := [0, 2, 4]) (by decide)
  exact ⟨s', e, by rw [k]; decide, by rw [a]; decide⟩
example : (Command.update (selects [3]) (writes []) (fun _ => .ok [])).run sample = (Command.remove (selects [3])).run sample :=
  C71_update_empty sample_ok (by simp) (by decide) _ (by decide)

/-! ### Where the commands go wrong -/

/-- The children of a node, or the attributes, after a command. -/
def kidsAfter (r : Except Err St) (n : NodeId) : Except Err (List NodeId) := match r with
  | .error e => .error e
  | .ok s => .ok (s.h.kids n)
def attrsAfter (r : Except Err St) (n : NodeId) : Except Err (List (Name × Str)) := match r with
  | .error e => .error e
  | .ok s => .ok ((s.attrs n).map fun a => (s.name a, s.val a))
def failure (r : Except Err St) : Option Err := match r with
  | .error e => some e
  | .ok _ => none

/-- C71 does not hold for attributes in the content of append and of the insert commands: they are
lost without an error.  (`<xupdate:append select="/a"><xupdate:attribute name="n">w</xupdate:attribute>`.) -/
theorem C71_refuted_attribute (s : St) (hs : Ok s) (t : NodeId) (ht : t < s.h.size) (hk : s.h.kind t = .element)
    (nm : Name) (v : Str) :
    ∃ s', (Command.append (selects [t]) (writes [.attr nm v]) none).run s = .ok s' ∧ s'.attrs t = s.attrs t ∧
      s'.h.kids t = s.h.kids t := by
  obtain ⟨s', e, _, k, h, _⟩ := C71_append hs (ts := [t]) (by simp) (by simp) (items := [.attr nm v])
    (by simp only [trees, ValidAll]) none (by
      intro x hx
      simp at hx
      subst hx
      exact ⟨ht, by rw [hk]; rfl, rfl⟩)
  obtain ⟨n, new, a, b, c⟩ := h t (.head _)
  simp only [trees, HoldsAll] at c
  subst c
  exact ⟨s', e, k.attrs t ht, by rw [b]; simp⟩

/-- C71 does not hold for the `child` attribute as XUpdate and the comments of the code mean it:
`child="1"` puts the content behind the first child, and -1 in front of the last. -/
theorem C71_refuted_child :
    kidsAfter ((Command.append (selects [1]) (writes newItems) (some fun _ _ => .ok 1)).run sample) 1 =
      .ok [3, 8, 11, 4, 5, 6] ∧
    kidsAfter ((Command.append (selects [1]) (writes newItems) (some fun _ _ => .ok (-1))).run sample) 1 =
      .ok [3, 4, 5, 8, 11, 6] ∧
    failure ((Command.append (selects [1]) (writes newItems) (some fun _ _ => .ok (-5))).run sample) = some .index := by
  decide

/-- C71 does not hold for rename of attributes: the attribute is still there under its old name. -/
theorem C71_refuted_rename_attribute :
    attrsAfter ((Command.rename (selects [2]) (fun _ => .ok (none, s!! "z"))).run sample) 1 =
      .ok [((none, s!! "k"), s!! "v"), ((none, s!! "z"), s!! "v")] := by
  decide

/-- C71 does not hold for processing instructions: neither rename nor update is possible; and rename
of text and comments does nothing, without an error. -/
theorem C71_refuted_pi :
    failure ((Command.rename (selects [6]) (fun _ => .ok (none, s!! "z"))).run sample) = some .name ∧
    failure ((Command.update (selects [6]) (writes newItems) (fun _ => .ok (s!! "w"))).run sample) = some .attribute ∧
    (Command.rename (selects [3, 5]) (fun _ => .ok (none, s!! "z"))).run sample = .ok sample := by
  refine ⟨by decide, by decide, rfl⟩

/-- C71 does not hold beside nodes that have no siblings: the root and attributes. -/
theorem C71_refuted_beside :
    failure ((Command.insertBefore (selects [0]) (writes newItems)).run sample) = some .attribute ∧
    failure ((Command.insertAfter (selects [0]) (writes newItems)).run sample) = some .attribute ∧
    failure ((Command.insertBefore (selects [2]) (writes newItems)).run sample) = some (.dom .value) ∧
    failure ((Command.insertAfter (selects [2]) (writes newItems)).run sample) = some (.dom .invalidState) := by
  decide

/-- C71 does not hold for an update with nothing of an element and of text in it: the text is gone by
then, and an AttributeError ends the command. -/
theorem C71_refuted_update :
    failure ((Command.update (selects [1, 3]) (writes []) (fun _ => .ok [])).run sample) = some .attribute := by
  decide

/-- C71: `xupdate:if` is never done, whatever its test is: it ends the request. -/
theorem C71_refuted_if (s : St) (cs : List Command) :
    applyUpdates (.cond :: cs) s = .error .notImplemented := rfl

end Verif.XUpdate
