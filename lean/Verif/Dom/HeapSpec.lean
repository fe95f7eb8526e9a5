import Verif.Dom.Heap

/-
What "well formed" means for a forest of nodes, and document order.  Nothing here mentions the
algorithms.
-/
namespace Verif.Dom.Spec
open Verif.Dom

/-- `a` is a proper ancestor of `b`, following `xml_parent`. -/
inductive Anc (h : Heap) (a : NodeId) : NodeId → Prop
  | parent {b : NodeId} : h.parent b = some a → Anc h a b
  | step {p b : NodeId} : Anc h a p → h.parent b = some p → Anc h a b

/-- `a` is `b` or an ancestor of `b`. -/
def AncS (h : Heap) (a b : NodeId) : Prop := a = b ∨ Anc h a b

/-- A well-formed forest. -/
structure WF (h : Heap) : Prop where
  /-- the container a node is listed in is its `xml_parent` -/
  kids_parent : ∀ p c, c ∈ h.kids p → h.parent c = some p
  /-- a child node with an `xml_parent` is listed there -/
  parent_kids : ∀ p c, h.parent c = some p → isChildKind (h.kind c) = true → c ∈ h.kids p
  /-- no node is listed twice -/
  nodup : ∀ p, (h.kids p).Nodup
  /-- only elements, text, comments and processing instructions are children -/
  child_kind : ∀ p c, c ∈ h.kids p → isChildKind (h.kind c) = true
  /-- only elements and entities are parents -/
  parent_kind : ∀ p c, h.parent c = some p → isContainer (h.kind p) = true
  /-- entities are roots -/
  entity_root : ∀ c, h.kind c = .entity → h.parent c = none
  /-- no node is its own ancestor -/
  acyclic : ∀ a, ¬ Anc h a a
  /-- only existing nodes have a parent or are one -/
  bounded : ∀ p c, h.parent c = some p → c < h.size ∧ p < h.size

/-- The uses of the editing methods for which the code is right.  Ruled out are: appending a node to
the parent it already has, or inserting it there, and replacing a child by one of
its earlier siblings, by an ancestor, or by something that cannot be a child. -/
def Legal (h : Heap) : Edit → Prop
  | .append s c => s < h.size ∧ c < h.size ∧ h.parent c ≠ some s
  | .insert s _ c => s < h.size ∧ c < h.size ∧ h.parent c ≠ some s
  | .remove _ _ => True
  | .replace s o n => s < h.size ∧ n < h.size ∧ isChildKind (h.kind n) = true ∧ ¬ AncS h n s ∧
      ¬ ∃ i j : Nat, i < j ∧ (h.kids s)[i]? = some n ∧ (h.kids s)[j]? = some o

/-- The forests that programs can build: nodes are created, attributes and namespaces get their
owner, and edits are done. -/
inductive Reach : Heap → Prop
  | empty : Reach Heap.empty
  | new {h : Heap} (k : Kind) : Reach h → Reach (h.alloc k)
  | owner {h : Heap} {e a : NodeId} : Reach h → h.kind e = .element → (h.kind a = .attr ∨ h.kind a = .ns) →
      e < h.size → a < h.size → Reach (h.setOwner e a)
  | edit {h h' : Heap} (e : Edit) : Reach h → Legal h e → e.run h = .ok h' → Reach h'

/-- Document order (XPath 1.0, 5): `a` comes before `b` if it is an ancestor of `b`, or if they are
in (or are) different children of the same node and the one of `a` comes first. -/
inductive Before (h : Heap) (a b : NodeId) : Prop
  | anc : Anc h a b → Before h a b
  | sib (p : NodeId) (i j : Nat) (c d : NodeId) : (h.kids p)[i]? = some c → (h.kids p)[j]? = some d → i < j →
      AncS h c a → AncS h d b → Before h a b

/-- `r` is the root of the tree that `n` is in. -/
def Root (h : Heap) (r n : NodeId) : Prop := AncS h r n ∧ h.parent r = none

/-- The nodes XPath counts as tree nodes: everything but attributes and namespace nodes. -/
def TreeNode (h : Heap) (n : NodeId) : Prop := h.kind n ≠ .attr ∧ h.kind n ≠ .ns

end Verif.Dom.Spec
