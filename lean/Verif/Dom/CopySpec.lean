import Verif.Dom.Copy
import Verif.Dom.HeapSpec
/-
What the copy of a tree should be.
-/
namespace Verif.Dom.Copy.Spec
open Verif Verif.Dom Verif.Dom.Spec

/-- A tree as a value: what its nodes say, with the namespaces and attributes of the elements. -/
inductive Tree
  | node (info : Info) (nss attrs : List Info) (kids : List Tree)

/-- The nodes `l` belong to the element `e`, and say `is`. -/
def Listed (d : Doc) (e : NodeId) (l : List NodeId) (is : List Info) : Prop :=
  l.map d.info = is ∧ ∀ x ∈ l, d.heap.parent x = some e

mutual
/-- At `n`, with the parent `p`, is the tree. -/
inductive Is (d : Doc) : Option NodeId → NodeId → Tree → Prop
  | mk {p n ns as ts} : d.heap.parent n = p → Listed d n (d.nss n) ns → Listed d n (d.attrs n) as →
      Are d n (d.heap.kids n) ts → Is d p n (.node (d.info n) ns as ts)
/-- The children of `p` are the trees. -/
inductive Are (d : Doc) : NodeId → List NodeId → List Tree → Prop
  | nil {p} : Are d p [] []
  | cons {p c cs t ts} : Is d (some p) c t → Are d p cs ts → Are d p (c :: cs) (t :: ts)
end

/-- Nothing happened to the nodes that were there before. -/
structure Untouched (d d' : Doc) : Prop where
  size : d.heap.size ≤ d'.heap.size
  kind : ∀ n, n < d.heap.size → d'.heap.kind n = d.heap.kind n
  parent : ∀ n, n < d.heap.size → d'.heap.parent n = d.heap.parent n
  kids : ∀ n, n < d.heap.size → d'.heap.kids n = d.heap.kids n
  info : ∀ n, n < d.heap.size → d'.info n = d.info n
  nss : ∀ n, n < d.heap.size → d'.nss n = d.nss n
  attrs : ∀ n, n < d.heap.size → d'.attrs n = d.attrs n

/-- Well-formed documents: a well-formed forest (C13), whose elements have tables of their own namespaces and
attributes, with one node for a prefix or name. -/
structure Good (d : Doc) : Prop where
  heap : WF d.heap
  kind : ∀ n, n < d.heap.size → d.heap.kind n = (d.info n).kind
  nss_own : ∀ e x, x ∈ d.nss e → d.heap.parent x = some e ∧ d.heap.kind x = .ns
  attrs_own : ∀ e x, x ∈ d.attrs e → d.heap.parent x = some e ∧ d.heap.kind x = .attr
  nss_keys : ∀ e, ((d.nss e).map fun x => nsKey (d.info x)).Nodup
  attrs_keys : ∀ e, ((d.attrs e).map fun x => attrKey (d.info x)).Nodup
  tables : ∀ e, d.heap.kind e ≠ .element → d.nss e = [] ∧ d.attrs e = []

end Verif.Dom.Copy.Spec
