import Verif.XUpdate.Commands
import Verif.Dom.HeapSpec

/-
What documents are and what it means that a node is a written tree.  Nothing here mentions how the
commands work.
-/
namespace Verif.XUpdate.Spec
open Verif Verif.Dom Verif.Dom.Spec Verif.XUpdate

/-- A document: a well-formed forest in which the attributes of an element are the attribute nodes
with that parent, each once. -/
structure Ok (s : St) : Prop where
  wf : WF s.h
  attr : ∀ e a, a ∈ s.attrs e ↔ s.h.kind a = .attr ∧ s.h.parent a = some e
  nodup : ∀ e, (s.attrs e).Nodup

mutual
/-- The node is the tree: kind, name, value, attributes and children. -/
def Holds (s : St) : Tree → NodeId → Prop
  | .node k nm v as ts, n =>
    s.h.kind n = k ∧ s.name n = nm ∧ s.val n = v ∧
    (s.attrs n).map (fun a => (s.name a, s.val a)) = as ∧ HoldsAll s ts (s.h.kids n)
/-- The nodes are the trees, in this order. -/
def HoldsAll (s : St) : List Tree → List NodeId → Prop
  | [], ns => ns = []
  | t :: ts, ns => ∃ n l, ns = n :: l ∧ Holds s t n ∧ HoldsAll s ts l
end

mutual
/-- What can be written: elements, and leaves without attributes and children. -/
def Valid : Tree → Prop
  | .node k _ _ as ts => (k = .element ∨ isChildKind k = true ∧ as = [] ∧ ts = []) ∧ ValidAll ts
/-- All of them. -/
def ValidAll : List Tree → Prop
  | [] => True
  | t :: ts => Valid t ∧ ValidAll ts
end

/-- Everything about the old nodes is as before, except for their children. -/
structure Keeps (s s' : St) : Prop where
  size : s.h.size ≤ s'.h.size
  kind : ∀ x, x < s.h.size → s'.h.kind x = s.h.kind x
  parent : ∀ x, x < s.h.size → s'.h.parent x = s.h.parent x
  name : ∀ x, x < s.h.size → s'.name x = s.name x
  val : ∀ x, x < s.h.size → s'.val x = s.val x
  attrs : ∀ x, x < s.h.size → s'.attrs x = s.attrs x

end Verif.XUpdate.Spec
