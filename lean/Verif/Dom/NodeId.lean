import Verif.XPath.Num
import Verif.Dom.Heap

/-
`xml_nodeid` (lib/src/domlette/node.c:574-700), which XSLT's `generate-id()` returns.
-/
namespace Verif.Dom
open Verif

/-- The attribute and namespace maps: for each element the slots of its tables (`none`: the element has
no such map). -/
structure Maps where
  attrs : NodeId → Option (List (Option NodeId))
  nss : NodeId → Option (List (Option NodeId))

/-- `xml_typecode` (attr.c:402, comment.c:107, element.c:1034, entity.c:466, namespace.c:211,
processinginstruction.c:226, text.c:106). -/
def typecode : Kind → Char
  | .attr => 'a'
  | .comment => 'c'
  | .element => 'e'
  | .entity => 'r'
  | .ns => 'n'
  | .pi => 'p'
  | .text => 't'

/-- `pos` after the loops over `AttributeMap_Next`, `NamespaceMap_Next` (node.c:600-604, 614-618,
attributemap.c:121-134): one more than the slot, also when the end is reached. -/
def slotPos (t : List (Option NodeId)) (x : NodeId) : Nat :=
  match t.idxOf? (some x) with
  | some i => i + 1
  | none => t.length + 1

/-- The number after the type code of a node with a parent (node.c:593-626). `none`: ValueError of
`Container_Index`, or the failed `assert`. -/
def nodePos (h : Heap) (maps : Maps) (parent n : NodeId) : Option Nat :=
  if h.kind parent = .element then
    if h.kind n = .attr then (maps.attrs parent).map (slotPos · n)
    else if h.kind n = .ns then (maps.nss parent).map (slotPos · n)
    else (h.kids parent).idxOf? n
  else (h.kids parent).idxOf? n

/-- The number after the type code of a root: the creation index of an entity, the address of anything
else (node.c:641-650). -/
def rootPos (h : Heap) (index : NodeId → Nat) (n : NodeId) : Nat :=
  if h.kind n = .entity then index n else n

/-- `generate_id` (node.c:574-662): the strings put into the buffer. -/
def generateId (h : Heap) (maps : Maps) (index : NodeId → Nat) : Nat → NodeId → Option (List Str)
  | 0, _ => none
  | fuel + 1, n => match h.parent n with
    | some p => match generateId h maps index fuel p with
      | none => none
      | some buffer => match nodePos h maps p n with
        | none => none
        | some pos => some (buffer ++ [[typecode (h.kind n)], XPath.decimal pos])
    | none => some [[typecode (h.kind n)], XPath.decimal (rootPos h index n)]

/-- `get_id` (node.c:664-700): the strings are concatenated. -/
def nodeId (h : Heap) (maps : Maps) (index : NodeId → Nat) (n : NodeId) : Option Str :=
  (generateId h maps index (h.size + 1) n).map List.flatten

end Verif.Dom
