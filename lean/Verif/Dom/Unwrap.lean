import Verif.Dom.Heap
/-
`unwrap` (lib/lib/util.py:83-105): an element is replaced by its children.
-/
namespace Verif.Dom.Unwrap
open Verif.Dom

inductive Out where
  | ok (h : Heap) (parent : NodeId)
  /-- An exception of an edit. -/
  | raised (e : Err)
  /-- `e.xml_parent` is None, or `e` has no `xml_children`. -/
  | attribute
  | undefined

/-- `container_index` (container.c:125-151) with the whole range: the first occurrence. -/
def index (l : List NodeId) (c : NodeId) : Option Nat :=
  match l with
  | [] => none
  | x :: xs => if x = c then some 0 else (index xs c).map (· + 1)

/-- The loop of lines 101-103. -/
def insertAll (h : Heap) (p : NodeId) (pos : Nat) : List NodeId → Out
  | [] => .ok h p
  | c :: cs => match (Edit.insert p pos c).run h with
    | .ok h' => insertAll h' p (pos + 1) cs
    | .raised e => .raised e
    | .undefined => .undefined

/-- `unwrap` (util.py:83-105); `xml_children` is a new tuple (container.c:702-718). -/
def unwrap (h : Heap) (e : NodeId) : Out :=
  if isContainer (h.kind e) then
    let children := h.kids e
    match h.parent e with
    | none => .attribute
    | some p => match index (h.kids p) e with
      | none => .raised .value
      | some pos => match (Edit.remove p e).run h with
        | .ok h' => insertAll h' p pos children
        | .raised e => .raised e
        | .undefined => .undefined
  else .attribute

end Verif.Dom.Unwrap
