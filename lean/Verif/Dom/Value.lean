import Verif.Py
import Verif.Dom.Heap

/-
String-values (lib/xpath/src/datatypes.c:75-162) and `xml_normalize`
(lib/src/domlette/container.c:503-561).  The text of a node (`xml_value` of text and comments,
`xml_data` of processing instructions, the value of attributes and namespaces) is a function from
nodes to strings next to the heap.
-/
namespace Verif.Dom
open Verif

/-- The loop of `join_descendants` over the remaining children (datatypes.c:83-108); `acc` is the part
of the result that has been used, `sub` the recursive call. -/
def joinList (h : Heap) (val : NodeId → Str) (sub : NodeId → Str → Option Str) :
    List NodeId → Str → Option Str
  | [], acc => some acc
  | c :: cs, acc =>
    if h.kind c = .element then
      match sub c acc with
      | none => none
      | some acc' => joinList h val sub cs acc'
    else if h.kind c = .text then joinList h val sub cs (acc ++ val c)
    else joinList h val sub cs acc

/-- `join_descendants` (datatypes.c:75-118); `none`: nested deeper than `fuel`.  Overflow of sizes is
left out. -/
def joinDescendants (h : Heap) (val : NodeId → Str) : Nat → NodeId → Str → Option Str
  | 0, _, _ => none
  | fuel + 1, n, acc => joinList h val (joinDescendants h val fuel) (h.kids n) acc

/-- `node_to_string` (datatypes.c:120-162). -/
def nodeToString (h : Heap) (val : NodeId → Str) (n : NodeId) : Option Str :=
  match h.kind n with
  | .element | .entity => joinDescendants h val (h.size + 1) n []
  | .attr => some (val n)
  | .text | .comment => some (val n)
  | .pi => some (val n)
  | .ns => some (val n)

/-- What `xml_normalize` leaves behind; `none` is an exception or an undefined state. -/
abbrev NormRes := Option (Heap × (NodeId → Str))

/-- The inner loop of `xml_normalize` (container.c:528-555) at index `i` with `k = count - i`; the
third component of the result is `count - i` afterwards. -/
def normInner (self current : NodeId) (i : Nat) :
    Nat → Heap → (NodeId → Str) → Option (Heap × (NodeId → Str) × Nat)
  | 0, h, val => some (h, val, 0)
  | k + 1, h, val => match (h.kids self)[i]? with
    | none => none
    | some next =>
      if h.kind next = .text then
        let val' := fun m => if m = current then val current ++ val next else val m
        match containerRemove h self next with
        | .ok h' => normInner self current i k h' val'
        | _ => none
      else some (h, val, k + 1)

/-- The outer loop (container.c:520-556) at index `i` with `k = count - i`; `fuel` bounds the number of
rounds. -/
def normOuter (self : NodeId) : Nat → Nat → Nat → Heap → (NodeId → Str) → NormRes
  | _, _, 0, h, val => some (h, val)
  | 0, _, _ + 1, _, _ => none
  | fuel + 1, i, k + 1, h, val => match (h.kids self)[i]? with
    | none => none
    | some current =>
      if h.kind current = .text then
        match normInner self current (i + 1) k h val with
        | none => none
        | some (h', val', k') => normOuter self fuel (i + 2) (k' - 1) h' val'
      else normOuter self fuel (i + 1) k h val

/-- `xml_normalize` (container.c:510-561). -/
def xmlNormalize (h : Heap) (val : NodeId → Str) (self : NodeId) : NormRes :=
  if (h.kids self).length < 2 then some (h, val)
  else normOuter self (h.kids self).length 0 (h.kids self).length h val

end Verif.Dom
