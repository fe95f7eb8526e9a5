/-
The node objects of lib/src/domlette: a heap of nodes with parent pointers and child arrays, the
functions that edit it (container.c) and the ones that navigate and compare (node.c).

Reference counts, memory allocation failure and the mutation events dispatched for subclasses
(`try_dispatch_event`, a no-op for plain elements and entities) are not modelled.
-/
namespace Verif.Dom

/-- The address of a node object. -/
scoped notation "NodeId" => Nat

/-- The type objects of lib/src/domlette. -/
inductive Kind
  | entity | element | text | comment | pi | attr | ns
  deriving DecidableEq, Repr

/-- All node objects: `NodeObject.parent` (node.h), and `ContainerObject.nodes[0 .. count-1]`
(container.h).  The addresses in use are those below `size`. -/
structure Heap where
  size : Nat
  kind : NodeId → Kind
  parent : NodeId → Option NodeId
  kids : NodeId → List NodeId

/-- `Container_Check` (container.h:35): elements and entities. -/
def isContainer : Kind → Bool
  | .entity | .element => true
  | _ => false

/-- The node types allowed as children (container.c:98-99). -/
def isChildKind : Kind → Bool
  | .element | .text | .comment | .pi => true
  | _ => false

/-- The exceptions raised. -/
inductive Err | value | system | invalidState
  deriving DecidableEq, Repr

/-- What an edit does: the new heap; an exception, with the heap as before; or something C leaves
undefined: a visible array slot that was never written, or an endless loop. -/
inductive Res
  | ok (h : Heap) | raised (e : Err) | undefined

/-- `Node_SET_PARENT`. -/
def Heap.setParent (h : Heap) (n : NodeId) (p : Option NodeId) : Heap :=
  { h with parent := fun m => if m = n then p else h.parent m }

/-- Assignment to the child array of `n`. -/
def Heap.setKids (h : Heap) (n : NodeId) (l : List NodeId) : Heap :=
  { h with kids := fun m => if m = n then l else h.kids m }

/-- The index found by the loops `for (index = count; --index >= 0;)` (container.c:324-327,
450-453): the last occurrence. -/
def lastIdx {α : Type} [DecidableEq α] (l : List α) (c : α) : Option Nat :=
  match l with
  | [] => none
  | x :: xs => match lastIdx xs c with
    | some i => some (i + 1)
    | none => if x = c then some 0 else none

/-- `Container_Remove` (container.c:312-351). -/
def containerRemove (h : Heap) (self child : NodeId) : Res :=
  if isContainer (h.kind self) then
    match lastIdx (h.kids self) child with
    | none => .raised .value
    | some i => .ok ((h.setParent child none).setKids self ((h.kids self).eraseIdx i))
  else .raised .system

/-- The loop of `ensure_hierarchy` (container.c:105-111): is `child` the node `self` or one of its
ancestors?  `none`: no answer after following `fuel` parent pointers. -/
def onChain (h : Heap) (child : NodeId) : Nat → NodeId → Option Bool
  | 0, _ => none
  | fuel + 1, self =>
    if child = self then some true
    else match h.parent self with
      | none => some false
      | some p => onChain h child fuel p

/-- `ensure_hierarchy` (container.c:91-114); the outer `none` is an endless loop. -/
def ensureHierarchy (h : Heap) (self child : NodeId) : Option (Option Err) :=
  if !isContainer (h.kind self) then some (some .system)
  else if !isChildKind (h.kind child) then some (some .value)
  else match onChain h child (h.size + 1) self with
    | none => none
    | some true => some (some .value)
    | some false => some none

/-- A cell of a child array; `none` is a cell that has not been written. -/
abbrev Slot := Option NodeId

/-- All cells, if they have all been written. -/
def allSome : List Slot → Option (List NodeId)
  | [] => some []
  | none :: _ => none
  | some x :: xs => match allSome xs with
    | none => none
    | some l => some (x :: l)

/-- The end of an insertion: `nodes` are the visible cells of `self`'s array; the parent of `child`
is set (container.c:375-381, 429-435). -/
def commit (h : Heap) (self : NodeId) (nodes : List Slot) (child : NodeId) : Res :=
  match allSome nodes with
  | none => .undefined
  | some l => .ok ((h.setKids self l).setParent child (some self))

/-- What `Container_Append`/`Container_Insert` know after the old parent has let go of `child`. -/
inductive Detached
  | ok (h : Heap) (nodes : List Slot)
  | raised (e : Err)
  | undefined

/-- "If the child has a previous parent, remove it from that parent" (container.c:365-373, 407-415):
`nodes` are the cells of `self`'s array, already enlarged by one cell, which has not been written.  If `self` is
itself the previous parent, `Container_Remove` looks for `child` in that enlarged array, from the end: it compares
the cell that has not been written.  What comes of it depends on what was in the memory before (Verif.Dom.Build has
the memory). -/
def detach (h : Heap) (self : NodeId) (nodes : List Slot) (child : NodeId) : Detached :=
  match h.parent child with
  | none => .ok h nodes
  | some q =>
    if q = self then .undefined
    else match containerRemove h q child with
      | .ok h' => .ok h' nodes
      | .raised e => .raised e
      | .undefined => .raised .system

/-- `Container_Append` (container.c:353-385): the child is written to the cell with the old count as index. -/
def containerAppend (h : Heap) (self child : NodeId) : Res :=
  match ensureHierarchy h self child with
  | none => .undefined
  | some (some e) => .raised e
  | some none =>
    let count := (h.kids self).length
    match detach h self ((h.kids self).map some ++ [none]) child with
    | .raised e => .raised e
    | .undefined => .undefined
    | .ok h' nodes => commit h' self (nodes.set count (some child)) child

/-- The adjustment of `where` (container.c:417-422), with the old count. -/
def clampWhere (wh : Int) (count : Nat) : Nat :=
  if wh < 0 then (wh + count).toNat
  else if wh > count then count
  else wh.toNat

/-- `Container_Insert` (container.c:387-439).  `nodes` has as many cells as are visible, `mem` is the
allocated memory of old count + 1 cells. -/
def containerInsert (h : Heap) (self : NodeId) (wh : Int) (child : NodeId) : Res :=
  match ensureHierarchy h self child with
  | none => .undefined
  | some (some e) => .raised e
  | some none =>
    let count := (h.kids self).length
    match detach h self ((h.kids self).map some ++ [none]) child with
    | .raised e => .raised e
    | .undefined => .undefined
    | .ok h' nodes =>
      let w := clampWhere wh count
      let mem := nodes ++ List.replicate (count + 1 - nodes.length) none
      let mem' := mem.take w ++ some child :: (mem.drop w).take (count - w)
      commit h' self (mem'.take nodes.length) child

/-- `Container_Replace` (container.c:441-490): no check of the hierarchy, and the index found at the
start is used after the removal of `newChild` from its previous parent.  Its last statements: the old
child loses its parent, the cell is overwritten, the new child gets its parent. -/
def containerReplace (h : Heap) (self oldChild newChild : NodeId) : Res :=
  match lastIdx (h.kids self) oldChild with
  | none => .raised .value
  | some i =>
    if oldChild = newChild then .ok h
    else
      let finish (h' : Heap) : Res :=
        .ok (((h'.setParent oldChild none).setKids self ((h'.kids self).set i newChild)).setParent
          newChild (some self))
      match h.parent newChild with
      | none => finish h
      | some q => match containerRemove h q newChild with
        | .ok h' => finish h'
        | .raised e => .raised e
        | .undefined => .undefined

/-- The four editing methods `xml_append`, `xml_insert`, `xml_remove`, `xml_replace`
(container.c:563-646). -/
inductive Edit
  | append (self child : NodeId)
  | insert (self : NodeId) (wh : Int) (child : NodeId)
  | remove (self child : NodeId)
  | replace (self oldChild newChild : NodeId)

/-- Perform one edit. -/
def Edit.run (h : Heap) : Edit → Res
  | .append s c => containerAppend h s c
  | .insert s w c => containerInsert h s w c
  | .remove s c => containerRemove h s c
  | .replace s o n => containerReplace h s o n

/-- Creation of a node object without parent and children (`Entity(...)`, `Element(...)`, ...). -/
def Heap.alloc (h : Heap) (k : Kind) : Heap :=
  { size := h.size + 1
    kind := fun n => if n = h.size then k else h.kind n
    parent := fun n => if n = h.size then none else h.parent n
    kids := fun n => if n = h.size then [] else h.kids n }

/-- The part of `AttributeMap_SetNode`/`NamespaceMap_SetNode` (attributemap.c, namespacemap.c) seen
by the tree: the attribute or namespace node gets the element as its parent. -/
def Heap.setOwner (h : Heap) (element node : NodeId) : Heap := h.setParent node (some element)

/-- No nodes at all. -/
def Heap.empty : Heap := ⟨0, fun _ => .entity, fun _ => none, fun _ => []⟩

end Verif.Dom
