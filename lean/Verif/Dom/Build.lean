import Verif.Dom.Heap

/-
The memory behind the nodes of lib/src/domlette: container.c with its arrays, and builder.c, which makes the tree
while a document is parsed, and lends its own arrays to the elements that are not complete.

Reference counts, memory allocation failure and the mutation events dispatched for subclasses are not modelled, and
attributes and namespaces are left out (their tables are C16).
-/
namespace Verif.Dom.Build
open Verif.Dom

/-- The address of an array. -/
scoped notation "Ptr" => Nat

/-- The fields of a node object: `Node_HEAD` and `Container_HEAD` (node.h, container.h:12-17). -/
structure CNode where
  kind : Kind
  parent : Option NodeId
  count : Nat
  nodes : Option Ptr
  allocated : Nat
  frozen : Bool

/-- The memory: node objects, and arrays of cells.  `none` is an array that has been freed (or never was); a cell that
was never written is `none`.  When a block is resized, the C library may move it; `moves` tells if it does. -/
structure Mem where
  size : Nat
  node : NodeId → CNode
  brk : Ptr
  arr : Ptr → Option (List Slot)
  moves : Nat → Bool
  tick : Nat

def Mem.setNode (m : Mem) (n : NodeId) (c : CNode) : Mem :=
  { m with node := fun x => if x = n then c else m.node x }

def Mem.setArr (m : Mem) (p : Ptr) (a : Option (List Slot)) : Mem :=
  { m with arr := fun x => if x = p then a else m.arr x }

/-- `Node_SET_PARENT`. -/
def Mem.setParent (m : Mem) (n : NodeId) (p : Option NodeId) : Mem := m.setNode n { m.node n with parent := p }

/-- `Container_SET_COUNT`. -/
def Mem.setCount (m : Mem) (n : NodeId) (k : Nat) : Mem := m.setNode n { m.node n with count := k }

/-- The cells of the array of a container. -/
def Mem.cells (m : Mem) (n : NodeId) : List Slot :=
  match (m.node n).nodes with
  | none => []
  | some p => (m.arr p).getD []

/-- Writing to the cells of the array of a container. -/
def Mem.setCells (m : Mem) (n : NodeId) (cells : List Slot) : Mem :=
  match (m.node n).nodes with
  | none => m
  | some p => m.setArr p (some cells)

/-- `PyMem_New`. -/
def Mem.malloc (m : Mem) (cells : List Slot) : Ptr × Mem :=
  (m.brk, { m.setArr m.brk (some cells) with brk := m.brk + 1 })

/-- `PyMem_Free`. -/
def Mem.free (m : Mem) (p : Ptr) : Mem := m.setArr p none

/-- The cells after resizing to `k`. -/
def fit (cells : List Slot) (k : Nat) : List Slot := (cells ++ List.replicate k none).take k

/-- `PyMem_Resize`; undefined for an array that has been freed. -/
def Mem.realloc (m : Mem) (p : Option Ptr) (k : Nat) : Option (Ptr × Mem) :=
  match p with
  | none => some (m.malloc (List.replicate k none))
  | some p => match m.arr p with
    | none => none
    | some cells =>
      if m.moves m.tick then
        let r := (m.free p).malloc (fit cells k)
        some (r.1, { r.2 with tick := m.tick + 1 })
      else some (p, { m.setArr p (some (fit cells k)) with tick := m.tick + 1 })

/-- `container_resize` (container.c:36-77). -/
def resize (m : Mem) (self : NodeId) (newsize : Nat) : Option Mem :=
  let c := m.node self
  if c.allocated ≥ newsize ∧ (newsize ≥ c.allocated / 2 ∨ c.frozen = false) then some (m.setCount self newsize)
  else
    let newAllocated := if newsize = 0 then 0 else newsize / 8 + (if newsize < 9 then 3 else 6) + newsize
    match m.realloc c.nodes newAllocated with
    | none => none
    | some (p, m') => some (m'.setNode self { c with nodes := some p, count := newsize, allocated := newAllocated })

/-- What an edit does: done; an exception, with the memory it leaves; or something undefined. -/
inductive MRes
  | ok (m : Mem)
  | raised (e : Err) (m : Mem)
  | undefined

/-- The loops `for (index = count; --index >= 0;) if (nodes[index] == child) break;` (container.c:324-327, 450-453).
Undefined if a cell is compared that is not in the array, or was never written. -/
def scanBack (cells : List Slot) (c : NodeId) : Nat → Option (Option Nat)
  | 0 => some none
  | i + 1 => match cells[i]? with
    | none | some none => none
    | some (some x) => if x = c then some (some i) else scanBack cells c i

/-- `memmove(&nodes[index], &nodes[index+1], ...)` (container.c:343-344): the last cell keeps its contents. -/
def moveDown (cells : List Slot) (index count : Nat) : List Slot :=
  cells.take index ++ ((cells.drop (index + 1)).take (count - (index + 1)) ++ cells.drop (count - 1))

/-- `Container_Remove` (container.c:312-351). -/
def removeM (m : Mem) (self child : NodeId) : MRes :=
  if isContainer (m.node self).kind then
    let count := (m.node self).count
    match scanBack (m.cells self) child count with
    | none => .undefined
    | some none => .raised .value m
    | some (some i) =>
      let m1 := m.setParent child none
      let m2 := m1.setCells self (moveDown (m.cells self) i count)
      match resize m2 self (count - 1) with
      | none => .undefined
      | some m3 => .ok m3
  else .raised .system m

/-- "If the child has a previous parent, remove it from that parent" (container.c:366-373, 408-415, 462-467). -/
def detachM (m : Mem) (child : NodeId) : MRes :=
  match (m.node child).parent with
  | none => .ok m
  | some q => removeM m q child

/-- `ensure_hierarchy` (container.c:91-114) looks at kinds and parents only. -/
def Mem.shape (m : Mem) : Heap :=
  ⟨m.size, fun n => (m.node n).kind, fun n => (m.node n).parent, fun _ => []⟩

/-- `Container_SET_CHILD`; undefined outside of the array. -/
def Mem.store (m : Mem) (n : NodeId) (i : Nat) (v : NodeId) : Option Mem :=
  if i < (m.cells n).length then some (m.setCells n ((m.cells n).set i (some v))) else none

/-- `Container_Append` (container.c:353-385). -/
def appendM (m : Mem) (self child : NodeId) : MRes :=
  match ensureHierarchy m.shape self child with
  | none => .undefined
  | some (some e) => .raised e m
  | some none =>
    let count := (m.node self).count
    match resize m self (count + 1) with
    | none => .undefined
    | some m1 => match detachM m1 child with
      | .undefined => .undefined
      | .raised e m2 => .raised e (m2.setCount self count)
      | .ok m2 => match m2.store self count child with
        | none => .undefined
        | some m3 => .ok (m3.setParent child (some self))

/-- `for (i = count; --i >= where;) nodes[i+1] = nodes[i];` and the child is written to `where`
(container.c:424-431). -/
def shiftUp (cells : List Slot) (w count : Nat) (child : NodeId) : List Slot :=
  cells.take w ++ some child :: ((cells.drop w).take (count - w) ++ cells.drop (count + 1))

/-- `Container_Insert` (container.c:387-439). -/
def insertM (m : Mem) (self : NodeId) (wh : Int) (child : NodeId) : MRes :=
  match ensureHierarchy m.shape self child with
  | none => .undefined
  | some (some e) => .raised e m
  | some none =>
    let count := (m.node self).count
    match resize m self (count + 1) with
    | none => .undefined
    | some m1 => match detachM m1 child with
      | .undefined => .undefined
      | .raised e m2 => .raised e (m2.setCount self count)
      | .ok m2 =>
        let cells := m2.cells self
        if count < cells.length then
          .ok ((m2.setCells self (shiftUp cells (clampWhere wh count) count child)).setParent child (some self))
        else .undefined

/-- `Container_Replace` (container.c:441-490). -/
def replaceM (m : Mem) (self oldChild newChild : NodeId) : MRes :=
  match scanBack (m.cells self) oldChild (m.node self).count with
  | none => .undefined
  | some none => .raised .value m
  | some (some i) =>
    if oldChild = newChild then .ok m
    else match detachM m newChild with
      | .undefined => .undefined
      | .raised e m1 => .raised e m1
      | .ok m1 => match (m1.setParent oldChild none).store self i newChild with
        | none => .undefined
        | some m2 => .ok (m2.setParent newChild (some self))

/-- The editing methods. -/
def editM (m : Mem) : Edit → MRes
  | .append s c => appendM m s c
  | .insert s w c => insertM m s w c
  | .remove s c => removeM m s c
  | .replace s o n => replaceM m s o n

/-- `_Node_New` (node.c:19-31): all fields zero. -/
def Mem.alloc (m : Mem) (k : Kind) : Mem :=
  { m with size := m.size + 1, node := fun x => if x = m.size then ⟨k, none, 0, none, 0, false⟩ else m.node x }

/-- `xml_children` (container.c:702-718): the children as the program sees them; undefined if a cell is read that does
not exist or was never written. -/
def Mem.children (m : Mem) (n : NodeId) : Option (List NodeId) :=
  if (m.node n).count ≤ (m.cells n).length then allSome ((m.cells n).take (m.node n).count) else none

/-! builder.c -/

/-- `Context` (builder.c:10-17). -/
structure Ctx where
  node : Option NodeId
  children : Ptr
  allocated : Nat

/-- `ParserState` (builder.c:19-35): the active contexts, innermost first, the free ones, and the document. -/
structure BState where
  mem : Mem
  context : List Ctx
  free : List Ctx
  doc : NodeId

/-- `_Container_SetWorkingChildren` (container.c:181-188). -/
def setWorking (m : Mem) (n : NodeId) (p : Ptr) (allocated : Nat) : Mem :=
  m.setNode n { m.node n with nodes := some p, allocated := allocated, frozen := false }

/-- `ParserState_AddContext` and `Context_New` (builder.c:132-160, 236-258). -/
def addContext (st : BState) (n : NodeId) : BState :=
  match st.free with
  | c :: rest =>
    { st with mem := setWorking st.mem n c.children c.allocated,
              context := ⟨some n, c.children, c.allocated⟩ :: st.context, free := rest }
  | [] =>
    let r := st.mem.malloc (List.replicate 4 none)
    { st with mem := setWorking r.2 n r.1 4, context := ⟨some n, r.1, 4⟩ :: st.context }

/-- `_Container_FastAppend` (container.c:282-309). -/
def fastAppend (m : Mem) (self child : NodeId) : Option Mem :=
  let c := m.node self
  let newsize := c.count + 1
  let grown : Option Mem :=
    if newsize ≥ c.allocated then
      match m.realloc c.nodes (2 * newsize) with
      | none => none
      | some (p, m') => some (m'.setNode self { c with nodes := some p, allocated := 2 * newsize })
    else some m
  match grown with
  | none => none
  | some m1 => match m1.store self (newsize - 1) child with
    | none => none
    | some m2 => some ((m2.setCount self newsize).setParent child (some self))

/-- `_Container_FreezeChildren` (container.c:199-227). -/
def freeze (m : Mem) (n : NodeId) : Option Mem :=
  let c := m.node n
  if c.count ≤ (m.cells n).length then
    let r := m.malloc ((m.cells n).take c.count)
    some (r.2.setNode n { c with nodes := some r.1, allocated := c.count, frozen := true })
  else none

/-- What an event does: done; an exception, which ends the parse; or something undefined. -/
inductive BRes
  | ok (st : BState)
  | raised (st : BState)
  | undefined

/-- The end of a container: `context->children` is taken from the node, the children are frozen, the context is
given back (builder.c:381-396, 531-548). -/
def complete (st : BState) : Option (NodeId × BState) :=
  match st.context with
  | ⟨some n, _, _⟩ :: rest =>
    let c := st.mem.node n
    match c.nodes, freeze st.mem n with
    | some p, some m => some (n, { st with mem := m, context := rest, free := ⟨none, p, c.allocated⟩ :: st.free })
    | _, _ => none
  | _ => none

/-- `ParserState_AddNode` (builder.c:277-290). -/
def addNode (st : BState) (n : NodeId) : BRes :=
  match st.context with
  | ⟨some p, _, _⟩ :: _ => match fastAppend st.mem p n with
    | none => .undefined
    | some m => .ok { st with mem := m }
  | _ => .raised st

/-- A list of edits, done by a callback which ignores exceptions. -/
def editsM (m : Mem) : List Edit → Option Mem
  | [] => some m
  | e :: es => match editM m e with
    | .ok m' | .raised _ m' => editsM m' es
    | .undefined => none

/-- What happens during a parse: the parser's events, and what the program does in its callbacks: it makes nodes and
edits the tree.  Callbacks for the end of an element and for processing instructions come when these have been added
to the tree; the one for a start tag comes before the element has been prepared (builder.c:501-513), so it is a part
of the event.  `fail`: the document is not well-formed, or a callback raises an exception. -/
inductive Step
  | leaf (k : Kind)
  | start (callback : List Edit)
  | stop
  | edit (e : Edit)
  | new (k : Kind)
  | fail

/-- `builder_Characters`, `builder_ProcessingInstruction`, `builder_Comment` (builder.c:592-714), `builder_StartElement`
and `builder_EndElement` (421-562).  `custom` tells for which kinds the document has a factory of its own; the node it
returns is of that kind.  All three functions check with `Text_Check`. -/
def step (custom : Kind → Bool) (st : BState) : Step → BRes
  | .leaf k =>
    if custom k = true ∧ k ≠ .text then .raised st
    else addNode { st with mem := st.mem.alloc k } st.mem.size
  | .start callback => match editsM (st.mem.alloc .element) callback with
    | none => .undefined
    | some m => .ok (addContext { st with mem := m } st.mem.size)
  | .stop => match complete st with
    | none => .undefined
    | some (n, st') => addNode st' n
  | .edit e => match editM st.mem e with
    | .ok m | .raised _ m => .ok { st with mem := m }
    | .undefined => .undefined
  | .new k => .ok { st with mem := st.mem.alloc k }
  | .fail => .raised st

/-- Many of them. -/
def steps (custom : Kind → Bool) (st : BState) : List Step → BRes
  | [] => .ok st
  | s :: ss => match step custom st s with
    | .ok st' => steps custom st' ss
    | r => r

/-- `builder_StartDocument` (builder.c:307-370), in any memory. -/
def startDocument (m : Mem) : BState := addContext ⟨m.alloc .entity, [], [], m.size⟩ m.size

/-- `Context_Del` (builder.c:162-188), for the active contexts and the free ones: the arrays are freed, those of nodes
that are not frozen too. -/
def deleteContexts (m : Mem) : List Ctx → Mem
  | [] => m
  | c :: cs =>
    let p := match c.node with
      | none => some c.children
      | some n => if (m.node n).frozen then some c.children else (m.node n).nodes
    deleteContexts (match p with | none => m | some p => m.free p) cs

/-- `ParserState_Del` (builder.c:215-234). -/
def deleteState (st : BState) : Mem := deleteContexts (deleteContexts st.mem st.context) st.free

/-- `builder_EndDocument` and the end of `builder_parse` (builder.c:372-398, 865-885): what is left of a successful
parse. -/
def endDocument (st : BState) : Option Mem :=
  match complete st with
  | none => none
  | some (_, st') => some (deleteState st')

/-- What a program does: it makes nodes, edits, and parses documents. -/
inductive Act
  | new (k : Kind)
  | edit (e : Edit)
  | parse (events : List Step)

/-- `builder_parse` (builder.c:810-887): whether it succeeds or not, `ParserState_Del` comes last. -/
def parseM (custom : Kind → Bool) (m : Mem) (events : List Step) : Option Mem :=
  match steps custom (startDocument m) events with
  | .ok st => endDocument st
  | .raised st => some (deleteState st)
  | .undefined => none

/-- One after the other; a program that catches exceptions. -/
def actsM (custom : Kind → Bool) (m : Mem) : List Act → Option Mem
  | [] => some m
  | .new k :: as => actsM custom (m.alloc k) as
  | .edit e :: as => match editM m e with
    | .ok m' | .raised _ m' => actsM custom m' as
    | .undefined => none
  | .parse events :: as => match parseM custom m events with
    | some m' => actsM custom m' as
    | none => none

/-- No nodes and no arrays. -/
def Mem.empty (moves : Nat → Bool) : Mem :=
  ⟨0, fun _ => ⟨.entity, none, 0, none, 0, false⟩, 0, fun _ => none, moves, 0⟩

end Verif.Dom.Build
