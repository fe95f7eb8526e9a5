import Verif.Py
import Verif.Dom.Heap
/-
Copies of nodes: `copy.copy` and `copy.deepcopy` (lib/src/domlette/node.c:116-205, and `__getnewargs__`,
`__getstate__`, `__setstate__` of each kind of node).

Simplifications: the tables of attributes and namespaces are lists in the order of iteration, with new keys last
(the tables themselves are those of C16); mutation events, the `__dict__` of subclasses and the checks of characters in
names are left out; `_keep_alive` of Python's copy module, too.
-/
namespace Verif.Dom.Copy
open Verif Verif.Dom

/-- What a node says, apart from its place in the tree. -/
inductive Info
  | entity (uri publicId systemId : Option Str) (unparsed : List (Str × Str))
  | element (ns : Option Str) (qname : Str)
  | attr (ns : Option Str) (qname value : Str) (type : Nat)
  | ns (pre : Option Str) (uri : Str)
  | text (data : Str)
  | comment (data : Str)
  | pi (target data : Str)
  deriving DecidableEq

def Info.kind : Info → Kind
  | .entity .. => .entity
  | .element .. => .element
  | .attr .. => .attr
  | .ns .. => .ns
  | .text .. => .text
  | .comment .. => .comment
  | .pi .. => .pi

/-- All nodes, with the tables `Element_NAMESPACES` and `Element_ATTRIBUTES` of the elements. -/
structure Doc where
  heap : Heap
  info : NodeId → Info
  nss : NodeId → List NodeId
  attrs : NodeId → List NodeId

inductive CErr
  | system | namespace | tree (e : Err)
  deriving DecidableEq

/-- A result, an exception, or neither (the model ran out of steps, or C leaves the effect undefined). -/
inductive Out (α : Type)
  | ok (a : α) | raised (e : CErr) | stuck

def Out.bind {α β : Type} : Out α → (α → Out β) → Out β
  | .ok a, f => f a
  | .raised e, _ => .raised e
  | .stuck, _ => .stuck

/-- Assignment to a member of one node. -/
def upd {α : Type} (f : NodeId → α) (n : NodeId) (v : α) : NodeId → α := fun m => if m = n then v else f m

/-- The node that `tp_new` makes of the result of `__getnewargs__` (element.c:449-452, entity.c:148-151, attr.c:92-95,
namespace.c:48-51, characterdata.c:41-44, processinginstruction.c:47-51): the value and the type of an
attribute, and the identifiers of an entity, are not among the arguments. -/
def Info.fresh : Info → Info
  | .entity u _ _ _ => .entity u none none []
  | .attr u q _ _ => .attr u q [] 0
  | i => i

/-- The check of element.c:919-924 and attr.c:292-297: a prefix needs a namespace. -/
def Info.named : Info → Bool
  | .element none q => !q.contains ':'
  | .attr none q _ _ => !q.contains ':'
  | _ => true

/-- A new node. -/
def Doc.new (d : Doc) (i : Info) : Doc :=
  { heap := d.heap.alloc i.kind
    info := upd d.info d.heap.size i
    nss := upd d.nss d.heap.size []
    attrs := upd d.attrs d.heap.size [] }

/-- `tp_new` (node.c:140, 171). -/
def create (d : Doc) (i : Info) : Out Doc := if i.named then .ok (d.new i.fresh) else .raised .namespace

/-- The key of an attribute in a table: its namespace and local name (attributemap.c:312-315). -/
def attrKey : Info → Option Str × Str
  | .attr u q _ _ => (u, (q.reverse.takeWhile (· != ':')).reverse)
  | _ => (none, [])

/-- The key of a namespace in a table: its prefix (namespacemap.c:268-270). -/
def nsKey : Info → Option Str
  | .ns p _ => p
  | _ => none

/-- `NamespaceMap_SetNode` (namespacemap.c:254-295). -/
def putNs (d : Doc) (e x : NodeId) : Doc :=
  match (d.nss e).find? (fun b => nsKey (d.info b) == nsKey (d.info x)) with
  | none => { d with heap := d.heap.setOwner e x, nss := upd d.nss e (d.nss e ++ [x]) }
  | some old =>
    { d with heap := d.heap.setOwner e x, nss := upd d.nss e ((d.nss e).map fun b => if b = old then x else b) }

/-- `AttributeMap_SetNode` (attributemap.c:297-346), with `remove_attribute_node` (24-38) for the old one. -/
def putAttr (d : Doc) (e x : NodeId) : Doc :=
  match (d.attrs e).find? (fun b => attrKey (d.info b) == attrKey (d.info x)) with
  | none => { d with heap := d.heap.setOwner e x, attrs := upd d.attrs e (d.attrs e ++ [x]) }
  | some old =>
    { d with
      heap := (d.heap.setParent old none).setOwner e x
      attrs := upd d.attrs e ((d.attrs e).map fun b => if b = old then x else b) }

/-- The loops over the namespaces and attributes (element.c:581-594). -/
def putNss (d : Doc) (e : NodeId) (l : List NodeId) : Doc := l.foldl (fun d x => putNs d e x) d

def putAttrs (d : Doc) (e : NodeId) (l : List NodeId) : Doc := l.foldl (fun d x => putAttr d e x) d

/-- The loops over the children (element.c:595-601, entity.c:257-263). -/
def appendAll (d : Doc) (e : NodeId) : List NodeId → Out Doc
  | [] => .ok d
  | c :: cs => match containerAppend d.heap e c with
    | .ok h => appendAll { d with heap := h } e cs
    | .raised err => .raised (.tree err)
    | .undefined => .stuck

/-- `node_copy` (node.c:132-158): `__getstate__` with deep=False gives the tables, but not the children
(element.c:454-532), the parent, value and type of an attribute (attr.c:97-105), the public and system identifiers
of an entity (entity.c:153-193), and nothing for the others (node.c:263-274). -/
def shallow (d : Doc) (n : NodeId) : Out (Doc × NodeId) :=
  (create d (d.info n)).bind fun d1 =>
    let n' := d.heap.size
    match d.info n with
    | .attr u q v t => match d.heap.parent n with
      | none => .raised .system
      | some p => .ok ({ d1 with heap := d1.heap.setParent n' (some p), info := upd d1.info n' (.attr u q v t) }, n')
    | .element _ _ => .ok (putAttrs (putNss d1 n' (d.nss n)) n' (d.attrs n), n')
    | .entity u pub sys _ => .ok ({ d1 with info := upd d1.info n' (.entity u pub sys []) }, n')
    | _ => .ok (d1, n')

/-- The copies made so far, by the address of the original. -/
abbrev Memo := List (NodeId × NodeId)

/-- `copy._deepcopy_tuple`. -/
def deepAll (step : Doc → Memo → NodeId → Out (Doc × Memo × NodeId)) (d : Doc) (memo : Memo) :
    List NodeId → Out (Doc × Memo × List NodeId)
  | [] => .ok (d, memo, [])
  | n :: ns => (step d memo n).bind fun r => (deepAll step r.1 r.2.1 ns).bind fun s =>
      .ok (s.1, s.2.1, r.2.2 :: s.2.2)

/-- The second half of `node_deepcopy` (node.c:187-203): the state is taken from the node `n`, copied, and
given to the new node `n'`.  A NULL parent in `Py_BuildValue` (attr.c:104) is a SystemError. -/
def deepState (step : Doc → Memo → NodeId → Out (Doc × Memo × NodeId)) (d : Doc) (memo : Memo) (n n' : NodeId) :
    Out (Doc × Memo × NodeId) :=
  match d.info n with
  | .attr u q v t => match d.heap.parent n with
    | none => .raised .system
    | some p => (step d memo p).bind fun r =>
        .ok ({ r.1 with heap := r.1.heap.setParent n' (some r.2.2), info := upd r.1.info n' (.attr u q v t) },
          r.2.1, n')
  | .element _ _ =>
    (deepAll step d memo (d.nss n)).bind fun r1 =>
    (deepAll step r1.1 r1.2.1 (d.attrs n)).bind fun r2 =>
    (deepAll step r2.1 r2.2.1 (d.heap.kids n)).bind fun r3 =>
    (appendAll (putAttrs (putNss r3.1 n' r1.2.2) n' r2.2.2) n' r3.2.2).bind fun d' =>
    .ok (d', r3.2.1, n')
  | .entity u pub sys un =>
    (deepAll step d memo (d.heap.kids n)).bind fun r =>
    (appendAll { r.1 with info := upd r.1.info n' (.entity u pub sys un) } n' r.2.2).bind fun d' =>
    .ok (d', r.2.1, n')
  | _ => .ok (d, memo, n')

/-- `copy.deepcopy` of a node, with `node_deepcopy` (node.c:160-205): a node that was copied before is not copied
again.  The number bounds the depth of the recursion; that some number is enough is part of the theorem. -/
def deep : Nat → Doc → Memo → NodeId → Out (Doc × Memo × NodeId)
  | 0, _, _, _ => .stuck
  | f + 1, d, memo, n =>
    match memo.lookup n with
    | some m => .ok (d, memo, m)
    | none => (create d (d.info n)).bind fun d1 =>
        deepState (deep f) d1 ((n, d.heap.size) :: memo) n d.heap.size

end Verif.Dom.Copy
