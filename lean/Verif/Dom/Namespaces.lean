import Verif.Py
import Verif.Dom.Heap
import Verif.Dom.Table

/-
Prefixes and namespaces of elements (lib/src/domlette/element.c).
-/
namespace Verif.Dom
open Verif

/-- The namespace declarations: the namespace nodes in the map of each element, in the order of
`NamespaceMap_Next` (any order), and their names and values. A missing map is an empty one. -/
structure Decls where
  nodes : NodeId → List NodeId
  name : NodeId → Option Str
  value : NodeId → Str

/-- `xml_string`, `xml_namespace` (element.c:1079-1090). -/
def xmlPrefix : Str := s!! "xml"
def xmlNamespace : Str := s!! "http://www.w3.org/XML/1998/namespace"

/-- The namespace nodes seen by the nested loops of element.c:44-70, 100-129, 418-443: those of the
element, then those of its parent while that is an element. `none`: an endless loop. -/
def visited (h : Heap) (d : Decls) : Nat → NodeId → Option (List NodeId)
  | 0, _ => none
  | fuel + 1, n => match h.parent n with
    | some p =>
      if h.kind p = .element then
        match visited h d fuel p with
        | none => none
        | some rest => some (d.nodes n ++ rest)
      else some (d.nodes n)
    | none => some (d.nodes n)

/-- The result of a lookup: a value (`none` is Python's `None`), ValueError, or an endless loop. -/
inductive Lookup | found (v : Option Str) | undeclared | loops
  deriving DecidableEq

/-- The tests of `lookup_namespace` on the nodes (element.c:105-127). -/
def findNamespace (d : Decls) (pfx : Option Str) : List NodeId → Option (Option Str)
  | [] => none
  | x :: xs =>
    if d.value x = [] then
      if d.name x = none then
        if pfx = d.name x then some none else findNamespace d pfx xs
      else findNamespace d pfx xs
    else if pfx = d.name x then some (some (d.value x)) else findNamespace d pfx xs

/-- `lookup_namespace` (element.c:92-147). -/
def lookupNamespace (h : Heap) (d : Decls) (self : NodeId) (pfx : Option Str) : Lookup :=
  match visited h d (h.size + 1) self with
  | none => .loops
  | some l => match findNamespace d pfx l with
    | some v => .found v
    | none =>
      if pfx = none then .found none
      else if pfx = some xmlPrefix then .found (some xmlNamespace)
      else .undeclared

/-- The tests of `lookup_prefix` on the nodes (element.c:49-68). -/
def findPrefix (d : Decls) (ns : Option Str) : List NodeId → Option (Option Str)
  | [] => none
  | x :: xs =>
    if d.value x = [] ∧ d.name x = none then findPrefix d ns xs
    else if ns = some (d.value x) then some (d.name x)
    else findPrefix d ns xs

/-- `lookup_prefix` (element.c:36-90). -/
def lookupPrefix (h : Heap) (d : Decls) (self : NodeId) (ns : Option Str) : Lookup :=
  match visited h d (h.size + 1) self with
  | none => .loops
  | some l => match findPrefix d ns l with
    | some p => .found p
    | none =>
      if ns = none then .found none
      else if ns = some xmlNamespace then .found (some xmlPrefix)
      else .undeclared

/-- The loop of `Element_InscopeNamespaces` (element.c:421-440): the map built so far, and the heap,
since `NamespaceMap_SetNode` also makes the owner of the new map the parent of the node
(namespacemap.c:283-287). -/
def inscopeLoop (w limit : Nat) (hash : Option Str → Nat) (d : Decls) (self : NodeId) :
    List NodeId → Table.Map (Option Str) Str × Heap → Table.Res (Table.Map (Option Str) Str × Heap)
  | [], s => .ok s
  | x :: xs, (m, h) =>
    if d.value x = [] ∧ d.name x = none then inscopeLoop w limit hash d self xs (m, h)
    else match m.get w hash (d.name x) with
      | .ok (some _) => inscopeLoop w limit hash d self xs (m, h)
      | .ok none => match m.set w limit hash (d.name x) (d.value x) with
        | .ok m' => inscopeLoop w limit hash d self xs (m', h.setParent x (some self))
        | .noMemory => .noMemory
        | .loops => .loops
      | .noMemory => .noMemory
      | .loops => .loops

/-- `Element_InscopeNamespaces` (element.c:389-446), the `xml_namespaces` property. The node for the
prefix `xml` is new and does not appear in the heap. -/
def inscope (w limit : Nat) (hash : Option Str → Nat) (h : Heap) (d : Decls) (self : NodeId) :
    Table.Res (Table.Map (Option Str) Str × Heap) :=
  match (Table.Map.new : Table.Map (Option Str) Str).set w limit hash (some xmlPrefix) xmlNamespace with
  | .ok m => match visited h d (h.size + 1) self with
    | none => .loops
    | some l => inscopeLoop w limit hash d self l (m, h)
  | .noMemory => .noMemory
  | .loops => .loops

end Verif.Dom
