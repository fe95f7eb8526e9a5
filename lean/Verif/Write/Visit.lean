import Verif.Write.Printer

/-
The walk over a tree that `xml_write()` and `xml_encode()` do (lib/writers/node.py; `_Visitor` with no
`ns_hints` and no `added_attributes`, as `_xml_write` makes it, writers/__init__.py:140).

A tree is an inductive type here; the heap of Verif.Dom is not used.  `xml_qname` is `prefix:local` (or the
local name), as all constructors of nodes make it.  The dictionary `xml_namespaces.copy()` is computed
from the declarations of the element and its ancestors as `Element_InscopeNamespaces` does; that the hash
tables behave as dictionaries is C16 and C17.
-/
namespace Verif.Write
open Verif

/-- An attribute node. -/
structure Attr where
  ns : Option UStr
  pfx : Option UStr
  loc : UStr
  value : UStr

/-- A node that `_Visitor` accepts, other than the document.  `decls` are the namespace nodes of the
element itself (`xmlns_attributes`). -/
inductive Tree
  | element (ns pfx : Option UStr) (loc : UStr) (decls : List (Option UStr × UStr)) (attrs : List Attr)
      (children : List Tree)
  | text (s : UStr)
  | comment (s : UStr)
  | pi (target data : UStr)

/-- `xml_qname`. -/
def qname : Option UStr → UStr → UStr
  | none, l => l
  | some p, l => p ++ u!! ":" ++ l

/-- `XML_NAMESPACE`, `XMLNS_NAMESPACE` (namespaces.py). -/
def xmlNs : UStr := u!! "http://www.w3.org/XML/1998/namespace"
def xmlnsNs : UStr := u!! "http://www.w3.org/2000/xmlns/"

/-! Dictionaries -/

/-- `d.get(k)`. -/
def dget {α : Type} [DecidableEq α] : List (α × UStr) → α → Option UStr
  | [], _ => none
  | (k', v) :: d, k => if k' = k then some v else dget d k

/-- `d[k] = v`. -/
def dset {α : Type} [DecidableEq α] : List (α × UStr) → α → UStr → List (α × UStr)
  | [], k, v => [(k, v)]
  | (k', v') :: d, k, v => if k' = k then (k, v) :: d else (k', v') :: dset d k v

/-- `del d[k]`. -/
def ddel {α : Type} [DecidableEq α] (d : List (α × UStr)) (k : α) : List (α × UStr) :=
  d.filter fun e => e.1 ≠ k

/-- `d.update(e)`. -/
def dupdate {α : Type} [DecidableEq α] (d e : List (α × UStr)) : List (α × UStr) :=
  e.foldl (fun d x => dset d x.1 x.2) d

/-! Namespaces -/

/-- One turn of the loop of `Element_InscopeNamespaces` (element.c:421-440). -/
def addScope (d : List (Option UStr × UStr)) (x : Option UStr × UStr) : List (Option UStr × UStr) :=
  if x.2 = [] ∧ x.1 = none then d
  else match dget d x.1 with
    | some _ => d
    | none => dset d x.1 x.2

/-- `node.xml_namespaces.copy()`; `chain` are the declarations of the element, of its parent, and so
on. -/
def inscope (chain : List (List (Option UStr × UStr))) : List (Option UStr × UStr) :=
  chain.flatten.foldl addScope [(some (u!! "xml"), xmlNs)]

/-- The loop over the attributes, for namespaces (node.py:108-118). -/
def nsFromAttr (current : List (Option UStr × UStr)) (d : List (Option UStr × UStr)) (a : Attr) :
    List (Option UStr × UStr) :=
  if a.ns = some xmlnsNs then
    let p := if truthy a.pfx then some a.loc else none
    if dget current p ≠ some a.value then dset d p a.value else d
  else d

/-- The loop over the attributes, for the attributes to be written (node.py:119-120). -/
def addAttr (d : List (UStr × UStr)) (a : Attr) : List (UStr × UStr) :=
  if a.ns = some xmlnsNs then d else dset d (qname a.pfx a.loc) a.value

/-- `p or None`. -/
def orNone : Option UStr → Option UStr
  | some (c :: s) => some (c :: s)
  | _ => none

/-- The binding of the element's own prefix (node.py:123-125).  `d.get(k, 0) != namespace` is also true if
the key is missing and the namespace is None. -/
def ownBinding (ns pfx : Option UStr) (d : List (Option UStr × UStr)) : List (Option UStr × UStr) :=
  if truthy ns || truthy (dget d none) then
    if (dget d (orNone pfx)).isSome ∧ dget d (orNone pfx) = ns then d
    else dset d (orNone pfx) (ns.getD [])
  else d

/-- The declarations that are written for an element (node.py:91-134). -/
def emitted (current : List (Option UStr × UStr)) (chain : List (List (Option UStr × UStr))) (ns pfx : Option UStr)
    (attrs : List Attr) : List (Option UStr × UStr) :=
  (ownBinding ns pfx (attrs.foldl (nsFromAttr current) (ddel (inscope chain) (some (u!! "xml"))))).filter
    fun e => dget current e.1 ≠ some e.2

/-- The orders in which dictionaries are iterated over. -/
structure Orders where
  ns : List (Option UStr × UStr) → List (Option UStr × UStr)
  attrs : List (UStr × UStr) → List (UStr × UStr)

mutual
/-- `visit` (node.py:34-55, 87-175): the calls that the printer gets. -/
def visit (o : Orders) (current : List (Option UStr × UStr)) (chain : List (List (Option UStr × UStr))) :
    Tree → List Call
  | .element ns pfx loc decls attrs children =>
    let new := emitted current (decls :: chain) ns pfx attrs
    .startElement (qname pfx loc) (o.ns new) (o.attrs (attrs.foldl addAttr [])) ::
      (visitAll o (dupdate current new) (decls :: chain) children ++ [.endElement (qname pfx loc)])
  | .text s => [.text s]
  | .comment s => [.comment s]
  | .pi target data => [.pi target data]

/-- `for child in node.xml_children: self.visit(child)`. -/
def visitAll (o : Orders) (current : List (Option UStr × UStr)) (chain : List (List (Option UStr × UStr))) :
    List Tree → List Call
  | [] => []
  | t :: ts => visit o current chain t ++ visitAll o current chain ts
end

/-- `_namespaces` at the beginning (node.py:29). -/
def initialNs : List (Option UStr × UStr) := [(some (u!! "xml"), xmlNs)]

/-- The loop that looks for the document element (node.py:75-78). -/
def firstElement : List Tree → Option UStr
  | [] => none
  | .element _ pfx loc _ _ _ :: _ => some (qname pfx loc)
  | _ :: ts => firstElement ts

/-- The document type declaration (node.py:74-78). -/
def doctypeCalls (pub sys : Option UStr) (children : List Tree) : List Call :=
  if truthy sys then match firstElement children with
    | some n => [.doctype n pub sys]
    | none => []
  else []

/-- `visit_document` (node.py:68-83). -/
def visitDocument (o : Orders) (pub sys : Option UStr) (children : List Tree) : List Call :=
  .startDocument none :: (doctypeCalls pub sys children ++
    (visitAll o initialNs [] children ++ [.endDocument]))

end Verif.Write
