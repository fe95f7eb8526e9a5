import Verif.Write.Stream
/-
Model of what becomes of literal result elements: the namespaces that the reader keeps for them
(lib/xslt/reader/__init__.py), namespace aliases (lib/xslt/tree/transform_element.py, literal_element.py) and their
instantiation with attribute sets (literal_element.py, declaration_elements.py).

Simplifications: of a stylesheet only what matters for this is kept: the tree of elements with their namespace
declarations, the lists of prefixes, and the literal result elements; attribute values are of an arbitrary type `V` (the
values of the templates are computed elsewhere).  The classification of elements and the checks of attributes are in
Verif.Xslt.Rd.
-/
namespace Verif.Xslt.Lre
open Verif.Write (UStr)

abbrev Pfx := Option UStr
abbrev Ns := Option UStr

/-- amara/namespaces.py:  `XML_NAMESPACE`, `XSL_NAMESPACE`. -/
def xmlNs : UStr := u!! "http://www.w3.org/XML/1998/namespace"
def xslNs : UStr := u!! "http://www.w3.org/1999/XSL/Transform"

/-- A Python dictionary from prefixes to namespaces; every prefix is there once. -/
abbrev Dict := List (Pfx × Ns)
/-- `d.get(p)` -/
def get : Dict → Pfx → Option Ns
  | [], _ => none
  | (q, u) :: d, p => if p = q then some u else get d p
/-- `del d[p]` -/
def del (d : Dict) (p : Pfx) : Dict := d.filter (fun x => x.1 ≠ p)
/-- `d[p] = u` -/
def set (d : Dict) (p : Pfx) (u : Ns) : Dict := del d p ++ [(p, u)]

/-- A name as the writer gets it: the prefix and local part of the qualified name, and the namespace. -/
structure Name where
  pfx : Pfx
  loc : UStr
  ns : Ns
deriving DecidableEq, Repr

variable {V : Type}

/-- A literal result element in the stylesheet document: its name, its attributes that are not of XSLT, and
`xsl:use-attribute-sets`. -/
structure Lit (V : Type) where
  name : Name
  attrs : List (Name × V)
  uses : List (Ns × UStr)

/-- The namespace declarations of an element, the prefixes of its (xsl:)extension-element-prefixes and
(xsl:)exclude-result-prefixes if it has them. -/
structure Level where
  decls : Dict
  ext : Option (List Pfx)
  excl : Option (List Pfx)
  /-- which of the two is handled first (reader/__init__.py:421, 506: the order of a dictionary) -/
  extFirst : Bool := true

/-- The elements of a stylesheet document; `lit` if it is a literal result element. -/
inductive Sheet (V : Type) where
  | elem (level : Level) (lit : Option (Lit V)) (kids : List (Sheet V))

/-- The dictionaries in memory. -/
abbrev Heap := List Dict
def Heap.at (h : Heap) (i : Nat) : Dict := (h[i]?).getD []
/-- `d.copy()` with the copy changed: a new dictionary. -/
def Heap.new (h : Heap) (d : Dict) : Heap × Nat := (h ++ [d], h.length)

/-- reader/__init__.py:331-334: declarations that become output namespaces. -/
def outputDecls : Dict → Dict → Dict
  | [], d => d
  | (p, u) :: ds, d => outputDecls ds (if u = some xmlNs ∨ u = some xslNs then d else set d p u)

/-- `d.update(ds)` (reader/__init__.py:329). -/
def update : Dict → Dict → Dict
  | [], d => d
  | (p, u) :: ds, d => update ds (set d p u)

/-- reader/__init__.py:648-651, 664-667: "remove all matching namespace URIs". -/
def removeUri (d : Dict) (u : Ns) : Dict := d.filter (fun x => x.2 ≠ u)

/-- reader/__init__.py:636-651, 655-667: the loop over the prefixes; `none`: UNDEFINED_PREFIX. -/
def removePrefixes (cur : Dict) : List Pfx → Dict → Option Dict
  | [], d => some d
  | p :: ps, d => match get cur p with
    | some u => removePrefixes cur ps (removeUri d u)
    | none => none

/-- One of the two attributes (reader/__init__.py:631-667): a copy of the dictionary with the namespaces removed. -/
def exclude (cur : Dict) (a : Option (List Pfx)) (h : Heap) (out : Nat) : Option (Heap × Nat) :=
  match a with
  | none => some (h, out)
  | some ps => match removePrefixes cur ps (h.at out) with
    | none => none
    | some d => some (h.new d)

/-- Both, in the order of the dictionary of attributes. -/
def excludes (cur : Dict) (l : Level) (h : Heap) (out : Nat) : Option (Heap × Nat) :=
  match exclude cur (if l.extFirst then l.ext else l.excl) h out with
  | none => none
  | some (h, out) => exclude cur (if l.extFirst then l.excl else l.ext) h out

/-- reader/__init__.py:324-337 and the two attributes: the namespaces of an element, and its dictionary of output
namespaces, from those of its parent. -/
def enter (l : Level) (cur : Dict) (h : Heap) (out : Nat) : Option (Dict × Heap × Nat) :=
  let cur' := if l.decls.isEmpty then cur else update l.decls cur
  let (h', out') := if l.decls.isEmpty then (h, out) else h.new (outputDecls l.decls (h.at out))
  match excludes cur' l h' out' with
  | none => none
  | some (h, out) => some (cur', h, out)

/-- A literal result element in the tree of the stylesheet: `out` is the dictionary `_output_nss`. -/
structure Out (V : Type) where
  name : Name
  attrs : List (Name × V)
  uses : List (Ns × UStr)
  out : Nat

inductive Tree (V : Type) where
  | node (lit : Option (Out V)) (kids : List (Tree V))

/-- reader/__init__.py:505-518: the literal result element keeps a reference to the dictionary of the state. -/
def Lit.out (l : Lit V) (out : Nat) : Out V := { name := l.name, attrs := l.attrs, uses := l.uses, out }

mutual
/-- The reader goes through an element (reader/__init__.py:317-526): the parent's namespaces and dictionary are `cur` and
`out`. -/
def read : Sheet V → Dict → Heap → Nat → Option (Heap × Tree V)
  | .elem l lit kids, cur, h, out =>
    match enter l cur h out with
    | none => none
    | some (cur, h, out) => match reads kids cur h out with
      | none => none
      | some (h, ts) => some (h, .node (lit.map (fun x => x.out out)) ts)
def reads : List (Sheet V) → Dict → Heap → Nat → Option (Heap × List (Tree V))
  | [], _, h, _ => some (h, [])
  | s :: ss, cur, h, out =>
    match read s cur h out with
    | none => none
    | some (h, t) => match reads ss cur h out with
      | none => none
      | some (h, ts) => some (h, t :: ts)
end

/-- reader/__init__.py:226-235: the state of a document. -/
def readSheet (s : Sheet V) : Option (Heap × Tree V) :=
  read s [(some (u!! "xml"), some xmlNs), (none, none)] [[]] 0

/-- transform_element.py:326-340: `namespace_aliases`, from a namespace to the namespace and prefix of the result. -/
abbrev Aliases := Ns → Option (Ns × Pfx)

/-- An `xsl:namespace-alias` (declaration_elements.py:113-118) with its import precedence; the prefixes are those of the
namespaces in scope there. -/
structure AliasDecl where
  prec : Nat
  ns : Ns
  result : Ns
  pfx : Pfx
deriving DecidableEq, Repr

/-- transform_element.py:327-340: the loop over the groups of one precedence (`group`: the precedence of the group that
the loop is in); `none`: DUPLICATE_NAMESPACE_ALIAS. -/
def aliasLoop : List AliasDecl → Option Nat → List Ns → Aliases → Option Aliases
  | [], _, _, al => some al
  | d :: ds, group, mapped, al =>
    let mapped := if group = some d.prec then mapped else []
    if (al d.ns).isNone then
      aliasLoop ds (some d.prec) (d.ns :: mapped) (fun n => if n = d.ns then some (d.result, d.pfx) else al n)
    else if d.ns ∈ mapped then none
    else aliasLoop ds (some d.prec) mapped al

/-- transform_element.py:323-340: the aliases from the elements in document order. -/
def aliases (ds : List AliasDecl) : Option Aliases := aliasLoop ds.reverse none [] (fun _ => none)

/-- literal_element.py:39-46: one round of the loop over the items of `_output_nss`. -/
def fixItem (al : Aliases) (x : Pfx × Ns) (d : Dict) : Dict :=
  match al x.2 with
  | none => d
  | some (r, p) => set (del d x.1) p r

def fixItems (al : Aliases) : List (Pfx × Ns) → Dict → Dict
  | [], d => d
  | x :: xs, d => fixItems al xs (fixItem al x d)

/-- literal_element.py:39-46: `items` is the order in which the dictionary gives its items. -/
def fixDict (items : Dict → List (Pfx × Ns)) (al : Aliases) (d : Dict) : Dict := fixItems al (items d) d

/-- literal_element.py:22-24 with `set_prefix` (xslt_element.c:553-600): the name of the element. -/
def fixName (al : Aliases) (n : Name) : Name :=
  match al n.ns with
  | none => n
  | some (r, p) => { n with ns := r, pfx := p }

/-- literal_element.py:27-36: the attributes; `none`: ValueError, the name has no prefix that could be split off. -/
def fixAttrs (al : Aliases) : List (Name × V) → Option (List (Name × V))
  | [] => some []
  | (n, v) :: as =>
    let n' := (match n.ns, al n.ns with
      | some _, some (r, p) => if n.pfx.isNone then none else some { n with ns := r, pfx := p }
      | _, _ => some n)
    match n', fixAttrs al as with
    | some n', some as => some ((n', v) :: as)
    | _, _ => none

mutual
/-- transform_element.py:33-40 `_fixup_aliases`: the literal result elements are changed in place, and so are their
dictionaries, which elements may share. -/
def fixTree (items : Dict → List (Pfx × Ns)) (al : Aliases) : Tree V → Heap → Option (Heap × Tree V)
  | .node none kids, h => match fixTrees items al kids h with
    | none => none
    | some (h, ts) => some (h, .node none ts)
  | .node (some l) kids, h =>
    match fixAttrs al l.attrs with
    | none => none
    | some as =>
      match fixTrees items al kids (List.set h l.out (fixDict items al (h.at l.out))) with
      | none => none
      | some (h, ts) => some (h, .node (some { l with name := fixName al l.name, attrs := as }) ts)
def fixTrees (items : Dict → List (Pfx × Ns)) (al : Aliases) : List (Tree V) → Heap → Option (Heap × List (Tree V))
  | [], h => some (h, [])
  | t :: ts, h =>
    match fixTree items al t h with
    | none => none
    | some (h, t) => match fixTrees items al ts h with
      | none => none
      | some (h, ts) => some (h, t :: ts)
end

/-- `setup` is run when a stylesheet has been read, and again for each further one that is added to it
(reader/__init__.py:277-303): `n` times in all.  (The aliases are taken to be the same each time.) -/
def setups (items : Dict → List (Pfx × Ns)) (al : Aliases) : Nat → Heap → Tree V → Option (Heap × Tree V)
  | 0, h, t => some (h, t)
  | n + 1, h, t => match fixTree items al t h with
    | none => none
    | some (h, t) => setups items al n h t

/-- What a literal result element gives to `start_element` and `attribute` (literal_element.py:52-57). -/
structure Start (V : Type) where
  name : Name
  attrs : List (Name × V)
  uses : List (Ns × UStr)
  nss : Dict

mutual
/-- The literal result elements of a stylesheet, in document order. -/
def starts (h : Heap) : Tree V → List (Start V)
  | .node none kids => startss h kids
  | .node (some l) kids => { name := l.name, attrs := l.attrs, uses := l.uses, nss := h.at l.out } :: startss h kids
def startss (h : Heap) : List (Tree V) → List (Start V)
  | [] => []
  | t :: ts => starts h t ++ startss h ts
end

/-- A stylesheet is read and set up `n` times: its literal result elements. -/
def sheetStarts (items : Dict → List (Pfx × Ns)) (al : Aliases) (n : Nat) (s : Sheet V) : Option (List (Start V)) :=
  match readSheet s with
  | none => none
  | some (h, t) => match setups items al n h t with
    | none => none
    | some (h, t) => some (starts h t)

/-! Attribute sets. -/

/-- An `xsl:attribute-set` (declaration_elements.py:121-128): the attributes are what its children give. -/
structure AttrSet (V : Type) where
  name : Ns × UStr
  uses : List (Ns × UStr)
  attrs : List (Name × V)

/-- transform_element.py:345-348: the dictionary `attribute_sets`: the last one of a name. -/
def setNamed (sets : List (AttrSet V)) (n : Ns × UStr) : Option (AttrSet V) := sets.reverse.find? (fun s => s.name = n)

/-- The outcome of an instantiation: attributes, an error, or no end (a RuntimeError of Python when the stack is
exhausted). -/
inductive Res (α : Type) where
  | ok (a : α)
  | undefined
  | endless
deriving Repr, DecidableEq

/-- declaration_elements.py:130-158: `instantiate` of an attribute set: the attributes given to the writer.  The list
`used` of the code is new in each call, since it is not handed on (line 152): it is never found to contain the set.
`fuel` is the depth of Python's stack. -/
def setAttrs (sets : List (AttrSet V)) : Nat → List (Ns × UStr) → Res (List (Name × V))
  | 0, _ => .endless
  | _ + 1, [] => .ok []
  | fuel + 1, n :: ns =>
    match setNamed sets n with
    | none => .undefined
    | some s => match setAttrs sets fuel s.uses with
      | .ok as => match setAttrs sets fuel ns with
        | .ok bs => .ok (as ++ s.attrs ++ bs)
        | e => e
      | e => e

/-- literal_element.py:56-65: all attributes of the element, in the order in which the writer gets them. -/
def allAttrs (sets : List (AttrSet V)) (fuel : Nat) (own : List (Name × V)) (uses : List (Ns × UStr)) :
    Res (List (Name × V)) :=
  match setAttrs sets fuel uses with
  | .ok as => .ok (own ++ as)
  | e => e

/-- element_element.py:43-53, copy_element.py:30-39: the attributes of the sets, before the content. -/
def elementAttrs (sets : List (AttrSet V)) (fuel : Nat) (uses : List (Ns × UStr)) (content : List (Name × V)) :
    Res (List (Name × V)) :=
  match setAttrs sets fuel uses with
  | .ok as => .ok (as ++ content)
  | e => e

/-- xmlwriter.py:213 `self._attributes[namespace, local] = (name, value)`: the value of an attribute of the result. -/
def valueOf : List (Name × V) → Ns × UStr → Option V
  | [], _ => none
  | (n, v) :: as, k => match valueOf as k with
    | some w => some w
    | none => if (n.ns, n.loc) = k then some v else none

end Verif.Xslt.Lre
