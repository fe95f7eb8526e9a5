import Verif.Write.Visit

/-
The writer for structures of Python objects (lib/writers/struct.py): `structwriter.feed` and the calls that
the printer gets.

Objects are an inductive type here, so a structure is finite and is no graph; a callable is given by what
it returns, and an iterator by what it yields.  Coroutines (`cofeed`, `E_CURSOR`) are not modelled.
-/
namespace Verif.Write
open Verif

/-- An object that `feed` accepts.
 * `elem` is an `E`, as `E.__init__` makes it (struct.py:423-447).  `ns` is none for
   `UNSPECIFIED_NAMESPACE` (a namespace `:` is taken for it); an attribute has a key, a pair of a namespace
   or None and a name, and a value or None.  The attributes are in the order in which Python iterates
   over the dictionary.
 * `ns` is an `NS`; its prefix can be None.
 * `raw` is a `RAW`, given by the nodes that `parse_fragment` makes of it.
 * `text` is a string, and `value` an object that is neither iterable nor callable, or a tree element,
   given by `unicode(obj)`; `truth` is `bool(obj)`.
 * `iter` is any other iterable; `truth` is `bool(obj)` (false for empty lists, true for generators).
 * `call` is a callable, given by what it returns.
 * `root` is a `ROOT`. -/
inductive Obj
  | elem (ns : Option UStr) (qname : UStr) (attrs : List ((Option UStr × UStr) × Option UStr)) (content : List Obj)
  | ns (pfx : Option UStr) (uri : UStr)
  | raw (trees : List Tree)
  | text (s : UStr)
  | value (s : UStr) (truth : Bool)
  | iter (items : List Obj) (truth : Bool)
  | call (result : Obj)
  | root (content : List Obj)

/-- `bool(obj)`. -/
def Obj.truth : Obj → Bool
  | .text s => !s.isEmpty
  | .value _ t => t
  | .iter _ t => t
  | _ => true

/-- `prefix, local = splitqname(obj.qname); prefix = prefix or u''` (struct.py:152-153; SplitQName,
lib/src/xmlstring.c:327-361). -/
def structPrefix (q : UStr) : UStr :=
  match q.dropWhile (· ≠ 58) with
  | [] => []
  | _ :: _ => q.takeWhile (· ≠ 58)

/-- The attributes of an `E`: those with the value None are left out (struct.py:436-447), and the others are
passed on with the name only (line 158). -/
def structAttr : (Option UStr × UStr) × Option UStr → Option (UStr × UStr)
  | (k, some v) => some (k.2, v)
  | (_, none) => none

/-- The `NS` objects in front of other content (struct.py:143-147). -/
def leadingNs : List Obj → List (Option UStr × UStr)
  | .ns p u :: content => (p, u) :: leadingNs content
  | _ => []

/-- The first object that is no `NS` (struct.py:148-150). -/
def leadObj : List Obj → Option Obj
  | .ns _ _ :: content => leadObj content
  | o :: _ => some o
  | [] => none

/-- `if lead:` (struct.py:163). -/
def leads (content : List Obj) : Bool :=
  match leadObj content with
  | some o => o.truth
  | none => false

/-- The declaration for the name of the element itself (struct.py:154-157). -/
def ownDecl (prefixes : List (Option UStr × UStr)) (ns : Option UStr) (q : UStr) : List (Option UStr × UStr) :=
  match ns with
  | none => []
  | some u => if dget prefixes (some (structPrefix q)) = some u then [] else [(some (structPrefix q), u)]

/-- `new_prefixes` (struct.py:140-157). -/
def newPrefixes (prefixes : List (Option UStr × UStr)) (ns : Option UStr) (q : UStr) (content : List Obj) :
    List (Option UStr × UStr) := leadingNs content ++ ownDecl prefixes ns q

mutual
/-- `feed` (struct.py:108-194): the calls that the printer gets; `o` are the orders in which the visitor for
`RAW` iterates over its dictionaries.  The `NS` objects in front of the content are passed over here, as
`feed` does nothing for them. -/
def feed (o : Orders) (prefixes : List (Option UStr × UStr)) : Obj → List Call
  -- 120-125
  | .root content => .startDocument none :: (feedAll o [] content ++ [.endDocument])
  -- 126-127
  | .ns _ _ => []
  -- 128-135
  | .raw trees => visitAll o initialNs [] trees
  -- 136-168
  | .elem ns q attrs content =>
    .startElement q (newPrefixes prefixes ns q content) (attrs.filterMap structAttr) ::
      ((if leads content then feedAll o (dupdate prefixes (newPrefixes prefixes ns q content)) content else []) ++
        [.endElement q])
  -- 170-176, 184-186
  | .text s => [.text s]
  | .value s _ => [.text s]
  -- 181-183
  | .call r => feed o prefixes r
  -- 187-189
  | .iter items _ => feedAll o prefixes items

/-- `for subobj in obj: self.feed(subobj, prefixes)`. -/
def feedAll (o : Orders) (prefixes : List (Option UStr × UStr)) : List Obj → List Call
  | [] => []
  | x :: xs => feed o prefixes x ++ feedAll o prefixes xs
end

mutual
/-- What has become of an object when it has been fed: `obj.ns` is assigned (struct.py:155). -/
def fed (prefixes : List (Option UStr × UStr)) : Obj → Obj
  | .elem ns q attrs content =>
    .elem (some (ns.getD ((dget prefixes (some (structPrefix q))).getD []))) q attrs
      (if leads content then fedAll (dupdate prefixes (newPrefixes prefixes ns q content)) content else content)
  | .root content => .root (fedAll [] content)
  | .call r => .call (fed prefixes r)
  | .iter items t => .iter (fedAll prefixes items) t
  | .ns p u => .ns p u
  | .raw trees => .raw trees
  | .text s => .text s
  | .value s t => .value s t

def fedAll (prefixes : List (Option UStr × UStr)) : List Obj → List Obj
  | [] => []
  | x :: xs => fed prefixes x :: fedAll prefixes xs
end

end Verif.Write
