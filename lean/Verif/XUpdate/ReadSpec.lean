import Verif.XUpdate.Read
/-
What an XUpdate request is, told by the document: which elements there are, what they may contain, what their attributes
have to be; the first mistake of a document in document order; and what it asks for.
-/
namespace Verif.XUpdate.Read.Spec
open Verif Verif.XUpdate.Read
open Verif.Write (UStr)
open Verif.Names (isQName splitQName)

/-- A document: elements, runs of text, and comments and processing instructions. -/
inductive Doc
  | elem (ns : Option UStr) (loc tag : UStr) (decls : Nss) (attrs : List Attr) (kids : List Doc)
  | text (s : UStr)
  | other

mutual
/-- What the parser reports for a node. -/
def events : Doc → List Event
  | .elem ns loc tag decls attrs kids => .start ns loc tag decls attrs :: (eventsAll kids ++ [.fin])
  | .text s => [.chars s]
  | .other => []
def eventsAll : List Doc → List Event
  | [] => []
  | d :: ds => events d ++ eventsAll ds
end

/-- The elements of XUpdate. -/
def tagOf (l : UStr) : Option Tag :=
  if l = u!! "modifications" then some .modifications
  else if l = u!! "insert-before" then some .insertBefore
  else if l = u!! "insert-after" then some .insertAfter
  else if l = u!! "append" then some .append
  else if l = u!! "update" then some .update
  else if l = u!! "remove" then some .remove
  else if l = u!! "rename" then some .rename
  else if l = u!! "variable" then some .variable
  else if l = u!! "if" then some .cond
  else if l = u!! "element" then some .element
  else if l = u!! "attribute" then some .attribute
  else if l = u!! "text" then some .text
  else if l = u!! "processing-instruction" then some .pi
  else if l = u!! "comment" then some .comment
  else if l = u!! "value-of" then some .valueOf
  else none

/-- Where something stands. -/
inductive Place
  /-- the document -/
  | root
  /-- where the commands are -/
  | commands
  /-- where nodes are made -/
  | template
  /-- where a string is made -/
  | string
  /-- where there is text only -/
  | chars
  /-- where there is nothing -/
  | nothing
  deriving DecidableEq, Repr

/-- What the elements contain. -/
def inside : Tag → Place
  | .modifications | .cond => .commands
  | .insertBefore | .insertAfter | .append | .variable | .element => .template
  | .update | .rename | .attribute | .pi | .comment => .string
  | .text => .chars
  | .remove | .valueOf => .nothing

/-- Which elements of XUpdate may stand where. -/
def mayStand : Place → Tag → Bool
  | .root, t => t ∈ [Tag.modifications]
  | .commands, t => t ∈ [Tag.insertBefore, .insertAfter, .append, .update, .remove, .rename, .variable, .cond]
  | .template, t => t ∈ [Tag.text, .valueOf, .element, .attribute, .pi, .comment]
  | .string, t => t ∈ [Tag.text, .valueOf]
  | .chars, _ => false
  | .nothing, _ => false

/-- Other elements stand among commands and where nodes are made. -/
def literalMayStand : Place → Bool
  | .commands | .template => true
  | _ => false

/-- Text stands where nodes or strings are made. -/
def textMayStand : Place → Bool
  | .template | .string | .chars => true
  | _ => false

/-- The value of an attribute in no namespace. -/
def value (attrs : List Attr) (name : UStr) : Option UStr :=
  (attrs.filter fun a => a.ns = none && a.loc = name).head?.map (·.value)

/-- The attribute has to be there, and then `bad` tells what is wrong with it. -/
def need (tag : UStr) (attrs : List Attr) (name : UStr) (bad : UStr → Option Err) : Option Err :=
  match value attrs name with
  | none => some (.missing tag name)
  | some v => bad v

/-- The attribute may be there. -/
def may (attrs : List Attr) (name : UStr) (bad : UStr → Option Err) : Option Err :=
  match value attrs name with
  | none => none
  | some v => bad v

/-- An expression that cannot be parsed. -/
def badExpr (H : Hooks) (v : UStr) : Option Err := if H.expr v then none else some (.badSyntax v)
/-- An attribute value template that cannot be parsed. -/
def badAvt (H : Hooks) (v : UStr) : Option Err := if H.avt v then none else some (.badSyntax v)
/-- A prefix that is not declared. -/
def badPrefix (nss : Nss) (v : UStr) : Option Err :=
  match (splitQName v).1 with
  | some (c :: p) => if nss.any (fun x => x.1 = some (c :: p)) then none else some (.undefinedPrefix (c :: p))
  | _ => none

/-- The first mistake in the attributes of an element. -/
def attrMistake (H : Hooks) (t : Tag) (tag : UStr) (nss : Nss) (attrs : List Attr) : Option Err :=
  match t with
  | .modifications => need tag attrs (u!! "version") fun v => if v = u!! "1.0" then none else some (.version v)
  | .insertBefore | .insertAfter | .update | .remove | .rename | .valueOf => need tag attrs (u!! "select") (badExpr H)
  | .append => (need tag attrs (u!! "select") (badExpr H)).or (may attrs (u!! "child") (badExpr H))
  | .variable => (need tag attrs (u!! "name") (badPrefix nss)).or (may attrs (u!! "select") (badExpr H))
  | .cond => need tag attrs (u!! "test") (badExpr H)
  | .element | .attribute => (need tag attrs (u!! "name") (badAvt H)).or (may attrs (u!! "namespace") (badAvt H))
  | .pi => need tag attrs (u!! "name") (badAvt H)
  | .text | .comment => none

/-- Text that counts: not white space only. -/
def counts (s : UStr) : Bool := s.any fun c => !isSpace c

mutual
/-- The first mistake in a node at a place inside the element with the name `parent`; `nss` are the namespaces there. -/
def mistake (H : Hooks) (place : Place) (parent : UStr) (nss : Nss) : Doc → Option Err
  | .elem ns loc tag decls attrs kids =>
    if ns = some xupdateNs then
      match tagOf loc with
      | none => some (.illegalElement tag)
      | some t =>
        (attrMistake H t tag (decls ++ nss) attrs).or <|
        (if mayStand place t then none else some (.illegalChild parent tag)).or <|
        mistakes H (inside t) tag (decls ++ nss) kids
    else
      (if literalMayStand place then none else some (.illegalChild parent tag)).or <|
      mistakes H .template tag (decls ++ nss) kids
  | .text s => if counts s && !textMayStand place then some (.invalidText parent) else none
  | .other => none
/-- The first mistake in the content of an element. -/
def mistakes (H : Hooks) (place : Place) (parent : UStr) (nss : Nss) : List Doc → Option Err
  | [] => none
  | d :: ds => (mistake H place parent nss d).or (mistakes H place parent nss ds)
end

/-- The expanded name of a variable. -/
def varName (nss : Nss) (v : UStr) : Option UStr × UStr :=
  match splitQName v with
  | (some (c :: p), l) => (((nss.filter fun x => x.1 = some (c :: p)).head?.map (·.2)).getD none, l)
  | (_, l) => (none, l)

/-- What an element asks for: its attributes as they are written, and the namespaces where it stands. -/
def head (t : Tag) (nss : Nss) (attrs : List Attr) : Head :=
  match t with
  | .modifications => .modifications
  | .insertBefore => .insertBefore nss ((value attrs (u!! "select")).getD [])
  | .insertAfter => .insertAfter nss ((value attrs (u!! "select")).getD [])
  | .append => .append nss ((value attrs (u!! "select")).getD []) (value attrs (u!! "child"))
  | .update => .update nss ((value attrs (u!! "select")).getD [])
  | .remove => .remove nss ((value attrs (u!! "select")).getD [])
  | .rename => .rename nss ((value attrs (u!! "select")).getD [])
  | .variable => .variable nss (varName nss ((value attrs (u!! "name")).getD [])) (value attrs (u!! "select"))
  | .cond => .cond nss ((value attrs (u!! "test")).getD [])
  | .element => .element nss ((value attrs (u!! "name")).getD [])
  | .attribute => .attribute nss ((value attrs (u!! "name")).getD [])
  | .text => .text
  | .pi => .pi nss ((value attrs (u!! "name")).getD [])
  | .comment => .comment
  | .valueOf => .valueOf nss ((value attrs (u!! "select")).getD [])

mutual
/-- What a node asks for. -/
def items (nss : Nss) : Doc → List Item
  | .elem ns loc tag decls attrs kids =>
    [.node (match (if ns = some xupdateNs then tagOf loc else none) with
        | some t => head t (decls ++ nss) attrs
        | none => .literal tag ns (attrs.map fun a => (a.ns, a.qname, a.value)))
      (itemsAll (decls ++ nss) kids)]
  | .text s => if counts s then [.text s] else []
  | .other => []
def itemsAll (nss : Nss) : List Doc → List Item
  | [] => []
  | d :: ds => items nss d ++ itemsAll nss ds
end

mutual
/-- No `namespace` attributes on `xupdate:element` and `xupdate:attribute`, and the names of variables are QNames. -/
def usual : Doc → Bool
  | .elem ns loc _ _ attrs kids =>
    (if ns = some xupdateNs then
      match tagOf loc with
      | some .element | some .attribute => (value attrs (u!! "namespace")).isNone
      | some .variable => ((value attrs (u!! "name")).map isQName).getD true
      | _ => true
    else true) && usualAll kids
  | _ => true
def usualAll : List Doc → Bool
  | [] => true
  | d :: ds => usual d && usualAll ds
end

/-- The namespaces outside of the root element. -/
def outside : Nss := [(some (u!! "xml"), some xmlNs), (none, none)]

end Verif.XUpdate.Read.Spec
