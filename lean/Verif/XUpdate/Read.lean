import Verif.Content.Model
import Verif.Names.Xmlstring
import Verif.Write.Stream
/-
The reader of XUpdate requests (lib/xupdate/reader.py): an expat handler that makes a tree of commands and instructions
out of the events of a document, with the content models and the element functions of the module.

Expressions and attribute value templates are kept as they are written; whether they can be parsed is a parameter.  (An
attribute value template with an ill-formed expression in it counts as one that cannot be parsed.)
-/
namespace Verif.XUpdate.Read
open Verif Verif.Content
open Verif.Write (UStr)
open Verif.Names (isQName splitQName)

/-- lib/xupdate/__init__.py:10 `XUPDATE_NAMESPACE`. -/
def xupdateNs : UStr := u!! "http://www.xmldb.org/xupdate"
/-- lib/namespaces.py `XML_NAMESPACE`. -/
def xmlNs : UStr := u!! "http://www.w3.org/XML/1998/namespace"

/-- The elements that the decorator `autodispatch` enters (reader.py:92-331). -/
inductive Tag
  | modifications | insertBefore | insertAfter | append | update | remove | rename | variable | cond
  | element | attribute | text | pi | comment | valueOf
  deriving DecidableEq, Repr

/-- The dictionary `_elements` (reader.py:83-90), without the functions and the models. -/
def names : List (UStr × Tag) :=
  [(u!! "modifications", .modifications), (u!! "insert-before", .insertBefore), (u!! "insert-after", .insertAfter),
   (u!! "append", .append), (u!! "update", .update), (u!! "remove", .remove), (u!! "rename", .rename),
   (u!! "variable", .variable), (u!! "if", .cond), (u!! "element", .element), (u!! "attribute", .attribute),
   (u!! "text", .text), (u!! "processing-instruction", .pi), (u!! "comment", .comment), (u!! "value-of", .valueOf)]

/-! ### The content models (reader.py:19-79) -/

/-- The events: an element of XUpdate, `_literal_event`, `_text_event`, `_empty_event`, `_end_event`. -/
inductive Tok
  | xu (t : Tag) | literal | text | empty | fin
  deriving DecidableEq, Repr

/-- reader.py:19-21 `qname_type`. -/
def qname (t : Tag) : Content Tok := .name (.xu t) .none
/-- reader.py:25 `_document_content`. -/
def documentContent : Content Tok := qname .modifications
/-- reader.py:29-30 `_empty_content`. -/
def emptyContent : Content Tok := .name .empty .rep
/-- reader.py:34-35 `_text_content`. -/
def textContent : Content Tok := .name .text .rep
/-- reader.py:39-41 `_literal_content`. -/
def literalContent : Content Tok := .name .literal .rep
/-- reader.py:43-52 `_char_template_content`. -/
def charTemplateContent : Content Tok := .alt [textContent, qname .text, qname .valueOf] .rep
/-- reader.py:55-64 `_template_content`. -/
def templateContent : Content Tok :=
  .alt [charTemplateContent, qname .element, qname .attribute, qname .pi, qname .comment, literalContent] .rep
/-- reader.py:67-79 `_toplevel_content`. -/
def toplevelContent : Content Tok :=
  .alt [qname .insertBefore, qname .insertAfter, qname .append, qname .update, qname .remove, qname .rename,
    qname .variable, qname .cond, literalContent] .rep

/-- The model given to `autodispatch` for each element. -/
def contentOf : Tag → Content Tok
  | .modifications => toplevelContent
  | .insertBefore => templateContent
  | .insertAfter => templateContent
  | .append => templateContent
  | .update => charTemplateContent
  | .remove => emptyContent
  | .rename => charTemplateContent
  | .variable => templateContent
  | .cond => toplevelContent
  | .element => templateContent
  | .attribute => charTemplateContent
  | .text => textContent
  | .pi => charTemplateContent
  | .comment => charTemplateContent
  | .valueOf => emptyContent

/-- `content.compile()`; `C36_compile_terminates` shows that there is a table. -/
def table (c : Content Tok) : List (List (Tok × Nat)) := (compile .fin c).getD []

/-! ### The element functions -/

/-- A dictionary of namespaces: prefix to URI. -/
abbrev Nss := List (Option UStr × Option UStr)

/-- An attribute as the parser gives it: namespace, local name, qualified name, value. -/
structure Attr where
  ns : Option UStr
  loc : UStr
  qname : UStr
  value : UStr
  deriving DecidableEq, Repr

/-- What the reader gets from elsewhere. -/
structure Hooks where
  /-- `parse_expression` raises no XPathError. -/
  expr : UStr → Bool
  /-- `avt_expression.__init__` raises no XsltError. -/
  avt : UStr → Bool

/-- Exceptions: those of XUpdateError with their arguments; the AttributeError from naming an error code that the class
does not have; the TypeError from a call with the wrong number of arguments; and the IndexError of `modifications[0]`
and of an empty stack. -/
inductive Err
  | illegalElement (element : UStr)
  | illegalChild (element child : UStr)
  | invalidText (element : UStr)
  | missing (element attr : UStr)
  | version (v : UStr)
  | badSyntax (expression : UStr)
  | undefinedPrefix (p : UStr)
  | attributeError
  | typeError
  | indexError
  deriving DecidableEq, Repr

/-- The objects that the element functions make (lib/xupdate/commands.py and instructions.py), without the children. -/
inductive Head
  | modifications
  | insertBefore (nss : Nss) (select : UStr)
  | insertAfter (nss : Nss) (select : UStr)
  | append (nss : Nss) (select : UStr) (child : Option UStr)
  | update (nss : Nss) (select : UStr)
  | remove (nss : Nss) (select : UStr)
  | rename (nss : Nss) (select : UStr)
  | variable (nss : Nss) (name : Option UStr × UStr) (select : Option UStr)
  | cond (nss : Nss) (test : UStr)
  | element (nss : Nss) (name : UStr)
  | attribute (nss : Nss) (name : UStr)
  | text
  | pi (nss : Nss) (name : UStr)
  | comment
  | valueOf (nss : Nss) (select : UStr)
  | literal (tag : UStr) (ns : Option UStr) (attrs : List (Option UStr × UStr × UStr))
  deriving DecidableEq, Repr

/-- `attributes[None, name]`, `none` for a KeyError. -/
def attr? (attrs : List Attr) (name : UStr) : Option UStr :=
  (attrs.find? fun a => decide (a.ns = none ∧ a.loc = name)).map (·.value)

/-- A required attribute (reader.py:108-112 and the like). -/
def required (tag : UStr) (attrs : List Attr) (name : UStr) : Except Err UStr :=
  match attr? attrs name with
  | none => .error (.missing tag name)
  | some v => .ok v

/-- `parse_expression` (reader.py:114-118 and the like). -/
def expression (H : Hooks) (v : UStr) : Except Err UStr :=
  if H.expr v then .ok v else .error (.badSyntax v)

/-- A required attribute that is an expression. -/
def requiredExpr (H : Hooks) (tag : UStr) (attrs : List Attr) (name : UStr) : Except Err UStr :=
  match required tag attrs name with
  | .error e => .error e
  | .ok v => expression H v

/-- An optional attribute that is an expression (reader.py:152-160, 239-247). -/
def optionalExpr (H : Hooks) (attrs : List Attr) (name : UStr) : Except Err (Option UStr) :=
  match attr? attrs name with
  | none => .ok none
  | some v => match expression H v with
    | .error e => .error e
    | .ok v => .ok (some v)

/-- A required attribute that is an attribute value template (`qname_avt('name', name)`, expressions.py:16-25). -/
def requiredAvt (H : Hooks) (tag : UStr) (attrs : List Attr) (name : UStr) : Except Err UStr :=
  match required tag attrs name with
  | .error e => .error e
  | .ok v => if H.avt v then .ok v else .error (.badSyntax v)

/-- `namespace_avt(attributes[None, 'namespace'])` (reader.py:276-279, 294-297): the constructor takes two arguments
(expressions.py:18). -/
def namespaceAttr (attrs : List Attr) : Except Err Unit :=
  match attr? attrs (u!! "namespace") with
  | none => .ok ()
  | some _ => .error .typeError

/-- The name of a variable (reader.py:226-238); `XUpdateError.INVALID_QNAME_ATTR` does not exist. -/
def variableName (nss : Nss) (v : UStr) : Except Err (Option UStr × UStr) :=
  if isQName v then
    match splitQName v with
    | (some (c :: p), l) => match lookup (some (c :: p)) nss with
      | some u => .ok (u, l)
      | none => .error (.undefinedPrefix (c :: p))
    | (_, l) => .ok (none, l)
  else .error .attributeError

/-- An element whose only attribute is a required `select`. -/
def withSelect (H : Hooks) (tag : UStr) (attrs : List Attr) (mk : UStr → Head) : Except Err Head :=
  match requiredExpr H tag attrs (u!! "select") with
  | .error e => .error e
  | .ok v => .ok (mk v)

/-- `modifications_element` (reader.py:92-103). -/
def modificationsElement (tag : UStr) (attrs : List Attr) : Except Err Head :=
  match required tag attrs (u!! "version") with
  | .error e => .error e
  | .ok v => if v ≠ u!! "1.0" then .error (.version v) else .ok .modifications

/-- `append_element` (reader.py:137-161). -/
def appendElement (H : Hooks) (tag : UStr) (nss : Nss) (attrs : List Attr) : Except Err Head :=
  match requiredExpr H tag attrs (u!! "select") with
  | .error e => .error e
  | .ok v => match optionalExpr H attrs (u!! "child") with
    | .error e => .error e
    | .ok c => .ok (.append nss v c)

/-- `variable_element` (reader.py:216-248). -/
def variableElement (H : Hooks) (tag : UStr) (nss : Nss) (attrs : List Attr) : Except Err Head :=
  match required tag attrs (u!! "name") with
  | .error e => .error e
  | .ok v => match variableName nss v with
    | .error e => .error e
    | .ok n => match optionalExpr H attrs (u!! "select") with
      | .error e => .error e
      | .ok s => .ok (.variable nss n s)

/-- `if_element` (reader.py:250-264). -/
def ifElement (H : Hooks) (tag : UStr) (nss : Nss) (attrs : List Attr) : Except Err Head :=
  match requiredExpr H tag attrs (u!! "test") with
  | .error e => .error e
  | .ok v => .ok (.cond nss v)

/-- `element_element` and `attribute_element` (reader.py:266-298). -/
def namedElement (H : Hooks) (tag : UStr) (attrs : List Attr) (mk : UStr → Head) : Except Err Head :=
  match requiredAvt H tag attrs (u!! "name") with
  | .error e => .error e
  | .ok v => match namespaceAttr attrs with
    | .error e => .error e
    | .ok () => .ok (mk v)

/-- `processing_instruction_element` (reader.py:304-313). -/
def piElement (H : Hooks) (tag : UStr) (nss : Nss) (attrs : List Attr) : Except Err Head :=
  match requiredAvt H tag attrs (u!! "name") with
  | .error e => .error e
  | .ok v => .ok (.pi nss v)

/-- `factory(tagName, inscope_namespaces, attributes)` (reader.py:369). -/
def factory (H : Hooks) (t : Tag) (tag : UStr) (nss : Nss) (attrs : List Attr) : Except Err Head :=
  match t with
  | .modifications => modificationsElement tag attrs
  | .insertBefore => withSelect H tag attrs (.insertBefore nss)
  | .insertAfter => withSelect H tag attrs (.insertAfter nss)
  | .append => appendElement H tag nss attrs
  | .update => withSelect H tag attrs (.update nss)
  | .remove => withSelect H tag attrs (.remove nss)
  | .rename => withSelect H tag attrs (.rename nss)
  | .variable => variableElement H tag nss attrs
  | .cond => ifElement H tag nss attrs
  | .element => namedElement H tag attrs (.element nss)
  | .attribute => namedElement H tag attrs (.attribute nss)
  | .text => .ok .text
  | .pi => piElement H tag nss attrs
  | .comment => .ok .comment
  | .valueOf => withSelect H tag attrs (.valueOf nss)

/-! ### The handler -/

/-- What is read: text, and an object with its children (they are lists, lib/xupdate/__init__.py:49). -/
inductive Item
  | text (s : UStr)
  | node (head : Head) (kids : List Item)

/-- `handler_state` (reader.py:334-341): the item with its children so far, the name, the namespaces, and the state of
the validation.  The item of the document is a plain list. -/
structure Frame where
  head : Option Head
  kids : List Item
  name : UStr
  nss : Nss
  dfa : List (List (Tok × Nat))
  state : Nat

/-- The events of the parser. Comments and processing instructions are not handled. -/
inductive Event
  | start (ns : Option UStr) (loc tag : UStr) (decls : Nss) (attrs : List Attr)
  | fin
  | chars (s : UStr)

/-- `parent_state.namespaces.copy()`, `.update(namespaces)` (reader.py:360-364), as lists in which the first entry for a
prefix counts. -/
def inScope (nss decls : Nss) : Nss := decls ++ nss

/-- The item, its model and its validation event (reader.py:366-385). -/
def open' (H : Hooks) (nss : Nss) (ns : Option UStr) (loc tag : UStr) (attrs : List Attr) :
    Except Err (Head × Content Tok × Tok) :=
  if ns = some xupdateNs then
    match lookup loc names with
    | none => .error (.illegalElement tag)
    | some t => match factory H t tag nss attrs with
      | .error e => .error e
      | .ok h => .ok (h, contentOf t, .xu t)
  else .ok (.literal tag ns (attrs.map fun a => (a.ns, a.qname, a.value)), templateContent, .literal)

/-- `start_element` (reader.py:356-398). -/
def startElement (H : Hooks) (ns : Option UStr) (loc tag : UStr) (decls : Nss) (attrs : List Attr) :
    List Frame → Except Err (List Frame)
  | [] => .error .indexError
  | f :: fs => match open' H (inScope f.nss decls) ns loc tag attrs with
    | .error e => .error e
    | .ok (h, c, ev) => match transit f.dfa f.state ev with
      | none => .error (.illegalChild f.name tag)
      | some q => .ok (⟨some h, [], tag, inScope f.nss decls, table c, 0⟩ :: { f with state := q } :: fs)

/-- `end_element` (reader.py:400-417); `XUpdateError.INCOMPLETE_ELEMENT` does not exist. -/
def endElement : List Frame → Except Err (List Frame)
  | f :: p :: fs => match transit f.dfa f.state .fin with
    | none => .error .attributeError
    | some _ => match f.head with
      | some h => .ok ({ p with kids := p.kids ++ [.node h f.kids] } :: fs)
      | none => .error .indexError
  | _ => .error .indexError

/-- The characters that `unicode.strip` of Python 2 strips. -/
def isSpace (c : Nat) : Bool :=
  (9 ≤ c && c ≤ 13) || (28 ≤ c && c ≤ 32) || c == 0x85 || c == 0xA0 || c == 0x1680 || c == 0x180E ||
  (0x2000 ≤ c && c ≤ 0x200A) || c == 0x2028 || c == 0x2029 || c == 0x202F || c == 0x205F || c == 0x3000

/-- `data.strip()`. -/
def strip (s : UStr) : UStr := ((s.dropWhile isSpace).reverse.dropWhile isSpace).reverse

/-- `characters` (reader.py:419-432). -/
def characters (s : UStr) : List Frame → Except Err (List Frame)
  | [] => .error .indexError
  | f :: fs =>
    if strip s = [] then .ok (f :: fs)
    else match transit f.dfa f.state .text with
      | none => .error (.invalidText f.name)
      | some q => .ok ({ f with state := q, kids := f.kids ++ [.text s] } :: fs)

/-- One event. -/
def step (H : Hooks) (fs : List Frame) : Event → Except Err (List Frame)
  | .start ns loc tag decls attrs => startElement H ns loc tag decls attrs fs
  | .fin => endElement fs
  | .chars s => characters s fs

/-- The events of a document, until one raises. -/
def run (H : Hooks) : List Frame → List Event → Except Err (List Frame)
  | fs, [] => .ok fs
  | fs, e :: es => match step H fs e with
    | .error x => .error x
    | .ok fs => run H fs es

/-- `_state_stack` at the start (reader.py:349-352). -/
def initial : List Frame :=
  [⟨none, [], u!! "#document", [(some (u!! "xml"), some xmlNs), (none, none)], table documentContent, 0⟩]

/-- `handler.modifications[0]` (reader.py:439). -/
def result : List Frame → Except Err Item
  | [f] => match f.kids with
    | i :: _ => .ok i
    | [] => .error .indexError
  | _ => .error .indexError

/-- `parse` (reader.py:435-439), for the events of the parser. -/
def parse (H : Hooks) (es : List Event) : Except Err Item :=
  match run H initial es with
  | .error e => .error e
  | .ok fs => result fs

end Verif.XUpdate.Read
