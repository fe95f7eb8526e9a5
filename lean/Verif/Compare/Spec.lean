import Verif.Compare.Model
/-
What it means that two documents are the same, and what expat delivers for a document.
Nothing here uses the lines of the comparison: only the type of the events is taken from it.
-/
namespace Verif.Compare
open Verif

/-- An expanded name. -/
structure Name where
  uri : Option Str
  loc : Str
deriving DecidableEq

/-- The content of a document: a list of items, each followed by the rest. -/
inductive Content where
  | nil
  | elem (ns : List (Option Str × Option Str)) (name : Name) (attrs : List (Name × Str))
      (kids rest : Content)
  | text (data : Str) (rest : Content)
  | cdata (data : Str) (rest : Content)
  | comment (data : Str) (rest : Content)
  | pi (target data : Str) (rest : Content)
  /-- a reference to an entity that the parser does not know -/
  | ref (name : Str) (parameter : Bool) (rest : Content)
  | doctype (name : Str) (sysid pubid : Option Str) (subset : Bool) (rest : Content)
deriving DecidableEq

/-- The document is the same: the same items in the same order, except that the attributes and
the namespace declarations of an element have no order. -/
inductive Same : Content → Content → Prop where
  | nil : Same .nil .nil
  | elem {ns ns' name attrs attrs' kids kids' rest rest'} : ns.Perm ns' → attrs.Perm attrs' →
      Same kids kids' → Same rest rest' →
      Same (.elem ns name attrs kids rest) (.elem ns' name attrs' kids' rest')
  | text {d rest rest'} : Same rest rest' → Same (.text d rest) (.text d rest')
  | cdata {d rest rest'} : Same rest rest' → Same (.cdata d rest) (.cdata d rest')
  | comment {d rest rest'} : Same rest rest' → Same (.comment d rest) (.comment d rest')
  | pi {t d rest rest'} : Same rest rest' → Same (.pi t d rest) (.pi t d rest')
  | ref {n p rest rest'} : Same rest rest' → Same (.ref n p rest) (.ref n p rest')
  | doctype {n s p i rest rest'} : Same rest rest' →
      Same (.doctype n s p i rest) (.doctype n s p i rest')

/-- Only white space. -/
def Blank (s : Str) : Prop := ∀ c ∈ s, c = ' ' ∨ c = '\t' ∨ c = '\n' ∨ c = '\r'

instance (s : Str) : Decidable (Blank s) := inferInstanceAs (Decidable (∀ c ∈ s, _))

/-- The document without the texts that are only white space. -/
def stripped : Content → Content
  | .nil => .nil
  | .elem ns n as kids rest => .elem ns n as (stripped kids) (stripped rest)
  | .text d rest => if Blank d then stripped rest else .text d (stripped rest)
  | .cdata d rest => .cdata (if Blank d then [] else d) (stripped rest)
  | .comment d rest => .comment d (stripped rest)
  | .pi t d rest => .pi t d (stripped rest)
  | .ref n p rest => .ref n p (stripped rest)
  | .doctype n s p i rest => .doctype n s p i (stripped rest)

/-- The content starts with a text. -/
def StartsText : Content → Prop
  | .text _ _ => True
  | _ => False

/-- Texts are not empty and not next to one another, as in the data model of XPath: every document
can be put so, and in one way. -/
def Merged : Content → Prop
  | .nil => True
  | .elem _ _ _ kids rest => Merged kids ∧ Merged rest
  | .text d rest => d ≠ [] ∧ ¬ StartsText rest ∧ Merged rest
  | .cdata _ rest | .comment _ rest | .pi _ _ rest | .ref _ _ rest | .doctype _ _ _ _ rest =>
    Merged rest

/-- The parser knows all entities. -/
def Known : Content → Prop
  | .nil => True
  | .elem _ _ _ kids rest => Known kids ∧ Known rest
  | .ref _ _ _ => False
  | .text _ rest | .cdata _ rest | .comment _ rest | .pi _ _ rest | .doctype _ _ _ _ rest =>
    Known rest

/-- How expat gives a name: `uri#local`. -/
def given (n : Name) : Str :=
  match n.uri with
  | none => n.loc
  | some u => u ++ '#' :: n.loc

/-- `Delivers c es`: expat can deliver the events `es` for the document `c`.  Every text comes in
pieces, cut anywhere. -/
inductive Delivers : Content → List Event → Prop where
  | nil : Delivers .nil []
  | elem {ns name attrs kids rest k r} : Delivers kids k → Delivers rest r →
      Delivers (.elem ns name attrs kids rest)
        (ns.map (fun p => .nsDecl p.1 p.2) ++
          .start (given name) (attrs.map (fun p => (given p.1, p.2))) :: (k ++
            .stop (given name) :: r))
  | text {pieces : List Str} {rest r} : Delivers rest r →
      Delivers (.text pieces.flatten rest) (pieces.map .chars ++ r)
  | cdata {pieces : List Str} {rest r} : Delivers rest r →
      Delivers (.cdata pieces.flatten rest)
        (.startCdata :: (pieces.map .chars ++ .endCdata :: r))
  | comment {d rest r} : Delivers rest r → Delivers (.comment d rest) (.comment d :: r)
  | pi {t d rest r} : Delivers rest r → Delivers (.pi t d rest) (.pi t d :: r)
  | ref {n p rest r} : Delivers rest r → Delivers (.ref n p rest) (.skipped n p :: r)
  | doctype {n s p i rest r} : Delivers rest r →
      Delivers (.doctype n s p i rest) (.doctype n s p i :: r)

/-- The name does not imitate the notation of the report: its URI does not contain `=u'` or
`=u"`. -/
def Clear (n : Name) : Prop :=
  ∀ u, n.uri = some u → ∀ a b q, q = '\'' ∨ q = '"' → u ≠ a ++ '=' :: 'u' :: q :: b

/-- The names are names of XML as far as it matters: local names and prefixes have no `#` and no
`=`, targets of processing instructions and document types no comma; names are clear, and no prefix
is `None`. -/
def Named : Content → Prop
  | .nil => True
  | .elem ns n as kids rest =>
    (∀ p ∈ ns, ∀ q, p.1 = some q → '=' ∉ q ∧ q ≠ s!! "None") ∧ '#' ∉ n.loc ∧
    (∀ p ∈ as, '#' ∉ p.1.loc ∧ '=' ∉ p.1.loc ∧ Clear p.1) ∧ Named kids ∧ Named rest
  | .pi t _ rest => ',' ∉ t ∧ Named rest
  | .doctype n _ _ _ rest => ',' ∉ n ∧ Named rest
  | .text _ rest | .cdata _ rest | .comment _ rest | .ref _ _ rest => Named rest

end Verif.Compare
