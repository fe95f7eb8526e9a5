import Verif.Write.Writer
import Verif.Write.TreeSpec

/-
What a caller of the writer wants to be written: elements and attributes with namespaces and local names,
whatever prefixes they come with.
-/
namespace Verif.Write.XmlWriter.Spec
open Verif Verif.Write.Spec

/-- What is added to an element after its start. -/
inductive Add
  | attribute (name value : UStr) (ns : Option UStr)
  | namespace (pfx : Option UStr) (uri : UStr)

/-- What is written. -/
inductive Node
  | element (name : UStr) (ns : Option UStr) (namespaces : Scope) (attributes : List ((UStr × Option UStr) × UStr))
      (adds : List Add) (children : List Node)
  | text (s : UStr)
  | comment (s : UStr)
  | pi (target data : UStr)

def Add.call : Add → WCall
  | .attribute n v ns => .attribute n v ns
  | .namespace p u => .namespace p u

mutual
/-- The calls of the writer's methods. -/
def callsOf : Node → List WCall
  | .element name ns namespaces attributes adds children =>
    .startElement name ns namespaces attributes :: (adds.map Add.call ++ (allCalls children ++ [.endElement name]))
  | .text s => [.text s false]
  | .comment s => [.comment s]
  | .pi t d => [.pi t d]
def allCalls : List Node → List WCall
  | [] => []
  | n :: ns => callsOf n ++ allCalls ns
end

/-- The local part of a name. -/
def localName (q : UStr) : UStr := ((splitName q).getD (none, q)).2
/-- The prefix of a name. -/
def prefixName (q : UStr) : Option UStr := ((splitName q).getD (none, q)).1

/-- The attributes that an element gets, in order. -/
def given (attributes : List ((UStr × Option UStr) × UStr)) (adds : List Add) : List (XName × UStr) :=
  attributes.map (fun a => ((a.1.2, localName a.1.1), a.2)) ++
  adds.filterMap fun a => match a with
    | .attribute n v ns => some ((ns, localName n), v)
    | .namespace _ _ => none

/-- If there are several attributes with the same namespace and local name, the last one is meant. -/
def lastOnes : List (XName × UStr) → List (XName × UStr)
  | [] => []
  | a :: as => if a.1 ∈ as.map (·.1) then lastOnes as else a :: lastOnes as

/-- Data without white space around it. -/
def trimmed (s : UStr) : UStr := ((s.dropWhile space).reverse.dropWhile space).reverse

mutual
/-- What a namespace-aware reader should find. -/
def wanted : Node → List XEv
  | .element name ns _ attributes adds children =>
    .start (ns, localName name) (lastOnes (given attributes adds)) ::
      (allWanted children ++ [.stop (ns, localName name)])
  | .text s => s.map .char
  | .comment s => [.comment s]
  | .pi t d => [.pi t (trimmed d)]
def allWanted : List Node → List XEv
  | [] => []
  | n :: ns => wanted n ++ allWanted ns
end

/-! ## What can be written -/

/-- A declaration that is asked for: no namespace can only be declared for the empty prefix. -/
def LegalDecl (wide : Bool) : Option UStr × Option UStr → Prop
  | (p, none) => p = none
  | (p, some u) => legalBinding (p, u) = true ∧ LegalText wide u

/-- The name of an element.  Without a namespace it has no prefix. -/
def LegalName (wide : Bool) (name : UStr) (ns : Option UStr) : Prop :=
  (splitName name).isSome = true ∧
  match ns with
  | none => prefixName name = none
  | some u => u ≠ [] ∧ legalBinding (prefixName name, u) = true ∧ LegalText wide u

/-- The name of an attribute.  Its prefix may be any. -/
def LegalAttribute (wide : Bool) (name value : UStr) (ns : Option UStr) : Prop :=
  (splitName name).isSome = true ∧ LegalText wide value ∧
  match ns with
  | none => localName name ≠ u!! "xmlns"
  | some u => u ≠ [] ∧ u ≠ xmlnsName ∧ LegalText wide u

def LegalAdd (wide : Bool) : Add → Prop
  | .attribute n v ns => LegalAttribute wide n v ns
  | .namespace p u => legalBinding (p, u) = true ∧ LegalText wide u

mutual
/-- Names and data that XML can express. -/
def LegalNode (wide : Bool) : Node → Prop
  | .element name ns namespaces attributes adds children =>
    LegalName wide name ns ∧ (namespaces.map (·.1)).Nodup ∧ (∀ d ∈ namespaces, LegalDecl wide d) ∧
    (∀ a ∈ attributes, LegalAttribute wide a.1.1 a.2 a.1.2) ∧ (∀ a ∈ adds, LegalAdd wide a) ∧
    LegalNodes wide children
  | .text s => LegalText wide s
  | .comment s => Raw s ∧ ¬ Occurs (u!! "--") (s ++ u!! "-")
  | .pi target data => isName target = true ∧ isXml target = false ∧ Raw data ∧ ¬ Occurs (u!! "?>") data
def LegalNodes (wide : Bool) : List Node → Prop
  | [] => True
  | n :: ns => LegalNode wide n ∧ LegalNodes wide ns
end

/-- A comment or a processing instruction. -/
def isMisc : Node → Bool
  | .comment _ | .pi _ _ => true
  | _ => false

/-- The document type declaration, if there is a system identifier. -/
def doctypeWanted (pub sys : Option UStr) (name : UStr) : List XEv :=
  match sys with
  | none | some [] => []
  | some s => [.doctype name (match pub with
    | some [] => none
    | p => p) (some s)]

/-- The identifiers of a document type declaration. -/
def LegalIds (pub sys : Option UStr) : Prop :=
  ∀ s, sys = some s → s ≠ [] → (∀ p, pub = some p → p.all pubidChar ∧ 13 ∉ p) ∧ Raw s ∧ 34 ∉ s

mutual
/-- `namespace` is not called. -/
def Plain : Node → Prop
  | .element _ _ _ _ adds children => (∀ a ∈ adds, ∃ n v ns, a = .attribute n v ns) ∧ PlainAll children
  | _ => True
def PlainAll : List Node → Prop
  | [] => True
  | n :: ns => Plain n ∧ PlainAll ns
end

/-- The calls for a document: comments and processing instructions, an element, and more of them. -/
def documentCalls (before : List Node) (root : Node) (after : List Node) : List WCall :=
  .startDocument :: (allCalls before ++ (callsOf root ++ (allCalls after ++ [.endDocument])))

/-- The name of an element. -/
def nameOf : Node → Option UStr
  | .element name _ _ _ _ _ => some name
  | _ => none

/-- What a reader should find in the document. -/
def documentWanted (P : Params) (before : List Node) (root : Node) (after : List Node) : List XEv :=
  allWanted before ++ (doctypeWanted P.doctypePublic P.doctypeSystem ((nameOf root).getD []) ++
    (wanted root ++ allWanted after))

/-- The document can be expressed in XML. -/
structure LegalDocument (wide : Bool) (P : Params) (before : List Node) (root : Node) (after : List Node) : Prop where
  before : LegalNodes wide before ∧ before.all isMisc = true
  root : LegalNode wide root ∧ (nameOf root).isSome = true
  after : LegalNodes wide after ∧ after.all isMisc = true
  doctype : LegalIds P.doctypePublic P.doctypeSystem

/-- The value of `standalone`. -/
def standaloneOf (P : Params) : Option UStr := P.standalone.map fun b => if b then u!! "yes" else u!! "no"

/-! ## Attributes -/

/-- After these calls a start tag is open: the last call that adds nothing to a start tag has begun an element. -/
def tagOpen (cs : List WCall) : Bool :=
  match (cs.reverse.dropWhile fun c => match c with
    | .attribute _ _ _ | .namespace _ _ => true
    | _ => false).head? with
  | some (.startElement _ _ _ _) => true
  | _ => false

/-- An element has begun. -/
def begun (cs : List WCall) : Bool := cs.any fun c => match c with
  | .startElement _ _ _ _ => true
  | _ => false

/-- A call after `start_document`; elements have names. -/
def Later : WCall → Prop
  | .startDocument => False
  | .startElement name _ _ _ => name ≠ []
  | _ => True

/-! ## Namespaces in scope -/

/-- The scopes of the elements in the order of their start tags: all declarations in force, the inner ones
first. -/
def scopes : List (List (Option UStr × UStr)) → List Ev → List (List (Option UStr × UStr))
  | _, [] => []
  | stack, .start _ as :: es =>
    let scope := as.filterMap declOf ++ stack.headD []
    scope :: scopes (scope :: stack) es
  | stack, .stop _ :: es => scopes stack.tail es
  | stack, _ :: es => scopes stack es

/-- The namespace that an element asks for a prefix: that of its own prefix first, then what is declared for
it, then what is asked for by the elements around it. -/
def asked (name : UStr) (ns : Option UStr) (namespaces : Scope) (adds : List Add) (outer : Scope) : Scope :=
  (prefixName name, ns) :: (namespaces ++
    adds.filterMap (fun a => match a with
      | .namespace p u => some (p, some u)
      | .attribute _ _ _ => none) ++ outer)

mutual
/-- The same for all elements, in the order of their start tags. -/
def allAsked (outer : Scope) : Node → List Scope
  | .element name ns namespaces _ adds children =>
    asked name ns namespaces adds outer :: allsAsked (asked name ns namespaces adds outer) children
  | _ => []
def allsAsked (outer : Scope) : List Node → List Scope
  | [] => []
  | n :: ns => allAsked outer n ++ allsAsked outer ns
end

/-- The first entry for a prefix. -/
def entry : Scope → Option UStr → Option (Option UStr)
  | [], _ => none
  | (q, u) :: l, p => if q = p then some u else entry l p

/-- A reader finds what is asked for. -/
def Provides (scope : List (Option UStr × UStr)) (want : Scope) : Prop :=
  ∀ p u, entry want p = some u → namespaceOf scope p = some (if u = some [] then none else u)

/-- The same for several elements. -/
inductive AllProvide : List (List (Option UStr × UStr)) → List Scope → Prop
  | nil : AllProvide [] []
  | cons {s w ss ws} : Provides s w → AllProvide ss ws → AllProvide (s :: ss) (w :: ws)

/-- Iteration over a dictionary gives its entries in some order. -/
def GoodIter (it : Iter) : Prop := (∀ d, (it.scope d).Perm d) ∧ ∀ a, (it.attrs a).Perm a

end Verif.Write.XmlWriter.Spec
