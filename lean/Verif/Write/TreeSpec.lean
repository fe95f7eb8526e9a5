import Verif.Write.Visit
import Verif.Write.Spec
import Verif.Write.NsSpec

/-
Which trees can be written as XML with namespaces, and what a reader should find then.
-/
namespace Verif.Write.Spec
open Verif

/-- The declarations in scope bind the prefix to the namespace: its nearest declaration says so, or it is
`xml`.  `chain` are the declarations of an element, of its parent, and so on. -/
def Bound (chain : List (List (Option UStr × UStr))) (p : Option UStr) (u : UStr) : Prop :=
  nearest chain.flatten p = some u ∨ (p = some (u!! "xml") ∧ u = xmlName)

/-- The declarations of an element. -/
def LegalDecls (wide : Bool) (decls : List (Option UStr × UStr)) : Prop :=
  (decls.map (·.1)).Nodup ∧ ∀ d ∈ decls, legalBinding d = true ∧ LegalText wide d.2

/-- An attribute: without a namespace it has no prefix, and otherwise a prefix that is bound to its
namespace. -/
def LegalAttr (wide : Bool) (chain : List (List (Option UStr × UStr))) (a : Attr) : Prop :=
  ncName a.loc = true ∧ LegalText wide a.value ∧
  match a.ns with
  | none => a.pfx = none ∧ a.loc ≠ u!! "xmlns"
  | some u => ∃ q, a.pfx = some q ∧ Bound chain (some q) u

mutual
/-- A tree in which every element and attribute that has a namespace has a prefix (or, for an element,
none) that is bound to this namespace, and all names and data are legal.  Elements without a
namespace need no declaration. -/
def LegalTree (wide : Bool) (chain : List (List (Option UStr × UStr))) : Tree → Prop
  | .element ns pfx loc decls attrs children =>
    LegalDecls wide decls ∧ ncName loc = true ∧
    (match ns with
      | none => pfx = none
      | some u => u ≠ [] ∧ Bound (decls :: chain) pfx u) ∧
    (∀ a ∈ attrs, LegalAttr wide (decls :: chain) a) ∧ (attrs.map fun a => (a.ns, a.loc)).Nodup ∧
    LegalTrees wide (decls :: chain) children
  | .text s => LegalText wide s
  | .comment s => Raw s ∧ ¬ Occurs (u!! "--") (s ++ u!! "-")
  | .pi target data => isName target = true ∧ isXml target = false ∧ Raw data ∧ ¬ Occurs (u!! "?>") data ∧
      ∀ c, data.head? = some c → space c = false

def LegalTrees (wide : Bool) (chain : List (List (Option UStr × UStr))) : List Tree → Prop
  | [] => True
  | t :: ts => LegalTree wide chain t ∧ LegalTrees wide chain ts
end

mutual
/-- What a namespace-aware reader should find. -/
def treeEvents : Tree → List XEv
  | .element ns _ loc _ attrs children =>
    .start (ns, loc) (attrs.map fun a => ((a.ns, a.loc), a.value)) :: (treesEvents children ++ [.stop (ns, loc)])
  | .text s => s.map .char
  | .comment s => [.comment s]
  | .pi target data => [.pi target data]

def treesEvents : List Tree → List XEv
  | [] => []
  | t :: ts => treeEvents t ++ treesEvents ts
end

mutual
/-- What a reader that knows no namespaces should find, apart from the declarations. -/
def plainEvents : Tree → List Ev
  | .element _ pfx loc _ attrs children =>
    .start (qname pfx loc) (attrs.map fun a => (qname a.pfx a.loc, a.value)) ::
      (plainsEvents children ++ [.stop (qname pfx loc)])
  | .text s => s.map .char
  | .comment s => [.comment s]
  | .pi target data => [.pi target data]

def plainsEvents : List Tree → List Ev
  | [] => []
  | t :: ts => plainEvents t ++ plainsEvents ts
end

/-- Leave the declarations out of an event. -/
def dropDecls : Ev → Ev
  | .start n as => .start n (as.filter fun a => (declOf a).isNone)
  | e => e

/-- A comment or a processing instruction. -/
def isMisc : Tree → Bool
  | .comment _ | .pi _ _ => true
  | _ => false

/-- An element. -/
def isElement : Tree → Bool
  | .element _ _ _ _ _ _ => true
  | _ => false

/-- The children of a document: one element, and comments and processing instructions. -/
def DocumentChildren (ts : List Tree) : Prop :=
  ∃ a e b, ts = a ++ e :: b ∧ a.all isMisc = true ∧ isElement e = true ∧ b.all isMisc = true

/-- The external identifier of a document: none without a system identifier. -/
def LegalExternal (pub sys : Option UStr) : Prop :=
  truthy sys = true → (∀ p, pub = some p → p.all pubidChar = true ∧ 13 ∉ p) ∧ ∀ s, sys = some s → Raw s ∧ 34 ∉ s

/-- The document type declaration that a reader should find. -/
def externalEvents (pub sys : Option UStr) (ts : List Tree) : List XEv :=
  match sys, firstElement ts with
  | some (c :: s), some n => [.doctype n (orNone pub) (some (c :: s))]
  | _, _ => []

end Verif.Write.Spec
