import Verif.Xslt.Lre.Model
/-
What XSLT 1.0 says about literal result elements (7.1.1, 14.1), namespace aliases and attribute sets (7.1.4).
-/
namespace Verif.Xslt.Lre.Spec
open Verif.Xslt.Lre
open Verif.Write (UStr)
variable {V : Type}

/-- The namespace that an element declares for a prefix. -/
def declares (l : Level) (p : Pfx) : Option Ns := get l.decls p

/-- The namespace declaration for a prefix that is in force in an element; the element first, then its parent, and so
on. -/
def declared : List Level → Pfx → Option Ns
  | [], _ => none
  | l :: ls, p => match declares l p with
    | some u => some u
    | none => declared ls p

/-- The namespace of a prefix: `xml` needs no declaration, and without a declaration the default namespace is none. -/
def scope (ls : List Level) (p : Pfx) : Option Ns :=
  match declared ls p with
  | some u => some u
  | none => if p = none then some none else if p = some (u!! "xml") then some (some xmlNs) else none

/-- The prefixes that an element designates as excluded or of extensions. -/
def prefixes (l : Level) : List Pfx := l.ext.getD [] ++ l.excl.getD []

/-- XSLT 7.1.1, 14.1: the namespace is designated as an excluded or extension namespace by the element or one that it is
in. -/
def excluded : List Level → Ns → Bool
  | [], _ => false
  | l :: ls, u => (prefixes l).any (fun p => scope (l :: ls) p = some u) || excluded ls u

/-- XSLT 7.1.1: the namespace nodes of the element in the result: those in scope in the stylesheet, without XSLT
and excluded and extension namespaces (and the one of `xml`, which every element has). -/
def node (ls : List Level) (p : Pfx) : Option Ns :=
  match declared ls p with
  | some u => if u = some xmlNs ∨ u = some xslNs ∨ excluded ls u then none else some u
  | none => none

/-- XSLT 7.1.1: a namespace alias changes the namespace of a literal result element or attribute. -/
def aliased (al : Aliases) (n : Name) : Name :=
  match al n.ns with
  | some (r, p) => { n with ns := r, pfx := p }
  | none => n

/-- The same for attributes; an attribute without prefix is in no namespace, not in the default namespace. -/
def aliasedAttr (al : Aliases) (n : Name) : Name := if n.ns = none then n else aliased al n

/-- The namespace nodes `d` of an element with aliases are `d'`: each one that has an alias is replaced by the alias. -/
def Aliased (al : Aliases) (d d' : Pfx → Option Ns) : Prop :=
  ∀ q v, d' q = some v ↔ (∃ p u, d p = some u ∧ al u = some (v, q)) ∨ (d q = some v ∧ al v = none)

mutual
/-- The literal result elements of a stylesheet in document order, each with its declarations and those of the elements
that it is in. -/
def literals (outer : List Level) : Sheet V → List (List Level × Lit V)
  | .elem l none kids => literalss (l :: outer) kids
  | .elem l (some x) kids => (l :: outer, x) :: literalss (l :: outer) kids
def literalss (outer : List Level) : List (Sheet V) → List (List Level × Lit V)
  | [] => []
  | s :: ss => literals outer s ++ literalss outer ss
end

mutual
/-- All elements, with their declarations and those of the elements that they are in. -/
def levels (outer : List Level) : Sheet V → List (List Level)
  | .elem l _ kids => (l :: outer) :: levelss (l :: outer) kids
def levelss (outer : List Level) : List (Sheet V) → List (List Level)
  | [] => []
  | s :: ss => levels outer s ++ levelss outer ss
end

/-- An element of a document: it declares a prefix once. -/
def WfLevel (l : Level) : Prop := (l.decls.map Prod.fst).Nodup

/-- The prefixes that are designated are bound. -/
def bound (ls : List Level) : Bool :=
  match ls with
  | [] => true
  | l :: _ => (prefixes l).all (fun p => (scope ls p).isSome)

/-- What the code needs: no element declares a namespace that is excluded by one that it is in, and none uses a prefix
for XSLT (or `xml`'s namespace) that is a namespace node outside. -/
def Tidy : List Level → Prop
  | [] => True
  | l :: ls => (∀ p u, declares l p = some u → excluded ls u = false ∧ (u = some xmlNs ∨ u = some xslNs → node ls p = none)) ∧
      Tidy ls

/-- Attributes in a namespace have a prefix (as in every document). -/
def WfLit (x : Lit V) : Prop := ∀ a ∈ x.attrs, a.1.ns ≠ none → a.1.pfx ≠ none

/-- What the code needs of aliases: the prefix of the result is not that of another namespace node that stays, and not
that of another alias. -/
def Clear (al : Aliases) (d : Pfx → Option Ns) : Prop :=
  ∀ p u r q, d p = some u → al u = some (r, q) →
    (∀ v, d q = some v → v = r ∨ al v = some (r, q)) ∧
    (∀ p' u' r', d p' = some u' → al u' = some (r', q) → r' = r)

/-- XSLT 7.1.1: the declaration for the namespace that has the highest import precedence. -/
def Highest (ds : List AliasDecl) (d : AliasDecl) : Prop := d ∈ ds ∧ ∀ d' ∈ ds, d'.ns = d.ns → d'.prec ≤ d.prec

/-- There are several declarations for a namespace with the highest import precedence. -/
def Clash (ds : List AliasDecl) : Prop :=
  ∃ d, Highest ds d ∧ 2 ≤ (ds.filter (fun d' => d'.ns = d.ns ∧ d'.prec = d.prec)).length

/-- No namespace of a result has an alias. -/
def Flat (al : Aliases) : Prop := ∀ u r q, al u = some (r, q) → al r = none

/-- What a literal result element starts with. -/
structure StartOk (al : Aliases) (x : List Level × Lit V) (s : Start V) : Prop where
  name : s.name = aliased al x.2.name
  attrs : s.attrs = x.2.attrs.map (fun a => (aliasedAttr al a.1, a.2))
  uses : s.uses = x.2.uses
  nss : Aliased al (node x.1) (get s.nss)

/-- Two lists agree item by item. -/
inductive All₂ {α β : Type} (R : α → β → Prop) : List α → List β → Prop
  | nil : All₂ R [] []
  | cons {a b l m} : R a b → All₂ R l m → All₂ R (a :: l) (b :: m)

/-- XSLT 7.1.4: the attributes that attribute sets add, in order (later ones replace earlier ones of the same name): a
set first has those of the sets it uses, and then those that it contains.  All definitions of one name are the set. -/
inductive Adds (sets : List (AttrSet V)) : List (Ns × UStr) → List (Name × V) → Prop
  | nil : Adds sets [] []
  | cons {n s ns as bs} : s ∈ sets → s.name = n → (∀ s' ∈ sets, s'.name = n → s' = s) → Adds sets s.uses as →
      Adds sets ns bs → Adds sets (n :: ns) (as ++ s.attrs ++ bs)

end Verif.Xslt.Lre.Spec
