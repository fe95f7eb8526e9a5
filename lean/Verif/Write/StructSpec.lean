import Verif.Write.Struct
import Verif.Write.TreeSpec

/-
What a structure of `E`, `NS`, `RAW` and other objects stands for, and which structures can be written.
-/
namespace Verif.Write.Spec
open Verif

/-- The prefix and the local part of a name. -/
def prefixPart (q : UStr) : Option UStr := ((splitName q).getD (none, q)).1
def localPart (q : UStr) : UStr := ((splitName q).getD (none, q)).2

/-- The namespace u'' is none. -/
def nsName (u : UStr) : Option UStr := if u = [] then none else some u

/-- None and u'' are the same prefix. -/
def plainPrefix : Option UStr → Option UStr
  | some [] => none
  | p => p

def plainDecl (d : Option UStr × UStr) : Option UStr × UStr := (plainPrefix d.1, d.2)

/-- The expanded name of an element: in the given namespace, and without one, in that of its prefix. -/
def structName (scope : List (Option UStr × UStr)) (ns : Option UStr) (q : UStr) : XName :=
  match ns with
  | some u => (nsName u, localPart q)
  | none => ((namespaceOf scope (prefixPart q)).getD none, localPart q)

/-- The expanded name of an attribute: in the given namespace, and without one, in that of its prefix if it
has one. -/
def structAttrName (scope : List (Option UStr × UStr)) (ns : Option UStr) (q : UStr) : XName :=
  match ns, prefixPart q with
  | some u, _ => (nsName u, localPart q)
  | none, none => (none, localPart q)
  | none, some p => ((namespaceOf scope (some p)).getD none, localPart q)

/-- The declarations in the content of an element. -/
def declared : List Obj → List (Option UStr × UStr)
  | [] => []
  | .ns p u :: content => (p, u) :: declared content
  | _ :: content => declared content

/-- The declarations of an element, and of those around it: its own are the `NS` objects in its content,
and the prefix and the namespace of its name if it has one. -/
def scopeOf (outer : List (Option UStr × UStr)) (ns : Option UStr) (q : UStr) (content : List Obj) :
    List (Option UStr × UStr) :=
  declared content ++ match ns with
    | some u => (some ((prefixPart q).getD []), u) :: outer
    | none => outer

/-- The attributes: those without a value are left out. -/
def structAttrs (scope : List (Option UStr × UStr)) (attrs : List ((Option UStr × UStr) × Option UStr)) :
    List (XName × UStr) :=
  attrs.filterMap fun a => a.2.map fun v => (structAttrName scope a.1.1 a.1.2, v)

mutual
/-- What a namespace-aware reader should find for an object. -/
def described (outer : List (Option UStr × UStr)) : Obj → List XEv
  | .elem ns q attrs content =>
    let scope := scopeOf outer ns q content
    .start (structName (scope.map plainDecl) ns q) (structAttrs (scope.map plainDecl) attrs) ::
      (describedAll scope content ++ [.stop (structName (scope.map plainDecl) ns q)])
  | .ns _ _ => []
  | .raw trees => treesEvents trees
  | .text s => s.map .char
  | .value s _ => s.map .char
  | .iter items _ => describedAll outer items
  | .call r => described outer r
  | .root content => describedAll [] content

def describedAll (outer : List (Option UStr × UStr)) : List Obj → List XEv
  | [] => []
  | x :: xs => described outer x ++ describedAll outer xs
end

/-! Structures that can be written -/

/-- Not an `NS`. -/
def noNs : Obj → Bool
  | .ns _ _ => false
  | _ => true

/-- All `NS` objects come first. -/
def nsFirst : List Obj → Bool
  | .ns _ _ :: content => nsFirst content
  | content => content.all noNs

/-- The declaration of a prefix that the objects around an element make, `NS(None, u)` and `NS(u'', u)` taken
for different ones, is the one in force. -/
def InForce (outer : List (Option UStr × UStr)) (q u : UStr) : Prop :=
  nearest outer (some ((prefixPart q).getD [])) = some u → nearest (outer.map plainDecl) (prefixPart q) = some u

/-- The declarations that are made for an element: `NS` objects, and that of its name unless the same one
is made by an object around it. -/
def madeDecls (outer : List (Option UStr × UStr)) (ns : Option UStr) (q : UStr) (content : List Obj) :
    List (Option UStr × UStr) :=
  declared content ++ match ns with
    | some u => if nearest outer (some ((prefixPart q).getD [])) = some u then [] else [(some ((prefixPart q).getD []), u)]
    | none => []

/-- An attribute: the namespace, if one is given, is that of the prefix. -/
def LegalStructAttr (wide : Bool) (scope : List (Option UStr × UStr)) (ns : Option UStr) (q v : UStr) : Prop :=
  (splitName q).isSome = true ∧ (declOf (q, v)).isNone = true ∧ LegalText wide v ∧
  match ns, prefixPart q with
  | none, none => True
  | none, some p => (namespaceOf scope (some p)).isSome = true
  | some u, none => u = []
  | some u, some p => u ≠ [] ∧ namespaceOf scope (some p) = some (some u)

/-- The name of an element: the namespace, if one is given, is that of the prefix. -/
def LegalStructName (scope : List (Option UStr × UStr)) (ns : Option UStr) (q : UStr) : Prop :=
  (splitName q).isSome = true ∧
  match ns with
  | none => (namespaceOf scope (prefixPart q)).isSome = true
  | some u => namespaceOf scope (prefixPart q) = some (nsName u)

mutual
/-- A structure that is written as what it stands for.
 * No prefix is declared twice for an element: there is no `NS` for the prefix of a name with a namespace.
 * The first object in the content other than `NS` is true, or nothing is lost.
 * Nodes of a `RAW` are not in the scope of a default namespace. -/
def LegalObj (wide : Bool) (outer : List (Option UStr × UStr)) : Obj → Prop
  | .elem ns q attrs content =>
    LegalStructName ((scopeOf outer ns q content).map plainDecl) ns q ∧
    (∀ u, ns = some u → InForce outer q u) ∧
    LegalDecls wide ((madeDecls outer ns q content).map plainDecl) ∧
    (∀ a ∈ attrs, ∀ v, a.2 = some v → LegalStructAttr wide ((scopeOf outer ns q content).map plainDecl) a.1.1 a.1.2 v) ∧
    ((structAttrs ((scopeOf outer ns q content).map plainDecl) attrs).map (·.1)).Nodup ∧
    nsFirst content = true ∧
    (((content.filter noNs).head?.map Obj.truth).getD true = true ∨ describedAll (scopeOf outer ns q content) content = []) ∧
    LegalObjs wide (scopeOf outer ns q content) content
  | .ns _ _ => True
  | .raw trees => LegalTrees wide [] trees ∧
    (nearest (outer.map plainDecl) none = none ∨ nearest (outer.map plainDecl) none = some [])
  | .text s => LegalText wide s
  | .value s _ => LegalText wide s
  | .iter items _ => items.all noNs = true ∧ LegalObjs wide outer items
  | .call r => noNs r = true ∧ LegalObj wide outer r
  | .root _ => False

def LegalObjs (wide : Bool) (outer : List (Option UStr × UStr)) : List Obj → Prop
  | [] => True
  | x :: xs => LegalObj wide outer x ∧ LegalObjs wide outer xs
end

/-- What is at the top of a document. -/
inductive Top
  | element
  | text
  | misc
  deriving DecidableEq, Repr

def treeTop : Tree → Top
  | .element _ _ _ _ _ _ => .element
  | .text _ => .text
  | _ => .misc

mutual
def tops : Obj → List Top
  | .elem _ _ _ _ => [.element]
  | .ns _ _ => []
  | .raw trees => trees.map treeTop
  | .text _ => [.text]
  | .value _ _ => [.text]
  | .iter items _ => topsAll items
  | .call r => tops r
  | .root content => topsAll content

def topsAll : List Obj → List Top
  | [] => []
  | x :: xs => tops x ++ topsAll xs
end

/-- The content of a `ROOT`: one element, and besides only comments and processing instructions (from
`RAW` objects). -/
def OneElement (content : List Obj) : Prop :=
  (topsAll content).filter (· ≠ .misc) = [.element]

end Verif.Write.Spec
