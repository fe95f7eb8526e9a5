import Verif.Xslt.Import

/-
What XSLT 1.0 says about combining stylesheets (2.6), without the numbering of the code.
-/
namespace Verif.Xslt.Spec
open Verif Verif.Template

/-- The stylesheet `a` imports or includes `b`. -/
def Uses {α : Type} (files : Str → Option (SheetDoc α)) (a b : Str) : Prop :=
  ∃ m, files a = some m ∧ (b ∈ m.imports ∨ Item.incl b ∈ m.items)

/-- Directly or indirectly, or `a` itself. -/
inductive Reaches {α : Type} (files : Str → Option (SheetDoc α)) (a : Str) : Str → Prop
  | refl : Reaches files a a
  | step {b c} : Reaches files a b → Uses files b c → Reaches files a c

/-- "It is an error if a stylesheet directly or indirectly includes [imports] itself." -/
def OnCycle {α : Type} (files : Str → Option (SheetDoc α)) (a : Str) : Prop :=
  ∃ b, Uses files a b ∧ Reaches files b a

mutual
/-- A stylesheet with all that it imports and includes. -/
inductive Whole (α : Type)
  | mk (imports : Wholes α) (parts : Parts α)

inductive Wholes (α : Type)
  | nil
  | cons (m : Whole α) (ms : Wholes α)

inductive Parts (α : Type)
  | nil
  | decl (x : α) (ps : Parts α)
  | incl (m : Whole α) (ps : Parts α)
end

mutual
/-- The stylesheet at an URI. -/
inductive Unfolds {α : Type} (files : Str → Option (SheetDoc α)) : Str → Whole α → Prop
  | mk {u d is ps} : files u = some d → UnfoldsAll files d.imports is → UnfoldsParts files d.items ps →
      Unfolds files u (.mk is ps)

inductive UnfoldsAll {α : Type} (files : Str → Option (SheetDoc α)) : List Str → Wholes α → Prop
  | nil : UnfoldsAll files [] .nil
  | cons {u us m ms} : Unfolds files u m → UnfoldsAll files us ms → UnfoldsAll files (u :: us) (.cons m ms)

inductive UnfoldsParts {α : Type} (files : Str → Option (SheetDoc α)) : List (Item α) → Parts α → Prop
  | nil : UnfoldsParts files [] .nil
  | decl {x its ps} : UnfoldsParts files its ps → UnfoldsParts files (.decl x :: its) (.decl x ps)
  | incl {u its m ps} : Unfolds files u m → UnfoldsParts files its ps →
      UnfoldsParts files (.incl u :: its) (.incl m ps)
end

mutual
/-- "The inclusion works at the XML tree level. [...] the children of the xsl:stylesheet element in this document
replace the xsl:include element in the including document." -/
def own {α : Type} : Whole α → List α
  | .mk _ ps => ownParts ps

def ownParts {α : Type} : Parts α → List α
  | .nil => []
  | .decl x ps => x :: ownParts ps
  | .incl m ps => own m ++ ownParts ps
end

mutual
/-- The sets of declarations with a lower import precedence than those of the stylesheet itself, lowest first.  "In the
case where a stylesheet is included, any xsl:import elements in the included document are moved up in the including
document to after any xsl:import elements in the including document." -/
def below {α : Type} : Whole α → List (List α)
  | .mk is ps => belowAll is ++ belowParts ps

/-- "an xsl:stylesheet element D is defined to have lower import precedence than another xsl:stylesheet element E [...]
if D would be visited before E in a post-order traversal of the import tree". -/
def belowAll {α : Type} : Wholes α → List (List α)
  | .nil => []
  | .cons m ms => below m ++ [own m] ++ belowAll ms

def belowParts {α : Type} : Parts α → List (List α)
  | .nil => []
  | .decl _ ps => belowParts ps
  | .incl m ps => below m ++ belowParts ps
end

/-- All declarations in the order of import precedence, lowest first. -/
def layers {α : Type} (m : Whole α) : List (List α) := below m ++ [own m]

mutual
/-- No declaration comes before the inclusion of a stylesheet that has imports. -/
def InOrder {α : Type} : Whole α → Prop
  | .mk is ps => InOrderAll is ∧ InOrderParts ps

def InOrderAll {α : Type} : Wholes α → Prop
  | .nil => True
  | .cons m ms => InOrder m ∧ InOrderAll ms

def InOrderParts {α : Type} : Parts α → Prop
  | .nil => True
  | .decl _ ps => belowParts ps = [] ∧ InOrderParts ps
  | .incl m ps => InOrder m ∧ (own m = [] ∨ belowParts ps = []) ∧ InOrderParts ps
end

/-- The declarations with the number of their set. -/
def number {α : Type} : List (List α) → Nat → List (α × Nat)
  | [], _ => []
  | ds :: rest, i => ds.map (·, i) ++ number rest (i + 1)

/-- `x` is declared with the `k`-th precedence, and no declaration with a higher one has the property. -/
def Highest {α : Type} (ls : List (List α)) (p : α → Prop) (k : Nat) (x : α) : Prop :=
  p x ∧ (∃ l, ls[k]? = some l ∧ x ∈ l) ∧ ∀ (j : Nat) (l : List α), k < j → ls[j]? = some l → ∀ y ∈ l, ¬ p y

mutual
/-- "Attribute sets used by an attribute set are treated as if [...] the attributes were added before those of the set
itself" (7.1.4): what a set adds. -/
inductive SetAdds {β : Type} (sets : Name → Option (AttrSet β)) : Name → List β → Prop
  | mk {x s l} : sets x = some s → SetsAdd sets s.uses l → SetAdds sets x (l ++ s.own)

inductive SetsAdd {β : Type} (sets : Name → Option (AttrSet β)) : List Name → List β → Prop
  | nil : SetsAdd sets [] []
  | cons {x xs l l'} : SetAdds sets x l → SetsAdd sets xs l' → SetsAdd sets (x :: xs) (l ++ l')
end

end Verif.Xslt.Spec
