import Verif.Content.Spec
import Verif.Content.Validator
/-
What it means for a document to be valid against its element declarations (XML 1.0, "Validity constraint: Element
Valid").
-/
namespace Verif.Content.Spec
open Verif.Content
variable {N : Type} [DecidableEq N]

/-- A document: elements and runs of character data (all white space, or not). -/
inductive Doc (N : Type) where
  | elem (name : N) (children : List (Doc N))
  | text (ws : Bool)

/-- The names of the element children, in order. -/
def childNames : List (Doc N) → List N
  | [] => []
  | .elem n _ :: r => n :: childNames r
  | .text _ :: r => childNames r

/-- The first declaration of an element counts. -/
def declOf (n : N) : List (N × Decl N) → Option (Decl N)
  | [] => none
  | (m, d) :: r => if m = n then some d else declOf n r

/-- The content agrees with the declaration. -/
def ContentOk (d : Decl N) (cs : List (Doc N)) : Prop :=
  match d with
  | .empty => cs = []
  | .any => True
  | .mixed ns => ∀ n ∈ childNames cs, n ∈ ns
  | .children c => lang c ((childNames cs).map Ev.name) ∧ Doc.text false ∉ cs

mutual
/-- The element is declared, its content agrees with the declaration, and so on for the elements inside. -/
def Valid (decls : List (N × Decl N)) : Doc N → Prop
  | .elem n cs => (∃ d, declOf n decls = some d ∧ ContentOk d cs) ∧ ValidAll decls cs
  | .text _ => True
def ValidAll (decls : List (N × Decl N)) : List (Doc N) → Prop
  | [] => True
  | c :: cs => Valid decls c ∧ ValidAll decls cs
end

mutual
/-- The events a parser reports for a document. -/
def events : Doc N → List (Sax N)
  | .elem n cs => .start n :: (eventsAll cs ++ [.stop n])
  | .text ws => [.chars ws]
def eventsAll : List (Doc N) → List (Sax N)
  | [] => []
  | c :: cs => events c ++ eventsAll cs
end

/-- What the grammar of element declarations guarantees: no empty groups, and only names in element content. -/
def WellFormedDecl : Decl N → Prop
  | .children c => NoEmptySeq c ∧ NoEmptyAlt c ∧ ∀ e ∈ Names c, ∃ n, e = Ev.name n
  | _ => True

end Verif.Content.Spec
