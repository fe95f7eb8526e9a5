import Verif.Xslt.Space

/-
XSLT 1.0, section 3.4.
-/
namespace Verif.Xslt.Spec
open Verif

/-- NameTest: `*`, `p:*` or a name. -/
def TokenMatches (t : Token) (n : EName) : Prop :=
  t = (none, s!! "*") ∨ (∃ ns, t = (some ns, s!! "*") ∧ n.1 = some ns) ∨ (t.2 ≠ s!! "*" ∧ t = n)

/-- The default priorities: 0 for `*`, 1 for `p:*`, 2 for a name. -/
def tokenPriority (t : Token) : Nat :=
  if t.2 = s!! "*" then (if t.1 = none then 0 else 1) else 2

/-- "If there is more than one match, then [...] first, any match with lower import precedence than another match is
ignored.  Next, any match with a NameTest that has a lower default priority than the default priority of the NameTest
of another match is ignored." -/
def Below (x e : SpaceDecl) : Prop :=
  x.prec < e.prec ∨ (x.prec = e.prec ∧ tokenPriority x.token < tokenPriority e.token)

/-- The declaration for an element: no other one is better, and of equal ones it is the last. -/
def Wins (l : List SpaceDecl) (n : EName) (e : SpaceDecl) : Prop :=
  ∃ a b, l = a ++ e :: b ∧ TokenMatches e.token n ∧
    (∀ x ∈ a, TokenMatches x.token n → ¬ Below e x) ∧ (∀ x ∈ b, TokenMatches x.token n → Below x e)

/-- Documents; a text is given with the pieces in which Expat reports it. -/
inductive XTree
  | nil
  | elem (name : EName) (space : Option Str) (kids : XTree) (rest : XTree)
  | text (pieces : List Str) (rest : XTree)
  | other (id : Nat) (rest : XTree)

def XTree.startsText : XTree → Prop
  | .text _ _ => True
  | _ => False

/-- There are no adjacent texts. -/
def XTree.Normal : XTree → Prop
  | .nil => True
  | .elem _ _ kids rest => kids.Normal ∧ rest.Normal
  | .text _ rest => ¬ rest.startsText ∧ rest.Normal
  | .other _ rest => rest.Normal

def XTree.events : XTree → List XEv
  | .nil => []
  | .elem n sp kids rest => .start n sp :: (kids.events ++ .stop :: rest.events)
  | .text ps rest => ps.map .data ++ rest.events
  | .other i rest => .other i :: rest.events

/-- "an ancestor element of the text node has an xml:space attribute with a value of preserve, and no closer ancestor
element has xml:space with a value of default"; the ancestors, innermost first. -/
def SpacePreserved (anc : List (EName × Option Str)) : Prop :=
  ∃ a x b, anc = a ++ x :: b ∧ x.2 = some (s!! "preserve") ∧ ∀ y ∈ a, y.2 ≠ some (s!! "default")

/-- "The text node contains at least one non-whitespace character [...] A whitespace character is #x20, #x9, #xD or
#xA." -/
def NonBlank (s : Str) : Prop := ∃ c ∈ s, c ≠ ' ' ∧ c ≠ '\t' ∧ c ≠ '\r' ∧ c ≠ '\n'

/-- "A text node is preserved if any of the following apply"; outside of elements there is nothing to strip. -/
def Kept (preserving : EName → Prop) (anc : List (EName × Option Str)) (s : Str) : Prop :=
  anc = [] ∨ (∃ p rest, anc = p :: rest ∧ preserving p.1) ∨ NonBlank s ∨ SpacePreserved anc

/-- What is left of a document. -/
inductive Reads (preserving : EName → Prop) : List (EName × Option Str) → XTree → List XEv → Prop
  | nil {anc} : Reads preserving anc .nil []
  | elem {anc n sp kids rest o o'} : Reads preserving ((n, sp) :: anc) kids o → Reads preserving anc rest o' →
      Reads preserving anc (.elem n sp kids rest) (.start n sp :: (o ++ .stop :: o'))
  | kept {anc ps rest o} : ps.flatten ≠ [] → Kept preserving anc ps.flatten → Reads preserving anc rest o →
      Reads preserving anc (.text ps rest) (.data ps.flatten :: o)
  | empty {anc ps rest o} : ps.flatten = [] → Reads preserving anc rest o → Reads preserving anc (.text ps rest) o
  | stripped {anc ps rest o} : ¬ Kept preserving anc ps.flatten → Reads preserving anc rest o →
      Reads preserving anc (.text ps rest) o
  | other {anc i rest o} : Reads preserving anc rest o → Reads preserving anc (.other i rest) (.other i :: o)

end Verif.Xslt.Spec
