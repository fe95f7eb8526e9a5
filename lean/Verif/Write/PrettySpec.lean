import Verif.Write.Spec

/-
What indenting may do to a document.
-/
namespace Verif.Write.Spec
open Verif

/-- White space may be added between two events if neither is a character, and they are not the two tags of an
empty element. -/
def gap : Option Ev → Ev → Bool
  | none, _ | some (.char _), _ | _, .char _ | some (.start _ _), .stop _ => false
  | some _, _ => true

/-- A new line and some spaces. -/
def newLine (spaces : Nat) : List Ev := (10 :: List.replicate spaces 32).map .char

/-- The first list of events is the second, with new lines between markup.  In front there was `prev`. -/
inductive Laid : Option Ev → List Ev → List Ev → Prop
  | nil {prev : Option Ev} : Laid prev [] []
  | keep {prev : Option Ev} {e : Ev} {es fs : List Ev} : Laid (some e) es fs → Laid prev (e :: es) (e :: fs)
  | break {prev : Option Ev} {e : Ev} {es fs : List Ev} (spaces : Nat) : gap prev e = true → Laid (some e) es fs →
      Laid prev (newLine spaces ++ e :: es) (e :: fs)

/-- The depth of what follows an event. -/
def deeper (depth : Nat) : Ev → Nat
  | .start _ _ => depth + 1
  | .stop _ => depth - 1
  | _ => depth

/-- Every tag, comment and processing instruction in the document element begins on a new line, indented by two
spaces for every element that it is in, unless it follows text, or is the end of an empty element.  (White space
outside of the document element is not reported by a reader.) -/
def lay : Nat → Option Ev → List Ev → List Ev
  | _, _, [] => []
  | depth, prev, e :: es =>
    (if depth > 0 ∧ gap prev e = true then newLine (2 * min depth (deeper depth e)) else []) ++
      e :: lay (deeper depth e) (some e) es

/-- No empty strings of text. -/
def TextNonempty : Call → Prop
  | .text s | .cdata s => s ≠ []
  | _ => True

end Verif.Write.Spec
