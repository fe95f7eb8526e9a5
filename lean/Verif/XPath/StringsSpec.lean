import Verif.XPath.Num

/-
What XPath 1.0 section 4.2 says about the string functions, independently of the code.
-/
namespace Verif.XPath.Spec
open Verif Verif.XPath

/-- `t` occurs in `s` at offset `i`. -/
def OccursAt (t s : Str) (i : Nat) : Prop := ∃ rest, s.drop i = t ++ rest ∧ i ≤ s.length

/-- `s` contains `t`. -/
def Contains (s t : Str) : Prop := ∃ a b, s = a ++ t ++ b

/-- XML white space (the S production). -/
def WS (c : Char) : Prop := c = ' ' ∨ c = '\t' ∨ c = '\n' ∨ c = '\r'

instance : DecidablePred WS := fun c => by unfold WS; infer_instance

/-- `s` consists of the words `l`, separated by non-empty runs of white space, with optional white
space at both ends. -/
inductive Separated (ws : Char → Prop) : Str → List Str → Prop
  | empty {s} : (∀ c ∈ s, ws c) → Separated ws s []
  | one {a w b} : (∀ c ∈ a, ws c) → w ≠ [] → (∀ c ∈ w, ¬ ws c) → (∀ c ∈ b, ws c) →
      Separated ws (a ++ w ++ b) [w]
  | more {a w g s l} : (∀ c ∈ a, ws c) → w ≠ [] → (∀ c ∈ w, ¬ ws c) → g ≠ [] → (∀ c ∈ g, ws c) →
      l ≠ [] → Separated ws s l → Separated ws (a ++ w ++ g ++ s) (w :: l)

/-- Words joined by single spaces. -/
def spaced : List Str → Str
  | [] => []
  | [w] => w
  | w :: l => w ++ ' ' :: spaced l

/-- XPath `round()` of a rational: the closest integer, ties towards positive infinity. -/
def IsRound (q : Rat) (n : Int) : Prop := q - 1 / 2 < n ∧ (n : Rat) ≤ q + 1 / 2

/-- XPath rounding of a number; NaN and the infinities are unchanged. -/
def RoundsTo : Dbl → Dbl → Prop
  | .nan, r => r = .nan
  | .ninf, r => r = .ninf
  | .pinf, r => r = .pinf
  | .nzero, r => r = .fin 0
  | .fin q, r => ∃ n : Int, IsRound q n ∧ r = .fin n

/-- The sum of two rounded numbers.  Both are integers or special values; a sum of two integral
doubles is exact unless its magnitude exceeds 2^53, which is larger than any string position. -/
def sum : Dbl → Dbl → Dbl
  | .fin a, .fin b => .fin (a + b)
  | .fin _, x => x
  | x, .fin _ => x
  | .pinf, .pinf => .pinf
  | .ninf, .ninf => .ninf
  | _, _ => .nan

/-- The characters at the (1-based) positions that satisfy `P`, in order. -/
def keep (P : Nat → Prop) [DecidablePred P] : Nat → Str → Str
  | _, [] => []
  | p, c :: cs => if P p then c :: keep P (p + 1) cs else keep P (p + 1) cs

/-- XPath's condition on the positions returned by `substring(s, start)` and
`substring(s, start, length)`, for rounded arguments. -/
def selected (start : Dbl) (length : Option Dbl) (p : Nat) : Prop :=
  start.le (.fin p) = true ∧
    match length with
    | none => True
    | some l => (Dbl.fin p).lt (sum start l) = true

instance (start length) : DecidablePred (selected start length) := fun p => by
  unfold selected; cases length <;> infer_instance

/-- `translate()`: what a single character becomes, by its first index in `from`. -/
def translateChar (fromchars tochars : Str) (c : Char) : Str :=
  match fromchars.idxOf? c with
  | none => [c]
  | some i => (tochars[i]?).toList

end Verif.XPath.Spec
