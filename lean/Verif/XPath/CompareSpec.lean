import Verif.XPath.NumSpec
import Verif.XPath.Compare

/-
Section 3.4 of XPath 1.0, independently of the code.
-/
namespace Verif.XPath.Spec
open Verif Verif.XPath

/-- IEEE 754 `<`. -/
def NumLt (a b : Dbl) : Prop :=
  (∃ p q, a.toRat? = some p ∧ b.toRat? = some q ∧ p < q) ∨
  (a = .ninf ∧ b ≠ .ninf ∧ b ≠ .nan) ∨ (b = .pinf ∧ a ≠ .pinf ∧ a ≠ .nan)

/-- IEEE 754 equality: NaN is not equal to itself and zeros of both signs are equal. -/
def NumEq (a b : Dbl) : Prop :=
  (∃ q, a.toRat? = some q ∧ b.toRat? = some q) ∨ (a = b ∧ (a = .pinf ∨ a = .ninf))

/-- The six operators on numbers. -/
def NumRel : Op → Dbl → Dbl → Prop
  | .eq, a, b => NumEq a b
  | .ne, a, b => ¬ NumEq a b
  | .lt, a, b => NumLt a b
  | .le, a, b => NumLt a b ∨ NumEq a b
  | .gt, a, b => NumLt b a
  | .ge, a, b => NumLt b a ∨ NumEq a b

/-- `number(s)`: the double closest to the value if `s` matches the grammar, NaN otherwise. -/
def NumberOf (R : Rounding) (s : Str) (d : Dbl) : Prop :=
  (∃ q, IsNumber s q ∧ (d = R.rnd q ∨ (d.toRat? = some 0 ∧ (R.rnd q).toRat? = some 0))) ∨
  ((¬ ∃ q, IsNumber s q) ∧ d = .nan)

/-- `number(v)` of a scalar. -/
def NumberOfScalar (R : Rounding) : Scalar → Dbl → Prop
  | .str s, d => NumberOf R s d
  | .num x, d => d = x.val
  | .bool b, d => d = .fin (if b then 1 else 0)

/-- `boolean(v)` of a scalar: a number is true iff it is neither zero nor NaN, a string iff it is
not empty. -/
def Truth : Scalar → Prop
  | .bool b => b = true
  | .num x => x.val ≠ .nan ∧ x.val.toRat? ≠ some 0
  | .str s => s ≠ []

/-- `v = w` for two objects neither of which is a node-set: as booleans if one of them is a boolean,
otherwise as numbers if one of them is a number, otherwise as strings. -/
def EqRel (R : Rounding) : Scalar → Scalar → Prop
  | .bool b, w => b = true ↔ Truth w
  | v, .bool b => Truth v ↔ b = true
  | .str s, .str t => s = t
  | v, w => ∃ a b, NumberOfScalar R v a ∧ NumberOfScalar R w b ∧ NumEq a b

/-- Comparison of two objects neither of which is a node-set: `!=` is the negation of `=`, the
relational operators compare numbers. -/
def ScalarRel (R : Rounding) : Op → Scalar → Scalar → Prop
  | .eq, v, w => EqRel R v w
  | .ne, v, w => ¬ EqRel R v w
  | op, v, w => ∃ a b, NumberOfScalar R v a ∧ NumberOfScalar R w b ∧ NumRel op a b

/-- Two node-sets: some pair of string-values compares true, as strings for `=` and `!=` and as
numbers for the others. -/
def NodesRel (R : Rounding) (op : Op) (v w : List Str) : Prop :=
  ∃ a ∈ v, ∃ b ∈ w, ScalarRel R op (.str a) (.str b)

/-- A node-set and a scalar: with a boolean, the node-set is converted to a boolean; with a number,
the string-values are converted to numbers; with a string, they are compared with the string. -/
def NodesScalarRel (R : Rounding) (op : Op) (v : List Str) : Scalar → Prop
  | .bool b => ScalarRel R op (.bool (decide (v ≠ []))) (.bool b)
  | .num x => ∃ a ∈ v, ∃ d, NumberOf R a d ∧ NumRel op d x.val
  | .str s => ∃ a ∈ v, ScalarRel R op (.str a) (.str s)

/-- A string for which the code's `number()` follows XPath (see C29): no NUL, and not a string of
white space, sign and point without any digit. -/
def Convertible (s : Str) : Prop := '\x00' ∉ s ∧ ¬ Digitless s

/-- All strings in a scalar are convertible. -/
def ConvertibleS : Scalar → Prop
  | .str s => Convertible s
  | _ => True

end Verif.XPath.Spec
