import Verif.XPath.Num

/-
What XPath 1.0 says about numbers (sections 3.5, 4.2 and 4.4), independently of the code.
-/
namespace Verif.XPath.Spec
open Verif Verif.XPath

/-- The value of a string of decimal digits, by place value. -/
def place : Str → Nat
  | [] => 0
  | c :: cs => (c.toNat - 48) * 10 ^ cs.length + place cs

/-- A decimal digit. -/
def Digit (c : Char) : Prop := 48 ≤ c.toNat ∧ c.toNat ≤ 57

/-- A white space character of the XPath grammar (S). -/
def Space (c : Char) : Prop := c = ' ' ∨ c = '\t' ∨ c = '\n' ∨ c = '\r'

/-- `s` is optional white space, an optional minus sign, a `Number` of the XPath grammar
(`Digits ('.' Digits?)? | '.' Digits`) and optional white space, and its value is `q`. -/
def IsNumber (s : Str) (q : Rat) : Prop :=
  ∃ (w1 w2 ip fp : Str) (neg dot : Bool),
    (∀ c ∈ w1, Space c) ∧ (∀ c ∈ w2, Space c) ∧ (∀ c ∈ ip, Digit c) ∧ (∀ c ∈ fp, Digit c) ∧
    (ip ≠ [] ∨ fp ≠ []) ∧ (dot = false → fp = []) ∧
    s = w1 ++ (if neg then ['-'] else []) ++ ip ++ (if dot then '.' :: fp else []) ++ w2 ∧
    q = (if neg then -1 else 1) * (place ip + (place fp : Rat) / ((10 ^ fp.length : Nat) : Rat))

/-- A string that looks like a number but has no digit: white space, an optional minus sign, an
optional point and white space, not all of them absent. -/
def Digitless (s : Str) : Prop :=
  s ≠ [] ∧ ∃ (w1 w2 : Str) (neg dot : Bool), (∀ c ∈ w1, Space c) ∧ (∀ c ∈ w2, Space c) ∧
    s = w1 ++ (if neg then ['-'] else []) ++ (if dot then ['.'] else []) ++ w2

/-- `t` is the decimal representation of `n` without leading zeros. -/
def IsDecimal (n : Int) (t : Str) : Prop :=
  ∃ ds : Str, (∀ c ∈ ds, Digit c) ∧ ds ≠ [] ∧ (ds.head? = some '0' → ds = ['0']) ∧
    place ds = n.natAbs ∧ t = if n < 0 then '-' :: ds else ds

/-- The closest integer, ties towards positive infinity (section 4.4, `round`). -/
def ClosestUp (q : Rat) (n : Int) : Prop :=
  (∀ m : Int, (q - n).abs ≤ (q - m).abs) ∧ (∀ m : Int, (q - n).abs = (q - m).abs → m ≤ n)

/-- The remainder of a truncating division (section 3.5, `mod`): it has the sign of the dividend. -/
def IsMod (a b r : Rat) : Prop :=
  ∃ t : Int, r = a - b * t ∧ r.abs < b.abs ∧ (0 ≤ a → 0 ≤ r) ∧ (a ≤ 0 → r ≤ 0)

/-- `t` is a positive rational `q` in fixed notation with at most 12 significant digits: no leading
zeros, no trailing zeros after the point, at most `11 - k` decimals and off by at most half a unit of
the 12th significant digit, where `k` is the decimal exponent of `q`. -/
def IsFixed12 (q : Rat) (t : Str) : Prop :=
  ∃ (ip fp : Str) (k : Int), (∀ c ∈ ip, Digit c) ∧ (∀ c ∈ fp, Digit c) ∧ ip ≠ [] ∧
    (ip.head? = some '0' → ip = ['0']) ∧ fp.getLast? ≠ some '0' ∧
    t = ip ++ (if fp = [] then [] else '.' :: fp) ∧
    (10 : Rat) ^ k ≤ q ∧ q < (10 : Rat) ^ (k + 1) ∧ (fp.length : Int) ≤ 11 - k ∧
    ((place ip + (place fp : Rat) / ((10 ^ fp.length : Nat) : Rat)) - q).abs ≤ 1 / 2 * (10 : Rat) ^ (k - 11)

end Verif.XPath.Spec
