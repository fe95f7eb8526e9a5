import Verif.Xslt.Decimal

/-
What a pattern of `format-number()` means (XSLT 1.0 section 12.3, which refers to the class
DecimalFormat of JDK 1.1), independently of the code.  Only the symbols are shared with the model.
-/
namespace Verif.Decimal.Spec
open Verif Verif.XPath Verif.Decimal

/-- A mark of the integer part of a picture: an optional digit, a required digit, a grouping
separator. -/
inductive Mark
  | hash | zero | comma
  deriving DecidableEq, Repr

/-- A subpattern: a prefix, the marks of the integer part, a point and `fracZeros` required and
`fracHashes` optional digits after it, and a suffix. -/
structure Picture where
  pre : Str
  int : List Mark
  point : Bool
  fracZeros : Nat
  fracHashes : Nat
  suf : Str
  deriving DecidableEq, Repr

/-- The character of a mark. -/
def Mark.char (sy : Symbols) : Mark → Char
  | .hash => sy.digit
  | .zero => sy.zero
  | .comma => sy.grouping

/-- How a picture is written. -/
def Picture.text (sy : Symbols) (p : Picture) : Str :=
  p.pre ++ p.int.map (Mark.char sy) ++
    (if p.point then
      sy.decimal :: (List.replicate p.fracZeros sy.zero ++ List.replicate p.fracHashes sy.digit)
     else []) ++ p.suf

/-- The number of optional digits in the integer part. -/
def Picture.hashes (p : Picture) : Nat := p.int.count .hash

/-- The number of required digits in the integer part. -/
def Picture.zeros (p : Picture) : Nat := p.int.count .zero

/-- An affix without special characters and quotes. -/
def Plain (sy : Symbols) (s : Str) : Prop :=
  ∀ c ∈ s, c ≠ sy.digit ∧ c ≠ sy.zero ∧ c ≠ sy.grouping ∧ c ≠ sy.decimal ∧ c ≠ sy.sep ∧ c ≠ '\''

/-- The percent and per-mille signs of an affix. -/
def signs (sy : Symbols) (s : Str) : Str := s.filter fun c => c = sy.percent ∨ c = sy.perMille

/-- The number of digit marks behind the last grouping separator; `none` without one. -/
def groupOf : List Mark → Option Nat
  | [] => none
  | m :: ms =>
    match groupOf ms with
    | some n => some n
    | none => if m = .comma then some ms.length else none

/-- A picture as the grammar has it: affixes without special characters and with at most one
percent or per-mille sign, optional digits before required ones in the integer part (and the
reverse in the fraction), at least one digit, a digit behind the last grouping separator. -/
structure Picture.WF (sy : Symbols) (p : Picture) : Prop where
  pre : Plain sy p.pre
  suf : Plain sy p.suf
  sign : (signs sy (p.pre ++ p.suf)).length ≤ 1
  order : p.int.filter (· ≠ .comma) =
    List.replicate p.hashes .hash ++ List.replicate p.zeros .zero
  group : groupOf p.int ≠ some 0
  frac : p.point = false → p.fracZeros = 0 ∧ p.fracHashes = 0
  digit : 0 < p.hashes + p.zeros + p.fracZeros + p.fracHashes

/-- The special characters are different from each other and from the quote. -/
def Distinct (sy : Symbols) : Prop :=
  [sy.digit, sy.zero, sy.grouping, sy.decimal, sy.sep, sy.percent, sy.perMille, '\''].Nodup

/-- The factor for the percent and per-mille signs. -/
def Picture.factor (sy : Symbols) (p : Picture) : Nat :=
  if sy.percent ∈ p.pre ++ p.suf then 100
  else if sy.perMille ∈ p.pre ++ p.suf then 1000
  else 1

/-- A picture with a point but without any required digit gets one: before the point if there is
an optional digit there, else behind it. -/
def Picture.lacks (p : Picture) : Bool := p.point && p.zeros == 0 && p.fracZeros == 0

/-- The least number of integer digits. -/
def Picture.minInt (p : Picture) : Nat :=
  if p.lacks && p.hashes != 0 then 1 else p.zeros

/-- The least number of fraction digits. -/
def Picture.minFrac (p : Picture) : Nat :=
  if p.lacks && p.hashes == 0 then 1 else p.fracZeros

/-- The greatest number of fraction digits. -/
def Picture.maxFrac (p : Picture) : Nat := p.fracZeros + p.fracHashes

/-- The point is written even without a fraction: it is the first or the last mark. -/
def Picture.alwaysPoint (p : Picture) : Bool :=
  p.point && (p.hashes + p.zeros == 0 || p.maxFrac == 0)

/-- The value of a list of decimal digits. -/
def value : List Nat → Nat
  | [] => 0
  | d :: ds => d * 10 ^ ds.length + value ds

/-- The character of a digit. -/
def digitText (sy : Symbols) (d : Nat) : Char := Char.ofNat (sy.zero.toNat + d)

/-- The separator in front of `n` digits: there is one if `n` is a positive multiple of the group
size. -/
def separator (sy : Symbols) (group : Option Nat) (n : Nat) : Str :=
  match group with
  | some g => if 0 < n ∧ g ∣ n then [sy.grouping] else []
  | none => []

/-- Digits with their separators. -/
def grouped (sy : Symbols) (group : Option Nat) : List Nat → Str
  | [] => []
  | d :: ds => digitText sy d :: (separator sy group ds.length ++ grouped sy group ds)

/-- `t` is the decimal number `v / 10^maxFrac` as the picture wants it: the integer digits `ip`
without needless leading zeros, the fraction digits `fp` without needless trailing zeros, the
point where it is needed. -/
def IsFormatted (sy : Symbols) (p : Picture) (v : Nat) (t : Str) : Prop :=
  ∃ ip fp : List Nat,
    (∀ d ∈ ip, d < 10) ∧ (∀ d ∈ fp, d < 10) ∧
    value ip * 10 ^ p.maxFrac + value fp * 10 ^ (p.maxFrac - fp.length) = v ∧
    p.minFrac ≤ fp.length ∧ fp.length ≤ p.maxFrac ∧
    (p.minFrac < fp.length → fp.getLast? ≠ some 0) ∧
    p.minInt ≤ ip.length ∧
    (p.minInt < ip.length → ip.head? ≠ some 0 ∨ (ip = [0] ∧ fp = [])) ∧
    (ip ≠ [] ∨ fp ≠ []) ∧
    t = grouped sy (groupOf p.int) ip ++
      (if p.alwaysPoint ∨ fp ≠ [] then [sy.decimal] else []) ++ fp.map (digitText sy)

/-- `v` is the closest integer to `q`, scaled by `10^m`; unique, as ties are excluded. -/
def Closest (q : Rat) (m : Nat) (v : Nat) : Prop :=
  (q * (10 : Rat) ^ m - (v : Rat)).abs < 1 / 2

/-- The text of a pattern: one subpattern, or two with a separator. -/
def patternText (sy : Symbols) (p : Picture) : Option Picture → Str
  | none => p.text sy
  | some n => p.text sy ++ sy.sep :: n.text sy

/-- The affixes of a negative number: those of the second subpattern, or a minus sign and those
of the first one. -/
def negative (sy : Symbols) (p : Picture) : Option Picture → Str × Str
  | some n => (n.pre, n.suf)
  | none => (sy.minus :: p.pre, p.suf)

end Verif.Decimal.Spec
