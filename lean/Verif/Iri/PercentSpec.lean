import Verif.Iri.Spec
/-
Specifications for the percent-encoding properties (RFC 3986 section 2, RFC 3629, RFC 2781), with character sets
spelled out and no use of the model's helper functions.
-/
namespace Verif.Iri.Spec

/-- RFC 3986 section 2.3. -/
def unreserved : Str :=
  s!! "ABCDEFGHIJKLMNOPQRSTUVWXYZabcdefghijklmnopqrstuvwxyz0123456789-._~"

def hexUpper : Str := s!! "0123456789ABCDEF"
def hexAny : Str := s!! "0123456789ABCDEFabcdef"

/-- Value of a hexadecimal digit of either case. -/
def digitValue (c : Char) : Nat :=
  if c.toNat < 58 then c.toNat - 48 else if c.toNat < 71 then c.toNat - 55 else c.toNat - 87

/-- The pieces an encoder may emit: an unreserved character, a character it was told to keep, or a
triplet with upper-case digits. -/
inductive Token (keep : Str) : Str → Prop
  | unreserved (c : Char) (h : c ∈ unreserved) : Token keep [c]
  | kept (c : Char) (h : c ∈ keep) : Token keep [c]
  | triplet (a b : Char) (ha : a ∈ hexUpper) (hb : b ∈ hexUpper) : Token keep ['%', a, b]

/-- `Decodes s t`: `s` is percent-encoded data (every '%' starts a triplet) and `t` is `s` with every
triplet replaced by the octet it denotes. -/
inductive Decodes : Str → Str → Prop
  | nil : Decodes [] []
  | char (c : Char) (s t : Str) (h : c ≠ '%') : Decodes s t → Decodes (c :: s) (c :: t)
  | triplet (a b : Char) (s t : Str) (ha : a ∈ hexAny) (hb : b ∈ hexAny) : Decodes s t →
      Decodes ('%' :: a :: b :: s) (Char.ofNat (16 * digitValue a + digitValue b) :: t)

/-- Every '%' starts a triplet. -/
inductive PctWellFormed : Str → Prop
  | nil : PctWellFormed []
  | char (c : Char) (s : Str) (h : c ≠ '%') : PctWellFormed s → PctWellFormed (c :: s)
  | triplet (a b : Char) (s : Str) (ha : a ∈ hexAny) (hb : b ∈ hexAny) : PctWellFormed s →
      PctWellFormed ('%' :: a :: b :: s)

/-- RFC 3986 section 6.2.2.2: exactly the triplets that denote unreserved characters are decoded. -/
inductive NormalizesPct : Str → Str → Prop
  | nil : NormalizesPct [] []
  | char (c : Char) (s t : Str) (h : c ≠ '%') : NormalizesPct s t → NormalizesPct (c :: s) (c :: t)
  | decoded (a b : Char) (s t : Str) (ha : a ∈ hexAny) (hb : b ∈ hexAny)
      (hu : Char.ofNat (16 * digitValue a + digitValue b) ∈ unreserved) : NormalizesPct s t →
      NormalizesPct ('%' :: a :: b :: s) (Char.ofNat (16 * digitValue a + digitValue b) :: t)
  | kept (a b : Char) (s t : Str) (ha : a ∈ hexAny) (hb : b ∈ hexAny)
      (hu : Char.ofNat (16 * digitValue a + digitValue b) ∉ unreserved) : NormalizesPct s t →
      NormalizesPct ('%' :: a :: b :: s) ('%' :: a :: b :: t)

/-- Triplets written with lower-case digits (`0-9a-f` twice) become upper case, all else stays. -/
inductive UpperCasesTriplets : Str → Str → Prop
  | nil : UpperCasesTriplets [] []
  | char (c : Char) (s t : Str) (h : c ≠ '%') : UpperCasesTriplets s t → UpperCasesTriplets (c :: s) (c :: t)
  | raised (a b : Char) (s t : Str) (ha : a ∈ s!! "0123456789abcdef") (hb : b ∈ s!! "0123456789abcdef") :
      UpperCasesTriplets s t → UpperCasesTriplets ('%' :: a :: b :: s) ('%' :: a.toUpper :: b.toUpper :: t)
  | kept (a b : Char) (s t : Str) (ha : a ∈ hexAny) (hb : b ∈ hexAny)
      (hu : a ∉ s!! "0123456789abcdef" ∨ b ∉ s!! "0123456789abcdef") : UpperCasesTriplets s t →
      UpperCasesTriplets ('%' :: a :: b :: s) ('%' :: a :: b :: t)

/-- RFC 3629: UTF-8, as a relation between a scalar value and its octets (by payload bits). -/
inductive Utf8 : Nat → List Nat → Prop
  | one (a : Nat) (h : a < 0x80) : Utf8 a [a]
  | two (a b : Nat) (ha : a < 0x20) (hb : b < 0x40) (h : 0x80 ≤ 64 * a + b) :
      Utf8 (64 * a + b) [0xC0 + a, 0x80 + b]
  | three (a b c : Nat) (ha : a < 0x10) (hb : b < 0x40) (hc : c < 0x40) (h : 0x800 ≤ 4096 * a + 64 * b + c) :
      Utf8 (4096 * a + 64 * b + c) [0xE0 + a, 0x80 + b, 0x80 + c]
  | four (a b c d : Nat) (ha : a < 8) (hb : b < 0x40) (hc : c < 0x40) (hd : d < 0x40)
      (h : 0x10000 ≤ 262144 * a + 4096 * b + 64 * c + d) :
      Utf8 (262144 * a + 4096 * b + 64 * c + d) [0xF0 + a, 0x80 + b, 0x80 + c, 0x80 + d]

/-- The UTF-8 encoding of a sequence of scalar values. -/
inductive Utf8Seq : List Nat → List Nat → Prop
  | nil : Utf8Seq [] []
  | cons (n : Nat) (bs ns cs : List Nat) : Utf8 n bs → Utf8Seq ns cs → Utf8Seq (n :: ns) (bs ++ cs)

/-- RFC 2781: the UTF-16 code units of a scalar value (what a narrow Python build stores). -/
def utf16 (n : Nat) : List Nat :=
  if n < 0x10000 then [n]
  else [0xD800 + (n - 0x10000) / 0x400, 0xDC00 + (n - 0x10000) % 0x400]

/-- A Unicode scalar value. -/
def IsScalar (n : Nat) : Prop := n < 0xD800 ∨ (0xE000 ≤ n ∧ n < 0x110000)

end Verif.Iri.Spec

namespace Verif.Iri.Spec

/-- The white-space characters of a byte string. -/
def whiteSpace : Str := [' ', '\t', '\n', '\r', '\x0b', '\x0c']

/-- A white-space normalised public identifier: no tab or line end, no two adjacent spaces, no white space
at either end. -/
structure WsNormal (p : Str) : Prop where
  inner : ∀ c ∈ p, c ∉ s!! "\t\r\n"
  single : ¬ [' ', ' '] <:+: p
  first : ∀ c, p.head? = some c → c ∉ whiteSpace
  last : ∀ c, p.getLast? = some c → c ∉ whiteSpace

end Verif.Iri.Spec
