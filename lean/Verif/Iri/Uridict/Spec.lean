import Verif.Iri.PercentSpec
/-
Specification for C88: equivalence of URIs as the documentation of `uridict` states it (RFC 3986 section 6.2.2, RFC 1738),
and what a dictionary of URIs contains after a history.
-/
namespace Verif.Iri.Uridict.Spec
open Verif.Iri Verif.Iri.Spec

/-- A URI: a scheme, a colon, and a rest in which every '%' starts a triplet and no line ends. -/
def IsUri (u : Str) : Prop := ∃ s r, u = s ++ ':' :: r ∧ IsScheme s ∧ PctWellFormed r ∧ '\n' ∉ r

/-- The two digits of a triplet are not one lower case and one upper case letter. -/
def OneCase (a b : Char) : Prop := ¬ (a ∈ s!! "abcdef" ∧ b ∈ s!! "ABCDEF") ∧ ¬ (a ∈ s!! "ABCDEF" ∧ b ∈ s!! "abcdef")

/-- The triplets of the string are of one case each. -/
inductive OneCased : Str → Prop
  | nil : OneCased []
  | char (c : Char) (s : Str) (h : c ≠ '%') : OneCased s → OneCased (c :: s)
  | triplet (a b : Char) (s : Str) (h : OneCase a b) (ha : a ∈ hexAny) (hb : b ∈ hexAny) : OneCased s → OneCased ('%' :: a :: b :: s)

/-- Equivalence of URIs: the least equivalence that identifies schemes without regard to case, triplets without regard to
case, triplets of unreserved characters with the characters, and `file://localhost/` with `file:///`. -/
inductive Equiv : Str → Str → Prop
  | refl (u) : Equiv u u
  | symm {u v} : Equiv u v → Equiv v u
  | trans {u v w} : Equiv u v → Equiv v w → Equiv u w
  | scheme (s s' r) : IsScheme s → IsScheme s' → s.map Char.toLower = s'.map Char.toLower → Equiv (s ++ ':' :: r) (s' ++ ':' :: r)
  | hex (x y a b a' b') : IsUri (x ++ '%' :: a :: b :: y) → a ∈ hexAny → b ∈ hexAny → a' ∈ hexAny → b' ∈ hexAny →
      digitValue a = digitValue a' → digitValue b = digitValue b' → Equiv (x ++ '%' :: a :: b :: y) (x ++ '%' :: a' :: b' :: y)
  | unreserved (x y a b c) : IsUri (x ++ '%' :: a :: b :: y) → a ∈ hexAny → b ∈ hexAny → c = Char.ofNat (16 * digitValue a + digitValue b) →
      c ∈ unreserved → Equiv (x ++ '%' :: a :: b :: y) (x ++ c :: y)
  | localhost (p) : Equiv (s!! "file://localhost/" ++ p) (s!! "file:///" ++ p)

end Verif.Iri.Uridict.Spec

namespace Verif.Iri.Uridict.Spec
open Verif.Iri Verif.Iri.Spec

/-- The URIs of the theorems: with triplets of one case. -/
def Good (u : Str) : Prop := IsUri u ∧ OneCased u

end Verif.Iri.Uridict.Spec
