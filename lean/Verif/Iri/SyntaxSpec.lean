import Verif.Iri.Spec
/-
Specification for C101: the grammar of RFC 3986 (appendix A), written as predicates on strings, without regular
expressions.  `userExtra` (characters allowed in the user information beside those of the RFC) and `addr` (what may
stand between the brackets of an address in brackets) are parameters; the RFC's own grammar is at the end.
-/
namespace Verif.Iri.SyntaxSpec
open Verif

def letters : Str := s!! "ABCDEFGHIJKLMNOPQRSTUVWXYZabcdefghijklmnopqrstuvwxyz"
def digits : Str := s!! "0123456789"
def hexDigits : Str := s!! "0123456789ABCDEFabcdef"
def unreserved : Str := letters ++ digits ++ s!! "-._~"
def subDelims : Str := s!! "!$&'()*+,;="
def pchars : Str := unreserved ++ subDelims ++ s!! ":@"

/-- `*( ok / pct-encoded )`. -/
inductive Pcts (ok : Str) : Str → Prop
  | nil : Pcts ok []
  | char (c : Char) (s : Str) (h : c ∈ ok) : Pcts ok s → Pcts ok (c :: s)
  | triplet (a b : Char) (s : Str) (ha : a ∈ hexDigits) (hb : b ∈ hexDigits) : Pcts ok s → Pcts ok ('%' :: a :: b :: s)

/-- `path-abempty = *( "/" segment )`. -/
inductive PathAbempty : Str → Prop
  | nil : PathAbempty []
  | seg (x s : Str) : Pcts pchars x → PathAbempty s → PathAbempty ('/' :: (x ++ s))

/-- `segment-nz *( "/" segment )`, the first segment made of `first`. -/
def PathFrom (first : Str) (s : Str) : Prop :=
  ∃ x r, s = x ++ r ∧ x ≠ [] ∧ Pcts first x ∧ PathAbempty r
def PathRootless (s : Str) : Prop := PathFrom pchars s
def PathNoscheme (s : Str) : Prop := PathFrom (unreserved ++ subDelims ++ s!! "@") s
/-- `path-absolute = "/" [ segment-nz *( "/" segment ) ]`. -/
def PathAbsolute (s : Str) : Prop := ∃ r, s = '/' :: r ∧ (r = [] ∨ PathRootless r)

/-- `dec-octet`: the numbers up to 255 in decimal, without leading zeros. -/
def DecOctet (s : Str) : Prop := ∃ n, n < 256 ∧ s = Nat.toDigits 10 n
def IPv4 (s : Str) : Prop :=
  ∃ a b c d, DecOctet a ∧ DecOctet b ∧ DecOctet c ∧ DecOctet d ∧
    s = a ++ '.' :: (b ++ '.' :: (c ++ '.' :: d))

/-- One to four hexadecimal digits. -/
def H16 (s : Str) : Prop := 1 ≤ s.length ∧ s.length ≤ 4 ∧ ∀ c ∈ s, c ∈ hexDigits

/-- The groups with colons between them. -/
def colons : List Str → Str
  | [] => []
  | [x] => x
  | x :: y :: r => x ++ ':' :: colons (y :: r)

/-- A run of `n` groups of sixteen bits; the last two may be written as an IPv4 address. -/
def Groups (n : Nat) (s : Str) : Prop :=
  (∃ gs, gs.length = n ∧ (∀ g ∈ gs, H16 g) ∧ s = colons gs) ∨
  (∃ gs v, gs.length + 2 = n ∧ (∀ g ∈ gs, H16 g) ∧ IPv4 v ∧ s = colons (gs ++ [v]))

/-- `IPv6address`: eight groups, or `l` groups, "::" and `r` groups with at most seven together.  The groups before the
"::" are all in hexadecimal. -/
def IPv6 (s : Str) : Prop :=
  Groups 8 s ∨
  ∃ l n r, s = colons l ++ (s!! "::" ++ r) ∧ (∀ g ∈ l, H16 g) ∧ Groups n r ∧ l.length + n ≤ 7

/-- `IPvFuture = "v" 1*HEXDIG "." 1*( unreserved / sub-delims / ":" )`. -/
def IPvFuture (s : Str) : Prop :=
  ∃ v t, s = 'v' :: (v ++ '.' :: t) ∧ v ≠ [] ∧ t ≠ [] ∧ (∀ c ∈ v, c ∈ hexDigits) ∧
    ∀ c ∈ t, c ∈ unreserved ++ subDelims ++ s!! ":"

def Host (addr : Str → Prop) (s : Str) : Prop :=
  (∃ a, addr a ∧ s = '[' :: (a ++ [']'])) ∨ IPv4 s ∨ Pcts (unreserved ++ subDelims) s

/-- `authority = [ userinfo "@" ] host [ ":" port ]`. -/
def Authority (userExtra : Str) (addr : Str → Prop) (s : Str) : Prop :=
  ∃ u h p, s = u ++ (h ++ p) ∧
    (u = [] ∨ ∃ x, u = x ++ ['@'] ∧ Pcts (unreserved ++ subDelims ++ s!! ":" ++ userExtra) x) ∧
    Host addr h ∧ (p = [] ∨ ∃ x, p = ':' :: x ∧ ∀ c ∈ x, c ∈ digits)

/-- `"//" authority path-abempty / path-absolute / path / path-empty`. -/
def Part (userExtra : Str) (addr : Str → Prop) (path : Str → Prop) (s : Str) : Prop :=
  (∃ a p, s = '/' :: '/' :: (a ++ p) ∧ Authority userExtra addr a ∧ PathAbempty p) ∨
  PathAbsolute s ∨ path s ∨ s = []

/-- `[ "?" query ] [ "#" fragment ]`. -/
def Ending (s : Str) : Prop :=
  ∃ q f, s = q ++ f ∧
    (q = [] ∨ ∃ x, q = '?' :: x ∧ Pcts (pchars ++ s!! "/?") x) ∧
    (f = [] ∨ ∃ x, f = '#' :: x ∧ Pcts (pchars ++ s!! "/?") x)

def UriOf (userExtra : Str) (addr : Str → Prop) (s : Str) : Prop :=
  ∃ sch h e, s = sch ++ ':' :: (h ++ e) ∧ Verif.Iri.Spec.IsScheme sch ∧ Part userExtra addr PathRootless h ∧ Ending e

def RefOf (userExtra : Str) (addr : Str → Prop) (s : Str) : Prop :=
  UriOf userExtra addr s ∨ ∃ h e, s = h ++ e ∧ Part userExtra addr PathNoscheme h ∧ Ending e

/-- The grammar of RFC 3986. -/
def RfcAddr (s : Str) : Prop := IPv6 s ∨ IPvFuture s
def RfcUri (s : Str) : Prop := UriOf [] RfcAddr s
def RfcUriReference (s : Str) : Prop := RefOf [] RfcAddr s

end Verif.Iri.SyntaxSpec
