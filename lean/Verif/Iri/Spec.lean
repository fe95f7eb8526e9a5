import Verif.Iri.Model
/-
Specifications for the IRI properties: RFC 3986, independently of the model's helper functions
(only the record type `UriRef` is shared).
-/
namespace Verif.Iri.Spec
open Verif.Iri

/-- RFC 3986 section 5.3: component recomposition. -/
def recompose (r : UriRef) : Str :=
  let result : Str := []
  let result := match r.scheme with | some s => result ++ s ++ s!! ":" | none => result
  let result := match r.authority with | some a => result ++ s!! "//" ++ a | none => result
  let result := result ++ r.path
  let result := match r.query with | some q => result ++ s!! "?" ++ q | none => result
  match r.fragment with | some f => result ++ s!! "#" ++ f | none => result

/-- `p` begins with a non-empty run of characters other than `:/?#` followed by ':'. -/
def SchemeLike (p : Str) : Prop :=
  ∃ a b : Str, p = a ++ ':' :: b ∧ a ≠ [] ∧ ∀ c ∈ a, c ∉ s!! ":/?#"

/-- The component tuples that the generic syntax of RFC 3986 (appendix B) admits: each component
avoids the delimiters that would end it, and an absent component is not hidden in the next one. -/
structure WellFormed (r : UriRef) : Prop where
  scheme_ok : ∀ s, r.scheme = some s → s ≠ [] ∧ ∀ c ∈ s, c ∉ s!! ":/?#"
  authority_ok : ∀ a, r.authority = some a → ∀ c ∈ a, c ∉ s!! "/?#"
  path_ok : ∀ c ∈ r.path, c ∉ s!! "?#"
  query_ok : ∀ q, r.query = some q → '#' ∉ q
  /-- after an authority the path is empty or begins with a slash -/
  path_abempty : r.authority ≠ none → r.path = [] ∨ ∃ p, r.path = '/' :: p
  /-- without an authority the path does not begin with two slashes -/
  path_noauth : r.authority = none → ∀ p, r.path ≠ '/' :: '/' :: p
  /-- without scheme and authority, the first segment has no colon after a non-empty name -/
  path_noscheme : r.scheme = none → r.authority = none → ¬ SchemeLike r.path

/-- `r` is the parse of `s` into components, in the sense of RFC 3986 appendix B. -/
def IsParse (s : Str) (r : UriRef) : Prop := recompose r = s ∧ WellFormed r

/-- Remove the last segment and its preceding "/" (if any) from the output buffer. -/
def dropLastSegment (out : Str) : Str := ((out.reverse.dropWhile (· ≠ '/')).drop 1).reverse

/-- RFC 3986 section 5.2.4 rule 2E: the first path segment in the input buffer, including the initial
"/" character (if any) and any subsequent characters up to, but not including, the next "/" . -/
def firstSegment : Str → Str
  | [] => []
  | c :: rest => c :: rest.takeWhile (· ≠ '/')

/-- RFC 3986 section 5.2.4: the loop over the input buffer `inp` and output buffer `out`. -/
def rdsLoop (inp out : Str) : Str :=
  if inp = [] then out
  -- 2A
  else if (s!! "../").isPrefixOf inp then rdsLoop (inp.drop 3) out
  else if (s!! "./").isPrefixOf inp then rdsLoop (inp.drop 2) out
  -- 2B
  else if (s!! "/./").isPrefixOf inp then rdsLoop ('/' :: inp.drop 3) out
  else if inp = s!! "/." then rdsLoop (s!! "/") out
  -- 2C
  else if (s!! "/../").isPrefixOf inp then rdsLoop ('/' :: inp.drop 4) (dropLastSegment out)
  else if inp = s!! "/.." then rdsLoop (s!! "/") (dropLastSegment out)
  -- 2D
  else if inp = s!! "." ∨ inp = s!! ".." then rdsLoop [] out
  -- 2E
  else rdsLoop (inp.drop (firstSegment inp).length) (out ++ firstSegment inp)
termination_by inp.length
decreasing_by
  all_goals (first
    | (rename_i h; have := (List.isPrefixOf_iff_prefix.1 h).length_le; simp at this ⊢; omega)
    | (simp_all; done)
    | (rename_i h; rcases h with h | h <;> simp [h])
    | (cases inp with
       | nil => simp_all
       | cons c r => simp [firstSegment]; omega))

/-- RFC 3986 section 5.2.4 `remove_dot_segments`. -/
def removeDotSegments (path : Str) : Str := rdsLoop path []

/-- RFC 3986 section 5.2.3: merge a relative-path reference with the base path. -/
def merge (base : UriRef) (refPath : Str) : Str :=
  if base.authority.isSome ∧ base.path = [] then '/' :: refPath
  else (base.path.reverse.dropWhile (· ≠ '/')).reverse ++ refPath

/-- RFC 3986 section 5.2.2 (strict): transform a reference `R` against `Base`. -/
def transform (R Base : UriRef) : UriRef :=
  if R.scheme.isSome then
    { R with path := removeDotSegments R.path }
  else if R.authority.isSome then
    { R with scheme := Base.scheme, path := removeDotSegments R.path }
  else if R.path = [] then
    { scheme := Base.scheme, authority := Base.authority, path := Base.path,
      query := if R.query.isSome then R.query else Base.query, fragment := R.fragment }
  else if R.path.head? = some '/' then
    { scheme := Base.scheme, authority := Base.authority, path := removeDotSegments R.path,
      query := R.query, fragment := R.fragment }
  else
    { scheme := Base.scheme, authority := Base.authority,
      path := removeDotSegments (merge Base R.path),
      query := R.query, fragment := R.fragment }

/-- The segments of a path: the maximal slash-free pieces. `SegmentOf p x`: `x` is one of them. -/
def SegmentOf (p x : Str) : Prop :=
  ∃ a b : Str, p = a ++ x ++ b ∧ '/' ∉ x ∧ (a = [] ∨ a.getLast? = some '/') ∧
    (b = [] ∨ b.head? = some '/')

/-- RFC 3986 section 3.1: `scheme = ALPHA *( ALPHA / DIGIT / "+" / "-" / "." )`. -/
def IsScheme (s : Str) : Prop :=
  ∃ c r, s = c :: r ∧ (c.toNat ∈ List.range' 65 26 ∨ c.toNat ∈ List.range' 97 26) ∧
    ∀ d ∈ r, (d.toNat ∈ List.range' 65 26 ∨ d.toNat ∈ List.range' 97 26) ∨
      d.toNat ∈ List.range' 48 10 ∨ d ∈ s!! "+-."

/-- No segment of the path is "." or "..". -/
def NoDotSegments (p : Str) : Prop := ∀ x, SegmentOf p x → x ≠ s!! "." ∧ x ≠ s!! ".."

end Verif.Iri.Spec
