import Verif.Py
/-
Model of lib/lib/iri.py.
-/
namespace Verif.Iri

/-- The 5-tuple `(scheme, authority, path, query, fragment)` of
lib/lib/iri.py:302-323 `split_uri_ref`; `none` is Python's `None`. -/
structure UriRef where
  scheme : Option Str
  authority : Option Str
  path : Str
  query : Option Str
  fragment : Option Str
deriving DecidableEq, Repr

/-- Errors raised by the modelled functions. `attributeError` is `None.groupdict()`
(lib/lib/iri.py:317) when the regular expression does not match. -/
inductive Err where
  | relativeBaseUri
  | unsupportedScheme
  | nonFileUri
  | unixRemoteHostFileUri
  | invalidPublicIdUrn
  | attributeError
  | valueError
deriving DecidableEq, Repr

/-- The regular-expression character class `[^...]` (it does match a newline). -/
def notIn (excl : List Char) (c : Char) : Bool := !excl.contains c

/-- The group `(?:(?P<scheme>[^:/?#]+):)?` of lib/lib/iri.py:295: the longest run of
characters other than `:/?#`, if it is non-empty and followed by ':'.  (A shorter run cannot be
followed by ':', so greedy matching without backtracking is exact.) -/
def matchScheme (s : Str) : Option Str × Str :=
  match s.dropWhile (notIn (s!! ":/?#")) with
  | ':' :: rest =>
    if s.takeWhile (notIn (s!! ":/?#")) = [] then (none, s)
    else (some (s.takeWhile (notIn (s!! ":/?#"))), rest)
  | _ => (none, s)

/-- The group `(?://(?P<authority>[^/?#]*))?` of lib/lib/iri.py:295. -/
def matchAuthority (s : Str) : Option Str × Str :=
  match s with
  | '/' :: '/' :: rest =>
    (some (rest.takeWhile (notIn (s!! "/?#"))),
     rest.dropWhile (notIn (s!! "/?#")))
  | _ => (none, s)

/-- The group `(?:\?(?P<query>[^#]*))?` of lib/lib/iri.py:295. -/
def matchQuery (s : Str) : Option Str × Str :=
  match s with
  | '?' :: rest => (some (rest.takeWhile (notIn (s!! "#"))), rest.dropWhile (notIn (s!! "#")))
  | _ => (none, s)

/-- The tail `(?:#(?P<fragment>.*))?$` of lib/lib/iri.py:295: `.` does not match a newline
and `$` also matches just before a final newline.  `none` means the whole match fails. -/
def matchFragment (s : Str) : Option (Option Str) :=
  match s with
  | '#' :: rest =>
    if '\n' ∉ rest then some (some rest)
    else if rest.getLast? = some '\n' ∧ '\n' ∉ rest.dropLast then some (some rest.dropLast)
    else none
  | _ => some none

/-- lib/lib/iri.py:302-323 `split_uri_ref`, as the deterministic left-to-right match of the regular
expression of line 295.  No backtracking is lost: '#' can only be consumed by the last group. -/
def splitUriRef (s : Str) : Except Err UriRef :=
  let (scheme, s1) := matchScheme s
  let (auth, s2) := matchAuthority s1
  let path := s2.takeWhile (notIn (s!! "?#"))
  let s3 := s2.dropWhile (notIn (s!! "?#"))
  let (query, s4) := matchQuery s3
  match matchFragment s4 with
  | some frag => .ok ⟨scheme, auth, path, query, frag⟩
  | none => .error .attributeError

/-- lib/lib/iri.py:326-344 `unsplit_uri_ref`. The `isinstance` check on the argument is not modelled
(the argument is always a 5-tuple here). -/
def unsplitUriRef (r : UriRef) : Str :=
  (match r.scheme with | some s => s ++ s!! ":" | none => []) ++
  (match r.authority with | some a => s!! "//" ++ a | none => []) ++
  r.path ++
  (match r.query with | some q => '?' :: q | none => []) ++
  (match r.fragment with | some f => '#' :: f | none => [])

/-- lib/lib/iri.py:378-390 `split_fragment`. -/
def splitFragment (uri : Str) : Str × Str :=
  match Py.rfind '#' uri with
  | none => (uri, [])
  | some pos => (uri.take pos, uri.drop (pos + 1))

/-- lib/lib/iri.py:1167-1172 `strip_fragment`. -/
def stripFragment (uri : Str) : Str := (splitFragment uri).1

/-- `[a-zA-Z]`. -/
def isAlpha (c : Char) : Bool := ('a' ≤ c && c ≤ 'z') || ('A' ≤ c && c ≤ 'Z')
/-- `[0-9]`. -/
def isDigit (c : Char) : Bool := '0' ≤ c && c ≤ '9'
/-- `[a-zA-Z0-9+\-.]`, lib/lib/iri.py:1147. -/
def isSchemeChar (c : Char) : Bool := isAlpha c || isDigit c || c = '+' || c = '-' || c = '.'

/-- lib/lib/iri.py:1147-1164 `get_scheme`: `([a-zA-Z][a-zA-Z0-9+\-.]*):` matched at the start. -/
def getScheme (s : Str) : Option Str :=
  match s with
  | [] => none
  | c :: rest =>
    if isAlpha c then
      match rest.dropWhile isSchemeChar with
      | ':' :: _ => some (c :: rest.takeWhile isSchemeChar)
      | _ => none
    else none

/-- lib/lib/iri.py:1175-1181 `is_absolute`. -/
def isAbsolute (s : Str) : Bool := (getScheme s).isSome

/-- lib/lib/iri.py:868-875: "remove all './' or '../' segments at the beginning". -/
def stripDotPrefix : Str → Str
  | '.' :: '/' :: rest => stripDotPrefix rest
  | '.' :: '.' :: '/' :: rest => stripDotPrefix rest
  | s => s

/-- lib/lib/iri.py:884-886: `if path[-2:] == '/.': path = path[:-1]`. -/
def trimTrailingSlashDot (path : Str) : Str :=
  if path.drop (path.length - 2) = s!! "/." then path.dropLast else path

/-- lib/lib/iri.py:889-907, the `while segments` loop of `remove_dot_segments`.
`keepers` is kept in reverse order (its head is the last kept segment). -/
def keepSegments (leadingSlash : Bool) : List Str → List Str → List Str
  | [], keepers => keepers
  | seg :: segs, keepers =>
    if seg = s!! ".." then
      let k1 := match keepers with
        | _ :: ks => ks
        | [] => if leadingSlash then [] else [seg]
      let k2 := if segs = [] then [] :: k1 else k1
      keepSegments leadingSlash segs k2
    else if seg ≠ s!! "." then keepSegments leadingSlash segs (seg :: keepers)
    else keepSegments leadingSlash segs keepers

/-- lib/lib/iri.py:856-909 `remove_dot_segments`. -/
def removeDotSegments (path : Str) : Str :=
  if path = s!! "." ∨ path = s!! ".." then []
  else
    let path := stripDotPrefix path
    let leadingSlash := path.head? = some '/'
    let path := if leadingSlash then path.tail else path
    let path := trimTrailingSlashDot path
    (if leadingSlash then s!! "/" else []) ++
      Py.join (s!! "/") (keepSegments leadingSlash (Py.split '/' path) []).reverse

/-- lib/lib/iri.py:723-726: merge a relative path with the base path
(`bPath[:bPath.rfind('/')+1] + rPath`, where `rfind` is -1 if there is no slash). -/
def mergePath (b : UriRef) (rPath : Str) : Str :=
  if b.authority ≠ none ∧ b.path = [] then '/' :: rPath
  else match Py.rfind '/' b.path with
    | some i => b.path.take (i + 1) ++ rPath
    | none => rPath

/-- lib/lib/iri.py:621-739 `absolutize`.  `limit` is `limit_schemes` (`None` and `[]` are both
falsy in Python: the empty list). -/
def absolutize (uriRef baseUri : Str) (limit : List Str := []) : Except Err Str := do
  if isAbsolute uriRef then return uriRef
  if baseUri = [] ∨ !isAbsolute baseUri then throw .relativeBaseUri
  if limit ≠ [] ∧ getScheme baseUri ∉ limit.map some then throw .unsupportedScheme
  -- `baseUri.split('#')[0]` is the part before the first '#'
  if uriRef = [] ∨ uriRef.head? = some '#' then
    return baseUri.takeWhile (· ≠ '#') ++ uriRef
  let r ← splitUriRef uriRef
  match r.scheme with
  | some rs => return unsplitUriRef ⟨some rs, r.authority, removeDotSegments r.path, r.query, r.fragment⟩
  | none =>
    let b ← splitUriRef baseUri
    match r.authority with
    | some ra =>
      return unsplitUriRef ⟨b.scheme, some ra, removeDotSegments r.path, r.query, r.fragment⟩
    | none =>
      if r.path = [] then
        -- `tQuery = rQuery is not None and rQuery or bQuery`
        let tQuery := match r.query with
          | some q => if q = [] then b.query else some q
          | none => b.query
        return unsplitUriRef ⟨b.scheme, b.authority, b.path, tQuery, r.fragment⟩
      else if r.path.head? = some '/' then
        return unsplitUriRef ⟨b.scheme, b.authority, removeDotSegments r.path, r.query, r.fragment⟩
      else
        return unsplitUriRef
          ⟨b.scheme, b.authority, removeDotSegments (mergePath b r.path), r.query, r.fragment⟩

end Verif.Iri
