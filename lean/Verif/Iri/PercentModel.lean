import Verif.Iri.Model
/-
Model of the percent-encoding functions and their users in lib/lib/iri.py.

A Python 2 byte string is a `Str` all of whose characters are below 256 (each byte is identified with
the Latin-1 character of the same value, which is what `ord`/`chr` do).
-/
namespace Verif.Iri

/-- One upper-case hexadecimal digit. -/
def hexDigit (n : Nat) : Char := if n < 10 then Char.ofNat (48 + n) else Char.ofNat (55 + n)

/-- `'%%%02X' % octet` for an octet (lib/lib/iri.py:519,531,538,543,547). -/
def pct (n : Nat) : Str := ['%', hexDigit (n / 16), hexDigit (n % 16)]

/-- lib/lib/iri.py:399 `UNRESERVED_PATTERN` `[0-9A-Za-z\-\._~]`. -/
def isUnreserved (c : Char) : Bool :=
  isDigit c || isAlpha c || c = '-' || c = '.' || c = '_' || c = '~'

/-- lib/lib/iri.py:410 `RESERVED`. -/
def RESERVED : Str := s!! "/=&+?#;@,:$!*[]()'"

/-- The keyword arguments of `percent_encode` (lib/lib/iri.py:460-461). `nlChars` is left out: the
result of `s.replace` at line 513 is discarded, so it has no effect. -/
structure EncOpts where
  encodeReserved : Bool := true
  spaceToPlus : Bool := false
  reservedChars : Str := RESERVED

/-- lib/lib/iri.py:514-552: one iteration of the loop of `percent_encode` for a byte string. -/
def encodeByte (o : EncOpts) (c : Char) : Str :=
  if isUnreserved c then [c]
  else if c.toNat < 128 then
    if o.spaceToPlus && c = ' ' then s!! "+"
    else if c ∈ o.reservedChars then
      if o.encodeReserved then pct c.toNat else [c]
    else pct c.toNat
  else pct c.toNat

/-- lib/lib/iri.py:460-552 `percent_encode` for a byte string (`str`). -/
def percentEncode (o : EncOpts) (s : Str) : Str := s.flatMap (encodeByte o)

/-- The UTF-8 encoding of a code point, as produced by `c.encode('utf-8')`. -/
def utf8 (n : Nat) : List Nat :=
  if n < 0x80 then [n]
  else if n < 0x800 then [0xC0 + n / 64, 0x80 + n % 64]
  else if n < 0x10000 then [0xE0 + n / 4096, 0x80 + n / 64 % 64, 0x80 + n % 64]
  else [0xF0 + n / 262144, 0x80 + n / 4096 % 64, 0x80 + n / 64 % 64, 0x80 + n % 64]

/-- lib/lib/iri.py:514-552 for a `unicode` string and the default encoding; `Char` has no surrogates, so
the pairing done by `_chars` (416-457) is already done. -/
def encodeUChar (o : EncOpts) (c : Char) : Str :=
  if c.toNat < 128 then encodeByte o c else (utf8 c.toNat).flatMap pct

/-- lib/lib/iri.py:460-552 `percent_encode` for a `unicode` string, encoding UTF-8. -/
def percentEncodeU (o : EncOpts) (s : Str) : Str := s.flatMap (encodeUChar o)

/-- Value of a hexadecimal digit, either case. -/
def hexVal (c : Char) : Option Nat :=
  if '0' ≤ c ∧ c ≤ '9' then some (c.toNat - 48)
  else if 'a' ≤ c ∧ c ≤ 'f' then some (c.toNat - 87)
  else if 'A' ≤ c ∧ c ≤ 'F' then some (c.toNat - 55)
  else none

/-- `str.isspace` characters, stripped by Python's `int()`. -/
def isPySpace (c : Char) : Bool := c ∈ [' ', '\t', '\n', '\r', Char.ofNat 11, Char.ofNat 12]

/-- `mychr(int(item[:2], 16))` at lib/lib/iri.py:596 for a two-character string; `none` is ValueError.
Python's `int` accepts surrounding white space and a sign; `chr` refuses a negative number. -/
def int16 (a b : Char) : Option Nat :=
  match hexVal a, hexVal b with
  | some x, some y => some (16 * x + y)
  | some x, none => if isPySpace b then some x else none
  | none, some y =>
    if isPySpace a || a = '+' then some y
    else if a = '-' ∧ y = 0 then some 0
    else none
  | none, none => none

/-- lib/lib/iri.py:593-606: the treatment of one piece after a '%'. `decodable = none` means decode all. -/
def decodeItem (decodable : Option Str) (item : Str) : Str :=
  match item with
  | a :: b :: rest =>
    match int16 a b with
    | some n =>
      let c := Char.ofNat n
      match decodable with
      | none => c :: rest
      | some d => if c ∈ d then c :: rest else '%' :: item
    | none => '%' :: item
  | _ => '%' :: item

/-- lib/lib/iri.py:555-618 `percent_decode` for a byte string. -/
def percentDecode (decodable : Option Str) (s : Str) : Str :=
  match Py.split '%' s with
  | [] => []
  | p :: ps => p ++ ps.flatMap (decodeItem decodable)

/-- `ascii_letters` (Python `string` module). -/
def asciiLetters : Str := s!! "abcdefghijklmnopqrstuvwxyzABCDEFGHIJKLMNOPQRSTUVWXYZ"

/-- lib/lib/iri.py:960-967 `normalize_percent_encoding`. -/
def normalizePercentEncoding (s : Str) : Str :=
  percentDecode (some (s!! "0123456789" ++ asciiLetters ++ s!! "-._~")) s

/-- ASCII `upper()` / `lower()` of a byte. -/
def upper (c : Char) : Char := if 'a' ≤ c ∧ c ≤ 'z' then Char.ofNat (c.toNat - 32) else c
def lower (c : Char) : Char := if 'A' ≤ c ∧ c ≤ 'Z' then Char.ofNat (c.toNat + 32) else c

/-- `[0-9a-f]`. -/
def isLowerHex (c : Char) : Bool := ('0' ≤ c && c ≤ '9') || ('a' ≤ c && c ≤ 'f')

/-- lib/lib/iri.py:931-936: `re.sub('%([0-9a-f][0-9a-f])', lambda m: m.group(0).upper(), component)`. -/
def upperTriplets : Str → Str
  | '%' :: a :: b :: rest =>
    if isLowerHex a && isLowerHex b then '%' :: upper a :: upper b :: upperTriplets rest
    else '%' :: upperTriplets (a :: b :: rest)
  | c :: rest => c :: upperTriplets rest
  | [] => []

/-- The part `(?P<host>[^:]*)(?::(?P<port>.*))?` of the regular expression of lib/lib/iri.py:357;
`.` stops at a newline, and what follows is dropped. -/
def splitHost (rest : Str) : Str × Option Str :=
  match rest.dropWhile (· ≠ ':') with
  | ':' :: p => (rest.takeWhile (· ≠ ':'), some (p.takeWhile (· ≠ '\n')))
  | _ => (rest.takeWhile (· ≠ ':'), none)

/-- lib/lib/iri.py:357-375 `split_authority`: `(?:(?P<userinfo>[^@]*)@)?(?P<host>[^:]*)(?::(?P<port>.*))?`
with `match`. -/
def splitAuthority (a : Str) : Option Str × Str × Option Str :=
  match a.dropWhile (· ≠ '@') with
  | '@' :: r => (some (a.takeWhile (· ≠ '@')), splitHost r)
  | _ => (none, splitHost a)

/-- lib/lib/iri.py:946-951: put the authority together again. -/
def joinAuth (t : Option Str × Str × Option Str) : Str :=
  (match t.1 with | some u => u ++ s!! "@" | none => []) ++ t.2.1 ++
    (match t.2.2 with | some p => ':' :: p | none => [])

/-- lib/lib/iri.py:943-951: lower-case the host of an authority. -/
def normAuth (a : Str) : Str :=
  joinAuth ((splitAuthority a).1, (splitAuthority a).2.1.map lower, (splitAuthority a).2.2)

/-- lib/lib/iri.py:912-957 `normalize_case` on a component tuple. (The tests `if component:`, `if scheme:`
and `if authority:` only skip empty strings, on which the operations are the identity.) -/
def normalizeCase (doHost : Bool) (r : UriRef) : UriRef :=
  { scheme := (r.scheme.map upperTriplets).map (·.map lower)
    authority := (r.authority.map upperTriplets).map (fun a => if doHost then normAuth a else a)
    path := upperTriplets r.path
    query := r.query.map upperTriplets
    fragment := r.fragment.map upperTriplets }

/-- lib/lib/iri.py:912-957 `normalize_case` on a string. -/
def normalizeCaseStr (doHost : Bool) (s : Str) : Except Err Str :=
  (splitUriRef s).map (fun r => unsplitUriRef (normalizeCase doHost r))

/-- lib/lib/iri.py:970-980 `normalize_path_segments`. -/
def normalizePathSegments (path : Str) : Str :=
  if path.head? = some '/' then removeDotSegments path else path

/-- lib/lib/iri.py:983-992 `normalize_path_segments_in_uri`. -/
def normalizePathSegmentsInUri (uri : Str) : Except Err Str :=
  (splitUriRef uri).map (fun r => unsplitUriRef { r with path := normalizePathSegments r.path })

/-- `re.sub('[ \t\r\n]+', ' ', s)`, lib/lib/iri.py:1130; `inWs` says the previous character was one of
the four. -/
def condense (inWs : Bool) : Str → Str
  | [] => []
  | c :: rest =>
    if c ∈ s!! " \t\r\n" then (if inWs then condense true rest else ' ' :: condense true rest)
    else c :: condense false rest

/-- `s.strip()` for a byte string. -/
def strip (s : Str) : Str :=
  ((s.dropWhile isPySpace).reverse.dropWhile isPySpace).reverse

/-- Python `s.split(ab)` for a two-character separator (leftmost, non-overlapping). -/
def split2 (a b : Char) : Str → List Str
  | [] => [[]]
  | [x] => [[x]]
  | x :: y :: rest =>
    if x = a ∧ y = b then [] :: split2 a b rest
    else match split2 a b (y :: rest) with
      | [] => [[x]]
      | p :: ps => (x :: p) :: ps

/-- lib/lib/iri.py:1125-1140 `public_id_to_urn`. -/
def publicIdToUrn (publicid : Str) : Str :=
  let publicid := condense false (strip publicid)
  let enc := percentEncode { spaceToPlus := true }
  s!! "urn:publicid:" ++ Py.join (s!! ":")
    ((split2 '/' '/' publicid).map (fun dspart =>
      Py.join (s!! ";") ((split2 ':' ':' dspart).map enc)))

/-- Python `s.replace(c, r)` for a one-character pattern. -/
def replace1 (c : Char) (r : Str) (s : Str) : Str := s.flatMap (fun x => if x = c then r else [x])

/-- lib/lib/iri.py:1097-1122 `urn_to_public_id`. `path.split(':', 1)` is a cut at the first colon. -/
def urnToPublicId (urn : Str) : Except Err Str :=
  if urn = [] then .error .invalidPublicIdUrn
  else match splitUriRef urn with
    | .error e => .error e
    | .ok r =>
      match r.scheme with
      | some sch =>
        if sch.map lower = s!! "urn" then
          match r.path.dropWhile (· ≠ ':') with
          | ':' :: nss =>
            if percentDecode none (r.path.takeWhile (· ≠ ':')) = s!! "publicid" then
              .ok (percentDecode none (replace1 ';' (s!! "::") (replace1 ':' (s!! "//") (replace1 '+' (s!! " ") nss))))
            else .error .invalidPublicIdUrn
          | _ => .error .invalidPublicIdUrn
        else .error .invalidPublicIdUrn
      | none => .error .invalidPublicIdUrn

/-- lib/lib/iri.py:1395-1405 `os_path_to_uri` for `osname == 'posix'` and an absolute path, or a relative
one with `attemptAbsolute` off (the working directory is not modelled). -/
def osPathToUri (path : Str) : Str :=
  let isabs := path.head? = some '/'
  let path := if isabs then removeDotSegments path else path
  let path := Py.join (s!! "/") ((Py.split '/' path).map (percentEncode {}))
  if isabs then s!! "file://" ++ path else s!! "file:" ++ path

/-- `re.sub('%2[fF]', '\\/', path)`, lib/lib/iri.py:1584 (Python 2 keeps the unknown escape `\/` of the replacement). -/
def escapeSlash : Str → Str
  | '%' :: '2' :: 'f' :: rest => '\\' :: '/' :: escapeSlash rest
  | '%' :: '2' :: 'F' :: rest => '\\' :: '/' :: escapeSlash rest
  | c :: rest => c :: escapeSlash rest
  | [] => []

/-- lib/lib/iri.py:1426-1589 `uri_to_os_path` for `osname == 'posix'`, byte strings and `attemptAbsolute`
off or an absolute path. -/
def uriToOsPath (uri : Str) : Except Err Str :=
  match splitUriRef uri with
  | .error e => .error e
  | .ok r =>
    -- `if scheme and scheme != 'file'`
    if r.scheme ≠ none ∧ r.scheme ≠ some (s!! "file") then .error .nonFileUri
    else if r.authority ≠ none ∧ r.authority ≠ some [] ∧ r.authority ≠ some (s!! "localhost") then
      .error .unixRemoteHostFileUri
    else .ok (percentDecode none (escapeSlash r.path))

/-- The percent-encoded octets as code units (lib/lib/iri.py:119-120). -/
def pctUnits (bs : List Nat) : List Nat := (bs.flatMap pct).map Char.toNat

/-- lib/lib/iri.py:95-124 `iri_to_uri` after NFC normalisation, with `convertHost` off, on a list of
code units of a narrow Python build.  `surr` is the variable `surrogate`. A pair of surrogates is encoded
as the code point it denotes. The result is a list of code units; `none` is ValueError. -/
def iriToUri (surr : Option Nat) (iri : List Nat) : Option (List Nat) :=
  match iri with
  | [] => some []
  | cp :: rest =>
    if cp > 128 then
      if cp < 160 then none
      else if cp > 55295 then
        if cp < 56320 then iriToUri (some cp) rest
        else if cp < 57344 then
          match surr with
          | none => none
          | some h =>
            (iriToUri none rest).map (pctUnits (utf8 (0x10000 + (h - 0xD800) * 0x400 + (cp - 0xDC00))) ++ ·)
        else none
      else (iriToUri surr rest).map (pctUnits (utf8 cp) ++ ·)
    else (iriToUri surr rest).map (cp :: ·)

/-- lib/lib/iri.py:1735-1745 `basejoin`. -/
def basejoin (base uriRef : Str) : Except Err Str :=
  if isAbsolute base then absolutize uriRef base
  else
    (absolutize uriRef (s!! "basejoin:" ++ base)).map
      (fun res => if isAbsolute uriRef then res else res.drop 9)

/-- lib/lib/iri.py:1754-1762 `join` for a non-empty argument list. -/
def joinUris (first : Str) (rest : List Str) : Except Err Str :=
  rest.foldlM (fun base part =>
    basejoin ((base.reverse.dropWhile (· = '/')).reverse ++ s!! "/") part) first

/-- lib/lib/iri.py:798-815: the number of leading path segments in common. -/
def commonSegs : List Str → List Str → Nat
  | t :: ts, a :: as =>
    if t = a ∧ ¬ (as = [] ∧ a = []) ∧ ¬ (ts = [] ∧ t = []) then commonSegs ts as + 1 else 0
  | _, _ => 0

/-- lib/lib/iri.py:800-851: the segment computation of `relativize`; `none` is a `None` result.
`traverse = len(againstPathSegments) - i - 1`; only its positive values matter. -/
def relSegments (ts as : List Str) (leadingSlash : Bool) (targetPath : Str) (subPathOnly : Bool) : Option Str :=
  if commonSegs ts as = 0 ∧ leadingSlash then
    if as.length = 1 then some targetPath
    else if subPathOnly then none
    else some ('/' :: targetPath)
  else if as.length > commonSegs ts as + 1 then
    if subPathOnly then none
    else some ((List.replicate (as.length - commonSegs ts as - 1) (s!! "../")).flatten ++
      Py.join (s!! "/") (ts.drop (commonSegs ts as)))
  else if ts.length > commonSegs ts as + 1 ∧ ts[commonSegs ts as]? = some [] then
    some (s!! "./" ++ Py.join (s!! "/") (ts.drop (commonSegs ts as)))
  else some (Py.join (s!! "/") (ts.drop (commonSegs ts as)))

/-- lib/lib/iri.py:782-851: the path computation of `relativize`. -/
def relativePath (targetPath againstPath : Str) (subPathOnly : Bool) : Option Str :=
  let againstPath := if againstPath = [] then s!! "/" else againstPath
  let bothSlash := targetPath.head? = some '/' ∧ againstPath.head? = some '/'
  if (targetPath.head? = some '/' ∨ againstPath.head? = some '/') ∧ ¬ bothSlash then none
  else
    let leadingSlash : Bool := bothSlash
    let targetPath := if leadingSlash then targetPath.tail else targetPath
    let againstPath := if leadingSlash then againstPath.tail else againstPath
    relSegments (Py.split '/' targetPath) (Py.split '/' againstPath) leadingSlash targetPath subPathOnly

/-- lib/lib/iri.py:742-853 `relativize`. -/
def relativize (targetUri againstUri : Str) (subPathOnly : Bool := false) : Except Err (Option Str) := do
  if !isAbsolute targetUri || !isAbsolute againstUri then return none
  let targetUri ← normalizePathSegmentsInUri targetUri
  let againstUri ← normalizePathSegmentsInUri againstUri
  let t ← splitUriRef (← absolutize targetUri targetUri)
  let a ← splitUriRef (← absolutize againstUri againstUri)
  if t.scheme ≠ a.scheme ∨ t.authority ≠ a.authority then return none
  match relativePath t.path a.path subPathOnly with
  | none => return none
  | some p => return some (unsplitUriRef ⟨none, none, p, t.query, t.fragment⟩)

end Verif.Iri
