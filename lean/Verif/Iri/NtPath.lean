import Verif.Iri.PercentModel
/-
Model of the conversions between Windows paths and file URIs: `os_path_to_uri` and `uri_to_os_path` of
lib/lib/iri.py for `osname='nt'` and byte strings.  The working directory is not modelled: relative paths are converted
as with `attemptAbsolute` off, or on another system.
-/
namespace Verif.Iri.Nt
open Verif Verif.Iri

/-- The groups of the pattern for Windows paths. -/
structure Parts where
  drive : Option Char := none
  host : Option Str := none
  share : Option Str := none
  abspath : Option Str := none
  relpath : Option Str := none

/-- `(?:[^\\]+\\?)*` wants no backslash right after another. -/
def noAdj : Str → Bool
  | '\\' :: '\\' :: _ => false
  | _ :: r => noAdj r
  | [] => true

def notBs (c : Char) : Bool := c ≠ '\\'

/-- `(?P<share>[^\\]+)(?P<abspath>\\(?:[^\\]+\\?)*)` after the host. -/
def ntShare (host r : Str) : Option Parts :=
  let share := r.takeWhile notBs
  let a := r.dropWhile notBs
  if share ≠ [] ∧ a ≠ [] ∧ noAdj a = true then some { host := some host, share := some share, abspath := some a }
  else none

/-- After `\\`: the host and a backslash. -/
def ntHost (r : Str) : Option Parts :=
  match r.dropWhile notBs with
  | _ :: r2 => ntShare (r.takeWhile notBs) r2
  | [] => none

/-- The pattern behind the optional drive (lib/lib/iri.py:1224-1234): a path with two leading backslashes can only
match with a host, one with a single one only without, and others only as relative paths. -/
def ntRest : Str → Option Parts
  | '\\' :: '\\' :: r => ntHost r
  | '\\' :: r => if noAdj ('\\' :: r) then some { abspath := some ('\\' :: r) } else none
  | r => if noAdj r then some { relpath := some r } else none

/-- `[A-Za-z]` -/
def isLetter (c : Char) : Bool := asciiLetters.contains c

/-- The optional drive. -/
def ntDrive : Str → Option Parts
  | d :: ':' :: r => if isLetter d then (ntRest r).map (fun p => { p with drive := some d }) else none
  | _ => none

/-- lib/lib/iri.py:1253-1272 `_splitNtPath`; none is the ValueError. -/
def splitNtPath (path : Str) : Option Parts := (ntDrive path).or (ntRest path)

/-- `path.replace('/','\\')` -/
def backslashes (path : Str) : Str := replace1 '/' (s!! "\\") path

/-- A string or None that is true. -/
def truthy (o : Option Str) : Bool := o.getD [] ≠ []

/-- lib/lib/iri.py:1375-1389. -/
def ntUri (p : Parts) : Str :=
  let path := if truthy p.abspath then p.abspath.getD [] else p.relpath.getD []
  let path := Py.join (s!! "/") ((Py.split '\\' path).map (percentEncode {}))
  let uri := s!! "file:"
  let uri := uri ++ (if truthy p.host then s!! "//" ++ percentEncode {} (p.host.getD [])
    else if truthy p.abspath then s!! "//" else [])
  let uri := uri ++ (match p.drive with | some d => ['/', upper d, ':'] | none => [])
  let uri := uri ++ (if truthy p.share then '/' :: percentEncode {} (p.share.getD []) else [])
  uri ++ (if truthy p.abspath then removeDotSegments path else path)

/-- lib/lib/iri.py:1368-1389 `os_path_to_uri(path, osname='nt')`. -/
def osPathToUriNt (path : Str) : Option Str := (splitNtPath (backslashes path)).map ntUri

/-- lib/lib/iri.py:1275-1282 `_get_drive_letter`. -/
def driveLetter : Str → Option Char
  | [a, b] => if (b = ':' ∨ b = '|') ∧ isLetter a = true then some a else none
  | _ => none

/-- What `%2[fF]|%5[cC]` matches after the "%". -/
def isSlashCode (a b : Char) : Bool :=
  (a = '2' && (b = 'f' || b = 'F')) || (a = '5' && (b = 'c' || b = 'C'))

/-- lib/lib/iri.py:1525-1529 `re.sub('%2[fF]|%5[cC]', '/', path)`. -/
def subSlash : Str → Str
  | '%' :: a :: b :: r => if isSlashCode a b then '/' :: subSlash r else '%' :: subSlash (a :: b :: r)
  | c :: r => c :: subSlash r
  | [] => []

/-- `len(segs) > n and '/' + '/'.join(segs[n:]) or ''` -/
def rejoin (rest : List Str) : Str := if rest = [] then [] else '/' :: Py.join (s!! "/") rest

/-- The UNC host, the drive letter and the path. -/
abbrev Found := Option Str × Option Char × Str

/-- lib/lib/iri.py:1537-1541: the first segment but for an empty one. -/
def rootedDrive (path s1 : Str) (rest : List Str) : Found :=
  match driveLetter (percentDecode none s1) with
  | some d => (none, some d, rejoin rest)
  | none => (none, none, path)

/-- lib/lib/iri.py:1542-1547. -/
def relativeDrive (path s0 : Str) (rest : List Str) : Found :=
  match driveLetter (percentDecode none s0) with
  | some d => (none, some d, if rest = [] then [] else path.drop 2)
  | none => (none, none, path)

/-- lib/lib/iri.py:1530-1547: host and drive in the path. -/
def inPath (path : Str) : Found :=
  match Py.split '/' path with
  | [] :: [] :: h :: rest => (some (percentDecode none h), none, rejoin rest)
  | [] :: s1 :: rest => rootedDrive path s1 rest
  | [[]] => (none, none, path)
  | s0 :: rest => relativeDrive path s0 rest
  | [] => (none, none, path)

/-- lib/lib/iri.py:1514-1519: host or drive in the authority. -/
def inAuthority (a path : Str) : Found :=
  match driveLetter (percentDecode none a) with
  | some d => (none, some d, path)
  | none => (some (percentDecode none a), none, path)

/-- lib/lib/iri.py:1511-1547.  A decoded authority is not empty. -/
def find (authority : Option Str) (path : Str) : Found :=
  match authority with
  | some (c :: a) => if c :: a = s!! "localhost" then inPath (subSlash path) else inAuthority (c :: a) path
  | _ => inPath (subSlash path)

/-- lib/lib/iri.py:1551-1573. -/
def assemble (f : Found) : Str :=
  let path := percentDecode none (backslashes f.2.2)
  if truthy f.1 then s!! "\\\\" ++ f.1.getD [] ++ path
  else match f.2.1 with
    | some d => upper d :: ':' :: path
    | none => if path.head? = some '\\' then '\\' :: path.dropWhile (· = '\\') else path

/-- lib/lib/iri.py:1503-1575 `uri_to_os_path(uri, osname='nt')`. -/
def uriToOsPathNt (uri : Str) : Except Err Str :=
  match splitUriRef uri with
  | .error e => .error e
  | .ok r =>
    if r.scheme ≠ none ∧ r.scheme ≠ some (s!! "file") then .error .nonFileUri
    else .ok (assemble (find r.authority r.path))

end Verif.Iri.Nt
