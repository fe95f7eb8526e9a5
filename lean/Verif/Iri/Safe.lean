import Verif.Iri.PercentModel
/-
`make_urllib_safe` (lib/lib/iri.py:1608-1681), for byte strings. The conversion of a host name to IDNA is a parameter.
-/
namespace Verif.Iri

/-- The characters of `REG_NAME_HOST_PATTERN`. -/
def regNameChars : Str := s!! "0123456789ABCDEFGHIJKLMNOPQRSTUVWXYZabcdefghijklmnopqrstuvwxyz-_.!~*'();&=+$,"

/-- The digits of an escape. -/
def regNameHex : Str := s!! "0123456789ABCDEFabcdef"

/-- lib/lib/iri.py:1608 `REG_NAME_HOST_PATTERN.match`; `$` matches before a newline at the end as well. -/
def regName : Str → Bool
  | [] => true
  | '%' :: a :: b :: r => regNameHex.contains a && regNameHex.contains b && regName r
  | c :: r => if regNameChars.contains c then regName r else c == '\n' && r.isEmpty

/-- lib/lib/iri.py:1638-1642 and 1643-1647 unpack the parts of a split; more than two are an error. -/
def unpackTwo : List Str → Except Err (Str × Str)
  | [a, b] => .ok (a, b)
  | _ => .error .valueError

/-- lib/lib/iri.py:1638-1642: user information, and host with port. -/
def splitUser (auth : Option Str) : Except Err (Option Str × Option Str) :=
  match auth with
  | none => .ok (none, none)
  | some a => if a.contains '@' then (unpackTwo (Py.split '@' a)).map (fun p => (some p.1, some p.2)) else .ok (none, some a)

/-- lib/lib/iri.py:1643-1647: host, and port. -/
def splitPort (hostport : Option Str) : Except Err (Option Str × Option Str) :=
  match hostport with
  | none => .ok (none, none)
  | some h => if h.contains ':' then (unpackTwo (Py.split ':' h)).map (fun p => (some p.1, some p.2)) else .ok (some h, none)

/-- lib/lib/iri.py:1661-1666: the authority put together again. -/
def safeJoin (userinfo : Option Str) (host : Str) (port : Option Str) : Str :=
  (match userinfo with | some (c :: u) => c :: u ++ s!! "@" | _ => []) ++ host ++
    (match port with | some (c :: p) => ':' :: c :: p | _ => [])

/-- lib/lib/iri.py:1648-1666: the new authority. -/
def safeAuth (idna : Str → Except Err Str) (auth userinfo host port : Option Str) : Except Err (Option Str) :=
  match host with
  | some (c :: h) =>
    if regName (c :: h) then (idna (percentDecode none (c :: h))).map (fun x => some (safeJoin userinfo x port))
    else .ok auth
  | _ => .ok auth

/-- `str.replace(':', '|', 1)`. -/
def firstColon : Str → Str
  | [] => []
  | c :: r => if c = ':' then '|' :: r else c :: firstColon r

/-- lib/lib/iri.py:1610-1675 `make_urllib_safe`; `nt` is `os.name == 'nt'`, `idna` lines 1654-1657. -/
def makeUrllibSafe (nt : Bool) (idna : Str → Except Err Str) (uriRef : Str) : Except Err Str := do
  let r ← splitUriRef uriRef
  let (userinfo, hostport) ← splitUser r.authority
  let (host, port) ← splitPort hostport
  let auth ← safeAuth idna r.authority userinfo host port
  let path := if nt && r.scheme == some (s!! "file") then firstColon r.path else r.path
  .ok (unsplitUriRef ⟨r.scheme, auth, path, r.query, none⟩)

end Verif.Iri
