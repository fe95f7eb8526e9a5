import Verif.Iri.PercentModel
/-
Model of lib/lib/irihelpers.py (resolvers) and lib/lib/_inputsource.py (input sources): which files and URIs are opened.

Simplifications: what opening gives is not modelled, only what is opened; `uri_to_os_path` is for posix.
-/
namespace Verif.Iri.Resolver
open Verif.Iri

/-- irihelpers.py:28-30 `DEFAULT_URI_SCHEMES` (with https). -/
def defaultSchemes : List Str := [s!! "http", s!! "file", s!! "ftp", s!! "data", s!! "pkgdata", s!! "https"]

/-- A pair `(match, allow)` of `authorizations`: `match` is a function of the URI, or a constant. -/
structure Rule where
  test : Str → Bool
  allow : Bool

/-- irihelpers.py:37-43: `authorizations` (`None` and `[]` are the empty list), `lenient`, `_supported_schemes`. -/
structure Resolver where
  rules : List Rule := []
  lenient : Bool := true
  schemes : List Str := defaultSchemes

inductive Fail where
  | needsBase
  | scheme
  | denied
  | iri (e : Err)
  | name
  | value
deriving DecidableEq, Repr

/-- What is opened: a local file (irihelpers.py:79), or a URI with urllib2 (line 96). -/
inductive Target where
  | file (path : Str)
  | url (uri : Str)
deriving DecidableEq, Repr

/-- irihelpers.py:102-114 `authorize`. -/
def authorize : List Rule → Str → Bool
  | [], _ => false
  | r :: rs, uri => if r.test uri then r.allow else authorize rs uri

/-- irihelpers.py:134-138 `absolutize`. -/
def Resolver.absolutize (r : Resolver) (ref base : Str) : Except Err Str :=
  let base := if r.lenient ∧ base.head? = some '/' then s!! "file://" ++ base else base
  Iri.absolutize ref base r.schemes

/-- irihelpers.py:56-71: the URI to open and its scheme. -/
def Resolver.target (r : Resolver) (ref : Str) (base : Option Str) : Except Fail (Str × Option Str) :=
  match base with
  | some b => match r.absolutize ref b with
    | .ok uri => .ok (uri, getScheme uri)
    | .error e => .error (.iri e)
  | none => match getScheme ref with
    | none => .error .needsBase
    | some s => if s ∈ r.schemes then .ok (ref, some s) else .error .scheme

/-- irihelpers.py:73-100: check and open. -/
def Resolver.open (r : Resolver) (uri : Str) (scheme : Option Str) : Except Fail Target :=
  if r.rules ≠ [] ∧ authorize r.rules uri = false then .error .denied
  else if scheme = some (s!! "file") then
    match uriToOsPath uri with
    | .ok p => .ok (.file p)
    | .error e => .error (.iri e)
  else .ok (.url uri)

/-- irihelpers.py:45-100 `resolve` of a string. -/
def Resolver.resolve (r : Resolver) (ref : Str) (base : Option Str) : Except Fail Target :=
  match r.target ref base with
  | .ok (uri, scheme) => r.open uri scheme
  | .error e => .error e

/-- irihelpers.py:45-100 `resolve` of a `urllib2.Request`: `scheme` has no value in line 76 (UnboundLocalError). -/
def Resolver.resolveRequest (r : Resolver) (url : Str) : Except Fail Target :=
  if r.rules ≠ [] ∧ authorize r.rules url = false then .error .denied else .error .name

/-- What a resolver with handlers does: it calls the handler of a scheme (or of `None`) with the arguments, or opens. -/
inductive Access where
  | handler (key : Option Str) (uri : Str) (base : Option Str)
  | target (t : Target)
deriving DecidableEq, Repr

/-- irihelpers.py:170-188 `scheme_registry_resolver.resolve`; `handlers` tells which keys have a handler.  The error of
line 178 is a NameError, for the name `Iri`. -/
def registryResolve (r : Resolver) (handlers : Option Str → Bool) (uri : Str) (base : Option Str) : Except Fail Access :=
  let scheme := match getScheme uri with
    | some s => some s
    | none => match base with
      | some b => getScheme b
      | none => none
  match scheme with
  | none => .error .name
  | some s =>
    if handlers (some s) then .ok (.handler (some s) uri base)
    else if handlers none then .ok (.handler none uri base)
    else match r.resolve uri base with
      | .ok t => .ok (.target t)
      | .error e => .error e

/-- What input sources see of the world: which paths are files, which strings look like XML, the working directory, and
the URN made for a text (`uuid4().urn`). -/
structure Env where
  isfile : Str → Bool
  isxml : Str → Bool
  cwd : Str
  urn : Str

/-- An input source: its URI and its resolver. -/
structure Source where
  uri : Str
  resolver : Resolver

/-- iri.py:1395-1405 `os_path_to_uri` with `attemptAbsolute`: a relative path is joined to the working directory (and its
dot segments are then kept). -/
def pathUri (env : Env) (path : Str) : Str :=
  if path.head? = some '/' then osPathToUri path
  else
    let path := if env.cwd.getLast? = some '/' then env.cwd ++ path else env.cwd ++ '/' :: path
    s!! "file://" ++ Py.join (s!! "/") ((Py.split '/' path).map (percentEncode {}))

/-- _inputsource.py:35-99: a new input source for a string, and what is opened for it. -/
def newSource (env : Env) (r : Resolver) (arg : Str) : Except Fail (Source × Option Target) :=
  if arg = [] then .error .value
  else if env.isxml arg then .ok (⟨env.urn, r⟩, none)
  else if isAbsolute arg ∧ env.isfile arg = false then
    match r.resolve arg none with
    | .ok t => .ok (⟨arg, r⟩, some t)
    | .error e => .error e
  else if arg.length < 1024 then
    match r.resolve (pathUri env arg) none with
    | .ok t => .ok (⟨pathUri env arg, r⟩, some t)
    | .error e => .error e
  else .error .value

/-- _inputsource.py:111-125 `resolve`, and input_source.c:99-141 for external entities: the reference is made absolute with
the URI of the source; the new source gets the default resolver (line 125: no argument `resolver`). -/
def Source.resolve (env : Env) (s : Source) (ref : Str) : Except Fail (Source × Option Target) :=
  match s.resolver.absolutize ref s.uri with
  | .ok uri => newSource env {} uri
  | .error e => .error (.iri e)

/-- What is opened when a source is made for `arg` and a chain of references is followed from it: each in the source that
the one before has given. -/
def chain (env : Env) : Source → List Str → List Target
  | _, [] => []
  | s, ref :: refs => match s.resolve env ref with
    | .ok (s, t) => t.toList ++ chain env s refs
    | .error _ => []

def opened (env : Env) (r : Resolver) (arg : Str) (refs : List Str) : List Target :=
  match newSource env r arg with
  | .ok (s, t) => t.toList ++ chain env s refs
  | .error _ => []

end Verif.Iri.Resolver
