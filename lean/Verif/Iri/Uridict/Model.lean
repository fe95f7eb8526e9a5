import Verif.Iri.PercentModel
/-
Model of lib/lib/irihelpers.py:226-291 `uridict` and of lib/xslt/functions/__init__.py:24-70 `document()`.

Simplifications: byte strings (or ASCII unicode) as keys; a dictionary is the list of its items, in any order; documents
are numbers, given in the order in which they are made.
-/
namespace Verif.Iri.Uridict
open Verif.Iri

/-- irihelpers.py:262-267 `_normalizekey`. -/
def key (u : Str) : Except Err Str :=
  match normalizeCaseStr false (normalizePercentEncoding u) with
  | .ok k => .ok (if k.take 17 = s!! "file://localhost/" then s!! "file://" ++ k.drop 16 else k)
  | .error e => .error e

/-- A `dict`. -/
abbrev Dict (V : Type) := List (Str × V)

/-- `dict.__getitem__`; `none` is the KeyError. -/
def Dict.get {V : Type} (d : Dict V) (k : Str) : Option V := d.lookup k
/-- `dict.__setitem__`. -/
def Dict.set {V : Type} : Dict V → Str → V → Dict V
  | [], k, v => [(k, v)]
  | (k', v') :: d, k, v => if k' = k then (k, v) :: d else (k', v') :: Dict.set d k v
/-- `dict.__delitem__` of a key that there is. -/
def Dict.del {V : Type} (d : Dict V) (k : Str) : Dict V := d.filter (fun x => x.1 ≠ k)

inductive Op (V : Type) where
  | get (u : Str)
  | set (u : Str) (v : V)
  | del (u : Str)
  | mem (u : Str)
  | hasKey (u : Str)

inductive Res (V : Type) where
  | value (v : V)
  | done
  | bool (b : Bool)
  | keyError
  | fail (e : Err)
deriving DecidableEq

/-- irihelpers.py:269-282: the methods. -/
def step {V : Type} (d : Dict V) : Op V → Dict V × Res V
  | .get u => match key u with
    | .ok k => match d.get k with
      | some v => (d, .value v)
      | none => (d, .keyError)
    | .error e => (d, .fail e)
  | .set u v => match key u with
    | .ok k => (d.set k v, .done)
    | .error e => (d, .fail e)
  | .del u => match key u with
    | .ok k => match d.get k with
      | some _ => (d.del k, .done)
      | none => (d, .keyError)
    | .error e => (d, .fail e)
  | .mem u => match key u with
    | .ok k => (d, .bool (d.get k).isSome)
    | .error e => (d, .fail e)
  | .hasKey u => match key u with
    | .ok k => (d, .bool (d.get k).isSome)
    | .error e => (d, .fail e)

/-- The dictionary after a history. -/
def run {V : Type} (d : Dict V) : List (Op V) → Dict V
  | [] => d
  | o :: os => run (step d o).1 os

/-- irihelpers.py:284-291 `__iter__`, `iterkeys`: the keys of the dict. -/
def keys {V : Type} (d : Dict V) : List Str := d.map Prod.fst

/-- irihelpers.py:288-291 `iteritems`: each key with what `__getitem__` gives for it, or its exception. -/
def iteritems {V : Type} (d : Dict V) : List (Str × Res V) := (keys d).map fun k => (k, (step d (.get k)).2)

/-- `get`, which is not overridden: the key as it is. -/
def plainGet {V : Type} (d : Dict V) (u : Str) : Option V := d.get u
/-- `update`, and the arguments of the constructor, which are not overridden. -/
def plainUpdate {V : Type} (d : Dict V) (items : List (Str × V)) : Dict V := items.foldl (fun d x => d.set x.1 x.2) d

/-! ### document() -/

/-- What a transformation has: the cache `context.documents`, the number of the next document, and the URIs that have been
parsed, with the documents that were made for them. -/
structure Ctx where
  docs : Dict Nat
  next : Nat
  parsed : List (Str × Nat)

/-- The world: whether parsing gives a document (it may change with time, that is with the number of documents); the
texts of stylesheets (`sources`) are parsed the same way. -/
abbrev World := Nat → Str → Bool

inductive Fail where
  | iri (e : Err)
  | noBase
  | name
  | parse
  | keyError
deriving DecidableEq

/-- functions/__init__.py:59-69: one turn of the loop. -/
def one (w : World) (c : Ctx) (uri : Str) : Except Fail (Ctx × Nat) :=
  match (step c.docs (.mem uri)).2 with
  | .bool true => match (step c.docs (.get uri)).2 with
    | .value d => .ok (c, d)
    | .fail e => .error (.iri e)
    | _ => .error .keyError
  | .fail e => .error (.iri e)
  | _ =>
    if w c.next uri then
      match step c.docs (.set uri c.next) with
      | (docs, .done) => .ok ({ docs := docs, next := c.next + 1, parsed := c.parsed ++ [(uri, c.next)] }, c.next)
      | _ => .error .parse
    else .error .parse

/-- functions/__init__.py:59-69: the loop. -/
def all (w : World) : Ctx → List Str → Except Fail (Ctx × List Nat)
  | c, [] => .ok (c, [])
  | c, u :: us => match one w c u with
    | .error e => .error e
    | .ok (c, d) => match all w c us with
      | .error e => .error e
      | .ok (c, ds) => .ok (c, d :: ds)

/-- The first argument: a string, or a node-set (of each node the string-value and the base URI). -/
inductive Arg where
  | str (s : Str)
  | nodes (l : List (Str × Option Str))

/-- functions/__init__.py:44, 49: the assertion, and `absolutize`. -/
def absolute (u : Str) (base : Option Str) : Except Fail Str :=
  match base with
  | none => if isAbsolute u then .ok u else .error .noBase
  | some b => if b = [] ∧ !isAbsolute u then .error .noBase else match absolutize u b with
    | .ok a => .ok a
    | .error e => .error (.iri e)

/-- functions/__init__.py:40-46: the URIs of the nodes, without equal ones. -/
def nodeUris (base : Option (Option Str)) : List (Str × Option Str) → Except Fail (List Str)
  | [] => .ok []
  | (u, b) :: l => match absolute u (base.getD b) with
    | .error e => .error e
    | .ok a => match nodeUris base l with
      | .error e => .error e
      | .ok us => .ok (if a ∈ us then us else a :: us)

/-- functions/__init__.py:29-50.  `inst` is the base URI of the instruction, `second` the second argument (the base URIs of
its nodes); `hash` is the order in which a set of strings is read.  Line 36 is a NameError, for XsltRuntimeError. -/
def uris (hash : List Str → List Str) (inst : Option Str) (arg : Arg) (second : Option (List (Option Str))) : Except Fail (List Str) :=
  match second with
  | some [] => .error .name
  | some (b :: _) => match arg with
    | .str s => match absolute s b with
      | .ok a => .ok [a]
      | .error e => .error e
    | .nodes l => match nodeUris (some b) l with
      | .ok us => .ok (hash us)
      | .error e => .error e
  | none => match arg with
    | .str s => match absolute s inst with
      | .ok a => .ok [a]
      | .error e => .error e
    | .nodes l => match nodeUris none l with
      | .ok us => .ok (hash us)
      | .error e => .error e

/-- A call of document(). -/
structure Call where
  inst : Option Str
  arg : Arg
  second : Option (List (Option Str)) := none

/-- functions/__init__.py:29-70: the elements of the result (a node-set sorts them in document order, and does not remove
repeated ones: datatypes.c:1338-1345). -/
def document (hash : List Str → List Str) (w : World) (c : Ctx) (call : Call) : Except Fail (Ctx × List Nat) :=
  match uris hash call.inst call.arg call.second with
  | .ok us => all w c us
  | .error e => .error e

/-- processor.py:541 `add_document`: the context at the start, with the source document (0) if it has a base URI. -/
def start (base : Option Str) : Ctx :=
  match base with
  | none => { docs := [], next := 1, parsed := [] }
  | some b => if b = [] then { docs := [], next := 1, parsed := [] }
      else { docs := (step [] (.set b 0)).1, next := 1, parsed := [(b, 0)] }

/-- The calls of a transformation one after the other, each with its result; the first exception ends it. -/
def transform (hash : List Str → List Str) (w : World) : Ctx → List Call → Except Fail (Ctx × List (List Nat))
  | c, [] => .ok (c, [])
  | c, call :: calls => match document hash w c call with
    | .error e => .error e
    | .ok (c, r) => match transform hash w c calls with
      | .error e => .error e
      | .ok (c, rs) => .ok (c, r :: rs)

end Verif.Iri.Uridict
