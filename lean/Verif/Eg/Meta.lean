/-
Metadata extraction with examplotron models: the cues an example sets up,
`generate_metadata` and `metadata_dict`
(`lib/bindery/model/__init__.py`, `lib/bindery/model/examplotron.py`).
-/
import Verif.Eg.Model

namespace Verif.Eg.Meta
open Verif.Write (UStr)
open Verif.Eg (Name)

/-- The metadata cues on an element of the example: the values of its
`ak:resource`, `ak:rel`, `ak:value` and `ak:context` attributes, and the
names and values of its `ak:rel` child elements. -/
structure Attrs where
  resource : Option UStr := none
  rel : Option UStr := none
  value : Option UStr := none
  context : Option UStr := none
  rels : List (UStr × UStr) := []
deriving DecidableEq, Repr

/-- The metadata fields of a `content_model`
(lib/bindery/model/__init__.py:135-140).  Expressions stand for their source
text: that they parse is not modelled (a cue that does not parse is an
exception when the model is made). -/
structure Cues where
  resource : Option UStr := none
  rel : Option UStr := none
  value : Option UStr := none
  context : Option UStr := none
  others : List (UStr × UStr) := []
deriving DecidableEq, Repr

/-- `NODE_ID_MARKER` (lib/bindery/model/__init__.py:48). -/
def marker : UStr := u!! "generate-id()"

def localName : UStr := u!! "local-name()"

def dot : UStr := u!! "."

/-- lib/bindery/model/examplotron.py:72-75 -/
def setResource (mod : Cues) (a : Attrs) : Cues :=
  match a.resource with
  | none => mod
  | some r => { mod with resource := some (if r = [] then marker else r) }

/-- lib/bindery/model/examplotron.py:78-83 -/
def setRel (mod : Cues) (a : Attrs) : Cues :=
  match a.rel with
  | none => mod
  | some r => { mod with rel := some (if r = [] then localName else r) }

/-- lib/bindery/model/examplotron.py:84-89 -/
def setValue (mod : Cues) (a : Attrs) : Cues :=
  match a.value with
  | none => mod
  | some v => { mod with value := some (if v = [] then dot else v) }

/-- lib/bindery/model/examplotron.py:90-95 -/
def setContext (mod : Cues) (a : Attrs) : Cues := { mod with context := a.context }

/-- lib/bindery/model/examplotron.py:101-111: the defaults. -/
def setDefaults (mod : Cues) : Cues :=
  if mod.resource.isSome then
    if mod.value.isSome && mod.rel.isNone then { mod with rel := some localName } else mod
  else if mod.rel.isSome && mod.value.isNone then { mod with value := some dot }
  else if mod.value.isSome && mod.rel.isNone then { mod with rel := some localName }
  else mod

/-- lib/bindery/model/examplotron.py:71-122: one element of the example
changes the model of its class. -/
def applyCues (mod : Cues) (a : Attrs) : Cues :=
  let mod := setDefaults (setContext (setValue (setRel (setResource mod a) a) a) a)
  { mod with others := mod.others ++ a.rels }

/-- The models of the element classes. -/
abbrev Models := Name → Cues

/-- lib/bindery/model/examplotron.py:55-126 over the elements of the example,
which are visited in document order (given as the list of names and cues). -/
def setupCues (m : Models) : List (Name × Attrs) → Models
  | [] => m
  | (n, a) :: es => setupCues (fun k => if k = n then applyCues (m n) a else m k) es

/-- A fresh model has no cues (lib/bindery/model/__init__.py:135-140). -/
def noCues : Models := fun _ => {}

/-- A value of a metadata triple: a list (node-sets are lists) or anything
else. -/
inductive Val where
  | atom (s : UStr)
  | node (id : Nat)
  | list (vs : List Val)
deriving Repr

/-- An element of the instance document; the number stands for its
identity. -/
inductive El where
  | elem (name : Name) (id : Nat) (kids : List El)
deriving Repr

def El.name : El → Name | .elem n _ _ => n
def El.id : El → Nat | .elem _ i _ => i
def El.kids : El → List El | .elem _ _ k => k

/-- The XPath evaluator at an element: the string and the value of an
expression, its truth, and the node identifier. -/
structure Env where
  str : UStr → Nat → UStr
  val : UStr → Nat → Val
  test : UStr → Nat → Bool
  nodeId : Nat → UStr

abbrev Triple := UStr × UStr × Val

/-- lib/bindery/model/__init__.py:188-190 -/
def inContext (env : Env) (c : Cues) (i : Nat) : Bool :=
  match c.context with
  | none => true
  | some e => env.test e i

/-- lib/bindery/model/__init__.py:192-197 -/
def newResource (env : Env) (c : Cues) (i : Nat) : Option UStr :=
  match c.resource with
  | none => none
  | some e => if e = marker then some (env.nodeId i) else some (env.str e i)

/-- lib/bindery/model/__init__.py:202-210: the value of a relationship. -/
def relValue (env : Env) (c : Cues) (i : Nat) (new : Option UStr) : Val :=
  match c.value, new with
  | some e, _ => env.val e i
  | none, some r => .atom r
  | none, none => .list [.node i]

/-- lib/bindery/model/__init__.py:199-211 -/
def ownRel (env : Env) (c : Cues) (i : Nat) (resource : UStr) (new : Option UStr) : List Triple :=
  match c.rel with
  | none => []
  | some e => [(resource, env.str e i, relValue env c i new)]

/-- lib/bindery/model/__init__.py:221-224 -/
def otherRels (env : Env) (c : Cues) (i : Nat) (resource : UStr) : List Triple :=
  c.others.map fun (re, ve) => (resource, env.str re i, env.val ve i)

mutual
/-- lib/bindery/model/__init__.py:185-229 `handle_element` -/
def handle (env : Env) (m : Models) : El → UStr → List Triple
  | .elem n i kids, resource =>
    if inContext env (m n) i then
      let new := newResource env (m n) i
      let inner := new.getD resource
      ownRel env (m n) i resource new ++ (otherRels env (m n) i inner ++ handles env m kids inner)
    else []
/-- The loop over the child elements, and over the top elements. -/
def handles (env : Env) (m : Models) : List El → UStr → List Triple
  | [], _ => []
  | e :: es, resource => handle env m e resource ++ handles env m es resource
end

/-- lib/bindery/model/__init__.py:177-234 `generate_metadata(root)` for a
document with these top elements, or for one element. -/
def generateMetadata (env : Env) (m : Models) (tops : List El) (base : UStr) : List Triple :=
  handles env m tops base

/-! ### `metadata_dict` -/

/-- `sorted(metadata, key=itemgetter(0))`: a stable sort. -/
def insertRow (x : Triple) : List Triple → List Triple
  | [] => [x]
  | y :: ys => if x.1 ≤ y.1 then x :: y :: ys else y :: insertRow x ys

def sortRows : List Triple → List Triple
  | [] => []
  | x :: xs => insertRow x (sortRows xs)

/-- `itertools.groupby(rows, itemgetter(0))` -/
def groupRows : List Triple → List (UStr × List Triple)
  | [] => []
  | x :: xs =>
    match groupRows xs with
    | [] => [(x.1, [x])]
    | (r, g) :: rest => if x.1 = r then (r, x :: g) :: rest else (x.1, [x]) :: (r, g) :: rest

/-- A Python dictionary as the list of its items. -/
abbrev Dict (α : Type) := List (UStr × α)

def Dict.get? {α : Type} (d : Dict α) (k : UStr) : Option α :=
  (d.find? fun kv => kv.1 == k).map (·.2)

def Dict.set {α : Type} : Dict α → UStr → α → Dict α
  | [], k, v => [(k, v)]
  | (k', v') :: d, k, v => if k' = k then (k, v) :: d else (k', v') :: Dict.set d k v

/-- lib/bindery/model/__init__.py:287-293: one row enters the dictionary of
its resource. -/
def addRow (d : Dict Val) (key : UStr) (v : Val) : Dict Val :=
  match Dict.get? d key with
  | some (.list vs) => Dict.set d key (.list (vs ++ [v]))
  | some old => Dict.set d key (.list [old, v])
  | none => Dict.set d key v

/-- lib/bindery/model/__init__.py:284-293 -/
def rowsDict : List Triple → Dict Val → Dict Val
  | [], d => d
  | (_, key, v) :: rows, d => rowsDict rows (addRow d key v)

/-- The groups, each with its dictionary. -/
def resourceDicts (rows : List Triple) : List (UStr × Dict Val) :=
  (groupRows (sortRows rows)).map fun (rid, g) => (rid, rowsDict g [])

/-- lib/bindery/model/__init__.py:294-297: the loop's result for
`nesteddict=True`. -/
def nest (gs : List (UStr × Dict Val)) (acc : Dict (Dict Val)) : Dict (Dict Val) :=
  match gs with
  | [] => acc
  | (rid, d) :: gs => nest gs (Dict.set acc rid d)

/-- lib/bindery/model/__init__.py:273-299 `metadata_dict(metadata)`: the
dictionary and the first identifier (`none` for the marker object). -/
def metadataDict (rows : List Triple) : Dict (Dict Val) × Option UStr :=
  (nest (resourceDicts rows) [], (resourceDicts rows).head?.map (·.1))

/-- `metadata_dict(metadata, nesteddict=False)` -/
def metadataList (rows : List Triple) : List (UStr × Dict Val) × Option UStr :=
  (resourceDicts rows, (resourceDicts rows).head?.map (·.1))

end Verif.Eg.Meta
