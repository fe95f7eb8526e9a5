import Verif.Py
/-
`paramvalue` and `parameterize` (lib/xpath/util.py:125-200). UTF-8 decoding is a parameter.
-/
namespace Verif.Path.Params

/-- A Python object, by the type tests of `paramvalue`. `N` are nodes, `X` XPath values, `F` numbers. -/
inductive Obj (N X F : Type) where
  | xpath (x : X)
  | uni (s : Str)
  | bytes (b : List Nat)
  | bool (b : Bool)
  | num (f : F)
  | node (n : N)
  | seq (items : List (Obj N X F))
  | other

/-- The value: `texts` is a node-set of new text nodes in one entity, in order; `nodes` a node-set of the given nodes, which
`nodeset` (lib/xpath/src/datatypes.c:1315-1345) sorts in document order; the sorting is not modelled. -/
inductive Val (N X F : Type) where
  | given (x : X)
  | string (s : Str)
  | boolean (b : Bool)
  | number (f : F)
  | node (n : N)
  | texts (data : List Str)
  | nodes (ns : List N)
deriving DecidableEq

variable {N X F : Type}

/-- lib/xpath/util.py:155-157: the test of the first loop. -/
def isString : Obj N X F → Bool
  | .uni _ => true
  | .bytes _ => true
  | _ => false

/-- lib/xpath/util.py:161-167: the character data of an item. -/
def textOf (utf8 : List Nat → Option Str) : Obj N X F → Option Str
  | .uni s => some s
  | .bytes b => utf8 b
  | _ => none

/-- lib/xpath/util.py:170-172. -/
def nodeOf : Obj N X F → Option N
  | .node n => some n
  | _ => none

/-- The loops over the items stop at the first that cannot be used. -/
def collect {A B : Type} (f : A → Option B) : List A → Option (List B)
  | [] => some []
  | a :: r => (f a).bind (fun b => (collect f r).map (b :: ·))

/-- lib/xpath/util.py:125-175 `paramvalue`. -/
def paramvalue (utf8 : List Nat → Option Str) : Obj N X F → Option (Val N X F)
  | .xpath x => some (.given x)
  | .uni s => some (.string s)
  | .bytes b => (utf8 b).map .string
  | .bool b => some (.boolean b)
  | .num f => some (.number f)
  | .node n => some (.node n)
  | .seq items =>
    if items.all isString then (collect (textOf utf8) items).map .texts
    else (collect nodeOf items).map .nodes
  | .other => none

/-- A key of the dictionary. -/
inductive Key where
  | uni (s : Str)
  | bytes (b : List Nat)
  | tuple (ns : Option Str) (name : Str)
  | other
deriving DecidableEq

/-- A dictionary as its entries in the order of insertion; a new value for an old key takes its place. -/
def setItem {K V : Type} [DecidableEq K] (d : List (K × V)) (k : K) (v : V) : List (K × V) :=
  if d.any (fun e => e.1 = k) then d.map (fun e => if e.1 = k then (k, v) else e) else d ++ [(k, v)]

def getItem {K V : Type} [DecidableEq K] (d : List (K × V)) (k : K) : Option V :=
  (d.find? (fun e => e.1 = k)).map (·.2)

/-- lib/xpath/util.py:194-198: the entry for one key. A byte string that is not UTF-8 raises. -/
def putKey {V : Type} (utf8 : List Nat → Option Str) (ns : Option Str) (d : List ((Option Str × Str) × V)) (key : Key) (v : V) :
    Option (List ((Option Str × Str) × V)) :=
  match key with
  | .uni s => some (setItem d (ns, s) v)
  | .bytes b => (utf8 b).map (fun s => setItem d (ns, s) v)
  | .tuple n s => some (setItem d (n, s) v)
  | .other => some d

/-- lib/xpath/util.py:178-200 `parameterize`; `none` when it raises. -/
def parameterize (utf8 : List Nat → Option Str) (ns : Option Str) (d : List ((Option Str × Str) × Val N X F)) :
    List (Key × Obj N X F) → Option (List ((Option Str × Str) × Val N X F))
  | [] => some d
  | (key, obj) :: r =>
    match paramvalue utf8 obj with
    | none => parameterize utf8 ns d r
    | some v =>
      match putKey utf8 ns d key v with
      | none => none
      | some d' => parameterize utf8 ns d' r

end Verif.Path.Params
