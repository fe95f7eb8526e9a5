import Verif.Dom.Heap

/-
`node_richcompare` (lib/src/domlette/node.c:771-891).
-/
namespace Verif.Dom

/-- The six comparison operators of Python. -/
inductive Rel | lt | le | eq | ne | gt | ge
  deriving DecidableEq, Repr

/-- The comparison of two numbers with an operator (node.c:862-884, and Python's comparison of two
integers). -/
def Rel.on (op : Rel) (x y : Int) : Bool :=
  match op with
  | .lt => x < y
  | .le => x ≤ y
  | .eq => x = y
  | .ne => x ≠ y
  | .gt => x > y
  | .ge => x ≥ y

/-- "traverse to the top of each tree" (node.c:802-815): the top and the depth.  `none`: not reached
after `fuel` steps. -/
def climb (h : Heap) : Nat → NodeId → Option (NodeId × Nat)
  | 0, _ => none
  | fuel + 1, n => match h.parent n with
    | none => some (n, 0)
    | some p => match climb h fuel p with
      | none => none
      | some (top, d) => some (top, d + 1)

/-- Follow `k` parent pointers (node.c:836-842). -/
def up (h : Heap) : Nat → NodeId → NodeId
  | 0, n => n
  | k + 1, n => match h.parent n with
    | none => n
    | some p => up h k p

/-- "find the nodes common parent" (node.c:845-853): both nodes move up together until their parents
are the same. -/
def meet (h : Heap) : Nat → NodeId → NodeId → Option (NodeId × NodeId × NodeId)
  | 0, _, _ => none
  | fuel + 1, a, b => match h.parent a, h.parent b with
    | some pa, some pb => if pa = pb then some (pa, a, b) else meet h fuel pa pb
    | _, _ => none

/-- "get the nodes position in the child list" (node.c:856-864): -1 if a node is not found. -/
def positions (a b : NodeId) : List NodeId → Int → Int × Int → Int × Int
  | [], _, acc => acc
  | x :: xs, i, (da, db) =>
    positions a b xs (i + 1) (if x = a then (i, db) else if x = b then (da, i) else (da, db))

/-- The two numbers compared at the end, for two nodes below the same top (node.c:830-865). -/
def orderKeys (h : Heap) (a b : NodeId) (da db : Nat) : Option (Int × Int) :=
  if da > 0 ∧ db > 0 then
    let a' := up h (da - db) a
    let b' := up h (db - da) b
    if a' ≠ b' then
      match meet h (h.size + 1) a' b' with
      | none => none
      | some (p, a'', b'') => some (positions a'' b'' (h.kids p) 0 (-1, -1))
    else some (da, db)
  else some (da, db)

/-- The key of a tree (node.c:817-822): the creation index of an entity, None otherwise; Python 2
orders None before all numbers. -/
def docKey (h : Heap) (index : NodeId → Nat) (top : NodeId) : Int :=
  if h.kind top = .entity then index top else -1

/-- `node_richcompare` (node.c:771-891).  `index` is the creation index of entities (unique, so
comparing the index objects is comparing the entities).  `none`: NotImplemented, that is Python's
default comparison by address. -/
def nodeCompare (h : Heap) (index : NodeId → Nat) (op : Rel) (a b : NodeId) : Option Bool :=
  if a = b then some (op.on 0 0)
  else match climb h (h.size + 1) a, climb h (h.size + 1) b with
    | some (ta, da), some (tb, db) =>
      if (h.kind ta = .entity ∨ h.kind tb = .entity) ∧ ta ≠ tb then
        some (op.on (docKey h index ta) (docKey h index tb))
      else if ta ≠ tb then none
      else match orderKeys h a b da db with
        | some (ka, kb) => some (op.on ka kb)
        | none => none
    | _, _ => none

end Verif.Dom
