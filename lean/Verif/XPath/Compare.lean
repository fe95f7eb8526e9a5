import Verif.XPath.Num

/-
The comparison operators (lib/xpath/src/datatypes.c:448-539, 1391-1560), compiled to COMPARE_OP by
expressions/booleans.py:61-80.  Nodes are represented by their string-values
(`node_to_string`, modelled in Verif.Dom); Python objects of other types are not modelled.
-/
namespace Verif.XPath
open Verif

/-- The six comparison operators (Py_EQ ... Py_GE). -/
inductive Op | eq | ne | lt | le | gt | ge
  deriving DecidableEq, Repr

/-- The table `_Py_SwappedOp` of CPython, used when the right operand does the comparison. -/
def Op.swap : Op → Op
  | .eq => .eq
  | .ne => .ne
  | .lt => .gt
  | .le => .ge
  | .gt => .lt
  | .ge => .le

/-- Strings, numbers and booleans. -/
inductive Scalar
  | str (s : Str) | num (x : XNum) | bool (b : Bool)
  deriving DecidableEq

/-- The four XPath types; a node-set is the list of the string-values of its nodes. -/
inductive Val
  | sc (v : Scalar)
  | nodes (l : List Str)
  deriving DecidableEq

/-- What can go wrong: an exception, or (in the loop of datatypes.c:1466-1490) a read past the end of
an array. -/
inductive CmpErr | py (e : PyErr) | outOfBounds
  deriving DecidableEq, Repr

deriving instance DecidableEq for Except

/-- `Boolean_New` (datatypes.c:378-404): `dval != 0.0 && dval == dval`, or `PyObject_IsTrue`. -/
def toBoolean : Scalar → Bool
  | .bool b => b
  | .num x => !x.val.eq (.fin 0) && x.val.eq x.val
  | .str s => !s.isEmpty

/-- `Number_New` (datatypes.c:306-376) on scalars. -/
def toNumber (R : Rounding) : Scalar → Except PyErr XNum
  | .num x => .ok x
  | .bool b => .ok (mkNumber (.fin (if b then 1 else 0)))
  | .str s => numberOfString R s

/-- `float_richcompare` of CPython on two floats. -/
def cmpFloat (op : Op) (a b : Dbl) : Bool :=
  match op with
  | .eq => a.eq b
  | .ne => !a.eq b
  | .lt => a.lt b
  | .le => a.le b
  | .gt => b.lt a
  | .ge => b.le a

/-- `int_compare` of CPython on two booleans, mapped to the operator (datatypes.c:507-519). -/
def cmpBool (op : Op) (a b : Bool) : Bool :=
  let c : Int := if a.toNat < b.toNat then -1 else if a.toNat > b.toNat then 1 else 0
  match op with
  | .eq => c = 0
  | .ne => c ≠ 0
  | .le => c ≤ 0
  | .ge => c ≥ 0
  | .lt => c = -1
  | .gt => c = 1

/-- The numeric branch of `object_richcompare`. -/
def cmpNum (R : Rounding) (op : Op) (v w : Scalar) : Except PyErr Bool :=
  match toNumber R v with
  | .error e => .error e
  | .ok a => match toNumber R w with
    | .error e => .error e
    | .ok b => .ok (cmpFloat op a.val b.val)

/-- `object_richcompare` (datatypes.c:448-539) on scalars. -/
def cmpScalar (R : Rounding) (op : Op) (v w : Scalar) : Except PyErr Bool :=
  if op = .eq ∨ op = .ne then
    match v, w with
    | .bool a, w => .ok (cmpBool op a (toBoolean w))
    | v, .bool b => .ok (cmpBool op (toBoolean v) b)
    | .num a, w => cmpNum R op (.num a) w
    | v, .num b => cmpNum R op v (.num b)
    | .str a, .str b => .ok (if op = .eq then a = b else a ≠ b)
  else cmpNum R op v w

/-- The loops of `nodeset_richcompare` over `v` (datatypes.c:1504-1523, 1533-1556): the first true
comparison ends the loop, an exception ends it too. -/
def anyScalar (R : Rounding) (op : Op) (conv : Str → Except PyErr Scalar) (w : Scalar) :
    List Str → Except PyErr Bool
  | [] => .ok false
  | a :: rest => match conv a with
    | .error e => .error e
    | .ok a => match cmpScalar R op a w with
      | .error e => .error e
      | .ok true => .ok true
      | .ok false => anyScalar R op conv w rest

/-- `Number_New` of a node. -/
def nodeNumber (R : Rounding) (s : Str) : Except PyErr Scalar :=
  match numberOfString R s with
  | .ok x => .ok (.num x)
  | .error e => .error e

/-- The relational loop on two node-sets (datatypes.c:1466-1490).  The inner loop runs `rhs_size`
times but always uses `rhs[i]` and `w[i]` with the index `i` of the outer loop, so only its first
round matters. -/
def relNodes (R : Rounding) (op : Op) (w : List Str) : Nat → List Str → Except CmpErr Bool
  | _, [] => .ok false
  | i, a :: rest => match numberOfString R a with
    | .error e => .error (.py e)
    | .ok a => match w[i]? with
      | none => .error .outOfBounds
      | some b => match numberOfString R b with
        | .error e => .error (.py e)
        | .ok b => if cmpFloat op a.val b.val then .ok true else relNodes R op w (i + 1) rest

/-- Turn the exceptions of the scalar functions into the errors of node-set comparison. -/
def liftErr : Except PyErr Bool → Except CmpErr Bool
  | .ok b => .ok b
  | .error e => .error (.py e)

/-- `nodeset_richcompare` (datatypes.c:1391-1560) with a node-set on the right. -/
def cmpNodes (R : Rounding) (op : Op) (v w : List Str) : Except CmpErr Bool :=
  if v.length = 0 ∨ w.length = 0 then .ok false
  else match op with
    | .eq => .ok (v.any fun a => w.contains a)
    | .ne => .ok (v.any fun a => w.any fun b => a ≠ b)
    | op => relNodes R op w 0 v

/-- `nodeset_richcompare` (datatypes.c:1391-1560) with a scalar on the right. -/
def cmpNodesScalar (R : Rounding) (op : Op) (v : List Str) (w : Scalar) : Except PyErr Bool :=
  match w with
  | .bool b => cmpScalar R op (.bool (v.length ≠ 0)) (.bool b)
  | .num x => anyScalar R op (nodeNumber R) (.num x) v
  | .str s =>
    if op = .eq ∨ op = .ne then anyScalar R op (fun a => .ok (.str a)) (.str s) v
    else if v.length = 0 then .ok false
    else match numberOfString R s with
      | .error e => .error e
      | .ok x => anyScalar R op (nodeNumber R) (.num x) v

/-- `v op w`: Python's `PyObject_RichCompare`.  `object_richcompare` returns NotImplemented for a
node-set on the right, and then the node-set's comparison is called with the swapped operator. -/
def compare (R : Rounding) (op : Op) : Val → Val → Except CmpErr Bool
  | .sc v, .sc w => liftErr (cmpScalar R op v w)
  | .nodes v, .sc w => liftErr (cmpNodesScalar R op v w)
  | .sc v, .nodes w => liftErr (cmpNodesScalar R op.swap w v)
  | .nodes v, .nodes w => cmpNodes R op v w

end Verif.XPath
