import Verif.Eval.Model

/-
xsl:sort: `sorted_expression.evaluate_as_nodeset` (lib/xslt/expressions/__init__.py:25-60) and the keys of
lib/xslt/tree/sort_element.py.

Simplifications: `data-type`, `order` and `case-order` are constants (`setup` optimizes that case; the other one
evaluates them once per node or sort); variable references have their values, as in Verif.Eval.
-/
namespace Verif.Xslt
open Verif Verif.XPath Verif.Dom Verif.Eval

/-- What Python knows about the case of characters: `lower()`, `islower()`, `isupper()`. -/
structure CaseTable where
  lower : Char → Char
  isLower : Char → Bool
  isUpper : Char → Bool

/-- `case-order`. -/
inductive CaseOrder | lowerFirst | upperFirst
  deriving DecidableEq

/-- An `xsl:sort` element (sort_element.py:11-26). -/
structure SortKey where
  select : Expr
  number : Bool
  caseOrder : Option CaseOrder
  descending : Bool

/-- The value of a key: a unicode string or a number. -/
inductive KVal
  | str (s : Str)
  | num (x : XNum)
  deriving DecidableEq

/-- `cmp(a, b)` for two unicode strings, by code points. -/
def cmpText : Str → Str → Ordering
  | [], [] => .eq
  | [], _ :: _ => .lt
  | _ :: _, [] => .gt
  | a :: as, b :: bs => if a < b then .lt else if b < a then .gt else cmpText as bs

/-- `_number_compare` (sort_element.py:75-82). -/
def cmpNumber (a b : XNum) : Ordering :=
  if a.val = .nan then if b.val = .nan then .eq else .lt
  else if b.val = .nan then .gt
  else if a.val.lt b.val then .lt
  else if b.val.lt a.val then .gt
  else .eq

/-- The loop over the characters of two strings that are equal ignoring case (87-91, 99-103): `first` is what is
said if they differ at a character. -/
def caseLoop (first : Char → Bool) : Str → Str → Ordering
  | a :: as, b :: bs => if a ≠ b then if first a then .lt else .gt else caseLoop first as bs
  | _, _ => .eq

/-- `_lower_first_compare`, `_upper_first_compare` (84-104). -/
def cmpCase (tbl : CaseTable) (o : CaseOrder) (a b : Str) : Ordering :=
  if a.map tbl.lower = b.map tbl.lower then
    caseLoop (match o with | .lowerFirst => tbl.isLower | .upperFirst => tbl.isUpper) a b
  else cmpText a b

/-- `_get_compare` (41-53): the comparison for a key.  Values of different types do not occur. -/
def SortKey.compare (tbl : CaseTable) (k : SortKey) : KVal → KVal → Ordering
  | .num a, .num b => cmpNumber a b
  | .str a, .str b => match k.caseOrder with
    | none => cmpText a b
    | some o => cmpCase tbl o a b
  | _, _ => .eq

/-- `get_key` (65-73). -/
def SortKey.value (d : Doc) (fuel : Nat) (k : SortKey) (c : Ctx) : Out KVal :=
  if k.number then (eval d fuel .num k.select c).bind fun v c => match v with
    | .sc (.num x) => .ok (.num x) c
    | _ => .raise .typeError
  else (eval d fuel .str k.select c).bind fun v c => match v with
    | .sc (.str s) => .ok (.str s) c
    | _ => .raise .typeError

/-- The values of all keys for the context node (expressions/__init__.py:49). -/
def keyValues (d : Doc) (fuel : Nat) : List SortKey → Ctx → Out (List KVal)
  | [], c => .ok [] c
  | k :: ks, c => (k.value d fuel c).bind fun v c => (keyValues d fuel ks c).bind fun vs c => .ok (v :: vs) c

/-- An element of `decorated`: the node and the values of the keys. -/
abbrev Row := Nat × List KVal

/-- The loop at 44-49; `p` is the position before it is incremented. -/
def decorate (d : Doc) (fuel : Nat) (keys : List SortKey) : Nat → List Nat → Ctx → Out (List Row)
  | _, [], c => .ok [] c
  | p, n :: l, c =>
    (keyValues d fuel keys { c with node := n, current := n, position := p + 1 }).bind fun vs c =>
      (decorate d fuel keys (p + 1) l c).bind fun rows c => .ok ((n, vs) :: rows) c

/-- Insertion before the first element that is not smaller. -/
def insertBy {α : Type} (cmp : α → α → Ordering) (x : α) : List α → List α
  | [] => [x]
  | y :: ys => if cmp y x = .lt then y :: insertBy cmp x ys else x :: y :: ys

/-- `list.sort(cmp)`: a stable sort (written as insertion sort; CPython's merge sort gives the same result for every
comparison that is consistent). -/
def stableSort {α : Type} (cmp : α → α → Ordering) : List α → List α
  | [] => []
  | x :: xs => insertBy cmp x (stableSort cmp xs)

/-- `list.sort(cmp, reverse)`: with `reverse` the list is reversed before and after. -/
def listSort {α : Type} (cmp : α → α → Ordering) (reverse : Bool) (l : List α) : List α :=
  if reverse then (stableSort cmp l.reverse).reverse else stableSort cmp l

/-- The comparison of two rows by the key at an index: `key=operator.itemgetter(index)`. -/
def rowCompare (tbl : CaseTable) (k : SortKey) (i : Nat) (a b : Row) : Ordering :=
  match a.2[i]?, b.2[i]? with
  | some u, some v => k.compare tbl u v
  | _, _ => .eq

/-- The loop at 53-58: one sort for each key. -/
def sortLoop (tbl : CaseTable) : List SortKey → Nat → List Row → List Row
  | [], _, l => l
  | k :: ks, i, l => sortLoop tbl ks (i + 1) (listSort (rowCompare tbl k i) k.descending l)

/-- The nodes to be sorted (35-38). -/
def sortInput (d : Doc) (fuel : Nat) : Option Expr → Ctx → Out (List Nat)
  | none, c => .ok (d.h.kids c.node) c
  | some e, c => (eval d fuel .nodes e c).bind fun v c => match v with
    | .nodes l => .ok l c
    | .sc _ => .raise .typeError

/-- `sorted_expression.evaluate_as_nodeset` (34-59).  `self.keys` are the `xsl:sort` elements in reverse order
(28). -/
def sortedNodes (d : Doc) (tbl : CaseTable) (fuel : Nat) (e : Option Expr) (keys : List SortKey) (c : Ctx) :
    Out (List Nat) :=
  (sortInput d fuel e c).bind fun nodes c =>
    (decorate d fuel keys.reverse 0 nodes { c with size := nodes.length }).bind fun rows c' =>
      .ok ((sortLoop tbl keys.reverse 0 rows).map (·.1))
        { c' with node := c.node, position := c.position, size := c.size }

end Verif.Xslt
