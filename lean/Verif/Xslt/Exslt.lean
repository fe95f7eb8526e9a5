import Verif.Py
import Verif.XPath.Num

/-
The EXSLT functions for sets (lib/xslt/exslt/sets.py) and some of those for numbers
(lib/xslt/exslt/math.py).

Nodes are the members of an arbitrary type.  `lt` is `<` on nodes, document order.  Arguments are given by
the lists that `evaluate_as_nodeset` returns.  Python's sets and dictionaries are lists without duplicates
that are iterated over in an arbitrary order `ord`; two nodes are the same member of a set only if they are
identical, as their hash is their address (node.c `node_hash`).
-/
namespace Verif.Xslt
open Verif

section Sets
variable {α : Type} [DecidableEq α] (lt : α → α → Bool)

/-- Insert into a sorted list, behind equal items. -/
def insertSorted (x : α) : List α → List α
  | [] => [x]
  | y :: ys => if lt x y then x :: y :: ys else y :: insertSorted x ys

/-- `datatypes.nodeset(sequence)` (xpath/src/datatypes.c:1315-1346): `PyList_Sort`, which is stable.  (For
a strict weak order all stable sorting algorithms have the same result.) -/
def nodeset (l : List α) : List α := l.reverse.foldr (insertSorted lt) []

/-- `set(l)`. -/
def pySet : List α → List α
  | [] => []
  | x :: l => if x ∈ pySet l then pySet l else x :: pySet l

/-- `difference_function` (sets.py:12-20). -/
def difference (ord : List α → List α) (ns1 ns2 : List α) : List α :=
  nodeset lt (ord ((pySet ns1).filter (!(pySet ns2).contains ·)))

/-- `intersection_function` (sets.py:55-62). -/
def intersection (ord : List α → List α) (ns1 ns2 : List α) : List α :=
  nodeset lt (ord ((pySet ns1).filter ((pySet ns2).contains ·)))

/-- `has_same_node_function` (sets.py:39-52). -/
def hasSameNode : List α → List α → Bool
  | [], _ => false
  | x :: ns1, ns2 => if (pySet ns2).contains x then true else hasSameNode ns1 ns2

/-- `d[k] = v`. -/
def assign (d : List (Str × α)) (k : Str) (v : α) : List (Str × α) :=
  match d with
  | [] => [(k, v)]
  | (k', v') :: d => if k' = k then (k', v) :: d else (k', v') :: assign d k v

/-- `dict(pairs)`. -/
def toDict (pairs : List (Str × α)) : List (Str × α) := pairs.foldl (fun d p => assign d p.1 p.2) []

/-- `distinct_function` (sets.py:23-36): the result, and the argument's list, which has been reversed in
place.  If the argument is a variable, this list is the variable's value (xpath/expressions/basics.py:124-130:
`datatypes.nodeset(v)` is `v` itself, datatypes.c:1326-1329). -/
def distinct (ord : List α → List α) (str : α → Str) (ns : List α) : List α × List α :=
  let ns' := ns.reverse
  (nodeset lt (ord ((toDict (ns'.map fun n => (str n, n))).map (·.2))), ns')

end Sets

/-- `leading_function`, `trailing_function` (sets.py:65-108): both evaluate the name `nodeset`, which does
not exist, before anything else that depends on the arguments. -/
inductive NameError | nameError
  deriving DecidableEq, Repr

def leading {α : Type} (_ns1 _ns2 : List α) : Except NameError (List α) := .error .nameError
def trailing {α : Type} (_ns1 _ns2 : List α) : Except NameError (List α) := .error .nameError

open Verif.XPath (Dbl)

/-- The loop of `max_function` (math.py:168-174). -/
def maxLoop : Dbl → List Dbl → Dbl
  | m, [] => m
  | m, n :: ns => if Dbl.lt m n then maxLoop n ns else if n = .nan then n else maxLoop m ns

/-- `max_function` (math.py:157-174) on the numeric values of the nodes. -/
def mathMax : List Dbl → Dbl
  | [] => .nan
  | n :: ns => maxLoop n ns

/-- The loop of `min_function` (math.py:188-194). -/
def minLoop : Dbl → List Dbl → Dbl
  | m, [] => m
  | m, n :: ns => if Dbl.lt n m then minLoop n ns else if n = .nan then n else minLoop m ns

/-- `min_function` (math.py:177-194). -/
def mathMin : List Dbl → Dbl
  | [] => .nan
  | n :: ns => minLoop n ns

section
variable {α : Type} (num : α → Dbl)

/-- Python's `max(iterable, key=key)` for a non-empty iterable. -/
def pyMax : α → List α → α
  | m, [] => m
  | m, x :: xs => if Dbl.lt (num m) (num x) then pyMax x xs else pyMax m xs

/-- Python's `min(iterable, key=key)`. -/
def pyMin : α → List α → α
  | m, [] => m
  | m, x :: xs => if Dbl.lt (num x) (num m) then pyMin x xs else pyMin m xs

/-- `highest_function` (math.py:111-127).  `number == highest` compares a number with a node; the
comparison converts the node to a number (datatypes.c:472-474).  `none` is ValueError: `max()` of an empty
sequence. -/
def highest : List α → Option (List α)
  | [] => none
  | x :: xs => some ((x :: xs).filter fun n => Dbl.eq (num n) (num (pyMax num x xs)))

/-- `lowest_function` (math.py:138-154). -/
def lowest : List α → Option (List α)
  | [] => none
  | x :: xs => some ((x :: xs).filter fun n => Dbl.eq (num n) (num (pyMin num x xs)))

end

end Verif.Xslt
