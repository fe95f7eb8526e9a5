import Verif.Eval.Model
/-
`abspath` (lib/xpath/util.py:265-333): an XPath expression for the path from the root to a node.
-/
namespace Verif.Path
open Verif Verif.XPath Verif.Dom
open Verif.Eval (Doc)

/-- What `abspath` raises. -/
inductive PErr
  /-- `TypeError('Unsupported node type for abspath')` -/
  | unsupported
  /-- `None` has no `xml_parent` -/
  | attribute
  /-- of `xml_preceding_sibling` -/
  | sibling (e : Dom.Err)
  deriving DecidableEq

/-- What `abspath` reads of the nodes besides the tree: `xml_prefix`, and the items of `xml_namespaces`. -/
structure Names where
  pre : Nat → Option Str
  nss : Nat → List (Option Str × Str)

/-- The truth value of a string or `None`. -/
def truthy : Option Str → Bool
  | some (_ :: _) => true
  | _ => false

/-- `xml_qname` (element.c, attr.c): the prefix if there is one, and the local name. -/
def qname (d : Doc) (m : Names) (n : Nat) : Str :=
  match m.pre n with
  | some (c :: p) => c :: p ++ ':' :: (d.name n).2.getD []
  | _ => (d.name n).2.getD []

/-- The loop over the preceding siblings (util.py:285-294, 317-322): `count` grows with each one for which `same`
holds.  The nodes are those of `amara.tree`, which are always true; `fuel` bounds the recursion. -/
def countBack (h : Heap) (same : Nat → Bool) : Nat → Option Nat → Nat → Except PErr Nat
  | 0, _, c => .ok c
  | _ + 1, none, c => .ok c
  | fuel + 1, some p, c =>
    match precedingSibling h p with
    | .ok q => countBack h same fuel q (if same p then c + 1 else c)
    | .error e => .error (.sibling e)

/-- `count` (util.py:285-294, 317-322). -/
def count (h : Heap) (same : Nat → Bool) (n : Nat) : Except PErr Nat :=
  match precedingSibling h n with
  | .ok q => countBack h same h.size q 1
  | .error e => .error (.sibling e)

/-- `previous` is an element with the name of the node (util.py:289-290). -/
def sameName (d : Doc) (n p : Nat) : Bool :=
  decide (d.h.kind p = .element) && decide (d.name p = d.name n)

/-- `dict.update` (util.py:297-299); for the order of the items see `abspath`. -/
def update (base hints : List (Option Str × Str)) : List (Option Str × Str) :=
  base.filter (fun x => !(hints.any fun y => decide (y.1 = x.1))) ++ hints

/-- The loop of util.py:304-307: the first prefix that is not empty and stands for the namespace. -/
def findPrefix (ns : Str) : List (Option Str × Str) → Option Str
  | [] => none
  | (p, u) :: l => if u = ns ∧ truthy p then p else findPrefix ns l

/-- `FULL_NS_FORM` (util.py:263). -/
def fullForm (ns l : Str) : Str :=
  s!! "*[namespace-uri()=\"" ++ ns ++ s!! "\" and local-name()=\"" ++ l ++ s!! "\"]"

/-- `nametest` (util.py:295-310).  `order` is the order of the items in the dictionary `_prefixes`. -/
def nameTest (d : Doc) (m : Names) (hints : List (Option Str × Str))
    (order : List (Option Str × Str) → List (Option Str × Str)) (n : Nat) : Str :=
  match (d.name n).1 with
  | some (c :: u) =>
    if truthy (m.pre n) then qname d m n
    else match findPrefix (c :: u) (order (update (m.nss n) hints)) with
      | some p => p ++ ':' :: qname d m n
      | none => fullForm (c :: u) ((d.name n).2.getD [])
  | _ => qname d m n

/-- `OTHER_NODES` (util.py:256-260). -/
def otherNode : Kind → Option Str
  | .text => some (s!! "text")
  | .comment => some (s!! "comment")
  | .pi => some (s!! "processing-instruction")
  | _ => none

/-- `[%i]` (util.py:311, 324). -/
def position (k : Nat) : Str := '[' :: decimal k ++ [']']

/-- `step` and `ancestor` (util.py:283-329). -/
def step (d : Doc) (m : Names) (hints : List (Option Str × Str))
    (order : List (Option Str × Str) → List (Option Str × Str)) (n : Nat) : Except PErr (Str × Option Nat) :=
  match d.h.kind n with
  | .element =>
    match count d.h (sameName d n) n with
    | .ok k => .ok (nameTest d m hints order n ++ (if 1 < k then position k else []), d.h.parent n)
    | .error e => .error e
  | .attr => .ok ('@' :: qname d m n, d.h.parent n)
  | k =>
    match otherNode k with
    | some f =>
      match count d.h (fun p => decide (d.h.kind p = k)) n with
      | .ok c => .ok (f ++ s!! "()" ++ position c, d.h.parent n)
      | .error e => .error e
    | none => if d.h.parent n = none then .ok ([], some n) else .error .unsupported

/-- `abspath` (util.py:265-333); `fuel` bounds the recursion (Python's own limit is not modelled). -/
def abspathFuel (d : Doc) (m : Names) (hints : List (Option Str × Str))
    (order : List (Option Str × Str) → List (Option Str × Str)) : Nat → Nat → Except PErr Str
  | 0, _ => .error .unsupported
  | fuel + 1, n =>
    match step d m hints order n with
    | .error e => .error e
    | .ok (_, none) => .error .attribute
    | .ok (st, some a) =>
      match d.h.parent a with
      | some _ =>
        match abspathFuel d m hints order fuel a with
        | .ok s => .ok (s ++ '/' :: st)
        | .error e => .error e
      | none => .ok ('/' :: st)

def abspath (d : Doc) (m : Names) (hints : List (Option Str × Str))
    (order : List (Option Str × Str) → List (Option Str × Str)) (n : Nat) : Except PErr Str :=
  abspathFuel d m hints order (d.h.size + 1) n

end Verif.Path
