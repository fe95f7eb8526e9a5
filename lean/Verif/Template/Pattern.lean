import Verif.Eval.Model

/-
XSLT patterns: lib/xslt/xpatterns/__init__.py, xpattern.bgen (the grammar), and the `match` methods of
lib/xpath/locationpaths/nodetests.py.

Not modelled: the lexer; the lookup of prefixes (tests carry the namespaces, so undefined prefixes do not
occur); extension functions as in Verif.Eval.
-/
namespace Verif.Template
open Verif Verif.XPath Verif.Dom Verif.Eval

/-! Patterns as they are written -/

/-- The two axes that patterns can use: `child_axis` and `attribute_axis` (xpatterns/__init__.py:11-12). -/
inductive PAxis | child | attr
  deriving DecidableEq, Repr

/-- Production 5: a step pattern. -/
structure PatStep where
  axis : PAxis
  test : NodeTest
  preds : List Expr

/-- Production 4: `s`, `r/s`, `r//s`. -/
inductive Rel
  | one (s : PatStep)
  | slash (r : Rel) (s : PatStep)
  | dslash (r : Rel) (s : PatStep)

/-- Production 2; `fn` is a call of `id` or `key`. -/
inductive Pat
  | root
  | abs (r : Rel)
  | dabs (r : Rel)
  | rel (r : Rel)
  | idKey (fn : Expr)
  | idKeySlash (fn : Expr) (r : Rel)
  | idKeyDslash (fn : Expr) (r : Rel)

/-! What the parser makes of them -/

/-- `axis_type` as a type of nodes: `tree.element` or `tree.attribute`. -/
def PAxis.kind : PAxis → Kind
  | .child => .element
  | .attr => .attr

/-- The tests of the steps: a node test with its `axis_type`, a `predicated_test` (xpatterns/__init__.py:88-116),
a `document_test` (122-128), an `id_key_test` (134-143). -/
inductive CTest
  | test (axis : PAxis) (t : NodeTest)
  | pred (axis : PAxis) (t : NodeTest) (sels : List Sel)
  | document
  | idKey (fn : Expr)

/-- A step: the test and whether any ancestor may satisfy it. -/
structure CPat where
  test : CTest
  ancestor : Bool

/-- Production 5 (xpattern.bgen:307-347). -/
def stepOf (d : Doc) (s : PatStep) : Except XErr CPat :=
  match s.preds with
  | [] => .ok ⟨.test s.axis s.test, false⟩
  | preds => match mkSels d preds with
    | .error e => .error e
    | .ok sels => .ok ⟨.pred s.axis s.test sels, false⟩

/-- "flag as an ancestor" (xpattern.bgen:291-303). -/
def flagLast : List CPat → List CPat
  | [] => []
  | [s] => [{ s with ancestor := true }]
  | s :: ss => s :: flagLast ss

/-- Production 4 (xpattern.bgen:233-305). -/
def relOf (d : Doc) : Rel → Except XErr (List CPat)
  | .one s => match stepOf d s with
    | .error e => .error e
    | .ok s => .ok [s]
  | .slash r s => match relOf d r, stepOf d s with
    | .error e, _ => .error e
    | _, .error e => .error e
    | .ok l, .ok s => .ok (l ++ [s])
  | .dslash r s => match relOf d r, stepOf d s with
    | .error e, _ => .error e
    | _, .error e => .error e
    | .ok l, .ok s => .ok (flagLast l ++ [s])

/-- Put a step in front. -/
def withFirst (s : CTest) : Except XErr (List CPat) → Except XErr (List CPat)
  | .error e => .error e
  | .ok l => .ok (⟨s, false⟩ :: l)

/-- Production 2 (xpattern.bgen:78-190).  The code for `id(...)//r` is that for `id(...)/r`; that for `//r` drops
the slashes. -/
def locOf (d : Doc) : Pat → Except XErr (List CPat)
  | .root => .ok [⟨.document, false⟩]
  | .abs r => withFirst .document (relOf d r)
  | .dabs r => relOf d r
  | .rel r => relOf d r
  | .idKey fn => .ok [⟨.idKey fn, false⟩]
  | .idKeySlash fn r => withFirst (.idKey fn) (relOf d r)
  | .idKeyDslash fn r => withFirst (.idKey fn) (relOf d r)

/-- Production 1 (xpattern.bgen:42-76): `pattern(steps)` with the steps in reverse order. -/
def compilePat (d : Doc) (p : Pat) : Except XErr (List CPat) :=
  match locOf d p with
  | .error e => .error e
  | .ok l => .ok l.reverse

/-! Matching -/

/-- The `match` methods of the node tests (nodetests.py:51-57, 98-103, 135-136, 153-157, 177-184, 205-215); `principal` is the type passed as
`principal_type`.  The method of `processing_instruction_test` asks whether the node is of the principal type,
and then for its attribute `target`, which elements and attributes do not have.  An empty target counts as none. -/
def testMatch (d : Doc) (principal : Kind) (t : NodeTest) (n : Nat) : Except XErr Bool :=
  match t with
  | .node => .ok true
  | .kind .pi => .ok (d.h.kind n = principal)
  | .kind k => .ok (d.h.kind n = k)
  | .pi target =>
    if d.h.kind n = principal then
      if target = [] then .ok true else .error .attributeError
    else .ok false
  | .any => .ok (d.h.kind n = principal)
  | .inNs ns => .ok (d.h.kind n = principal && (d.name n).1 = some ns)
  | .name ns l => .ok (d.h.kind n = principal && (d.name n).1 = ns && (d.name n).2 = some l)

/-- The nodes of a list that pass a node test (xpatterns/__init__.py:109-111).  Simplification: the generator
tests a node when it is asked for the next one, the model tests all nodes at once.  The only test that raises is
one that no node passes, so it is made for all nodes in either case. -/
def testFilter (d : Doc) (principal : Kind) (t : NodeTest) : List Nat → Except XErr (List Nat)
  | [] => .ok []
  | n :: ns => match testMatch d principal t n with
    | .error e => .error e
    | .ok b => match testFilter d principal t ns with
      | .error e => .error e
      | .ok l => .ok (if b then n :: l else l)

/-- The loop of `predicates.filter` (predicates.py:26-27): each predicate makes a node-set, which is sorted
(`nodeset_new`, lib/xpath/src/datatypes.c:1310-1345). -/
def filterLoop (d : Doc) (fuel : Nat) : List Sel → List Nat → Ctx → Out (List Nat)
  | [], l, c => .ok l c
  | s :: ss, l, c => (start d fuel [s] (.list l) c).bind fun it c =>
      (drain d fuel it c).bind fun l c => filterLoop d fuel ss (sortNodes d l) c

/-- `node == x` (Python compares the objects first). -/
def nodeEq (d : Doc) (a b : Nat) : Bool := a == b || nodeCompare d.h d.index .eq a b == some true

/-- `predicated_test.match` (xpatterns/__init__.py:99-116). -/
def predMatch (d : Doc) (fuel : Nat) (axis : PAxis) (t : NodeTest) (sels : List Sel) (n : Nat) (c : Ctx) :
    Out Bool :=
  match siblings with
  | .error e => .raise e
  | .ok none => .ok false c
  | .ok (some l) => match testFilter d axis.kind t l with
    | .error e => .raise e
    | .ok l => (restore c (filterLoop d fuel sels l c)).bind fun l c => .ok (l.any (nodeEq d n)) c
where
  /-- The nodes of the axis of the parent. -/
  siblings : Except XErr (Option (List Nat)) :=
    match axis, d.h.parent n with
    | .attr, some p => if d.h.kind p = .element then .ok (some (d.attrs p)) else .error .attributeError
    | .attr, none => .error .attributeError
    | .child, none => .ok none
    | .child, some p => .ok (some (d.h.kids p))

/-- `node_test.match(context, node, axis_type)` for the four kinds of tests. -/
def CTest.match (d : Doc) (fuel : Nat) (t : CTest) (n : Nat) (c : Ctx) : Out Bool :=
  match t with
  | .test axis t => ret (testMatch d axis.kind t n) c
  | .pred axis t sels => predMatch d fuel axis t sels n c
  | .document => .ok (d.h.kind n = .entity) c
  | .idKey fn => (eval d fuel .any fn c).bind fun v c => match v with
    | .nodes l => .ok (l.any (nodeEq d n)) c
    | .sc _ => .raise .typeError

/-- "while node: ..." (xpatterns/__init__.py:60-67): the nearest node that passes, from `n` upwards. -/
def climbTo (d : Doc) (fuel : Nat) (t : CTest) : Nat → Option Nat → Ctx → Out (Option Nat)
  | _, none, c => .ok none c
  | 0, some _, _ => .stuck
  | k + 1, some n, c => (t.match d fuel n c).bind fun b c =>
      if b then .ok (some n) c else climbTo d fuel t k (d.h.parent n) c

/-- The loop of `pattern.match` (xpatterns/__init__.py:57-71); `n` is the node reached so far. -/
def matchLoop (d : Doc) (fuel : Nat) : List CPat → Nat → Ctx → Out Bool
  | [], _, c => .ok true c
  | s :: ss, n, c =>
    if s.ancestor then
      (climbTo d fuel s.test (d.h.size + 1) (d.h.parent n) c).bind fun m c => match m with
        | none => .ok false c
        | some n => matchLoop d fuel ss n c
    else match d.h.parent n with
      | none => .ok false c
      | some p => (s.test.match d fuel p c).bind fun b c => if b then matchLoop d fuel ss p c else .ok false c

/-- `pattern.match` (xpatterns/__init__.py:53-71). -/
def matchPat (d : Doc) (fuel : Nat) (steps : List CPat) (n : Nat) (c : Ctx) : Out Bool :=
  match steps with
  | [] => .raise .valueError
  | s :: ss => (s.test.match d fuel n c).bind fun b c => if b then matchLoop d fuel ss n c else .ok false c

/-- `pattern.match` for a pattern as written. -/
def Pat.match (d : Doc) (fuel : Nat) (p : Pat) (n : Nat) (c : Ctx) : Out Bool :=
  match compilePat d p with
  | .error e => .raise e
  | .ok steps => matchPat d fuel steps n c

/-- `patterns.match` (xpatterns/__init__.py:16-20). -/
def matchAny (d : Doc) (fuel : Nat) : List Pat → Nat → Ctx → Out Bool
  | [], _, c => .ok false c
  | p :: ps, n, c => (p.match d fuel n c).bind fun b c => if b then .ok true c else matchAny d fuel ps n c

end Verif.Template
