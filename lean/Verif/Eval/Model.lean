import Verif.XPath.Compare
import Verif.Dom.Axes
import Verif.Dom.Value
import Verif.Dom.Order

/-
Evaluation of XPath expressions: the code that lib/xpath/expressions and lib/xpath/locationpaths
compile an expression to, with the iterators of lib/xpath/src/paths.c and lib/xpath/src/nodetests.c.

Evaluation is lazy and works on a mutable context object: a predicate is a Python generator that sets
`context.node` and `context.position` before it evaluates its expression, and that is suspended
between two nodes while the later steps run.  The model keeps that: iterators are data (`Iter`) with
an operation `next` that takes and returns the context.  All functions take a `fuel` that bounds the
nesting of calls; `stuck` means it was too small, and Verif.Eval.Mono shows that more fuel does not
change any other result.

Not modelled: the parser (expressions are given as trees), extension functions, the variables'
lookup (a variable reference carries its value), bytecode generation (each `compile_as_...` method is
modelled by what its bytecode does), and calling one compiled expression again while an earlier
evaluation of the same expression is suspended (the iterator objects are shared between evaluations).
-/
namespace Verif.Eval
open Verif Verif.XPath Verif.Dom

/-- The mutable part of a context (lib/xpath/__init__.py:108-113): `node`, `position`, `size`, and
the `current_node` set by predicates. -/
structure Ctx where
  node : Nat
  position : Nat
  size : Nat
  current : Nat
  deriving DecidableEq, Repr

/-- What can be raised. -/
inductive XErr
  | typeError | valueError | overflow | nameError | attributeError | outOfBounds | undefinedVariable | xsltError
  | dom (e : Err)
  deriving DecidableEq, Repr

/-- The outcome of a computation: not finished with the fuel given; an exception; a result with the
context as it is then. -/
inductive Out (α : Type)
  | stuck
  | raise (e : XErr)
  | ok (a : α) (c : Ctx)
  deriving DecidableEq

/-- Sequential composition. -/
def Out.bind {α β : Type} : Out α → (α → Ctx → Out β) → Out β
  | .stuck, _ => .stuck
  | .raise e, _ => .raise e
  | .ok a c, k => k a c

/-- An XPath object: string, number, boolean, or a node-set (a list of nodes). -/
inductive EVal
  | sc (v : Scalar)
  | nodes (l : List Nat)
  deriving DecidableEq

/-- The document that is being queried: the tree, texts, creation indices of documents, expanded
names (namespace URI and local name; for processing instructions the target, for namespace nodes the
prefix), attributes and namespace nodes of elements, and the processor's rounding. -/
structure Doc where
  h : Heap
  val : Nat → Str
  index : Nat → Nat
  name : Nat → Option Str × Option Str
  attrs : Nat → List Nat
  nss : Nat → List Nat
  R : Rounding

/-- The thirteen axes. -/
inductive LAxis
  | tree (a : Axis) | attr | namespaces
  deriving DecidableEq, Repr

/-- `axis_specifier.reverse`. -/
def LAxis.reverse : LAxis → Bool
  | .tree a => a.reverse
  | _ => false

/-- `axis_specifier.principal_type` (axisspecifiers.py:15, 86, 189). -/
def LAxis.principal : LAxis → Kind
  | .attr => .attr
  | .namespaces => .ns
  | .tree _ => .element

/-- Node tests after their prefixes have been resolved (nodetests.py). -/
inductive NodeTest
  | node                                              -- node()
  | kind (k : Kind)                                   -- comment(), text(), processing-instruction()
  | pi (target : Str)                                 -- processing-instruction('target')
  | any                                               -- *
  | inNs (ns : Str)                                   -- prefix:*
  | name (ns : Option Str) (local_ : Str)             -- name, prefix:name
  deriving DecidableEq, Repr

/-- `nodefilter_next` with `node_nametest` (nodetests.c:139-155, 303-335) and the `get_filter` methods
of nodetests.py: does the node pass? -/
def passes (d : Doc) (principal : Kind) (t : NodeTest) (n : Nat) : Bool :=
  match t with
  | .node => true
  | .kind k => d.h.kind n = k
  | .pi target => d.h.kind n = .pi && (d.name n).2 = some target
  | .any => d.h.kind n = principal
  | .inNs ns => d.h.kind n = principal && (d.name n).1 = some ns
  | .name ns l => d.h.kind n = principal && (d.name n).1 = ns && (d.name n).2 = some l

/-- The types of XPath objects as declared by `return_type`; `obj` is `xpathobject`: not known
before the evaluation. -/
inductive Ty | num | str | bool | nodes | obj
  deriving DecidableEq, Repr

/-- The five `evaluate...` methods of an expression. -/
inductive Mode | any | bool | num | str | nodes
  deriving DecidableEq, Repr

mutual
/-- XPath expressions (lib/xpath/expressions, lib/xpath/functions). -/
inductive Expr
  | lit (number : Bool) (s : Str)                     -- number_literal, string_literal: the token
  | var (v : EVal)                                    -- variable_reference: the value it is bound to
  | position | last
  | fn (ty : Ty) (f : List EVal → Except XErr EVal) (args : List Arg)
  | and (l r : Expr) | or (l r : Expr)
  | cmp (op : Op) (l r : Expr)                        -- equality_expr, relational_expr
  | path (absolute : Bool) (steps : List LStep)
  | union (es : List Expr)
  | filter (e : Expr) (preds : List Expr)
  | pathFrom (e : Expr) (steps : List LStep)          -- path_expr
/-- A function argument, with the method that evaluates it. -/
inductive Arg
  | mk (m : Mode) (e : Expr)
/-- A location step. -/
inductive LStep
  | mk (axis : LAxis) (test : NodeTest) (preds : List Expr)
end

/-- The methods that `predicate.__init__` chooses for `select` (predicates.py:52-124).  `never` is an
`izip` object, which is not callable. -/
inductive Sel
  | pos (k : Nat) | never
  | slice (gt : Bool) (start : Expr)
  | number (sized : Bool) (e : Expr)
  | boolean (e : Expr)
  | generic (e : Expr)

/-- A step as passed to `stepiter` (locationpaths/__init__.py:31-43). -/
structure CStep where
  axis : LAxis
  test : NodeTest
  sels : List Sel

/-- The iterators.  `list` is any iterator over given nodes: a tuple, a node-set, a list, `reverseiter`
and the axis iterators (which do not look at the context).  `gen` is a predicate's generator: `none`
before its first step, then the position of the next node. -/
inductive Iter
  | list (l : List Nat)
  | filter (principal : Kind) (t : NodeTest) (nodes : Iter)
  | pos (k : Nat) (nodes : Iter)
  | gen (s : Sel) (position : Option Nat) (nodes : Iter)
  | step (s : CStep) (contexts : Iter)
  | stepCur (s : CStep) (contexts current : Iter)

/-! Conversions -/

/-- The string-value of a node. -/
def strVal (d : Doc) (n : Nat) : Str := (nodeToString d.h d.val n).getD []

/-- The exceptions of `number()` and `string()`. -/
def pyErr : PyErr → XErr
  | .valueError => .valueError
  | .overflowError => .overflow

/-- `datatypes.number(v)` (`Number_New`, datatypes.c:306-376). -/
def toNum (d : Doc) : EVal → Except XErr XNum
  | .sc s => match toNumber d.R s with
    | .ok x => .ok x
    | .error e => .error (pyErr e)
  | .nodes [] => .ok .sNaN
  | .nodes (n :: _) => match numberOfString d.R (strVal d n) with
    | .ok x => .ok x
    | .error e => .error (pyErr e)

/-- `datatypes.string(v)` (`String_New`, datatypes.c:164-256). -/
def toStr (d : Doc) : EVal → Except XErr Str
  | .sc (.str s) => .ok s
  | .sc (.bool b) => .ok (if b then s!! "true" else s!! "false")
  | .sc (.num x) => match stringOfNumber x with
    | .ok s => .ok s
    | .error e => .error (pyErr e)
  | .nodes [] => .ok []
  | .nodes (n :: _) => .ok (strVal d n)

/-- `datatypes.boolean(v)` (`Boolean_New`, datatypes.c:378-404). -/
def toBool : EVal → Bool
  | .sc s => toBoolean s
  | .nodes l => !l.isEmpty

/-- The conversion of a result by `compile_as_...` (expressions/__init__.py:21-52, basics.py:130-136)
and `evaluate_as_...` (functioncalls.py:93-100). -/
def convert (d : Doc) (m : Mode) (v : EVal) : Except XErr EVal :=
  match m with
  | .any => .ok v
  | .bool => .ok (.sc (.bool (toBool v)))
  | .num => match toNum d v with
    | .ok x => .ok (.sc (.num x))
    | .error e => .error e
  | .str => match toStr d v with
    | .ok s => .ok (.sc (.str s))
    | .error e => .error e
  | .nodes => match v with
    | .nodes l => .ok (.nodes l)
    | .sc _ => .error .typeError

/-- `literal.compile_as_...` (basics.py:20-52): the conversions start from the text of the token, also
for a number. -/
def evalLit (d : Doc) (number : Bool) (s : Str) (m : Mode) : Except XErr EVal :=
  let asNumber : EVal := match numberOfString d.R s with
    | .ok x => .sc (.num x)
    | .error _ => .sc (.num .sNaN)
  match m with
  | .any => .ok (if number then asNumber else .sc (.str s))
  | .bool => .ok (.sc (.bool (!s.isEmpty)))
  | .num => .ok asNumber
  | .str => .ok (.sc (.str s))
  | .nodes => .error .typeError

/-- An operand of a comparison, with nodes replaced by their string-values. -/
def cmpVal (d : Doc) : EVal → Val
  | .sc s => .sc s
  | .nodes l => .nodes (l.map (strVal d))

/-- The comparison operators on two results (booleans.py:68-75, datatypes.c:448-539, 1391-1560). -/
def compareVals (d : Doc) (op : Op) (v w : EVal) : Except XErr EVal :=
  match XPath.compare d.R op (cmpVal d v) (cmpVal d w) with
  | .ok b => .ok (.sc (.bool b))
  | .error (.py e) => .error (pyErr e)
  | .error .outOfBounds => .error .outOfBounds

/-! Node-sets -/

/-- `a < b` for two nodes (`node_richcompare`; Python's comparison by address if that does not
apply). -/
def nodeLt (d : Doc) (a b : Nat) : Bool :=
  match nodeCompare d.h d.index .lt a b with
  | some v => v
  | none => a < b

/-- Insertion of a node before the first one that is not smaller. -/
def insertNode (d : Doc) (x : Nat) : List Nat → List Nat
  | [] => [x]
  | y :: ys => if nodeLt d y x then y :: insertNode d x ys else x :: y :: ys

/-- `PyList_Sort`: a stable sort by `<` (written as insertion sort; CPython's merge sort gives the same
result for every order that is total). -/
def sortNodes (d : Doc) : List Nat → List Nat
  | [] => []
  | x :: xs => insertNode d x (sortNodes d xs)

/-- The keys of the dictionary that `unioniter` fills (paths.c:521-545), in the order of first
insertion (CPython's order of keys is arbitrary; they are sorted afterwards). -/
def dictKeys : List Nat → List Nat
  | [] => []
  | x :: xs => x :: (dictKeys xs).filter (· ≠ x)

/-- `xml_root` (node.c:420-432). -/
def rootOf (h : Heap) : Nat → Nat → Option Nat
  | 0, _ => none
  | fuel + 1, n => if h.kind n = .entity then some n else match h.parent n with
    | none => none
    | some p => rootOf h fuel p

/-! Axes -/

/-- Run an axis iterator to its end; `none`: not ended within `fuel` steps. -/
def collect {σ : Type} (step : σ → Dom.Step σ) : Nat → σ → Option (Except Err (List Nat))
  | 0, _ => none
  | fuel + 1, s => match step s with
    | .done => some (.ok [])
    | .tau s' => collect step fuel s'
    | .yield n s' => match collect step fuel s' with
      | some (.ok l) => some (.ok (n :: l))
      | some (.error e) => some (.error e)
      | none => none
    | .raise e => some (.error e)

/-- `axis.select(n)`: the nodes it produces (axisspecifiers.py:52-241), see `Dom.Axis.Selects`. -/
def axisNodes (d : Doc) (fuel : Nat) (n : Nat) : LAxis → Option (Except Err (List Nat))
  | .attr => some (.ok (if d.h.kind n = .element then d.attrs n else []))
  | .namespaces => some (.ok (if d.h.kind n = .element then d.nss n else []))
  | .tree .self => collect childStep fuel [n]
  | .tree .child => collect childStep fuel (childIter d.h n)
  | .tree .parent => collect childStep fuel (d.h.parent n).toList
  | .tree .ancestor => collect (ancestorStep d.h) fuel (d.h.parent n)
  | .tree .ancestorOrSelf => collect (ancestorStep d.h) fuel (some n)
  | .tree .descendant => collect (descendantStep d.h) fuel (descendantInit d.h n)
  | .tree .descendantOrSelf => collect (dosStep d.h) fuel (.self n)
  | .tree .following => collect (followStep d.h) fuel (.outer (some n))
  | .tree .followingSibling => collect childStep fuel (followingSiblingInit d.h n)
  | .tree .preceding => collect (precStep d.h) fuel ⟨some n, []⟩
  | .tree .precedingSibling => match Dom.precedingSibling d.h n with
    | .ok s => collect (precSibStep d.h) fuel s
    | .error e => some (.error e)

/-! Predicates -/

/-- The declared `return_type` of an expression. -/
def Expr.ty : Expr → Ty
  | .lit true _ => .num
  | .lit false _ => .str
  | .var _ => .obj
  | .position | .last => .num
  | .fn ty _ _ => ty
  | .and _ _ | .or _ _ | .cmp _ _ _ => .bool
  | .path _ _ | .union _ | .filter _ _ | .pathFrom _ _ => .nodes

/-- "Check for just Number" (predicates.py:58-65, 72-78, 89-95): the literal is converted to a number,
`int()` raises for NaN and the infinities, and `positionfilter` takes a C int. -/
def litSel (d : Doc) (s : Str) : Except XErr Sel :=
  match numberOfString d.R s with
  | .error e => .error (pyErr e)
  | .ok x => match x.val.toRat? with
    | none => if x.val = .nan then .error .valueError else .error .overflow
    | some q =>
      if (q.floor : Rat) = q ∧ 1 ≤ q then
        if q.floor < 2 ^ 31 then .ok (.pos q.floor.toNat) else .error .overflow
      else .ok .never

/-- The last lines of `predicate.__init__` (predicates.py:119-124). -/
def byType (e : Expr) : Sel :=
  match e.ty with
  | .num => .number false e
  | .obj => .generic e
  | _ => .boolean e

/-- `isinstance(e, (literal, variable_reference))`. -/
def isSimple : Expr → Bool
  | .lit _ _ | .var _ => true
  | _ => false

/-- `predicate.__init__` (predicates.py:52-124).  The second test for a slice (lines 112-118) uses a
name that is not defined, which raises NameError as soon as its first condition is true. -/
def mkSel (d : Doc) (e : Expr) : Except XErr Sel :=
  match e with
  | .lit _ s => litSel d s
  | .cmp .eq l r => match l, r with
    | .position, .lit _ s => litSel d s
    | .position, r => .ok (.number true r)
    | .lit _ s, .position => litSel d s
    | l, .position => .ok (.number false l)
    | _, _ => .ok (byType e)
  | .cmp .ne _ _ => .ok (byType e)
  | .cmp op l r => match l with
    | .position => if isSimple r ∧ (op = .gt ∨ op = .ge) then .ok (.slice (op = .gt) r) else .ok (byType e)
    | l => if isSimple l then .error .nameError else .ok (byType e)
  | e => .ok (byType e)

/-- All predicates of a step or filter expression. -/
def mkSels (d : Doc) : List Expr → Except XErr (List Sel)
  | [] => .ok []
  | e :: es => match mkSel d e with
    | .error err => .error err
    | .ok s => match mkSels d es with
      | .error err => .error err
      | .ok ss => .ok (s :: ss)

/-- `stepiter_new` (paths.c:267-305) checks that the predicates can be called. -/
def mkStep (d : Doc) : LStep → Except XErr CStep
  | .mk axis test preds => match mkSels d preds with
    | .error err => .error err
    | .ok sels => if sels.any (fun | .never => true | _ => false) then .error .valueError
        else .ok ⟨axis, test, sels⟩

/-- The steps of a path, chained: each one takes the nodes of the one before it as its context nodes
(locationpaths/__init__.py:30-53). -/
def chain (d : Doc) : List LStep → Iter → Except XErr Iter
  | [], it => .ok it
  | s :: ss, it => match mkStep d s with
    | .error err => .error err
    | .ok s => chain d ss (.step s it)

/-- `evaluate_as_number(context) == position`. -/
def isPosition (v : EVal) (p : Nat) : Bool :=
  match v with
  | .sc (.num x) => x.val.eq (.fin p)
  | _ => false

/-- `position > start` in `_slice`. -/
def beyond (p : Nat) (v : EVal) : Bool :=
  match v with
  | .sc (.num x) => x.val.lt (.fin p)
  | _ => false

/-- The method used by a generator to evaluate its expression, and the test of the result
(predicates.py:138-184). -/
def Sel.test : Sel → Option (Mode × Expr × (EVal → Nat → Bool))
  | .number _ e => some (.num, e, isPosition)
  | .boolean e => some (.bool, e, fun v _ => toBool v)
  | .generic e => some (.any, e, fun v p => match v with
    | .sc (.num x) => isPosition (.sc (.num x)) p
    | v => toBool v)
  | _ => none

/-- Does the generator first make a list and set `context.size` (predicates.py:141-143)? -/
def Sel.sized : Sel → Bool
  | .number b _ => b
  | _ => false

/-- Is it an instance of `nodeset_expression`? -/
def Expr.isNodeset : Expr → Bool
  | .path _ _ | .union _ | .filter _ _ | .pathFrom _ _ => true
  | _ => false

/-- Restore the context after a node-set expression (nodesets.py:15-41). -/
def restore {α : Type} (c : Ctx) (r : Out α) : Out α :=
  r.bind fun a c' => .ok a { c' with node := c.node, position := c.position, size := c.size }

/-- A result without effect on the context. -/
def ret {α : Type} (r : Except XErr α) (c : Ctx) : Out α :=
  match r with
  | .ok a => .ok a c
  | .error e => .raise e

mutual
/-- The `next` method of each iterator. -/
def next (d : Doc) : Nat → Iter → Ctx → Out (Option Nat × Iter)
  | 0, _, _ => .stuck
  -- tuples, lists, axis iterators, exhausted iterators
  | _ + 1, .list [], c => .ok (none, .list []) c
  | _ + 1, .list (n :: l), c => .ok (some n, .list l) c
  -- nodefilter_next (nodetests.c:303-335)
  | fuel + 1, .filter p t it, c => (next d fuel it c).bind fun r c => match r with
    | (none, _) => .ok (none, .list []) c
    | (some n, it) => if passes d p t n then .ok (some n, .filter p t it) c
        else next d fuel (.filter p t it) c
  -- positionfilter_next (nodetests.c:407-429); after the end it is not called again
  | fuel + 1, .pos k it, c => (next d fuel it c).bind fun r c => match r with
    | (none, _) => .ok (none, .list []) c
    | (some n, it) => if k ≤ 1 then .ok (some n, .list []) c else next d fuel (.pos (k - 1) it) c
  -- _number, _boolean, select (predicates.py:138-184): the code before the loop
  | fuel + 1, .gen s none it, c =>
    if s.sized then
      (drain d fuel it c).bind fun l c =>
        next d fuel (.gen s (some 1) (.list l)) { c with size := l.length, current := c.node }
    else next d fuel (.gen s (some 1) it) { c with current := c.node }
  -- and the loop
  | fuel + 1, .gen s (some p) it, c => (next d fuel it c).bind fun r c => match r with
    | (none, _) => .ok (none, .list []) c
    | (some n, it) => match s.test with
      | none => .raise .typeError
      | some (m, e, keep) =>
        (eval d fuel m e { c with node := n, position := p }).bind fun v c =>
          if keep v p then .ok (some n, .gen s (some (p + 1)) it) c
          else next d fuel (.gen s (some (p + 1)) it) c
  -- stepiter_next (paths.c:192-265)
  | fuel + 1, .stepCur s ctxs cur, c => (next d fuel cur c).bind fun r c => match r with
    | (none, _) => next d fuel (.step s ctxs) c
    | (some n, cur) => .ok (some n, .stepCur s ctxs cur) c
  | fuel + 1, .step s ctxs, c => (next d fuel ctxs c).bind fun r c => match r with
    | (none, _) => .ok (none, .list []) c
    | (some n, ctxs) => match axisNodes d fuel n s.axis with
      | none => .stuck
      | some (.error e) => .raise (.dom e)
      | some (.ok l) =>
        (start d fuel s.sels (.filter s.axis.principal s.test (.list l)) c).bind fun it c =>
          if s.axis.reverse then
            (drain d fuel it c).bind fun l c => next d fuel (.stepCur s ctxs (.list l.reverse)) c
          else next d fuel (.stepCur s ctxs it) c

/-- The remaining nodes of an iterator (`list()`, `tuple()`, `nodeset()`). -/
def drain (d : Doc) : Nat → Iter → Ctx → Out (List Nat)
  | 0, _, _ => .stuck
  | fuel + 1, it, c => (next d fuel it c).bind fun r c => match r with
    | (none, _) => .ok [] c
    | (some n, it) => (drain d fuel it c).bind fun l c => .ok (n :: l) c

/-- Call the predicates on an iterator, one after the other (paths.c:239-255, 405-441).  Generator
functions return at once; `_slice` (predicates.py:126-136) does its work now. -/
def start (d : Doc) : Nat → List Sel → Iter → Ctx → Out Iter
  | 0, _, _, _ => .stuck
  | _ + 1, [], it, c => .ok it c
  | fuel + 1, s :: ss, it, c => match s with
    | .pos k => start d fuel ss (.pos k it) c
    | .never => .raise .typeError
    | .slice gt e => (eval d fuel .num e c).bind fun v c =>
        let p := if gt then 1 else 0
        if beyond p v then start d fuel ss it c
        else (sliceLoop d fuel (p + 1) v it c).bind fun it c => start d fuel ss it c
    | s => start d fuel ss (.gen s none it) c

/-- The loop of `_slice` (predicates.py:131-135). -/
def sliceLoop (d : Doc) : Nat → Nat → EVal → Iter → Ctx → Out Iter
  | 0, _, _, _, _ => .stuck
  | fuel + 1, p, v, it, c => (next d fuel it c).bind fun r c => match r with
    | (none, _) => .ok (.list []) c
    | (some _, it) => if beyond p v then .ok it c else sliceLoop d fuel (p + 1) v it c

/-- `compile_iterable`: the iterator over the nodes of a node-set expression, with `n` as the context
node on the stack. -/
def iterable (d : Doc) : Nat → Expr → Nat → Ctx → Out Iter
  | 0, _, _, _ => .stuck
  -- locationpaths/__init__.py:17-53
  | _ + 1, .path absolute steps, n, c =>
    if absolute then
      match rootOf d.h (d.h.size + 1) c.node with
      | none => .raise .typeError
      | some r => ret (chain d steps (.list [r])) c
    else ret (chain d steps (.list [n])) c
  -- nodesets.py:116-134 and unioniter (paths.c:508-556): the iterators are emptied last to first
  | fuel + 1, .union es, n, c => (iterables d fuel es n c).bind fun its c =>
      (drainAll d fuel its c).bind fun l c => .ok (.list (sortNodes d (dictKeys l))) c
  -- nodesets.py:214-229
  | fuel + 1, .filter e preds, _, c => (eval d fuel .nodes e c).bind fun v c => match v with
    | .nodes l => match mkSels d preds with
      | .error err => .raise err
      | .ok sels => start d fuel sels (.list l) c
    | .sc _ => .raise .typeError
  -- nodesets.py:181-189
  | fuel + 1, .pathFrom e steps, n, c =>
    if e.isNodeset then (iterable d fuel e n c).bind fun it c => ret (chain d steps it) c
    else (eval d fuel .nodes e c).bind fun v c => match v with
      | .nodes l => ret (chain d steps (.list l)) c
      | .sc _ => .raise .typeError
  -- basics.py:138-143
  | _ + 1, .var (.nodes l), _, c => .ok (.list l) c
  -- expressions/__init__.py:60-64
  | _ + 1, _, _, _ => .raise .typeError

/-- The iterators of the operands of a union, from left to right. -/
def iterables (d : Doc) : Nat → List Expr → Nat → Ctx → Out (List Iter)
  | 0, _, _, _ => .stuck
  | _ + 1, [], _, c => .ok [] c
  | fuel + 1, e :: es, n, c => (iterable d fuel e n c).bind fun it c =>
      (iterables d fuel es n c).bind fun its c => .ok (it :: its) c

/-- The nodes of all iterators, the last one first. -/
def drainAll (d : Doc) : Nat → List Iter → Ctx → Out (List Nat)
  | 0, _, _ => .stuck
  | _ + 1, [], c => .ok [] c
  | fuel + 1, it :: its, c => (drainAll d fuel its c).bind fun l c =>
      (drain d fuel it c).bind fun m c => .ok (l ++ m) c

/-- `evaluate`, `evaluate_as_boolean`, ... of an expression. -/
def eval (d : Doc) : Nat → Mode → Expr → Ctx → Out EVal
  | 0, _, _, _ => .stuck
  | _ + 1, m, .lit b s, c => ret (evalLit d b s m) c
  | _ + 1, m, .var v, c => ret (convert d m v) c
  -- functions/nodesets.py:15-42
  | _ + 1, m, .position, c => ret (convert d m (.sc (.num (mkNumber (.fin c.position))))) c
  | _ + 1, m, .last, c => ret (convert d m (.sc (.num (mkNumber (.fin c.size))))) c
  | fuel + 1, m, .fn _ f args, c => (evalArgs d fuel args c).bind fun vs c => match f vs with
    | .error e => .raise e
    | .ok v => ret (convert d m v) c
  -- booleans.py:27-36
  | fuel + 1, m, .and l r, c => (eval d fuel .bool l c).bind fun v c =>
      if toBool v then (eval d fuel .bool r c).bind fun w c => ret (convert d m w) c
      else ret (convert d m v) c
  | fuel + 1, m, .or l r, c => (eval d fuel .bool l c).bind fun v c =>
      if toBool v then ret (convert d m v) c
      else (eval d fuel .bool r c).bind fun w c => ret (convert d m w) c
  -- booleans.py:68-75
  | fuel + 1, m, .cmp op l r, c => (eval d fuel .any l c).bind fun v c =>
      (eval d fuel .any r c).bind fun w c => match compareVals d op v w with
        | .error e => .raise e
        | .ok b => ret (convert d m b) c
  -- union_expr.compile_as_boolean (nodesets.py:136-145)
  | fuel + 1, .bool, .union es, c => evalAny d fuel es c
  -- nodeset_expression (nodesets.py:15-101)
  | fuel + 1, m, e, c => restore c ((iterable d fuel e c.node c).bind fun it c => match m with
    | .any | .nodes => (drain d fuel it c).bind fun l c => .ok (.nodes (sortNodes d l)) c
    | .bool => (next d fuel it c).bind fun r c => .ok (.sc (.bool r.1.isSome)) c
    | .num => (next d fuel it c).bind fun r c => ret (convert d .num (.nodes r.1.toList)) c
    | .str => (next d fuel it c).bind fun r c => ret (convert d .str (.nodes r.1.toList)) c)

/-- The arguments of a function, from left to right. -/
def evalArgs (d : Doc) : Nat → List Arg → Ctx → Out (List EVal)
  | 0, _, _ => .stuck
  | _ + 1, [], c => .ok [] c
  | fuel + 1, .mk m e :: as, c => (eval d fuel m e c).bind fun v c =>
      (evalArgs d fuel as c).bind fun vs c => .ok (v :: vs) c

/-- `union_expr.compile_as_boolean` (nodesets.py:136-145): the first operand that is true. -/
def evalAny (d : Doc) : Nat → List Expr → Ctx → Out EVal
  | 0, _, _ => .stuck
  | _ + 1, [], c => .ok (.sc (.bool false)) c
  | fuel + 1, e :: es, c => (eval d fuel .bool e c).bind fun v c =>
      if toBool v then .ok v c else evalAny d fuel es c
end

end Verif.Eval
