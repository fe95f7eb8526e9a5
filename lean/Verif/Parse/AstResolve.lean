import Verif.Parse.Ast
import Verif.Eval.Spec
/-
From the expression objects to the expressions of Verif.Eval: what `compile` makes of
them once the prefixes, variables and functions are known.
-/
namespace Verif.Parse
open Verif.Eval Verif.XPath

/-- A function for a number of arguments: its type, what it computes, how its
arguments are evaluated, and how the context node is passed if an argument is
missing. -/
structure Signature where
  ty : Ty
  f : List EVal → Except XErr EVal
  modes : Nat → Mode
  self : Option Mode

/-- What the context knows: `compiler.namespaces`, `context.variables` and the
functions; variables and functions by their QName. -/
structure Env where
  ns : Str → Option Str
  var : Str → Option EVal
  fn : Str → Nat → Option Signature

/-- `get_filter` of the node tests (nodetests.py 55-217): an unprefixed name is
in no namespace. -/
def resolveTest (env : Env) : RawTest → Option NodeTest
  | .node => some .node
  | .comment => some (.kind .comment)
  | .text => some (.kind .text)
  | .pi none => some (.kind .pi)
  | .pi (some t) => some (.pi t)
  | .star => some .any
  | .nsStar p => (env.ns p).map .inNs
  | .qname p l => (env.ns p).map fun u => .name (some u) l
  | .name l => some (.name none l)

/-- The operands of `COMPARE_OP` (booleans.py 71-77). -/
def compareOp (op : Str) : Option Op :=
  if op = "=".toList then some .eq
  else if op = "!=".toList then some .ne
  else if op = "<".toList then some .lt
  else if op = "<=".toList then some .le
  else if op = ">".toList then some .gt
  else if op = ">=".toList then some .ge
  else none

/-- `_binary_expr._opmap` (numbers.py 21-27) with the operations of numbers. -/
def arithOp (R : Rounding) (op : Str) : Option (XNum → XNum → XNum) :=
  if op = "+".toList then some (numberAdd R)
  else if op = "-".toList then some (numberSub R)
  else if op = "*".toList then some (numberMul R)
  else if op = "div".toList then some (numberDiv R)
  else if op = "mod".toList then some (numberRem R)
  else none

/-- A binary operation on numbers. -/
def onNumbers (f : XNum → XNum → XNum) : List EVal → Except XErr EVal
  | [.sc (.num a), .sc (.num b)] => .ok (.sc (.num (f a b)))
  | _ => .error .typeError

/-- `UNARY_NEGATIVE` (numbers.py 79-82). -/
def onNumber : List EVal → Except XErr EVal
  | [.sc (.num a)] => .ok (.sc (.num (numberNeg a)))
  | _ => .error .typeError

/-- The arguments with their methods. -/
def argsWith (modes : Nat → Mode) : Nat → List Expr → List Arg
  | _, [] => []
  | i, e :: es => .mk (modes i) e :: argsWith modes (i + 1) es

/-- The context node as an argument. -/
def selfArg : Option Mode → List Arg
  | none => []
  | some m => [.mk m (.path false [])]

/-- A call; `position()` and `last()` read the context (functions/nodesets.py). -/
def callExpr (env : Env) (f : Str) (es : List Expr) : Option Expr :=
  if f = "position".toList then some .position
  else if f = "last".toList then some .last
  else match env.fn f es.length with
    | none => none
    | some g => some (.fn g.ty g.f (argsWith g.modes 0 es ++ selfArg g.self))

mutual
/-- `compile`; `none` if a prefix, a variable or a function is not known. -/
def resolve (R : Rounding) (env : Env) : Ast → Option Expr
  | .literal s => some (.lit false s)
  | .number s => some (.lit true s)
  | .variable q =>
    match env.var q with
    | some v => some (.var v)
    | none => none
  | .call f args =>
    match resolves R env args with
    | some es => callExpr env f es
    | none => none
  | .or l r =>
    match resolve R env l, resolve R env r with
    | some a, some b => some (.or a b)
    | _, _ => none
  | .and l r =>
    match resolve R env l, resolve R env r with
    | some a, some b => some (.and a b)
    | _, _ => none
  | .compare op l r =>
    match compareOp op, resolve R env l, resolve R env r with
    | some o, some a, some b => some (.cmp o a b)
    | _, _, _ => none
  | .arith op l r =>
    match arithOp R op, resolve R env l, resolve R env r with
    | some f, some a, some b => some (.fn .num (onNumbers f) [.mk .num a, .mk .num b])
    | _, _, _ => none
  | .neg e =>
    match resolve R env e with
    | some a => some (.fn .num onNumber [.mk .num a])
    | none => none
  | .path ab l =>
    match resolveSteps R env l with
    | some l => some (.path ab l)
    | none => none
  | .union l =>
    match resolves R env l with
    | some es => some (.union es)
    | none => none
  | .filter e ps =>
    match resolve R env e, resolves R env ps with
    | some a, some l => some (.filter a l)
    | _, _ => none
  | .pathFrom e l =>
    match resolve R env e, resolveSteps R env l with
    | some a, some l => some (.pathFrom a l)
    | _, _ => none
def resolves (R : Rounding) (env : Env) : List Ast → Option (List Expr)
  | [] => some []
  | e :: es =>
    match resolve R env e, resolves R env es with
    | some a, some l => some (a :: l)
    | _, _ => none
def resolveStep (R : Rounding) (env : Env) : AStep → Option LStep
  | .mk ax t ps =>
    match resolveTest env t, resolves R env ps with
    | some t, some l => some (.mk ax t l)
    | _, _ => none
def resolveSteps (R : Rounding) (env : Env) : List AStep → Option (List LStep)
  | [] => some []
  | s :: ss =>
    match resolveStep R env s, resolveSteps R env ss with
    | some a, some l => some (a :: l)
    | _, _ => none
end

end Verif.Parse
