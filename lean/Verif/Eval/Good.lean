import Verif.Eval.Spec

/-
The expressions for which evaluation is right.  Each restriction here has a refutation in
Verif.Eval.Props that shows what goes wrong without it.
-/
namespace Verif.Eval.Spec
open Verif Verif.XPath Verif.Dom Verif.Dom.Spec

mutual
/-- The value does not depend on the context size: no `last()` that refers to it.  (A `last()` in a
predicate of a path refers to the size of that predicate's node list.) -/
def LastFree : Expr → Prop
  | .last => False
  | .lit _ _ | .var _ | .position | .path _ _ => True
  | .fn _ _ args => LastFreeArgs args
  | .and l r | .or l r | .cmp _ l r => LastFree l ∧ LastFree r
  | .union es => LastFreeAll es
  | .filter e _ | .pathFrom e _ => LastFree e
def LastFreeArgs : List Arg → Prop
  | [] => True
  | a :: as => LastFreeArg a ∧ LastFreeArgs as
def LastFreeArg : Arg → Prop
  | .mk _ e => LastFree e
def LastFreeAll : List Expr → Prop
  | [] => True
  | e :: es => LastFree e ∧ LastFreeAll es
end

/-- What is known about the list of nodes that the steps of a path produce: at most one node; sorted
and no node an ancestor of another; sorted; without repetitions; nothing. -/
inductive Shape | one | flat | sorted | nodup | any
  deriving DecidableEq, Repr

/-- What one step makes of it. -/
def stepShape : Shape → LAxis → Shape
  | .one, .tree .self | .one, .tree .parent => .one
  | .one, .tree .child | .one, .attr | .one, .namespaces | .one, .tree .followingSibling
  | .one, .tree .precedingSibling => .flat
  | .one, _ => .sorted
  | .flat, .tree .self | .flat, .tree .child | .flat, .attr | .flat, .namespaces => .flat
  | .flat, .tree .descendant | .flat, .tree .descendantOrSelf => .sorted
  | .sorted, .tree .self | .sorted, .attr | .sorted, .namespaces => .sorted
  | .sorted, .tree .child => .nodup
  | .nodup, .tree .self | .nodup, .tree .child | .nodup, .attr | .nodup, .namespaces => .nodup
  | _, _ => .any

def LStep.axis : LStep → LAxis
  | .mk ax _ _ => ax

/-- The shape of the nodes that steps produce. -/
def stepsShape : Shape → List LStep → Shape
  | sh, [] => sh
  | sh, s :: ss => stepsShape (stepShape sh (LStep.axis s)) ss

/-- The shape of the nodes of a node-set expression. -/
def baseShape : Expr → Shape
  | .path _ steps => stepsShape .one steps
  | .pathFrom e steps => stepsShape (baseShape e) steps
  | _ => .sorted

/-- In the modes that return a node-set no repetitions are allowed; where the first node counts, the
nodes must come in order; for a boolean it does not matter. -/
def ShapeOk (m : Mode) (sh : Shape) : Prop :=
  match m with
  | .bool => True
  | .any | .nodes => sh ≠ .any
  | .num | .str => sh ≠ .any ∧ sh ≠ .nodup

/-- The value has the declared type. -/
def HasTy : Ty → EVal → Prop
  | .num, v => ∃ x, v = .sc (.num x)
  | .str, v => ∃ x, v = .sc (.str x)
  | .bool, v => ∃ x, v = .sc (.bool x)
  | .nodes, v => ∃ x, v = .nodes x
  | .obj, _ => True

/-- A node-set is a list of nodes of the document in document order. -/
def GoodVal (d : Doc) (r : Nat) : EVal → Prop
  | .nodes l => Sorted d l ∧ ∀ x ∈ l, InDoc d r x
  | .sc _ => True

/-- A number, literally or as the value of a variable. -/
def IsNumeric : Expr → Prop
  | .lit number _ => number = true
  | .var (.sc (.num _)) => True
  | _ => False

/-- The method by which a predicate is evaluated. -/
def predMode (e : Expr) : Mode :=
  match e.ty with
  | .num => .num
  | .obj => .any
  | _ => .bool

/-- Predicates that are evaluated rightly: no string literal, no `last()` except in `position() = e`,
no `position() >= k`, and `position() = e` only for numbers `e`. -/
def PredOk (e : Expr) : Prop :=
  match e with
  | .lit number _ => number = true
  | .cmp .eq l r => match l, r with
    | .position, .lit number _ => number = true
    | .position, r => r.ty = .num
    | .lit number _, .position => number = true
    | l, .position => l.ty = .num ∧ LastFree l
    | l, r => LastFree l ∧ LastFree r
  | .cmp .ne l r => LastFree l ∧ LastFree r
  | .cmp op l r => match l with
    | .position => if isSimple r ∧ (op = .gt ∨ op = .ge) then op = .gt ∧ IsNumeric r else LastFree r
    | l => LastFree l ∧ LastFree r
  | e => LastFree e

/-- Predicates that do not use `last()` at all. -/
def PredStable (e : Expr) : Prop := PredOk e ∧ LastFree e

/-- A step that can be followed by others: its predicates must not use `last()` unless the axis is a
reverse axis, because the later steps change the context size while the predicate is suspended. -/
def StepStable : LStep → Prop
  | .mk ax _ preds => ax.reverse = true ∨ ∀ e ∈ preds, LastFree e

def AllStepsStable (steps : List LStep) : Prop := ∀ s ∈ steps, StepStable s

/-- All steps but the last. -/
def StepsOk : List LStep → Prop
  | [] => True
  | [_] => True
  | s :: ss => StepStable s ∧ StepsOk ss

/-- Axes that never lead to an attribute or namespace node. -/
def ProperAxis : LAxis → Prop
  | .tree .self | .tree .ancestorOrSelf | .tree .descendantOrSelf | .attr | .namespaces => False
  | _ => True

/-- Operands of a union: paths to tree nodes, or variables. -/
def UnionOperand (d : Doc) : Expr → Prop
  | .path absolute steps => match steps.getLast? with
    | none => absolute = true
    | some s => ProperAxis (LStep.axis s)
  | .var (.nodes l) => ∀ x ∈ l, TreeNode d.h x
  | _ => False

/-- What an expression in front of `/` must be, so that later steps do not disturb it. -/
def BaseStable : Expr → Prop
  | .path _ steps => AllStepsStable steps
  | .pathFrom _ steps => AllStepsStable steps
  | .filter _ preds => ∀ e ∈ preds, LastFree e
  | _ => True

mutual
/-- Expressions that are evaluated rightly by the method `m`. -/
def Good (d : Doc) (r : Nat) : Mode → Expr → Prop
  | m, .lit number _ => number = true → m ≠ .bool ∧ m ≠ .str
  | _, .var v => GoodVal d r v
  | _, .position | _, .last => True
  | _, .fn ty f args => GoodArgs d r args ∧ ∀ vs v, f vs = .ok v → HasTy ty v ∧ GoodVal d r v
  | _, .and a b | _, .or a b => Good d r .bool a ∧ Good d r .bool b
  | _, .cmp _ a b => Good d r .any a ∧ Good d r .any b
  | m, .path _ steps => GoodSteps d r steps ∧ StepsOk steps ∧ ShapeOk m (stepsShape .one steps)
  | _, .union es => GoodUnion d r es
  | _, .filter e preds => Good d r .nodes e ∧ GoodPreds d r preds
  | m, .pathFrom e steps => Good d r (if e.isNodeset then .bool else .nodes) e ∧ BaseStable e ∧
      GoodSteps d r steps ∧ StepsOk steps ∧ ShapeOk m (stepsShape (baseShape e) steps)
def GoodArgs (d : Doc) (r : Nat) : List Arg → Prop
  | [] => True
  | a :: as => GoodArg d r a ∧ GoodArgs d r as
def GoodArg (d : Doc) (r : Nat) : Arg → Prop
  | .mk m e => Good d r m e
def GoodUnion (d : Doc) (r : Nat) : List Expr → Prop
  | [] => True
  | e :: es => Good d r .bool e ∧ UnionOperand d e ∧ GoodUnion d r es
def GoodPreds (d : Doc) (r : Nat) : List Expr → Prop
  | [] => True
  | e :: es => Good d r (predMode e) e ∧ PredOk e ∧ GoodPreds d r es
def GoodStep (d : Doc) (r : Nat) : LStep → Prop
  | .mk _ _ preds => GoodPreds d r preds
def GoodSteps (d : Doc) (r : Nat) : List LStep → Prop
  | [] => True
  | s :: ss => GoodStep d r s ∧ GoodSteps d r ss
end

end Verif.Eval.Spec
