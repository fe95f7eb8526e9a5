import Verif.Template.Pattern
import Verif.Eval.Good

/-
What it means that a node matches a pattern: XSLT 1.0, section 5.2, in terms of the meaning of XPath expressions
(Verif.Eval.Spec).
-/
namespace Verif.Template.Spec
open Verif Verif.XPath Verif.Dom Verif.Dom.Spec Verif.Eval Verif.Eval.Spec Verif.Template

/-- `descendant-or-self::node()`, which `//` stands for (XPath 1.0, 2.5). -/
def anyBelow : LStep := .mk (.tree .descendantOrSelf) .node []

/-- A step of a pattern is a step of a path. -/
def lstep (s : PatStep) : LStep :=
  .mk (match s.axis with | .child => .tree .child | .attr => .attr) s.test s.preds

/-- The pattern as a location path. -/
def steps : Rel → List LStep
  | .one s => [lstep s]
  | .slash r s => steps r ++ [lstep s]
  | .dslash r s => steps r ++ [anyBelow, lstep s]

/-- The pattern, read as an expression with the context node `y`, selects `n`. -/
def Selects (d : Doc) (p : Pat) (y n : Nat) : Prop :=
  match p with
  | .root => Root d.h n y
  | .abs r => ∃ z, Root d.h z y ∧ Reaches d (steps r) z n
  | .dabs r => ∃ z, Root d.h z y ∧ Reaches d (anyBelow :: steps r) z n
  | .rel r => Reaches d (steps r) y n
  | .idKey fn => ∃ l, Means d fn y 1 1 (.nodes l) ∧ n ∈ l
  | .idKeySlash fn r => ∃ l z, Means d fn y 1 1 (.nodes l) ∧ z ∈ l ∧ Reaches d (steps r) z n
  | .idKeyDslash fn r => ∃ l z, Means d fn y 1 1 (.nodes l) ∧ z ∈ l ∧ Reaches d (anyBelow :: steps r) z n

/-- "A node matches a pattern if the node is a member of the result of evaluating the pattern as an expression
with respect to some possible context; the possible contexts are those whose context node is the node being
matched or one of its ancestors" (5.2). -/
def Matches (d : Doc) (p : Pat) (n : Nat) : Prop := ∃ y, AncS d.h y n ∧ Selects d p y n

/-! The patterns for which the code is right -/

/-- The last step. -/
def last : Rel → PatStep
  | .one s | .slash _ s | .dslash _ s => s

/-- The steps before it. -/
def front : Rel → List PatStep
  | .one _ => []
  | .slash r _ | .dslash r _ => last r :: front r

/-- Node tests that are evaluated rightly for every node: not `node()`, not `processing-instruction()`, and after
`@` only names. -/
def TestOk : PAxis → NodeTest → Prop
  | _, .any | _, .inNs _ | _, .name _ _ => True
  | .child, .kind k => k = .text ∨ k = .comment
  | _, _ => False

/-- Steps that are evaluated rightly: predicates only on children, and such that the XPath engine evaluates them
rightly. -/
def StepOk (d : Doc) (r : Nat) (s : PatStep) : Prop :=
  match s.preds with
  | [] => TestOk s.axis s.test
  | preds => s.axis = .child ∧ (TestOk .child s.test ∨ s.test = .node) ∧ GoodPreds d r preds

/-- The last step can also be `node()` if the node is a child, `@node()` if it is an attribute. -/
def LastOk (d : Doc) (r : Nat) (s : PatStep) (n : Nat) : Prop :=
  StepOk d r s ∨ (s.preds = [] ∧ s.test = .node ∧
    match s.axis with | .child => isChildKind (d.h.kind n) = true | .attr => d.h.kind n = .attr)

/-- All steps. -/
def RelOk (d : Doc) (root : Nat) (r : Rel) (n : Nat) : Prop :=
  LastOk d root (last r) n ∧ ∀ s ∈ front r, StepOk d root s

/-- A call of `id` or `key`: the arguments are literals, and the result consists of tree nodes of the document. -/
def CallOk (d : Doc) (root : Nat) (fn : Expr) : Prop :=
  Good d root .any fn ∧ ∃ f args, fn = .fn .nodes f args ∧ (∀ a ∈ args, ∃ s, a = .mk .any (.lit false s)) ∧
    ∀ vs l, f vs = .ok (.nodes l) → ∀ x ∈ l, TreeNode d.h x

/-- Patterns that are evaluated rightly if they do not need backtracking. -/
def PatOk (d : Doc) (root : Nat) (p : Pat) (n : Nat) : Prop :=
  match p with
  | .root => True
  | .abs r | .dabs r | .rel r => RelOk d root r n
  | .idKey fn => CallOk d root fn
  | .idKeySlash fn r | .idKeyDslash fn r => CallOk d root fn ∧ RelOk d root r n

/-- No `/`. -/
def AllDouble : Rel → Prop
  | .one _ => True
  | .slash _ _ => False
  | .dslash r _ => AllDouble r

/-- No `//`. -/
def AllSingle : Rel → Prop
  | .one _ => True
  | .slash r _ => AllSingle r
  | .dslash _ _ => False

/-- All `//` come before all `/`. -/
def DoubleFirst : Rel → Prop
  | .one _ => True
  | .slash r _ => DoubleFirst r
  | .dslash r _ => AllDouble r

/-- Patterns in which looking for the nearest ancestor is enough. -/
def NoBacktracking : Pat → Prop
  | .root | .idKey _ => True
  | .abs r | .idKeySlash _ r => AllSingle r
  | .dabs r | .rel r => DoubleFirst r
  | .idKeyDslash _ _ => False

end Verif.Template.Spec
