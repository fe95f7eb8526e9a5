import Verif.Eval.Model
import Verif.XPath.CompareSpec
import Verif.Dom.AxesProps

/-
What XPath 1.0 says that an expression means, independently of how it is evaluated: no iterators, no
mutable context, no choice of methods.  Section numbers refer to XPath 1.0.
-/
namespace Verif.Eval.Spec
open Verif Verif.XPath Verif.Dom Verif.Dom.Spec

/-- A document as the evaluator finds it: a well-formed tree under the root node `r`, in which
attributes and namespace nodes have their element as parent. -/
structure DocWF (d : Doc) (r : Nat) : Prop where
  wf : WF d.h
  root : d.h.kind r = .entity
  attr : ∀ e a, a ∈ d.attrs e → d.h.kind a = .attr ∧ d.h.parent a = some e
  ns : ∀ e a, a ∈ d.nss e → d.h.kind a = .ns ∧ d.h.parent a = some e
  attr_nodup : ∀ e, (d.attrs e).Nodup
  ns_nodup : ∀ e, (d.nss e).Nodup

/-- A node of the document: below the root, and if it is an attribute or namespace node then one of
those of its element. -/
def InDoc (d : Doc) (r n : Nat) : Prop :=
  Root d.h r n ∧ (TreeNode d.h n ∨ ∃ e, n ∈ d.attrs e ∨ n ∈ d.nss e)

/-- The order of the attributes and namespace nodes of one element (5): namespace nodes come before
attributes; apart from that it is up to the implementation, here the order in the two maps. -/
inductive TieBefore (d : Doc) (a b : Nat) : Prop
  | attrs (e i j : Nat) : (d.attrs e)[i]? = some a → (d.attrs e)[j]? = some b → i < j → TieBefore d a b
  | nss (e i j : Nat) : (d.nss e)[i]? = some a → (d.nss e)[j]? = some b → i < j → TieBefore d a b
  | mixed (e : Nat) : a ∈ d.nss e → b ∈ d.attrs e → TieBefore d a b

/-- Document order (5): that of the tree; attributes and namespace nodes come after their element and
before its children. -/
inductive DocBefore (d : Doc) (a b : Nat) : Prop
  | tree : Before d.h a b → DocBefore d a b
  | attr : AttrBefore d.h a b → DocBefore d a b
  | tie : TieBefore d a b → DocBefore d a b

/-- A list of nodes that stands for a set: in document order, each node once. -/
def Sorted (d : Doc) (l : List Nat) : Prop := l.Pairwise (DocBefore d)

/-- The nodes on an axis (2.2).  Only `self`, `ancestor-or-self` and `descendant-or-self` can contain
an attribute or namespace node, namely the context node. -/
def OnLAxis (d : Doc) (n x : Nat) : LAxis → Prop
  | .tree a => OnAxis d.h n x a ∧ (TreeNode d.h x ∨ x = n)
  | .attr => d.h.kind n = .element ∧ x ∈ d.attrs n
  | .namespaces => d.h.kind n = .element ∧ x ∈ d.nss n

/-- The principal node type of an axis (2.3). -/
def Principal : LAxis → Kind
  | .attr => .attr
  | .namespaces => .ns
  | .tree _ => .element

/-- The node test is true of the node (2.3). -/
def Matches (d : Doc) (ax : LAxis) (x : Nat) : NodeTest → Prop
  | .node => True
  | .kind k => d.h.kind x = k
  | .pi target => d.h.kind x = .pi ∧ (d.name x).2 = some target
  | .any => d.h.kind x = Principal ax
  | .inNs ns => d.h.kind x = Principal ax ∧ (d.name x).1 = some ns
  | .name ns l => d.h.kind x = Principal ax ∧ (d.name x).1 = ns ∧ (d.name x).2 = some l

/-- `l` are the nodes on the axis that pass the test, in the order in which predicates count them:
document order, or its reverse for a reverse axis (2.4). -/
def Candidates (d : Doc) (ax : LAxis) (t : NodeTest) (n : Nat) (l : List Nat) : Prop :=
  (∀ x, x ∈ l ↔ OnLAxis d n x ax ∧ Matches d ax x t) ∧
  if ax.reverse then l.Pairwise (fun a b => DocBefore d b a) else l.Pairwise (DocBefore d)

/-- `boolean(v)` (4.3). -/
def Truthy : EVal → Prop
  | .sc s => XPath.Spec.Truth s
  | .nodes l => l ≠ []

/-- A predicate with the value `v` is true of the node at position `p` (2.4). -/
def PredTrue (v : EVal) (p : Nat) : Prop :=
  match v with
  | .sc (.num x) => x.val.toRat? = some (p : Rat)
  | v => Truthy v

open Classical in
/-- The nodes of a list for which `T` holds; the second argument of `T` is the position, counted from
`p` for the first node. -/
noncomputable def keep (T : Nat → Nat → Prop) : Nat → List Nat → List Nat
  | _, [] => []
  | p, n :: l => if T n p then n :: keep T (p + 1) l else keep T (p + 1) l

/-- Conversion of a value to the type that a function argument or operator needs (3.2, 3.4, 4.2 to
4.4); for the details of numbers and strings see C21, C28 and C29. -/
def Converts (d : Doc) (m : Mode) (w v : EVal) : Prop :=
  match m with
  | .any => v = w
  | .bool => ∃ b, v = .sc (.bool b) ∧ (b = true ↔ Truthy w)
  | .num => ∃ x, v = .sc (.num x) ∧ (toNum d w = .ok x ∨ ((∃ e, toNum d w = .error e) ∧ x = .sNaN))
  | .str => ∃ s, v = .sc (.str s) ∧ toStr d w = .ok s
  | .nodes => v = w ∧ ∃ l, w = .nodes l

/-- The node that a path starts from (2). -/
def StartNode (d : Doc) (absolute : Bool) (n s : Nat) : Prop :=
  if absolute then Root d.h s n else s = n

mutual
/-- `v` is the value of an expression for the context node `n`, context position `p` and context size
`s` (3). -/
noncomputable def Means (d : Doc) : Expr → Nat → Nat → Nat → EVal → Prop
  | .lit true str, _, _, _, v => ∃ x, v = .sc (.num x) ∧
      (numberOfString d.R str = .ok x ∨ ((∃ e, numberOfString d.R str = .error e) ∧ x = .sNaN))
  | .lit false str, _, _, _, v => v = .sc (.str str)
  | .var w, _, _, _, v => v = w
  | .position, _, p, _, v => v = .sc (.num (.obj (.fin p)))
  | .last, _, _, s, v => v = .sc (.num (.obj (.fin s)))
  | .fn _ f args, n, p, s, v => ∃ vs, ArgsMean d args n p s vs ∧ f vs = .ok v
  | .and l r, n, p, s, v => ∃ a, Means d l n p s a ∧
      ((¬ Truthy a ∧ v = .sc (.bool false)) ∨
       (Truthy a ∧ ∃ b, Means d r n p s b ∧ Converts d .bool b v))
  | .or l r, n, p, s, v => ∃ a, Means d l n p s a ∧
      ((Truthy a ∧ v = .sc (.bool true)) ∨
       (¬ Truthy a ∧ ∃ b, Means d r n p s b ∧ Converts d .bool b v))
  | .cmp op l r, n, p, s, v => ∃ a b, Means d l n p s a ∧ Means d r n p s b ∧
      compareVals d op a b = .ok v
  | .path absolute steps, n, _, _, v => ∃ l, v = .nodes l ∧ Sorted d l ∧
      ∀ x, x ∈ l ↔ ∃ y, StartNode d absolute n y ∧ Reaches d steps y x
  | .union es, n, p, s, v => ∃ l, v = .nodes l ∧ Sorted d l ∧ ∀ x, x ∈ l ↔ InSome d es n p s x
  | .filter e preds, n, p, s, v => ∃ l, Means d e n p s (.nodes l) ∧ v = .nodes (kept d preds l)
  | .pathFrom e steps, n, p, s, v => ∃ l0 l, Means d e n p s (.nodes l0) ∧ v = .nodes l ∧ Sorted d l ∧
      ∀ x, x ∈ l ↔ ∃ y ∈ l0, Reaches d steps y x

/-- The values of function arguments. -/
noncomputable def ArgsMean (d : Doc) : List Arg → Nat → Nat → Nat → List EVal → Prop
  | [], _, _, _, vs => vs = []
  | a :: as, n, p, s, vs => ∃ v vs', ArgMeans d a n p s v ∧ ArgsMean d as n p s vs' ∧ vs = v :: vs'

/-- The value of one argument, converted to the type of the parameter. -/
noncomputable def ArgMeans (d : Doc) : Arg → Nat → Nat → Nat → EVal → Prop
  | .mk m e, n, p, s, v => ∃ w, Means d e n p s w ∧ Converts d m w v

/-- The node is in the node-set of one of the expressions. -/
noncomputable def InSome (d : Doc) : List Expr → Nat → Nat → Nat → Nat → Prop
  | [], _, _, _, _ => False
  | e :: es, n, p, s, x => (∃ l, Means d e n p s (.nodes l) ∧ x ∈ l) ∨ InSome d es n p s x

/-- The nodes of `l` that pass all predicates; each predicate sees the nodes that the earlier ones have
kept, counted from 1, with their number as the context size (2.4).  A predicate that has no value (is
an error) counts as not true. -/
noncomputable def kept (d : Doc) : List Expr → List Nat → List Nat
  | [], l => l
  | e :: es, l => kept d es (keep (fun n p => ∃ v, Means d e n p l.length v ∧ PredTrue v p) 1 l)

/-- `k` are the nodes that a step selects for one context node, in the order of its axis (2.1). -/
noncomputable def StepSelects (d : Doc) : LStep → Nat → List Nat → Prop
  | .mk ax t preds, n, k => ∃ l, Candidates d ax t n l ∧ k = kept d preds l

/-- `x` is among the nodes that the steps of a path select when they start from `n` (2). -/
noncomputable def Reaches (d : Doc) : List LStep → Nat → Nat → Prop
  | [], n, x => x = n
  | s :: ss, n, x => ∃ k y, StepSelects d s n k ∧ y ∈ k ∧ Reaches d ss y x
end

/-- The value of an expression converted to what is asked for. -/
def MeansAs (d : Doc) (m : Mode) (e : Expr) (n p s : Nat) (v : EVal) : Prop :=
  ∃ w, Means d e n p s w ∧ Converts d m w v

end Verif.Eval.Spec
