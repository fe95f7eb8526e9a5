import Verif.Xslt.Sort
import Verif.Eval.Good

/-
What xsl:sort means: XSLT 1.0, section 10.
-/
namespace Verif.Xslt.Spec
open Verif Verif.XPath Verif.Dom Verif.Dom.Spec Verif.Eval Verif.Eval.Spec Verif.Xslt

/-- The value of a sort key for a node: "for each node to be processed, the expression is evaluated with that node as
the current node and with the complete list of nodes being processed in unsorted order as the current node list"; the
result is converted to a string, or with `data-type="number"` to a number. -/
def KeyValue (d : Doc) (k : SortKey) (nodes : List Nat) (n p : Nat) : KVal → Prop
  | .num x => k.number = true ∧ MeansAs d .num k.select n p nodes.length (.sc (.num x))
  | .str s => k.number = false ∧ MeansAs d .str k.select n p nodes.length (.sc (.str s))

/-- Numbers: NaN comes first. -/
def NumLess (x y : XNum) : Prop := (x.val = .nan ∧ y.val ≠ .nan) ∨ x.val.lt y.val = true

/-- The ascending order of values.  Texts are compared by Unicode code points: "culturally correct" is up to the
implementation. -/
def Less : KVal → KVal → Prop
  | .num x, .num y => NumLess x y
  | .str s, .str t => s < t
  | _, _ => False

/-- `order`. -/
def Precedes (k : SortKey) (u v : KVal) : Prop := if k.descending then Less v u else Less u v

/-- The first key in which two nodes differ decides; `u` and `v` are the values of all keys. -/
def SortsBefore (keys : List SortKey) (u v : Nat → KVal) : Prop :=
  ∃ j k, keys[j]? = some k ∧ Precedes k (u j) (v j) ∧
    ∀ i k', i < j → keys[i]? = some k' → ¬ Precedes k' (u i) (v i) ∧ ¬ Precedes k' (v i) (u i)

/-- No key tells them apart. -/
def SortsEqual (keys : List SortKey) (u v : Nat → KVal) : Prop :=
  ∀ i k, keys[i]? = some k → ¬ Precedes k (u i) (v i) ∧ ¬ Precedes k (v i) (u i)

/-- `res` are the nodes of the list in the order asked for: "If all the sort keys of two nodes are equal, then the
nodes should be sorted in document order". -/
def SortedBy (d : Doc) (keys : List SortKey) (nodes res : List Nat) : Prop :=
  res.Perm nodes ∧ ∃ kv : Nat → Nat → KVal,
    (∀ i n j k, nodes[i]? = some n → keys[j]? = some k → KeyValue d k nodes n (i + 1) (kv n j)) ∧
    res.Pairwise fun a b => SortsBefore keys (kv a) (kv b) ∨ (SortsEqual keys (kv a) (kv b) ∧ DocBefore d a b)

/-- The nodes that are sorted: those that `select` selects, or the children. -/
def SelectedBy (d : Doc) (e : Option Expr) (n p s : Nat) (nodes : List Nat) : Prop :=
  match e with
  | none => nodes = d.h.kids n
  | some e => Means d e n p s (.nodes nodes)

/-! What the theorems assume -/

/-- No `case-order` for texts. -/
def KeyOk (d : Doc) (r : Nat) (k : SortKey) : Prop :=
  (k.number = true ∨ k.caseOrder = none) ∧ Good d r (if k.number then .num else .str) k.select

/-- The expression is evaluated rightly. -/
def SelectOk (d : Doc) (r : Nat) : Option Expr → Prop
  | none => True
  | some e => Good d r .nodes e

end Verif.Xslt.Spec
