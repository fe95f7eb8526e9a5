import Verif.Xslt.Count
import Verif.Dom.AxesProps
/-
XSLT 1.0, 7.7: the numbers for `level`, `count` and `from`, in terms of the tree and of document order.
-/
namespace Verif.Xslt.Count.Spec
open Verif.Dom Verif.Dom.Spec Verif.Xslt.Count

/-- "If `count` is not specified, then it defaults to the pattern that matches any node with the same node
type as the current node and, if the current node has an expanded-name, with the same expanded-name as
the current node."  The expanded-name of a processing instruction is its target. -/
def Default (d : Doc) (n x : NodeId) : Prop :=
  d.h.kind x = d.h.kind n ∧
    (d.h.kind n = .element ∨ d.h.kind n = .attr → d.name x = d.name n) ∧
    (d.h.kind n = .pi → d.target x = d.target n)

/-- The nodes that `count` matches, with its default. -/
def Counts (d : Doc) (n : NodeId) : Option Pattern → NodeId → Prop
  | some c => fun x => c x = true
  | none => Default d n

/-- The nodes that `from` matches: none without `from`. -/
def Froms : Option Pattern → NodeId → Prop
  | some f => fun x => f x = true
  | none => fun _ => False

/-- The list has each of these nodes once. -/
def Lists (l : List NodeId) (P : NodeId → Prop) : Prop := l.Nodup ∧ ∀ x, x ∈ l ↔ P x

/-- "one plus the number of preceding siblings of that ancestor that match the count pattern" -/
def Place (h : Heap) (C : NodeId → Prop) (m : NodeId) (k : Nat) : Prop :=
  ∃ l, Lists l (fun x => OnAxis h m x .precedingSibling ∧ C x) ∧ k = 1 + l.length

/-- `s` is "the nearest ancestor that matches the from pattern". -/
def Nearest (h : Heap) (F : NodeId → Prop) (n s : NodeId) : Prop :=
  Anc h s n ∧ F s ∧ ∀ t, Anc h t n → F t → AncS h t s

/-- The nodes that are searched: the node and its ancestors; "if the from attribute is specified, then the only
ancestors that are searched are those that are descendants of the nearest ancestor that matches the from
pattern" (all, if there is no such ancestor). -/
def Searched (h : Heap) (F : NodeId → Prop) (n m : NodeId) : Prop :=
  AncS h m n ∧ ∀ s, Nearest h F n s → Anc h s m

/-- The list of numbers for `level="single"`: that of "the first node in the ancestor-or-self axis that
matches the count pattern", empty "if there is no such ancestor". -/
def IsSingle (h : Heap) (C F : NodeId → Prop) (n : NodeId) (l : List Nat) : Prop :=
  (∃ m k, Searched h F n m ∧ C m ∧ (∀ m', Searched h F n m' → C m' → AncS h m' m) ∧ Place h C m k ∧ l = [k]) ∨
  ((∀ m, Searched h F n m → ¬ C m) ∧ l = [])

/-- For `level="multiple"`: "a list of all ancestors of the current node in document order followed by the
element itself; it then selects from the list those nodes that match the count pattern; it then maps each
node in the list to one plus the number of preceding siblings of that node that match the count
pattern." -/
def IsMultiple (h : Heap) (C F : NodeId → Prop) (n : NodeId) (l : List Nat) : Prop :=
  ∃ ms : List NodeId, ms.Pairwise (Before h) ∧ (∀ m, m ∈ ms ↔ Searched h F n m ∧ C m) ∧
    l.length = ms.length ∧ ∀ (i : Nat) m k, ms[i]? = some m → l[i]? = some k → Place h C m k

/-- For `level="any"`: "the number of nodes that match the count pattern and belong to the set containing
the current node and all nodes at any level of the document that are before the current node in document
order, excluding any namespace and attribute nodes.  If the from attribute is specified, then only
nodes after the first node before the current node that match the from pattern are considered." -/
def IsAny (h : Heap) (C F : NodeId → Prop) (n : NodeId) (k : Nat) : Prop :=
  ∃ l, Lists l (fun x => TreeNode h x ∧ (x = n ∨ Before h x n) ∧ C x ∧
    ∀ y, TreeNode h y → Before h y n → F y → Before h y x) ∧ k = l.length

end Verif.Xslt.Count.Spec
