import Verif.Path.Abspath
import Verif.Parse.AstProps
/-
When a document lends itself to `abspath`, and what its result should be, without reference to how it is computed.
-/
namespace Verif.Path.Spec
open Verif Verif.XPath Verif.Dom Verif.Dom.Spec Verif.Parse
open Verif.Parse.Spec (NCName)
open Verif.Eval (Doc)

/-- A node with this number of ancestors. -/
inductive Level (h : Heap) : Nat → Nat → Prop
  | root {n : Nat} : h.parent n = none → Level h 0 n
  | child {k n p : Nat} : h.parent n = some p → Level h k p → Level h (k + 1) n

/-- With the hints, the prefix stands for the namespace at the node: hints come before declarations. -/
def Bound (m : Names) (hints : List (Option Str × Str)) (n : Nat) (p : Option Str) (u : Str) : Prop :=
  (p, u) ∈ hints ∨ ((∀ v, (p, v) ∉ hints) ∧ (p, u) ∈ m.nss n)

/-- The functions `namespace-uri` and `local-name` are there and do what XPath says (4.1) for the context node. -/
def Functions (d : Doc) (env : Env) : Prop :=
  (∃ g, env.fn (s!! "namespace-uri") 0 = some g ∧ g.self = some .nodes ∧
    ∀ x, g.f [.nodes [x]] = .ok (.sc (.str ((d.name x).1.getD [])))) ∧
  (∃ g, env.fn (s!! "local-name") 0 = some g ∧ g.self = some .nodes ∧
    ∀ x, g.f [.nodes [x]] = .ok (.sc (.str ((d.name x).2.getD []))))

/-- The name of an element or attribute is well-formed, and the one who evaluates the expression knows its prefix by the
same namespace.  If an element is in a default namespace, all prefixes for this namespace are so known; if there is none
(only with `long`), the namespace name has no quotation mark in it, and the functions of XPath are there. -/
structure Named (d : Doc) (m : Names) (hints : List (Option Str × Str)) (env : Env) (long : Bool) (n : Nat) : Prop where
  known : ∃ l, (d.name n).2 = some l ∧ NCName l
  ns : (d.name n).1 ≠ some []
  pre : ∀ p, m.pre n = some p → NCName p ∧ ∃ u, (d.name n).1 = some u ∧ env.ns p = some u
  attr : d.h.kind n = .attr → m.pre n = none → (d.name n).1 = none
  default : ∀ u, d.h.kind n = .element → m.pre n = none → (d.name n).1 = some u →
    ((∃ p, p ≠ [] ∧ Bound m hints n (some p) u) ∨ (long = true ∧ '"' ∉ u ∧ Functions d env)) ∧
    ∀ p, p ≠ [] → Bound m hints n (some p) u → NCName p ∧ env.ns p = some u

/-- What is asked of the document and of the nodes from the root to `n`. -/
structure Fit (d : Doc) (m : Names) (hints : List (Option Str × Str)) (env : Env) (long : Bool) (n : Nat) : Prop where
  size : d.h.size ≤ 2 ^ 53
  owner : ∀ e a, a ∈ d.attrs e → d.h.kind e = .element
  names : ∀ e a b, a ∈ d.attrs e → b ∈ d.attrs e → d.name a = d.name b → a = b
  named : ∀ x, AncS d.h x n → d.h.kind x = .element ∨ d.h.kind x = .attr → Named d m hints env long x

/-- The element has no later sibling of its name, unless it has an earlier one. -/
def Told (d : Doc) (x : Nat) : Prop :=
  ∀ p before after, d.h.kids p = before ++ x :: after →
    (∀ y ∈ before, d.h.kind y = .element → d.name y ≠ d.name x) →
    ∀ y ∈ after, d.h.kind y = .element → d.name y ≠ d.name x

end Verif.Path.Spec
