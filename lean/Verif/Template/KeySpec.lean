import Verif.Template.Key
import Verif.Template.SelectSpec

/-
Keys: XSLT 1.0, section 12.2.
-/
namespace Verif.Template.Spec
open Verif Verif.XPath Verif.Dom Verif.Dom.Spec Verif.Eval Verif.Eval.Spec Verif.Template

/-- The strings that a value stands for: "If the result is a node-set, then for each node in the node-set, the node
that matches the pattern has a key [...] whose value is the string-value of the node [...]; otherwise, the result is
converted to a string"; the same for the second argument of `key`. -/
def Gives (d : Doc) : EVal → Str → Prop
  | .nodes l, s => ∃ y ∈ l, s = strVal d y
  | .sc v, s => toStr d (.sc v) = .ok s

/-- "a node x has a key with name y and value z if and only if there is an xsl:key element such that: the node x matches
the pattern specified in the match attribute of the xsl:key element; the value of the name attribute of the xsl:key
element is equal to y; and the expression specified in the use attribute of the xsl:key element, when evaluated with x
as the current node and with a node list containing just x as the current node list", gives z. -/
def HasKey (d : Doc) (ks : List KeyDecl) (name : Name) (x : Nat) (s : Str) : Prop :=
  ∃ k ∈ ks, k.name = name ∧ (∃ p ∈ k.alts, Matches d p x) ∧ ∃ v, Means d k.use x 1 1 v ∧ Gives d v s

/-- "the result is a node-set containing the nodes in the same document as the context node that have a value for the
named key" equal to the string, resp. to the string-value of a node of the second argument. -/
def Keyed (d : Doc) (root : Nat) (ks : List KeyDecl) (name : Name) (arg : EVal) (x : Nat) : Prop :=
  InDoc d root x ∧ ∃ s, Gives d arg s ∧ HasKey d ks name x s

/-! What the theorems assume -/

/-- The patterns and expressions are handled rightly (see C26 to C28, C51, C58, C59). -/
def KeysOk (d : Doc) (root : Nat) (ks : List KeyDecl) (name : Name) : Prop :=
  ∀ k ∈ ks, k.name = name → Good d root .any k.use ∧ ∀ p ∈ k.alts, ∀ n, InDoc d root n → RuleOk d root p n

/-- `ord` are the keys of the dictionary. -/
def OrdOk (d : Doc) (ord : List FKey) (ks : List KeyDecl) (name : Name) : Prop :=
  ∀ tb, keyTable d 0 (keysNamed ks name) Table.empty = .ok tb → ∀ k, k ∈ ord ↔ (k = .any ∨ tb k ≠ none)

end Verif.Template.Spec
