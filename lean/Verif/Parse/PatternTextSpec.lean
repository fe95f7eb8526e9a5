import Verif.Parse.PatternSpec
import Verif.Parse.LexSpec
import Verif.Parse.AstMeans
import Verif.Eval.Spec
/-
Which texts are patterns by XSLT 1.0 (5.2), and when what is made of one is as
good as what should be made of it.
-/
namespace Verif.Parse.Spec
open Verif.Eval Verif.Eval.Spec

/-- A token of XPath as one of a pattern.  The names of two axes and two
functions are words of the grammar of patterns too. -/
inductive AsPattern : Tok → Tok → Prop where
  | same (t) : AsPattern t (mapTok patSym t)
  | child {t} : Is .axisName t → t.text = "child".toList → AsPattern t ⟨PTerm.childAxis.num, t.text⟩
  | attribute {t} : Is .axisName t → t.text = "attribute".toList →
      AsPattern t ⟨PTerm.attributeAxis.num, t.text⟩
  | id {t} : Is .functionName t → t.text = "id".toList → AsPattern t ⟨PTerm.idFunction.num, t.text⟩
  | key {t} : Is .functionName t → t.text = "key".toList → AsPattern t ⟨PTerm.keyFunction.num, t.text⟩

/-- Two lists, member by member. -/
inductive Both {α β : Type} (R : α → β → Prop) : List α → List β → Prop where
  | nil : Both R [] []
  | cons {a b l m} : R a b → Both R l m → Both R (a :: l) (b :: m)

/-- By the recommendation the text is a pattern with these alternatives. -/
def PatternText (s : Str) (P : List PPath) : Prop :=
  ∃ ts ts', Lexes false s ts ∧ Both AsPattern ts ts' ∧ PatternSays ts' P

/-- The tokens before the first `[`. -/
def beforeBracket (ts : List Tok) : List Tok := ts.takeWhile (fun t => t.kind != Term.lbracket.num)

/-- The expression has the value of the other, wherever that has one. -/
def SameValue (e' e : Ast) : Prop :=
  ∀ d r, DocWF d r → ∀ env, EnvIn d r env → ∀ x, resolve d.R env e = some x →
    ∃ x', resolve d.R env e' = some x' ∧
      ∀ n, InDoc d r n → ∀ p k v, Means d x' n p k v ↔ Means d x n p k v

/-- Steps that differ at most in the forms of their predicates. -/
inductive SameNode : PNode → PNode → Prop where
  | document : SameNode .document .document
  | test (a t) : SameNode (.test a t) (.test a t)
  | predicated (a t) {ps' ps} : Both SameValue ps' ps → SameNode (.predicated a t ps') (.predicated a t ps)
  | call (f) : SameNode (.call f) (.call f)

/-- So for the steps of an alternative, with their marks. -/
def SameChain : List (PNode × Bool) → List (PNode × Bool) → Prop :=
  Both (fun x y => SameNode x.1 y.1 ∧ x.2 = y.2)

end Verif.Parse.Spec
