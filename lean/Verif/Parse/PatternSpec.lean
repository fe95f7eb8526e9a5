import Verif.Parse.AstSpec
import Verif.Parse.Embed
/-
What a pattern is and what it is made into, by XSLT 1.0 (5.2), productions [1] to [5] there:

  Pattern ::= LocationPathPattern | Pattern '|' LocationPathPattern
  LocationPathPattern ::= '/' RelativePathPattern? | IdKeyPattern (('/' | '//') RelativePathPattern)?
    | '//'? RelativePathPattern
  IdKeyPattern ::= 'id' '(' Literal ')' | 'key' '(' Literal ',' Literal ')'
  RelativePathPattern ::= StepPattern | RelativePathPattern '/' StepPattern
    | RelativePathPattern '//' StepPattern
  StepPattern ::= ChildOrAttributeAxisSpecifier NodeTest Predicate*

This is the specification; it does not mention the tables or the action routines.
-/
namespace Verif.Parse

/-- The numbers of the symbols of XPath in lib/xslt/xpatterns/parser.c (299-352). -/
def patSym (x : Nat) : Nat :=
  if x ≤ 2 then x else if x ≤ 17 then x + 4 else if x ≤ 20 then x + 5 else if x ≤ 23 then x + 7
  else if x = 24 then 27 else if x = 25 then 26 else if x = 26 then 22 else if x ≤ 28 then x + 4
  else x + 11

namespace Spec

/-- The kinds of tokens: four words with what follows them, and those of XPath. -/
inductive PTerm where
  | childAxis | attributeAxis | idFunction | keyFunction
  | x (k : Term)

/-- Their numbers (parser.c 299-352). -/
def PTerm.num : PTerm → Nat
  | .childAxis => 3
  | .attributeAxis => 4
  | .idFunction => 5
  | .keyFunction => 6
  | .x k => patSym k.num

/-- One token of a kind. -/
def PIs (k : PTerm) (t : Tok) : Prop := t.kind = k.num

/-- Tokens of XPath in a pattern. -/
def inPattern (w : List Tok) : List Tok := w.map (mapTok patSym)

inductive PatAxis where
  | child | attribute
deriving DecidableEq, Repr

structure PStep where
  axis : PatAxis
  test : RawTest
  preds : List Ast

/-- `s`, `r/s`, `r//s` -/
inductive PRel where
  | one (s : PStep)
  | slash (r : PRel) (s : PStep)
  | slashes (r : PRel) (s : PStep)

/-- `/`, `/r`, `//r`, `r`, `id(..)`, `id(..)/r`, `id(..)//r` (or `key` for `id`) -/
inductive PPath where
  | root
  | abs (r : PRel)
  | any (r : PRel)
  | rel (r : PRel)
  | call (f : Ast)
  | callSlash (f : Ast) (r : PRel)
  | callSlashes (f : Ast) (r : PRel)

/-! The grammar.  `T` and `Q` say which tokens are a node test and predicates,
and for what they stand. -/

inductive AxisOf : List Tok → PatAxis → Prop where
  | none : AxisOf [] .child
  | at {t} : PIs (.x .at) t → AxisOf [t] .attribute
  | child {t c} : PIs .childAxis t → PIs (.x .colonColon) c → AxisOf [t, c] .child
  | attribute {t c} : PIs .attributeAxis t → PIs (.x .colonColon) c → AxisOf [t, c] .attribute

section
variable (T : List Tok → RawTest → Prop) (Q : List Tok → List Ast → Prop)

inductive StepOf : List Tok → PStep → Prop where
  | mk {u v w a t ps} : AxisOf u a → T v t → Q w ps →
      StepOf (u ++ inPattern v ++ inPattern w) ⟨a, t, ps⟩

inductive RelOf : List Tok → PRel → Prop where
  | one {w s} : StepOf T Q w s → RelOf w (.one s)
  | slash {v t w r s} : RelOf v r → PIs (.x .slash) t → StepOf T Q w s →
      RelOf (v ++ t :: w) (.slash r s)
  | slashes {v t w r s} : RelOf v r → PIs (.x .slashSlash) t → StepOf T Q w s →
      RelOf (v ++ t :: w) (.slashes r s)
end

/-- A call of `id` or `key`; the arguments are literals. -/
inductive CallOf : List Tok → Ast → Prop where
  | id {t l x r s} : PIs .idFunction t → t.text = "id".toList → PIs (.x .lparen) l →
      PIs (.x .literal) x → PIs (.x .rparen) r → LiteralSays x.text s →
      CallOf [t, l, x, r] (.call "id".toList [.literal s])
  | key {t l x c y r s s'} : PIs .keyFunction t → t.text = "key".toList → PIs (.x .lparen) l →
      PIs (.x .literal) x → PIs (.x .comma) c → PIs (.x .literal) y → PIs (.x .rparen) r →
      LiteralSays x.text s → LiteralSays y.text s' →
      CallOf [t, l, x, c, y, r] (.call "key".toList [.literal s, .literal s'])

section
variable (T : List Tok → RawTest → Prop) (Q : List Tok → List Ast → Prop) (C : List Tok → Ast → Prop)

inductive PathOf : List Tok → PPath → Prop where
  | root {t} : PIs (.x .slash) t → PathOf [t] .root
  | abs {t w r} : PIs (.x .slash) t → RelOf T Q w r → PathOf (t :: w) (.abs r)
  | any {t w r} : PIs (.x .slashSlash) t → RelOf T Q w r → PathOf (t :: w) (.any r)
  | rel {w r} : RelOf T Q w r → PathOf w (.rel r)
  | call {w f} : C w f → PathOf w (.call f)
  | callSlash {v t w f r} : C v f → PIs (.x .slash) t → RelOf T Q w r →
      PathOf (v ++ t :: w) (.callSlash f r)
  | callSlashes {v t w f r} : C v f → PIs (.x .slashSlash) t → RelOf T Q w r →
      PathOf (v ++ t :: w) (.callSlashes f r)

/-- The alternatives of a pattern. -/
inductive PatternOf : List Tok → List PPath → Prop where
  | one {w p} : PathOf T Q C w p → PatternOf w [p]
  | more {v t w ps p} : PatternOf v ps → PIs (.x .bar) t → PathOf T Q C w p →
      PatternOf (v ++ t :: w) (ps ++ [p])
end

/-- The tokens are the pattern with these alternatives, by the recommendations
(but for what `Says` leaves out of XPath). -/
def PatternSays : List Tok → List PPath → Prop :=
  PatternOf (fun w t => Says .nodeTest w (.test t)) (fun w ps => Says .predicates w (.list ps)) CallOf

/-! What is made of it: the steps from right to left, each with a mark if it is
followed by `//`, so that any ancestor will do. -/

inductive PNode where
  | document
  | test (a : PatAxis) (t : RawTest)
  | predicated (a : PatAxis) (t : RawTest) (ps : List Ast)
  | call (f : Ast)

def PStep.node (s : PStep) : PNode :=
  match s.preds with
  | [] => .test s.axis s.test
  | ps => .predicated s.axis s.test ps

/-- Mark the step that comes first. -/
def marked : List (PNode × Bool) → List (PNode × Bool)
  | [] => []
  | (n, _) :: l => (n, true) :: l

def PRel.chain : PRel → List (PNode × Bool)
  | .one s => [(s.node, false)]
  | .slash r s => (s.node, false) :: r.chain
  | .slashes r s => (s.node, false) :: marked r.chain

def PPath.chain : PPath → List (PNode × Bool)
  | .root => [(.document, false)]
  | .abs r => r.chain ++ [(.document, false)]
  | .any r => r.chain
  | .rel r => r.chain
  | .call f => [(.call f, false)]
  | .callSlash f r => r.chain ++ [(.call f, false)]
  | .callSlashes f r => r.chain ++ [(.call f, true)]

end Spec

end Verif.Parse
