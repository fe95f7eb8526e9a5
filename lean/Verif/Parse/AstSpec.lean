import Verif.Parse.Ast
import Verif.Parse.LexSpec
/-
Which expression a sequence of tokens stands for, by XPath 1.0: the grammar of
productions [1] to [27] with what each of them says, and with the abbreviations
written out (2.5).  This is the specification; it does not mention the tables or
the action routines.  Expressions are trees (`Ast`).
-/
namespace Verif.Parse.Spec
open Verif.Eval (LAxis)

/-- The axes [6] -/
def axes : List (String × LAxis) :=
  [("child", .tree .child), ("descendant", .tree .descendant), ("parent", .tree .parent),
   ("ancestor", .tree .ancestor), ("following-sibling", .tree .followingSibling),
   ("preceding-sibling", .tree .precedingSibling), ("following", .tree .following),
   ("preceding", .tree .preceding), ("attribute", .attr), ("namespace", .namespaces),
   ("self", .tree .self), ("descendant-or-self", .tree .descendantOrSelf),
   ("ancestor-or-self", .tree .ancestorOrSelf)]

/-- The functions of section 4, and those of XSLT 1.0 (12), with the least and
the greatest number of arguments. -/
def signatures : List (String × Nat × Option Nat) :=
  [("last", 0, some 0), ("position", 0, some 0), ("count", 1, some 1), ("id", 1, some 1),
   ("local-name", 0, some 1), ("namespace-uri", 0, some 1), ("name", 0, some 1),
   ("string", 0, some 1), ("concat", 2, none), ("starts-with", 2, some 2),
   ("contains", 2, some 2), ("substring-before", 2, some 2), ("substring-after", 2, some 2),
   ("substring", 2, some 3), ("string-length", 0, some 1), ("normalize-space", 0, some 1),
   ("translate", 3, some 3), ("boolean", 1, some 1), ("not", 1, some 1), ("true", 0, some 0),
   ("false", 0, some 0), ("lang", 1, some 1), ("number", 0, some 1), ("sum", 1, some 1),
   ("floor", 1, some 1), ("ceiling", 1, some 1), ("round", 1, some 1),
   ("document", 1, some 2), ("key", 2, some 2), ("format-number", 2, some 3),
   ("current", 0, some 0), ("unparsed-entity-uri", 1, some 1), ("generate-id", 0, some 1),
   ("system-property", 1, some 1), ("element-available", 1, some 1),
   ("function-available", 1, some 1)]

/-- A function of this name may be called with `n` arguments; the functions with
a prefix are not known when an expression is parsed. -/
def MayCall (name : Str) (n : Nat) : Prop :=
  (∃ f least most, (f, least, most) ∈ signatures ∧ name = f.toList ∧ least ≤ n ∧
    ∀ m, most = some m → n ≤ m) ∨
  ∃ p l, NCName p ∧ NCName l ∧ name = p ++ ':' :: l

/-- NameTest [37] -/
inductive NameTestSays : Str → RawTest → Prop where
  | star : NameTestSays ['*'] .star
  | nsStar {p} : NCName p → NameTestSays (p ++ [':', '*']) (.nsStar p)
  | qname {p l} : NCName p → NCName l → NameTestSays (p ++ ':' :: l) (.qname p l)
  | name {l} : NCName l → NameTestSays l (.name l)

/-- NodeType [38] without a literal -/
def nodeTypeTests : List (String × RawTest) :=
  [("node", .node), ("comment", .comment), ("text", .text), ("processing-instruction", .pi none)]

/-- Literal [29]: the text between the quotes -/
def LiteralSays (text s : Str) : Prop := ∃ q, (q = '"' ∨ q = '\'') ∧ text = q :: s ++ [q]

/-- `descendant-or-self::node()`, for which `//` is short (2.5) -/
def dosNode : AStep := .mk (.tree .descendantOrSelf) .node []

/-- `Says s w v`: the tokens `w` are a phrase for `s` that stands for `v`. -/
inductive Says : Sym → List Tok → Val → Prop where
  /-- [1] LocationPath ::= RelativeLocationPath | AbsoluteLocationPath -/
  | p1a {w v} : Says .relativeLocationPath w v → Says .locationPath w v
  | p1b {w v} : Says .absoluteLocationPath w v → Says .locationPath w v
  /-- [2] AbsoluteLocationPath ::= '/' RelativeLocationPath?
      | AbbreviatedAbsoluteLocationPath -/
  | p2a {t} : Is .slash t → Says .absoluteLocationPath [t] (.expr (.path true []))
  | p2b {t w l} : Is .slash t → Says .relativeLocationPath w (.expr (.path false l)) →
      Says .absoluteLocationPath (t :: w) (.expr (.path true l))
  | p2c {w v} : Says .abbrevAbsolute w v → Says .absoluteLocationPath w v
  /-- [3] RelativeLocationPath ::= Step | RelativeLocationPath '/' Step
      | AbbreviatedRelativeLocationPath -/
  | p3a {w s} : Says .step w (.step s) → Says .relativeLocationPath w (.expr (.path false [s]))
  | p3b {v t w l s} : Says .relativeLocationPath v (.expr (.path false l)) → Is .slash t →
      Says .step w (.step s) →
      Says .relativeLocationPath (v ++ t :: w) (.expr (.path false (l ++ [s])))
  | p3c {w v} : Says .abbrevRelative w v → Says .relativeLocationPath w v
  /-- [4] Step ::= AxisSpecifier NodeTest Predicate* | AbbreviatedStep -/
  | p4a {u v w a t ps} : Says .axisSpecifier u (.axis a) → Says .nodeTest v (.test t) →
      Says .predicates w (.list ps) → Says .step (u ++ v ++ w) (.step (.mk a t ps))
  | p4b {w v} : Says .abbrevStep w v → Says .step w v
  | none : Says .predicates [] (.list [])
  | some {v w ps p} : Says .predicates v (.list ps) → Says .predicate w (.expr p) →
      Says .predicates (v ++ w) (.list (ps ++ [p]))
  /-- [5] AxisSpecifier ::= AxisName '::' | AbbreviatedAxisSpecifier -/
  | p5a {n t name a} : Is .axisName n → Is .colonColon t → (name, a) ∈ axes →
      n.text = name.toList → Says .axisSpecifier [n, t] (.axis a)
  | p5b {w v} : Says .abbrevAxis w v → Says .axisSpecifier w v
  /-- [7] NodeTest ::= NameTest | NodeType '(' ')'
      | 'processing-instruction' '(' Literal ')' -/
  | p7a {t x} : Is .nameTest t → NameTestSays t.text x → Says .nodeTest [t] (.test x)
  | p7b {t l r name x} : Is .nodeType t → Is .lparen l → Is .rparen r →
      (name, x) ∈ nodeTypeTests → t.text = name.toList → Says .nodeTest [t, l, r] (.test x)
  | p7c {t l x r s} : Is .nodeType t → t.text = piName → Is .lparen l → Is .literal x →
      Is .rparen r → LiteralSays x.text s → Says .nodeTest [t, l, x, r] (.test (.pi (some s)))
  /-- [8] Predicate ::= '[' PredicateExpr ']' -/
  | p8 {l w r v} : Is .lbracket l → Says .predicateExpr w v → Is .rbracket r →
      Says .predicate (l :: w ++ [r]) v
  /-- [9] PredicateExpr ::= Expr -/
  | p9 {w v} : Says .expr w v → Says .predicateExpr w v
  /-- [10] AbbreviatedAbsoluteLocationPath ::= '//' RelativeLocationPath -/
  | p10 {t w l} : Is .slashSlash t → Says .relativeLocationPath w (.expr (.path false l)) →
      Says .abbrevAbsolute (t :: w) (.expr (.path true (dosNode :: l)))
  /-- [11] AbbreviatedRelativeLocationPath ::= RelativeLocationPath '//' Step -/
  | p11 {v t w l s} : Says .relativeLocationPath v (.expr (.path false l)) → Is .slashSlash t →
      Says .step w (.step s) →
      Says .abbrevRelative (v ++ t :: w) (.expr (.path false (l ++ [dosNode, s])))
  /-- [12] AbbreviatedStep ::= '.' | '..' -/
  | p12a {t} : Is .dot t → t.text = ['.'] →
      Says .abbrevStep [t] (.step (.mk (.tree .self) .node []))
  | p12b {t} : Is .dotDot t → t.text = ['.', '.'] →
      Says .abbrevStep [t] (.step (.mk (.tree .parent) .node []))
  /-- [13] AbbreviatedAxisSpecifier ::= '@'? -/
  | p13a {t} : Is .at t → Says .abbrevAxis [t] (.axis .attr)
  | p13b : Says .abbrevAxis [] (.axis (.tree .child))
  /-- [14] Expr ::= OrExpr -/
  | p14 {w v} : Says .orExpr w v → Says .expr w v
  /-- [15] PrimaryExpr ::= VariableReference | '(' Expr ')' | Literal | Number
      | FunctionCall -/
  | p15a {t q} : Is .variable t → t.text = '$' :: q → Says .primaryExpr [t] (.expr (.variable q))
  | p15b {l w r v} : Is .lparen l → Says .expr w v → Is .rparen r →
      Says .primaryExpr (l :: w ++ [r]) v
  | p15c {t s} : Is .literal t → LiteralSays t.text s → Says .primaryExpr [t] (.expr (.literal s))
  | p15d {t} : Is .number t → Says .primaryExpr [t] (.expr (.number t.text))
  | p15e {w v} : Says .functionCall w v → Says .primaryExpr w v
  /-- [16] FunctionCall ::= FunctionName '(' ( Argument ( ',' Argument )* )? ')' -/
  | p16a {f l r} : Is .functionName f → Is .lparen l → Is .rparen r → MayCall f.text 0 →
      Says .functionCall [f, l, r] (.expr (.call f.text []))
  | p16b {f l w r es} : Is .functionName f → Is .lparen l → Says .arguments w (.list es) →
      Is .rparen r → MayCall f.text es.length →
      Says .functionCall (f :: l :: w ++ [r]) (.expr (.call f.text es))
  | one {w e} : Says .argument w (.expr e) → Says .arguments w (.list [e])
  | more {v t w es e} : Says .arguments v (.list es) → Is .comma t → Says .argument w (.expr e) →
      Says .arguments (v ++ t :: w) (.list (es ++ [e]))
  /-- [17] Argument ::= Expr -/
  | p17 {w v} : Says .expr w v → Says .argument w v
  /-- [18] UnionExpr ::= PathExpr | UnionExpr '|' PathExpr -/
  | p18a {w v} : Says .pathExpr w v → Says .unionExpr w v
  | p18b {v t w a b} : Says .unionExpr v (.expr a) → Is .bar t → Says .pathExpr w (.expr b) →
      Says .unionExpr (v ++ t :: w) (.expr (.union [a, b]))
  /-- [19] PathExpr ::= LocationPath | FilterExpr | FilterExpr '/' RelativeLocationPath
      | FilterExpr '//' RelativeLocationPath -/
  | p19a {w v} : Says .locationPath w v → Says .pathExpr w v
  | p19b {w v} : Says .filterExpr w v → Says .pathExpr w v
  | p19c {v t w e l} : Says .filterExpr v (.expr e) → Is .slash t → t.text = ['/'] →
      Says .relativeLocationPath w (.expr (.path false l)) →
      Says .pathExpr (v ++ t :: w) (.expr (.pathFrom e l))
  | p19d {v t w e l} : Says .filterExpr v (.expr e) → Is .slashSlash t → t.text = ['/', '/'] →
      Says .relativeLocationPath w (.expr (.path false l)) →
      Says .pathExpr (v ++ t :: w) (.expr (.pathFrom e (dosNode :: l)))
  /-- [20] FilterExpr ::= PrimaryExpr | FilterExpr Predicate -/
  | p20a {w v} : Says .primaryExpr w v → Says .filterExpr w v
  | p20b {v w e p} : Says .filterExpr v (.expr e) → Says .predicate w (.expr p) →
      Says .filterExpr (v ++ w) (.expr (.filter e [p]))
  /-- [21] OrExpr ::= AndExpr | OrExpr 'or' AndExpr -/
  | p21a {w v} : Says .andExpr w v → Says .orExpr w v
  | p21b {v t w a b} : Says .orExpr v (.expr a) → Is .or t → Says .andExpr w (.expr b) →
      Says .orExpr (v ++ t :: w) (.expr (.or a b))
  /-- [22] AndExpr ::= EqualityExpr | AndExpr 'and' EqualityExpr -/
  | p22a {w v} : Says .equalityExpr w v → Says .andExpr w v
  | p22b {v t w a b} : Says .andExpr v (.expr a) → Is .and t → Says .equalityExpr w (.expr b) →
      Says .andExpr (v ++ t :: w) (.expr (.and a b))
  /-- [23] EqualityExpr ::= RelationalExpr | EqualityExpr ('=' | '!=') RelationalExpr -/
  | p23a {w v} : Says .relationalExpr w v → Says .equalityExpr w v
  | p23b {v t w a b} : Says .equalityExpr v (.expr a) → Is .equality t →
      Says .relationalExpr w (.expr b) →
      Says .equalityExpr (v ++ t :: w) (.expr (.compare t.text a b))
  /-- [24] RelationalExpr ::= AdditiveExpr
      | RelationalExpr ('<' | '>' | '<=' | '>=') AdditiveExpr -/
  | p24a {w v} : Says .additiveExpr w v → Says .relationalExpr w v
  | p24b {v t w a b} : Says .relationalExpr v (.expr a) → Is .relational t →
      Says .additiveExpr w (.expr b) →
      Says .relationalExpr (v ++ t :: w) (.expr (.compare t.text a b))
  /-- [25] AdditiveExpr ::= MultiplicativeExpr | AdditiveExpr ('+' | '-') MultiplicativeExpr -/
  | p25a {w v} : Says .multiplicativeExpr w v → Says .additiveExpr w v
  | p25b {v t w a b} : Says .additiveExpr v (.expr a) → Is .plus t →
      Says .multiplicativeExpr w (.expr b) →
      Says .additiveExpr (v ++ t :: w) (.expr (.arith t.text a b))
  | p25c {v t w a b} : Says .additiveExpr v (.expr a) → Is .minus t →
      Says .multiplicativeExpr w (.expr b) →
      Says .additiveExpr (v ++ t :: w) (.expr (.arith t.text a b))
  /-- [26] MultiplicativeExpr ::= UnaryExpr
      | MultiplicativeExpr (MultiplyOperator | 'div' | 'mod') UnaryExpr -/
  | p26a {w v} : Says .unaryExpr w v → Says .multiplicativeExpr w v
  | p26b {v t w a b} : Says .multiplicativeExpr v (.expr a) → Is .multiplicative t →
      Says .unaryExpr w (.expr b) →
      Says .multiplicativeExpr (v ++ t :: w) (.expr (.arith t.text a b))
  /-- [27] UnaryExpr ::= UnionExpr | '-' UnaryExpr; here with one minus sign at most
      (the parser rejects more of them, `C64_refuted_minus`) -/
  | p27a {w v} : Says .unionExpr w v → Says .unaryExpr w v
  | p27c {t w e} : Is .minus t → Says .unionExpr w (.expr e) →
      Says .unaryExpr (t :: w) (.expr (.neg e))

end Verif.Parse.Spec
