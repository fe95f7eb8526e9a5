import Verif.Parse.GrammarSpec
/-
The grammar of XPath 1.0 (https://www.w3.org/TR/1999/REC-xpath-19991116),
productions [1] to [27], as a relation between a symbol and the sequences of
tokens it stands for.  This is the specification; it does not mention the
tables of the parser.  The tokens are those of production [28], told apart by
the numbers under which the lexer hands them over.
-/
namespace Verif.Parse.Spec

/-- The kinds of tokens (the numbers are those of xpathparser.c 258-306). -/
inductive Term where
  | literal | number | variable | nameTest | functionName | nodeType | axisName
  | or | and | equality | relational | multiplicative
  | dotDot | colonColon | slashSlash | slash | lparen | rparen | lbracket | rbracket
  | dot | at | comma | bar | plus | minus
deriving DecidableEq, Repr

def Term.num : Term → Nat
  | .literal => 3 | .number => 4 | .variable => 5 | .nameTest => 6 | .functionName => 7
  | .nodeType => 8 | .axisName => 9 | .or => 10 | .and => 11 | .equality => 12
  | .relational => 13 | .multiplicative => 14 | .dotDot => 15 | .colonColon => 16
  | .slashSlash => 17 | .slash => 18 | .lparen => 19 | .rparen => 20 | .lbracket => 21
  | .rbracket => 22 | .dot => 23 | .at => 24 | .comma => 25 | .bar => 26 | .plus => 27
  | .minus => 28

/-- The nonterminals; `predicates` is `Predicate*` and `arguments` is
`Argument ( ',' Argument )*`. -/
inductive Sym where
  | locationPath | absoluteLocationPath | relativeLocationPath | step | predicates
  | axisSpecifier | nodeTest | predicate | predicateExpr | abbrevAbsolute | abbrevRelative
  | abbrevStep | abbrevAxis | expr | primaryExpr | functionCall | arguments | argument
  | unionExpr | pathExpr | filterExpr | orExpr | andExpr | equalityExpr | relationalExpr
  | additiveExpr | multiplicativeExpr | unaryExpr
deriving DecidableEq, Repr

/-- Where the parser departs from the recommendation: `minusMinus` says that a
minus sign may be repeated (production [27]), `anyLiteral` that every node type
may have a literal, not only `processing-instruction` (production [7]). -/
structure Dialect where
  minusMinus : Bool
  anyLiteral : Bool

/-- The recommendation. -/
def w3c : Dialect := ⟨true, false⟩

/-- The text `processing-instruction`. -/
def piName : List Char := "processing-instruction".toList

/-- One token of a kind. -/
def Is (k : Term) (t : Tok) : Prop := t.kind = k.num

/-- `Phrase d s w`: the tokens `w` are a phrase for `s`. -/
inductive Phrase (d : Dialect) : Sym → List Tok → Prop where
  /-- [1] LocationPath ::= RelativeLocationPath | AbsoluteLocationPath -/
  | p1a {w} : Phrase d .relativeLocationPath w → Phrase d .locationPath w
  | p1b {w} : Phrase d .absoluteLocationPath w → Phrase d .locationPath w
  /-- [2] AbsoluteLocationPath ::= '/' RelativeLocationPath?
      | AbbreviatedAbsoluteLocationPath -/
  | p2a {t} : Is .slash t → Phrase d .absoluteLocationPath [t]
  | p2b {t w} : Is .slash t → Phrase d .relativeLocationPath w →
      Phrase d .absoluteLocationPath (t :: w)
  | p2c {w} : Phrase d .abbrevAbsolute w → Phrase d .absoluteLocationPath w
  /-- [3] RelativeLocationPath ::= Step | RelativeLocationPath '/' Step
      | AbbreviatedRelativeLocationPath -/
  | p3a {w} : Phrase d .step w → Phrase d .relativeLocationPath w
  | p3b {v t w} : Phrase d .relativeLocationPath v → Is .slash t → Phrase d .step w →
      Phrase d .relativeLocationPath (v ++ t :: w)
  | p3c {w} : Phrase d .abbrevRelative w → Phrase d .relativeLocationPath w
  /-- [4] Step ::= AxisSpecifier NodeTest Predicate* | AbbreviatedStep -/
  | p4a {u v w} : Phrase d .axisSpecifier u → Phrase d .nodeTest v → Phrase d .predicates w →
      Phrase d .step (u ++ v ++ w)
  | p4b {w} : Phrase d .abbrevStep w → Phrase d .step w
  | none : Phrase d .predicates []
  | some {v w} : Phrase d .predicates v → Phrase d .predicate w → Phrase d .predicates (v ++ w)
  /-- [5] AxisSpecifier ::= AxisName '::' | AbbreviatedAxisSpecifier -/
  | p5a {a t} : Is .axisName a → Is .colonColon t → Phrase d .axisSpecifier [a, t]
  | p5b {w} : Phrase d .abbrevAxis w → Phrase d .axisSpecifier w
  /-- [7] NodeTest ::= NameTest | NodeType '(' ')'
      | 'processing-instruction' '(' Literal ')' -/
  | p7a {t} : Is .nameTest t → Phrase d .nodeTest [t]
  | p7b {t l r} : Is .nodeType t → Is .lparen l → Is .rparen r → Phrase d .nodeTest [t, l, r]
  | p7c {t l x r} : Is .nodeType t → (d.anyLiteral = true ∨ t.text = piName) → Is .lparen l →
      Is .literal x → Is .rparen r → Phrase d .nodeTest [t, l, x, r]
  /-- [8] Predicate ::= '[' PredicateExpr ']' -/
  | p8 {l w r} : Is .lbracket l → Phrase d .predicateExpr w → Is .rbracket r →
      Phrase d .predicate (l :: w ++ [r])
  /-- [9] PredicateExpr ::= Expr -/
  | p9 {w} : Phrase d .expr w → Phrase d .predicateExpr w
  /-- [10] AbbreviatedAbsoluteLocationPath ::= '//' RelativeLocationPath -/
  | p10 {t w} : Is .slashSlash t → Phrase d .relativeLocationPath w →
      Phrase d .abbrevAbsolute (t :: w)
  /-- [11] AbbreviatedRelativeLocationPath ::= RelativeLocationPath '//' Step -/
  | p11 {v t w} : Phrase d .relativeLocationPath v → Is .slashSlash t → Phrase d .step w →
      Phrase d .abbrevRelative (v ++ t :: w)
  /-- [12] AbbreviatedStep ::= '.' | '..' -/
  | p12a {t} : Is .dot t → Phrase d .abbrevStep [t]
  | p12b {t} : Is .dotDot t → Phrase d .abbrevStep [t]
  /-- [13] AbbreviatedAxisSpecifier ::= '@'? -/
  | p13a {t} : Is .at t → Phrase d .abbrevAxis [t]
  | p13b : Phrase d .abbrevAxis []
  /-- [14] Expr ::= OrExpr -/
  | p14 {w} : Phrase d .orExpr w → Phrase d .expr w
  /-- [15] PrimaryExpr ::= VariableReference | '(' Expr ')' | Literal | Number
      | FunctionCall -/
  | p15a {t} : Is .variable t → Phrase d .primaryExpr [t]
  | p15b {l w r} : Is .lparen l → Phrase d .expr w → Is .rparen r →
      Phrase d .primaryExpr (l :: w ++ [r])
  | p15c {t} : Is .literal t → Phrase d .primaryExpr [t]
  | p15d {t} : Is .number t → Phrase d .primaryExpr [t]
  | p15e {w} : Phrase d .functionCall w → Phrase d .primaryExpr w
  /-- [16] FunctionCall ::= FunctionName '(' ( Argument ( ',' Argument )* )? ')' -/
  | p16a {f l r} : Is .functionName f → Is .lparen l → Is .rparen r →
      Phrase d .functionCall [f, l, r]
  | p16b {f l w r} : Is .functionName f → Is .lparen l → Phrase d .arguments w → Is .rparen r →
      Phrase d .functionCall (f :: l :: w ++ [r])
  | one {w} : Phrase d .argument w → Phrase d .arguments w
  | more {v t w} : Phrase d .arguments v → Is .comma t → Phrase d .argument w →
      Phrase d .arguments (v ++ t :: w)
  /-- [17] Argument ::= Expr -/
  | p17 {w} : Phrase d .expr w → Phrase d .argument w
  /-- [18] UnionExpr ::= PathExpr | UnionExpr '|' PathExpr -/
  | p18a {w} : Phrase d .pathExpr w → Phrase d .unionExpr w
  | p18b {v t w} : Phrase d .unionExpr v → Is .bar t → Phrase d .pathExpr w →
      Phrase d .unionExpr (v ++ t :: w)
  /-- [19] PathExpr ::= LocationPath | FilterExpr | FilterExpr '/' RelativeLocationPath
      | FilterExpr '//' RelativeLocationPath -/
  | p19a {w} : Phrase d .locationPath w → Phrase d .pathExpr w
  | p19b {w} : Phrase d .filterExpr w → Phrase d .pathExpr w
  | p19c {v t w} : Phrase d .filterExpr v → Is .slash t → Phrase d .relativeLocationPath w →
      Phrase d .pathExpr (v ++ t :: w)
  | p19d {v t w} : Phrase d .filterExpr v → Is .slashSlash t →
      Phrase d .relativeLocationPath w → Phrase d .pathExpr (v ++ t :: w)
  /-- [20] FilterExpr ::= PrimaryExpr | FilterExpr Predicate -/
  | p20a {w} : Phrase d .primaryExpr w → Phrase d .filterExpr w
  | p20b {v w} : Phrase d .filterExpr v → Phrase d .predicate w → Phrase d .filterExpr (v ++ w)
  /-- [21] OrExpr ::= AndExpr | OrExpr 'or' AndExpr -/
  | p21a {w} : Phrase d .andExpr w → Phrase d .orExpr w
  | p21b {v t w} : Phrase d .orExpr v → Is .or t → Phrase d .andExpr w →
      Phrase d .orExpr (v ++ t :: w)
  /-- [22] AndExpr ::= EqualityExpr | AndExpr 'and' EqualityExpr -/
  | p22a {w} : Phrase d .equalityExpr w → Phrase d .andExpr w
  | p22b {v t w} : Phrase d .andExpr v → Is .and t → Phrase d .equalityExpr w →
      Phrase d .andExpr (v ++ t :: w)
  /-- [23] EqualityExpr ::= RelationalExpr | EqualityExpr ('=' | '!=') RelationalExpr -/
  | p23a {w} : Phrase d .relationalExpr w → Phrase d .equalityExpr w
  | p23b {v t w} : Phrase d .equalityExpr v → Is .equality t → Phrase d .relationalExpr w →
      Phrase d .equalityExpr (v ++ t :: w)
  /-- [24] RelationalExpr ::= AdditiveExpr
      | RelationalExpr ('<' | '>' | '<=' | '>=') AdditiveExpr -/
  | p24a {w} : Phrase d .additiveExpr w → Phrase d .relationalExpr w
  | p24b {v t w} : Phrase d .relationalExpr v → Is .relational t → Phrase d .additiveExpr w →
      Phrase d .relationalExpr (v ++ t :: w)
  /-- [25] AdditiveExpr ::= MultiplicativeExpr | AdditiveExpr ('+' | '-') MultiplicativeExpr -/
  | p25a {w} : Phrase d .multiplicativeExpr w → Phrase d .additiveExpr w
  | p25b {v t w} : Phrase d .additiveExpr v → Is .plus t → Phrase d .multiplicativeExpr w →
      Phrase d .additiveExpr (v ++ t :: w)
  | p25c {v t w} : Phrase d .additiveExpr v → Is .minus t → Phrase d .multiplicativeExpr w →
      Phrase d .additiveExpr (v ++ t :: w)
  /-- [26] MultiplicativeExpr ::= UnaryExpr
      | MultiplicativeExpr (MultiplyOperator | 'div' | 'mod') UnaryExpr -/
  | p26a {w} : Phrase d .unaryExpr w → Phrase d .multiplicativeExpr w
  | p26b {v t w} : Phrase d .multiplicativeExpr v → Is .multiplicative t →
      Phrase d .unaryExpr w → Phrase d .multiplicativeExpr (v ++ t :: w)
  /-- [27] UnaryExpr ::= UnionExpr | '-' UnaryExpr
      (`p27c` follows from the other two if the sign may be repeated) -/
  | p27a {w} : Phrase d .unionExpr w → Phrase d .unaryExpr w
  | p27b {t w} : d.minusMinus = true → Is .minus t → Phrase d .unaryExpr w →
      Phrase d .unaryExpr (t :: w)
  | p27c {t w} : Is .minus t → Phrase d .unionExpr w → Phrase d .unaryExpr (t :: w)

end Verif.Parse.Spec
