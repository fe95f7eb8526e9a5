import Verif.Parse.XPathSpec
import Verif.Names.Spec
/-
The tokens of XPath 1.0 (section 3.7, productions [28] to [39]): which tokens
a text consists of.  This is the specification; it does not mention the lexer.
-/
namespace Verif.Parse.Spec
open Verif.Names.Spec (NCNameStart NCNameChar)

/-- ExprWhitespace [39] -/
def Space (c : Char) : Prop := c = ' ' ∨ c = '\t' ∨ c = '\n' ∨ c = '\r'

/-- Digits [31] are made of these. -/
def Digit (c : Char) : Prop := '0' ≤ c ∧ c ≤ '9'

/-- NCName of Namespaces in XML -/
def NCName (w : Str) : Prop :=
  ∃ c cs, w = c :: cs ∧ NCNameStart c.toNat ∧ ∀ x ∈ cs, NCNameChar x.toNat

/-- The text does not begin with such a character: a token that ends here could
not be longer. -/
def Ends (p : Char → Prop) (rest : Str) : Prop := ∀ c cs, rest = c :: cs → ¬ p c

/-- The name ends here. -/
def EndsName (rest : Str) : Prop := Ends (fun c => NCNameChar c.toNat) rest

/-- After optional white space the text goes on with `w`. -/
def NextIs (w rest : Str) : Prop :=
  ∃ sp r, rest = sp ++ w ++ r ∧ ∀ c ∈ sp, Space c

/-- NodeType [38] -/
def nodeTypes : List Str :=
  ["comment".toList, "text".toList, "processing-instruction".toList, "node".toList]

/-- The operator names of [33] -/
def operatorNames : List (Str × Term) :=
  [("and".toList, .and), ("or".toList, .or), ("mod".toList, .multiplicative),
   ("div".toList, .multiplicative)]

/-- The tokens of one character that are not the beginning of a longer one. -/
def singles : List (Char × Term) :=
  [('(', .lparen), (')', .rparen), ('[', .lbracket), (']', .rbracket), ('@', .at), (',', .comma),
   ('|', .bar), ('+', .plus), ('-', .minus), ('=', .equality)]

/-- The tokens of two characters. -/
def doubles : List (Char × Char × Term) :=
  [('/', '/', .slashSlash), ('!', '=', .equality), ('<', '=', .relational),
   ('>', '=', .relational), (':', ':', .colonColon), ('.', '.', .dotDot)]

/-- `Token op k w rest`: a text `w ++ rest` begins with the token `w` of the
kind `k`.  "The longest possible token is always returned"; `op` says that
there is a preceding token that is not one of `@`, `::`, `(`, `[`, `,` or an
operator, in which case a `*` is a multiplication operator and an NCName is an
operator name.  Otherwise a name is told by what follows it. -/
inductive Token : Bool → Term → Str → Str → Prop where
  | single {op c k rest} : (c, k) ∈ singles → Token op k [c] rest
  | double {op a b k rest} : (a, b, k) ∈ doubles → Token op k [a, b] rest
  | slash {op rest} : Ends (· = '/') rest → Token op .slash ['/'] rest
  | less {op rest} : Ends (· = '=') rest → Token op .relational ['<'] rest
  | greater {op rest} : Ends (· = '=') rest → Token op .relational ['>'] rest
  | dot {op rest} : Ends (fun c => c = '.' ∨ Digit c) rest → Token op .dot ['.'] rest
  /-- Literal [29] -/
  | literal {op q w rest} : q = '"' ∨ q = '\'' → q ∉ w → Token op .literal (q :: w ++ [q]) rest
  /-- Number [30] ::= Digits ('.' Digits?)? | '.' Digits -/
  | integer {op w rest} : w ≠ [] → (∀ c ∈ w, Digit c) →
      Ends (fun c => c = '.' ∨ Digit c) rest → Token op .number w rest
  | decimal {op v w rest} : (∀ c ∈ v, Digit c) → (∀ c ∈ w, Digit c) → (v ≠ [] ∨ w ≠ []) →
      Ends Digit rest → Token op .number (v ++ '.' :: w) rest
  /-- VariableReference [36] ::= '$' QName -/
  | variable {op w rest} : NCName w → Ends (fun c => NCNameChar c.toNat ∨ c = ':') rest →
      Token op .variable ('$' :: w) rest
  | variableNs {op p w rest} : NCName p → NCName w → EndsName rest →
      Token op .variable ('$' :: p ++ ':' :: w) rest
  /-- MultiplyOperator [34], OperatorName [33] -/
  | times {rest} : Token true .multiplicative ['*'] rest
  | operator {w k rest} : (w, k) ∈ operatorNames → EndsName rest → Token true k w rest
  /-- NodeType, AxisName and FunctionName before `(` and `::` -/
  | nodeType {w rest} : w ∈ nodeTypes → EndsName rest → NextIs ['('] rest →
      Token false .nodeType w rest
  | axisName {w rest} : NCName w → EndsName rest → NextIs [':', ':'] rest →
      Token false .axisName w rest
  | function {w rest} : NCName w → w ∉ nodeTypes → EndsName rest → NextIs ['('] rest →
      Token false .functionName w rest
  | functionNs {p w rest} : NCName p → NCName w → EndsName rest → NextIs ['('] rest →
      Token false .functionName (p ++ ':' :: w) rest
  /-- NameTest [37] ::= '*' | NCName ':' '*' | QName -/
  | star {rest} : Token false .nameTest ['*'] rest
  | prefixStar {p rest} : NCName p → Token false .nameTest (p ++ [':', '*']) rest
  | name {w rest} : NCName w → Ends (fun c => NCNameChar c.toNat ∨ c = ':') rest →
      ¬ NextIs ['('] rest → ¬ NextIs [':', ':'] rest → Token false .nameTest w rest
  | nameNs {p w rest} : NCName p → NCName w → EndsName rest → ¬ NextIs ['('] rest →
      Token false .nameTest (p ++ ':' :: w) rest

/-- Whether a `*` or a name after this token is an operator. -/
def opAfter : Term → Bool
  | .literal | .number | .variable | .nameTest | .functionName | .nodeType | .axisName
  | .dotDot | .rparen | .rbracket | .dot => true
  | .at | .colonColon | .lparen | .lbracket | .comma => false
  | .or | .and | .multiplicative | .slash | .slashSlash | .bar | .plus | .minus
  | .equality | .relational => false

/-- The tokens of a text. -/
inductive Lexes : Bool → Str → List Tok → Prop where
  | nil {op} : Lexes op [] []
  | space {op c s ts} : Space c → Lexes op s ts → Lexes op (c :: s) ts
  | token {op k w rest ts} : Token op k w rest → Lexes (opAfter k) rest ts →
      Lexes op (w ++ rest) (⟨k.num, w⟩ :: ts)

end Verif.Parse.Spec
