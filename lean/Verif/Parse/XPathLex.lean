import Verif.Parse.XPathLexTables
/-
The patterns of the XPath lexer (xpathparser.c 873-1083; xpath_lexer_defines.bgen.frag,
xpath_lexer_patterns.bgen.frag) and its actions (xpathparser.c 3813-4172).
-/
namespace Verif.Parse

/-- Letters one after the other. -/
def word : List Char → Prog → Prog
  | [], k => k
  | c :: cs, k => .lit c.toNat (word cs k)

/-- `[\t\n\r\x20]` -/
def spaceSet : CSet := .small 0

/-- `{S}*` in front of something -/
def spaces (k : Prog) : Prog := .rep 0 (.set spaceSet .success) k

/-- `{Letter}` -/
def letter : Prog :=
  .branch (.cons (.set (.big 0) .success) (.cons (.set (.big 1) .success) .nil)) .success

/-- `{Letter}|_`, then `k` -/
def nameStart (k : Prog) : Prog :=
  .branch (.cons (.lit 95 .success) (.cons letter .nil)) k

/-- `{NCNameChar}` -/
def nameChar : Prog :=
  .branch (.cons (.set (.small 29) .success) (.cons letter (.cons (.set (.big 2) .success)
    (.cons (.set (.big 3) .success) (.cons (.set (.big 4) .success) .nil))))) .success

/-- `{NCName}`, then `k` -/
def ncName (k : Prog) : Prog := nameStart (.rep 0 nameChar k)

/-- `{QName}`, then `k` -/
def qName (k : Prog) : Prog := .range 0 1 (ncName (.lit 58 .success)) (ncName k)

/-- `{Digits}`, then `k` -/
def digits (k : Prog) : Prog := .rep 1 (.set (.big 2) .success) k

/-- `/{S}*\(`: what must follow -/
def beforeParen : Prog := .assert (spaces (.lit 40 .success)) .success

/-- `/{S}*::` -/
def beforeColons : Prog := .assert (spaces (.lit 58 (.lit 58 .success))) .success

/-- `\)|\]` -/
def pClose : Prog := .set (.small 1) .success
/-- `::` -/
def pColons : Prog := word [':', ':'] .success
/-- `"//"` -/
def pSlashes : Prog := word ['/', '/'] .success
/-- `=|!=` -/
def pEquality : Prog :=
  .branch (.cons (word ['='] .success) (.cons (word ['!', '='] .success) .nil)) .success
/-- `<=|<|>=|>` -/
def pRelational : Prog :=
  .branch (.cons (.set (.small 2) .success) (.cons (word ['<', '='] .success)
    (.cons (word ['>', '='] .success) .nil))) .success
/-- `{NodeType}/{S}*\(` -/
def pNodeType : Prog :=
  .branch (.cons (word "node".toList .success) (.cons (word "text".toList .success)
    (.cons (word "comment".toList .success)
    (.cons (word "processing-instruction".toList .success) .nil)))) beforeParen
/-- `{NCName}/{S}*::` -/
def pAxisName : Prog := ncName beforeColons
/-- `{Literal}` -/
def pLiteral : Prog :=
  .branch (.cons (.lit 39 (.rep 0 (.notLit 39 .success) (.lit 39 .success)))
    (.cons (.lit 34 (.rep 0 (.notLit 34 .success) (.lit 34 .success))) .nil)) .success
/-- `({Digits}(\.({Digits})?)?)|(\.{Digits})` -/
def pNumber : Prog :=
  .branch (.cons (digits (.range 0 1 (.lit 46 (.range 0 1 (digits .success) .success)) .success))
    (.cons (.lit 46 (digits .success)) .nil)) .success
/-- `\${QName}` -/
def pVariable : Prog := .lit 36 (qName .success)
/-- `{QName}/{S}*\(` -/
def pFunction : Prog := qName beforeParen
/-- `({NCName}:\*)|({QName})|\*` -/
def pNameTest : Prog :=
  .branch (.cons (word ['*'] .success) (.cons (ncName (word [':', '*'] .success))
    (.cons (qName .success) .nil))) .success
/-- `".."` -/
def pDotDot : Prog := word ['.', '.'] .success
/-- `"."` -/
def pDot : Prog := word ['.'] .success
/-- `{S}+` -/
def pSpace : Prog := .rep 1 (.set spaceSet .success) .success

/-- `or` -/
def pOr : Prog := word ['o', 'r'] .success
/-- `and` -/
def pAnd : Prog := word ['a', 'n', 'd'] .success
/-- `\*|mod|div` -/
def pMultiply : Prog :=
  .branch (.cons (word ['*'] .success) (.cons (word ['m', 'o', 'd'] .success)
    (.cons (word ['d', 'i', 'v'] .success) .nil))) .success
/-- `.` -/
def pAny : Prog := .any .success

/-- The states `LEXER_INITIAL` and `LEXER_OPERATOR` (585-587). -/
def stInitial : Nat := 1
def stOperator : Nat := 2

/-- The patterns of the state INITIAL with their actions 5 to 19 (3899-4172).
The tokens have the numbers of `Literal` 257 to `DOUBLE_SLASH` 271 (258-272). -/
def initialRules : List Rule := [
  ⟨pClose, some stOperator, .ascii⟩,
  ⟨pColons, none, .token 270⟩,
  ⟨pSlashes, none, .token 271⟩,
  ⟨pEquality, none, .token 266⟩,
  ⟨pRelational, none, .token 267⟩,
  ⟨pNodeType, none, .token 262⟩,
  ⟨pAxisName, none, .token 263⟩,
  ⟨pLiteral, some stOperator, .token 257⟩,
  ⟨pNumber, some stOperator, .token 258⟩,
  ⟨pVariable, some stOperator, .token 259⟩,
  ⟨pFunction, none, .token 261⟩,
  ⟨pNameTest, some stOperator, .token 260⟩,
  ⟨pDotDot, some stOperator, .token 269⟩,
  ⟨pDot, some stOperator, .ascii⟩,
  ⟨pSpace, none, .discard⟩]

/-- The patterns of the state OPERATOR with their actions 0 to 4 (3812-3898). -/
def operatorRules : List Rule := [
  ⟨pOr, some stInitial, .token 264⟩,
  ⟨pAnd, some stInitial, .token 265⟩,
  ⟨pMultiply, some stInitial, .token 268⟩,
  ⟨pSpace, none, .discard⟩,
  ⟨pAny, some stInitial, .again⟩]

/-- The lexer of the XPath parser. -/
def xpathLexer : Lexer where
  sets := xpathSets
  rules := [[], initialRules, operatorRules]
  start := stInitial
  translate := xpathTranslate
  undef := 57

/-- The patterns are those in the C file. -/
theorem initial_arrays : initialRules.map (·.prog.encode) = xpathArraysInitial := by
  decide +kernel

theorem operator_arrays : operatorRules.map (·.prog.encode) = xpathArraysOperator := by
  decide +kernel

end Verif.Parse
