import Verif.Parse.PatternSpec
import Verif.Parse.PatternCert
import Verif.Parse.PatternLexTables
import Verif.Parse.XPathLex
import Verif.Parse.Cert
/-
Patterns: the parser of lib/xslt/xpatterns/parser.c (made from xpattern.bgen).
-/
namespace Verif.Parse
open Spec

/-! ### The lexer (parser.c 671-1290, 5270-5870; xpattern.bgen 397-447) -/

/-- `"["` (xpattern.bgen 436-439) -/
def pBracket : Prog := .lit 91 .success
/-- `child/{S}*::` (423-425) -/
def pChildAxis : Prog := word "child".toList beforeColons
/-- `attribute/{S}*::` (426-428) -/
def pAttributeAxis : Prog := word "attribute".toList beforeColons
/-- `id/{S}*\(` (429-431) -/
def pIdFunction : Prog := word "id".toList beforeParen
/-- `key/{S}*\(` (432-434) -/
def pKeyFunction : Prog := word "key".toList beforeParen

/-- The states: `LEXER_INITIAL`, `LEXER_XPATTERN` and `LEXER_OPERATOR` (parser.c). -/
def patState (st : Nat) : Nat := if st = stOperator then 3 else st

/-- The tokens of XPath have the numbers after the four of patterns (299-317). -/
def patGive : Give → Give
  | .token n => .token (n + 4)
  | g => g

def patRule (r : Rule) : Rule := ⟨r.prog, r.next.map patState, patGive r.give⟩

/-- The patterns of the state XPATTERN, actions 20 to 28 (xpattern.bgen 406-444). -/
def patRules : List Rule := [
  ⟨pSlashes, none, .token 275⟩,
  ⟨pNodeType, none, .token 266⟩,
  ⟨pChildAxis, none, .token 257⟩,
  ⟨pAttributeAxis, none, .token 258⟩,
  ⟨pIdFunction, none, .token 259⟩,
  ⟨pKeyFunction, none, .token 260⟩,
  ⟨pNameTest, none, .token 264⟩,
  ⟨pBracket, some 1, .ascii⟩,
  ⟨pSpace, none, .discard⟩]

/-- The lexer of patterns. -/
def patternLexer : Lexer where
  sets := patternSets
  rules := [[], initialRules.map patRule, patRules, operatorRules.map patRule]
  start := 2
  translate := patternTranslate
  undef := 68

theorem pattern_initial_arrays : (initialRules.map patRule).map (·.prog.encode) = patternArraysInitial := by
  decide +kernel
theorem pattern_rules_arrays : patRules.map (·.prog.encode) = patternArraysXpattern := by
  decide +kernel
theorem pattern_operator_arrays :
    (operatorRules.map patRule).map (·.prog.encode) = patternArraysOperator := by
  decide +kernel

/-! ### The action routines -/

/-- A step of a pattern: a tuple of an axis (in the node here), a test, and
whether any ancestor may satisfy it. -/
abbrev Entry := PNode × Bool

/-- What is on the value stack. -/
inductive PVal where
  | x (v : Val)
  | axis (a : PatAxis)
  | step (s : Entry)
  | steps (l : List Entry)
  | call (f : Ast)
  | pats (l : List (List Entry))

/-- The values, if they are all values of XPath rules. -/
def unPX : List PVal → Option (List Val)
  | [] => some []
  | .x v :: vs =>
    match unPX vs with
    | some l => some (v :: l)
    | none => none
  | _ :: _ => none

/-- The result of an XPath rule. -/
def wrapPX : Except AErr Val → Except AErr PVal
  | .ok v => .ok (.x v)
  | .error e => .error e

/-- "flag as an ancestor" (xpattern.bgen 270-303): the last step. -/
def flagEnd : List Entry → List Entry
  | [] => []
  | [(n, _)] => [(n, true)]
  | s :: ss => s :: flagEnd ss

/-- `function_call(name, args)` as an `id_key_test`. -/
def callTest (name : Str) (args : List Ast) : Except AErr PVal :=
  match functionCall name args with
  | .ok (.expr e) => .ok (.call e)
  | .ok _ => .error .stuck
  | .error e => .error e

/-- The action routines (parser.c 1416-1818, xpattern.bgen 29-390).  The rules
from 22 on are those of XPath (xpath_grammar.bgen.frag), whose numbers are less
by 21. -/
def actPat : Nat → List PVal → Except AErr PVal
  | 1, [.pats l] => .ok (.pats l)
  | 2, [.steps l] => .ok (.pats [l.reverse])
  | 3, [.pats ps, _, .steps l] => .ok (.pats (ps ++ [l.reverse]))
  | 4, [_] => .ok (.steps [(.document, false)])
  | 5, [_, .steps l] => .ok (.steps ((.document, false) :: l))
  | 6, [.call f] => .ok (.steps [(.call f, false)])
  | 7, [.call f, _, .steps l] => .ok (.steps ((.call f, false) :: l))
  | 8, [.call f, _, .steps l] => .ok (.steps ((.call f, false) :: l))
  | 9, [_, .steps l] => .ok (.steps l)
  | 10, [.steps l] => .ok (.steps l)
  | 11, [.x (.tok f), _, .x (.tok s), _] => callTest f [stringLiteral s]
  | 12, [.x (.tok f), _, .x (.tok s), _, .x (.tok s'), _] =>
    callTest f [stringLiteral s, stringLiteral s']
  | 13, [.step s] => .ok (.steps [s])
  | 14, [.steps l, _, .step s] => .ok (.steps (l ++ [s]))
  | 15, [.steps l, _, .step s] => .ok (.steps (flagEnd l ++ [s]))
  | 16, [.axis a, .x (.test t)] => .ok (.step (.test a t, false))
  | 17, [.axis a, .x (.test t), .x (.list ps)] => .ok (.step (.predicated a t ps, false))
  | 18, [] => .ok (.axis .child)
  | 19, [_] => .ok (.axis .attribute)
  | 20, [_, _] => .ok (.axis .child)
  | 21, [_, _] => .ok (.axis .attribute)
  | r + 22, vs =>
    match unPX vs with
    | some l => wrapPX (act (r + 1) l)
    | none => .error .stuck
  | _, _ => .error .stuck

mutual
/-- The value of a derivation tree. -/
def buildPat : Tree → Except AErr PVal
  | .leaf t => .ok (.x (.tok t.text))
  | .node r ks =>
    match buildsPat ks with
    | .ok vs => actPat r vs
    | .error e => .error e
def buildsPat : Trees → Except AErr (List PVal)
  | .nil => .ok []
  | .cons t ts =>
    match buildPat t, buildsPat ts with
    | .ok v, .ok vs => .ok (v :: vs)
    | .error e, _ => .error e
    | .ok _, .error e => .error e
end

/-- What becomes of the text of a pattern: its alternatives, `XpathError.SYNTAX`,
an overflow of the parser's stack, or what a constructor raises.  (As for XPath,
the parser runs first here and the action routines afterwards.) -/
inductive ParsedPat where
  | ok (l : List (List Entry))
  | syntaxError
  | overflow
  | raises (e : AErr)
  | stuck

/-- The parser without its lexer. -/
def parsePatToks (ts : List Tok) : ParsedPat :=
  match parse patternTables (fuelFor patternCert ts.length) ts with
  | .ok t =>
    match buildPat t with
    | .ok (.pats l) => .ok l
    | .ok _ => .stuck
    | .error .stuck => .stuck
    | .error e => .raises e
  | .error _ => .syntaxError
  | .overflow => .overflow
  | .underflow => .stuck
  | .stuck => .stuck

/-- `xpattern.parse(text)` (parser.c 1330-5270). -/
def parsePattern (s : Str) : ParsedPat :=
  match lex patternLexer s with
  | none => .stuck
  | some ts => parsePatToks ts

/-- Whether a text is accepted. -/
def ParsedPat.accepted : ParsedPat → Bool
  | .ok _ => true
  | _ => false

end Verif.Parse
