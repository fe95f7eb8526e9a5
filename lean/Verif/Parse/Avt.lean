import Verif.Parse.AvtCert
import Verif.Parse.AvtLex
import Verif.Parse.Ast
/-
Attribute value templates: the parser of lib/xslt/expressions/avt.c and the
class `avt_expression` of lib/xslt/expressions/avt.py.
-/
namespace Verif.Parse

/-- An item of the list that `_parse_avt` returns (avt.py 18-19): text or an
expression. -/
inductive AvtPart where
  | text (s : Str)
  | expr (e : Ast)

/-- What is on the value stack: what the XPath rules put there, a part, or the
list of parts. -/
inductive AVal where
  | x (v : Val)
  | part (p : AvtPart)
  | list (l : List AvtPart)

/-- The values, if they are all values of XPath rules. -/
def unX : List AVal → Option (List Val)
  | [] => some []
  | .x v :: vs =>
    match unX vs with
    | some l => some (v :: l)
    | none => none
  | _ :: _ => none

/-- The result of an XPath rule. -/
def wrapX : Except AErr Val → Except AErr AVal
  | .ok v => .ok (.x v)
  | .error e => .error e

/-- The action routines (avt.c 1289-1370; rule 5 has none and passes on its
first value, 1286).  The rules from 8 on are those of XPath (avt.c 1371-2040,
xpath_grammar.bgen.frag), whose numbers are less by seven. -/
def actAvt : Nat → List AVal → Except AErr AVal
  | 1, [v] => .ok v
  | 2, [] => .ok (.list [])
  | 3, [.list l, .part p] => .ok (.list (l ++ [p]))
  | 4, [.list l, .part p] => .ok (.list (l ++ [p]))
  | 5, [.x (.tok s)] => .ok (.part (.text s))
  | 6, [.x (.tok s)] => .ok (.part (.text (s.take 1)))
  | 7, [_, .x (.expr e), _] => .ok (.part (.expr e))
  | r + 8, vs =>
    match unX vs with
    | some l => wrapX (act (r + 1) l)
    | none => .error .stuck
  | _, _ => .error .stuck

mutual
/-- The value of a derivation tree. -/
def buildAvt : Tree → Except AErr AVal
  | .leaf t => .ok (.x (.tok t.text))
  | .node r ks =>
    match buildsAvt ks with
    | .ok vs => actAvt r vs
    | .error e => .error e
def buildsAvt : Trees → Except AErr (List AVal)
  | .nil => .ok []
  | .cons t ts =>
    match buildAvt t, buildsAvt ts with
    | .ok v, .ok vs => .ok (v :: vs)
    | .error e, _ => .error e
    | .ok _, .error e => .error e
end

/-- `_parse_avt(value)` (avt.py 12, 19): the parts, or `_avt.error`, or what the
constructor of an expression raises, or an overflow of the parser's stack.
(As for XPath, the parser runs first here and the action routines afterwards.) -/
inductive ParsedAvt where
  | ok (l : List AvtPart)
  | syntaxError
  | overflow
  | raises (e : AErr)
  | stuck

/-- The parser (avt.c 1227-3640). -/
def parseAvtToks (ts : List Tok) : Parsed :=
  parse avtTables (fuelFor avtCert ts.length) ts

def parseAvt (s : Str) : ParsedAvt :=
  match lex avtLexer s with
  | none => .stuck
  | some ts =>
    match parseAvtToks ts with
    | .ok t =>
      match buildAvt t with
      | .ok (.list l) => .ok l
      | .ok _ => .stuck
      | .error .stuck => .stuck
      | .error e => .raises e
    | .error _ => .syntaxError
    | .overflow => .overflow
    | .underflow => .stuck
    | .stuck => .stuck

/-- `part.replace('%', '%%')` (avt.py 25-26). -/
def escapePercent : Str → Str
  | [] => []
  | c :: cs => if c = '%' then '%' :: '%' :: escapePercent cs else c :: escapePercent cs

/-- The loop of avt.py 23-30 and the join of line 31: the format and the
arguments. -/
def formatOf : List AvtPart → Str × List Ast
  | [] => ([], [])
  | .text s :: ps => (escapePercent s ++ (formatOf ps).1, (formatOf ps).2)
  | .expr e :: ps => ('%' :: 's' :: (formatOf ps).1, e :: (formatOf ps).2)

/-- `format % args` of Python for formats with no directives but `%s` and `%%`;
`none` stands for the exceptions (a directive of another kind, or too many or
too few arguments). -/
def pyFormat : Str → List Str → Option Str
  | [], [] => some []
  | [], _ :: _ => none
  | [c], args => if c = '%' then none else
    match args with
    | [] => some [c]
    | _ :: _ => none
  | c :: d :: s, args =>
    if c = '%' then
      if d = '%' then (pyFormat s args).map ('%' :: ·)
      else if d = 's' then
        match args with
        | [] => none
        | a :: args => (pyFormat s args).map (a ++ ·)
      else none
    else (pyFormat (d :: s) args).map (c :: ·)

/-- What the instance keeps (`_format`, `_args`). -/
structure AvtExpr where
  format : Str
  args : List Ast

/-- What the constructor raises: `AVT_SYNTAX`, or what comes from an expression,
or (shown not to happen) what `%` raises. -/
inductive AvtErr where
  | syntax
  | overflow
  | raises (e : AErr)
  | format
  | stuck
deriving DecidableEq

/-- `avt_expression.__init__` (avt.py 16-35). -/
def newAvt (s : Str) : Except AvtErr AvtExpr :=
  match parseAvt s with
  | .ok l =>
    match (formatOf l).2 with
    | [] =>
      match pyFormat (formatOf l).1 [] with
      | some r => .ok ⟨r, []⟩
      | none => .error .format
    | a :: args => .ok ⟨(formatOf l).1, a :: args⟩
  | .syntaxError => .error .syntax
  | .overflow => .error .overflow
  | .raises e => .error (.raises e)
  | .stuck => .error .stuck

/-- The generator in avt.py 40-41, run to its end or to the first exception.
`ev` evaluates an expression as a string; `σ` is the state that evaluation may
change (the context, the document being written). -/
def evalArgs {σ ε : Type} (ev : Ast → σ → Except ε Str × σ) : List Ast → σ → Except ε (List Str) × σ
  | [], c => (.ok [], c)
  | a :: as, c =>
    match ev a c with
    | (.error e, c') => (.error e, c')
    | (.ok v, c') =>
      match evalArgs ev as c' with
      | (.error e, c'') => (.error e, c'')
      | (.ok vs, c'') => (.ok (v :: vs), c'')

/-- The outcome of an evaluation: an exception of the expression, the exception
of `%` (shown not to happen), or the string. -/
inductive AvtOut (ε : Type) where
  | ok (s : Str)
  | raises (e : ε)
  | format

/-- `avt_expression.evaluate_as_string` (avt.py 37-42). -/
def AvtExpr.evaluate {σ ε : Type} (x : AvtExpr) (ev : Ast → σ → Except ε Str × σ) (c : σ) :
    AvtOut ε × σ :=
  match x.args with
  | [] => (.ok x.format, c)
  | a :: as =>
    match evalArgs ev (a :: as) c with
    | (.error e, c') => (.raises e, c')
    | (.ok vs, c') =>
      match pyFormat x.format vs with
      | some s => (.ok s, c')
      | none => (.format, c')

/-- `avt.prepare` of lib/xslt/tree/attribute_types.py (113-125) for an attribute
that is present: a text without braces is not parsed.  `INVALID_AVT` takes the
place of `AVT_SYNTAX`; what else the parser raises is not caught.  What an
attribute type makes of the string (`reprocess`) is not modelled. -/
inductive PrepareErr where
  | invalidAvt
  | other (e : AvtErr)
deriving DecidableEq

def prepareAvt (s : Str) : Except PrepareErr AvtExpr :=
  if '{' ∉ s ∧ '}' ∉ s then .ok ⟨s, []⟩
  else match newAvt s with
    | .ok x => .ok x
    | .error .syntax => .error .invalidAvt
    | .error e => .error (.other e)

end Verif.Parse
