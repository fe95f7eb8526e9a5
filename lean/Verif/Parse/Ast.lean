import Verif.Parse.Tables
import Verif.Eval.Model
/-
The action routines of the XPath parser: the expression objects built from a
derivation tree (lib/xpath/parser/xpathparser.c 1206-1870, the `switch` over
the rules, which is repeated at 1926-2580 and 2620-3285; the numbers of the
rules are those of xpath_grammar.bgen.frag), with the constructors in
lib/xpath/expressions and lib/xpath/locationpaths.

An action routine that raises an exception ends the parse.  The model runs the
parser first and the action routines afterwards: for a text that has both a
syntax error and an error found by a constructor it does not tell which of the
two is reported.
-/
namespace Verif.Parse
open Verif.Eval (LAxis)

/-- Node tests before their prefixes are resolved (nodetests.py 39-217). -/
inductive RawTest where
  | node | comment | text
  | pi (target : Option Str)
  | star
  | nsStar (pre : Str)
  | qname (pre loc : Str)
  | name (loc : Str)
deriving DecidableEq, Repr

mutual
/-- The expression objects.  `compare` is `equality_expr` and
`relational_expr`, `arith` is `additive_expr` and `multiplicative_expr`; they
keep the text of their operator.  A `predicate` is the expression in it. -/
inductive Ast where
  | literal (s : Str)
  | number (s : Str)
  | variable (name : Str)
  | call (name : Str) (args : List Ast)
  | or (l r : Ast)
  | and (l r : Ast)
  | compare (op : Str) (l r : Ast)
  | arith (op : Str) (l r : Ast)
  | neg (e : Ast)
  | path (absolute : Bool) (steps : List AStep)
  | union (paths : List Ast)
  | filter (e : Ast) (preds : List Ast)
  | pathFrom (e : Ast) (steps : List AStep)
/-- `location_step`; an absent list of predicates is an empty one. -/
inductive AStep where
  | mk (axis : LAxis) (test : RawTest) (preds : List Ast)
end

/-- What is on the value stack. -/
inductive Val where
  | tok (s : Str)
  | expr (e : Ast)
  | step (s : AStep)
  | list (l : List Ast)
  | axis (a : LAxis)
  | test (t : RawTest)

/-- What the constructors raise; `stuck` means values of a wrong kind (shown not
to happen). -/
inductive AErr where
  | keyError | syntaxError | assertion | argCount | nameError | stuck
deriving DecidableEq, Repr

/-- `axis_specifier._classmap` (axisspecifiers.py 12-33 and the `name` of each
class). -/
def axisMap : List (Str × LAxis) :=
  [("ancestor".toList, .tree .ancestor), ("ancestor-or-self".toList, .tree .ancestorOrSelf),
   ("attribute".toList, .attr), ("child".toList, .tree .child),
   ("descendant".toList, .tree .descendant),
   ("descendant-or-self".toList, .tree .descendantOrSelf),
   ("following".toList, .tree .following),
   ("following-sibling".toList, .tree .followingSibling),
   ("namespace".toList, .namespaces), ("parent".toList, .tree .parent),
   ("preceding".toList, .tree .preceding),
   ("preceding-sibling".toList, .tree .precedingSibling), ("self".toList, .tree .self)]

/-- A dictionary lookup. -/
def find {α : Type} (k : Str) : List (Str × α) → Option α
  | [] => none
  | (k', a) :: l => if k = k' then some a else find k l

/-- `axis_specifier(name)` (axisspecifiers.py 32-33). -/
def axisSpecifier (name : Str) : Except AErr Val :=
  match find name axisMap with
  | some a => .ok (.axis a)
  | none => .error .keyError

/-- `name[:name.index(':')]` and what follows the colon; `none` if there is
none. -/
def splitColon : Str → Option (Str × Str)
  | [] => none
  | c :: cs =>
    if c = ':' then some ([], cs)
    else match splitColon cs with
      | none => none
      | some (p, l) => some (c :: p, l)

/-- `name_test(name)` (nodetests.py 108-122, 160-162, 190-191). -/
def nameTest (name : Str) : RawTest :=
  if name.getLast? = some '*' then
    match splitColon name with
    | some (p, _) => .nsStar p
    | none => .star
  else match splitColon name with
    | some (p, l) => .qname p l
    | none => .name name

/-- `text[1:-1]` -/
def unquote (s : Str) : Str := (s.drop 1).dropLast

/-- `node_type(name)` and `node_type(name, literal)` (nodetests.py 39-99).  The
classes other than the one for processing instructions ignore the literal. -/
def nodeType (name : Str) (literal : Option Str) : Except AErr Val :=
  if name = "node".toList then .ok (.test .node)
  else if name = "comment".toList then .ok (.test .comment)
  else if name = "text".toList then .ok (.test .text)
  else if name = "processing-instruction".toList then
    match literal with
    | none => .ok (.test (.pi none))
    | some [] => .ok (.test (.pi none))
    | some (q :: s) =>
      if q = '"' ∨ q = '\'' then .ok (.test (.pi (some (unquote (q :: s)))))
      else .error .syntaxError
  else .error .keyError

/-- `string_literal(text)` (basics.py 61-66). -/
def stringLiteral (s : Str) : Ast :=
  if (s.head? = some '"' ∨ s.head? = some '\'') ∧ s.head? = s.getLast? then .literal (unquote s)
  else .literal s

/-- `function_call._builtins` with the number of `arguments` (without the
ellipsis), whether there is an ellipsis, and the number of `defaults`
(lib/xpath/functions; the last nine are those of lib/xslt/functions). -/
def builtins : List (Str × Nat × Bool × Nat) :=
  [("last".toList, 0, false, 0), ("position".toList, 0, false, 0), ("count".toList, 1, false, 0),
   ("id".toList, 1, false, 0), ("name".toList, 1, false, 1), ("local-name".toList, 1, false, 1),
   ("namespace-uri".toList, 1, false, 1), ("string".toList, 1, false, 1),
   ("concat".toList, 2, true, 0), ("starts-with".toList, 2, false, 0),
   ("contains".toList, 2, false, 0), ("substring-before".toList, 2, false, 0),
   ("substring-after".toList, 2, false, 0), ("substring".toList, 3, false, 1),
   ("string-length".toList, 1, false, 1), ("normalize-space".toList, 1, false, 1),
   ("translate".toList, 3, false, 0), ("boolean".toList, 1, false, 0), ("not".toList, 1, false, 0),
   ("true".toList, 0, false, 0), ("false".toList, 0, false, 0), ("lang".toList, 1, false, 0),
   ("number".toList, 1, false, 1), ("sum".toList, 1, false, 0), ("floor".toList, 1, false, 0),
   ("ceiling".toList, 1, false, 0), ("round".toList, 1, false, 0),
   ("document".toList, 2, false, 1), ("key".toList, 2, false, 0),
   ("format-number".toList, 3, false, 1), ("current".toList, 0, false, 0),
   ("unparsed-entity-uri".toList, 1, false, 0), ("generate-id".toList, 1, false, 1),
   ("system-property".toList, 1, false, 0), ("element-available".toList, 1, false, 0),
   ("function-available".toList, 1, false, 0)]

/-- The count of arguments in `builtin_function.__init__` (functions/__init__.py
38-70); `XpathError` for functions without parameters is a misspelt name. -/
def checkCount (maxargs : Nat) (varargs : Bool) (defaults argcount : Nat) : Except AErr Unit :=
  if argcount > maxargs ∧ varargs = false then
    if maxargs = 0 then .error .nameError else .error .argCount
  else if argcount < maxargs - defaults then .error .argCount
  else .ok ()

/-- `function_call(name, args)` (functioncalls.py 23-41) with the constructors of
`builtin_function` and `extension_function` (functioncalls.py 118-121). -/
def functionCall (name : Str) (args : List Ast) : Except AErr Val :=
  match find name builtins with
  | some (maxargs, varargs, defaults) =>
    match checkCount maxargs varargs defaults args.length with
    | .ok () => .ok (.expr (.call name args))
    | .error e => .error e
  | none => if ':' ∈ name then .ok (.expr (.call name args)) else .error .assertion

/-- `abbreviated_step(text)` (locationpaths/__init__.py 191-207). -/
def abbreviatedStep (s : Str) : Except AErr Val :=
  if s = ['.'] then .ok (.step (.mk (.tree .self) .node []))
  else if s = ['.', '.'] then .ok (.step (.mk (.tree .parent) .node []))
  else .error .assertion

/-- The step that `//` stands for. -/
def anyNode : AStep := .mk (.tree .descendantOrSelf) .node []

/-- The steps for `//` and a step (locationpaths/__init__.py 107-123, 131-147). -/
def slashes : AStep → List AStep
  | .mk axis test preds =>
    if preds.isEmpty ∧ axis = .tree .child then [.mk (.tree .descendant) test []]
    else [anyNode, .mk axis test preds]

/-- `abbreviated_absolute_location_path(path)` (locationpaths/__init__.py 107-123). -/
def abbreviatedAbsolute : List AStep → Except AErr Val
  | [] => .error .stuck
  | s :: l => .ok (.expr (.path true (slashes s ++ l)))

/-- `union_expr(left, right)` (nodesets.py 115-121). -/
def unionExpr (l r : Ast) : Ast :=
  match l with
  | .union paths => .union (paths ++ [r])
  | l => .union [l, r]

/-- `path_expr(expression, sep, path)` (nodesets.py 168-180). -/
def pathExpr (e : Ast) (sep : Str) (steps : List AStep) : Ast :=
  if sep = ['/', '/'] then .pathFrom e (anyNode :: steps) else .pathFrom e steps

/-- The action routine of a rule (3 to 60; a rule without one passes on its first
value, 1206). -/
def act : Nat → List Val → Except AErr Val
  | 3, [_] => .ok (.expr (.path true []))
  | 4, [_, .expr (.path false l)] => .ok (.expr (.path true l))
  | 6, [.step s] => .ok (.expr (.path false [s]))
  | 7, [.expr (.path false l), _, .step s] => .ok (.expr (.path false (l ++ [s])))
  | 9, [.axis a, .test t] => .ok (.step (.mk a t []))
  | 10, [.axis a, .test t, .list ps] => .ok (.step (.mk a t ps))
  | 11, [.tok s] => abbreviatedStep s
  | 12, [.expr p] => .ok (.list [p])
  | 13, [.list ps, .expr p] => .ok (.list (ps ++ [p]))
  | 14, [.tok s, _] => axisSpecifier s
  | 16, [.tok s] => .ok (.test (nameTest s))
  | 17, [.tok s, _, _] => nodeType s none
  | 18, [.tok s, _, .tok l, _] => nodeType s (some l)
  | 19, [_, .expr e, _] => .ok (.expr e)
  | 21, [_, .expr (.path false l)] => abbreviatedAbsolute l
  | 22, [.expr (.path false l), _, .step s] => .ok (.expr (.path false (l ++ slashes s)))
  | 25, [_] => axisSpecifier "attribute".toList
  | 26, [] => axisSpecifier "child".toList
  | 28, [.tok s] => .ok (.expr (.variable (s.drop 1)))
  | 29, [_, .expr e, _] => .ok (.expr e)
  | 30, [.tok s] => .ok (.expr (stringLiteral s))
  | 31, [.tok s] => .ok (.expr (.number s))
  | 33, [.tok f, _, _] => functionCall f []
  | 34, [.tok f, _, .list args, _] => functionCall f args
  | 35, [.expr e] => .ok (.list [e])
  | 36, [.list es, _, .expr e] => .ok (.list (es ++ [e]))
  | 39, [.expr l, _, .expr r] => .ok (.expr (unionExpr l r))
  | 42, [.expr e, .tok sep, .expr (.path false l)] => .ok (.expr (pathExpr e sep l))
  | 43, [.expr e, .tok sep, .expr (.path false l)] => .ok (.expr (pathExpr e sep l))
  | 45, [.expr e, .list ps] => .ok (.expr (.filter e ps))
  | 47, [.expr l, _, .expr r] => .ok (.expr (.or l r))
  | 49, [.expr l, _, .expr r] => .ok (.expr (.and l r))
  | 51, [.expr l, .tok op, .expr r] => .ok (.expr (.compare op l r))
  | 53, [.expr l, .tok op, .expr r] => .ok (.expr (.compare op l r))
  | 55, [.expr l, .tok op, .expr r] => .ok (.expr (.arith op l r))
  | 56, [.expr l, .tok op, .expr r] => .ok (.expr (.arith op l r))
  | 58, [.expr l, .tok op, .expr r] => .ok (.expr (.arith op l r))
  | 60, [_, .expr e] => .ok (.expr (.neg e))
  | 1, [v] | 2, [v] | 5, [v] | 8, [v] | 15, [v] | 20, [v] | 23, [v] | 24, [v] | 27, [v]
  | 32, [v] | 37, [v] | 38, [v] | 40, [v] | 41, [v] | 44, [v] | 46, [v] | 48, [v] | 50, [v]
  | 52, [v] | 54, [v] | 57, [v] | 59, [v] => .ok v
  | _, _ => .error .stuck

mutual
/-- The value of a derivation tree. -/
def build : Tree → Except AErr Val
  | .leaf t => .ok (.tok t.text)
  | .node r ks =>
    match builds ks with
    | .ok vs => act r vs
    | .error e => .error e
def builds : Trees → Except AErr (List Val)
  | .nil => .ok []
  | .cons t ts =>
    match build t, builds ts with
    | .ok v, .ok vs => .ok (v :: vs)
    | .error e, _ => .error e
    | .ok _, .error e => .error e
end

end Verif.Parse
