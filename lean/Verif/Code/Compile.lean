import Verif.Code.Asm

/-
The `compile` methods of XPath expressions: lib/xpath/expressions/{__init__,basics,booleans,numbers,nodesets,
functioncalls}.py, lib/xpath/locationpaths/__init__.py:19-52, lib/xpath/functions/booleans.py:39-68, and the compiler
they are given, lib/xpath/compiler/__init__.py.

Simplified: the expressions are those a parser builds (so the `select` methods of predicates and steps, made in C, are
objects here); a name of a variable is in its parts; the tests on names of node tests are in `Step`.
-/
namespace Verif.Code

open Verif.Py

/-- How an expression is compiled: `compile`, `compile_as_boolean`, `compile_as_number`, `compile_as_string`,
`compile_as_nodeset`, `compile_iterable`. -/
inductive Mode where
  | plain | boolean | number | string | nodeset | iterable
  deriving DecidableEq, Repr

/-- The operators of numbers.py:20-26. -/
inductive Arith where
  | add | sub | mul | div | mod
  deriving DecidableEq, Repr

/-- A step of a location path (locationpaths/__init__.py:34-45): the `select` of its iterator, or `none` if the filter of
its node test cannot be made (`get_filter` raises XPathError: its prefix is not declared). -/
structure Step (V : Type) where
  select : Option V
  deriving DecidableEq, Repr

mutual
/-- Expressions.  `self` is the object for the expression, as far as code needs it. -/
inductive Expr (V : Type) where
  /-- `string_literal`, `number_literal` (basics.py:12-76): is it the second; is the text not empty; the number and the
  string that are made of the text, or none for a ValueError. -/
  | literal (isNumber : Bool) (notEmpty : Bool) (number : Option V) (string : Option V)
  /-- `variable_reference` (basics.py:79-134). -/
  | var (pre : Option Str) (loc : Str)
  /-- A built-in function with no methods of its own for compilation (functioncalls.py:46-98). -/
  | call (self : V)
  /-- `true()`, `false()` (functions/booleans.py:39-68). -/
  | known (self : V) (value : V)
  /-- `extension_function` (functioncalls.py:126-213). -/
  | ext (self : V) (pre loc : Str) (args : List V)
  /-- `or_expr`, `and_expr` (booleans.py:20-60). -/
  | logic (isOr : Bool) (l r : Expr V)
  /-- `equality_expr`, `relational_expr` (booleans.py:63-104). -/
  | compare (c : Cmp) (l r : Expr V)
  /-- `additive_expr`, `multiplicative_expr` (numbers.py:19-72). -/
  | arith (op : Arith) (l r : Expr V)
  /-- `unary_expr` (numbers.py:75-97). -/
  | neg (e : Expr V)
  /-- `union_expr` (nodesets.py:108-166). -/
  | union (ps : Exprs V)
  /-- `path_expr` (nodesets.py:169-207). -/
  | path (e p : Expr V)
  /-- `filter_expr` (nodesets.py:210-242), with the `select` for its predicates, if it has any. -/
  | filter (e : Expr V) (select : Option V)
  /-- `location_path` (locationpaths/__init__.py:12-52). -/
  | steps (absolute : Bool) (ss : List (Step V))
/-- Lists of expressions. -/
inductive Exprs (V : Type) where
  | nil
  | cons (e : Expr V) (es : Exprs V)
end

/-- `isinstance(e, nodeset_expression)`. -/
def Expr.isNodeset {V : Type} : Expr V → Bool
  | .union _ | .path _ _ | .filter _ _ | .steps _ _ => true
  | _ => false

/-- The objects that the code of expressions refers to. -/
structure Known (V : Type) where
  /-- `datatypes.boolean`, `.number`, `.string`, `.nodeset`, `_paths.unioniter`. -/
  boolean : V
  number : V
  string : V
  nodeset : V
  unioniter : V
  /-- `boolean.TRUE`, `boolean.FALSE`, `number.NaN`, `string.EMPTY`, `None`. -/
  true : V
  false : V
  nan : V
  empty : V
  none : V
  /-- A string as an object. -/
  str : Str → V

/-- What `inspect.getargs` says of a Python function (functioncalls.py:148-155): the number of its arguments, with
`context`; the number of default values; has it `*args`. -/
structure Sig where
  args : Nat
  defaults : Nat
  varargs : Bool
  deriving DecidableEq, Repr

/-- An extension function (functioncalls.py:139-193): the object; its signature, if it is a Python function; the function
that looks it up again, if it is not to be kept (`nocache`). -/
structure Func (V : Type) where
  value : V
  sig : Option Sig
  dynamic : Option V
  deriving DecidableEq, Repr

/-- The context for compilation (compiler/__init__.py:21-29). -/
structure Env (V : Type) where
  namespaces : Str → Option V
  variables : Option V → Str → Bool
  functions : V → Str → Option (Func V)

/-- Why an expression cannot be compiled: XPathError of UNDEFINED_PREFIX, UNDEFINED_VARIABLE, UNDEFINED_FUNCTION or
ARGCOUNT_...; TypeError ("cannot convert to a nodeset"); a union of no paths (IndexError, not built by the parser). -/
inductive CompError where
  | undefinedPrefix | undefinedVariable | undefinedFunction | argCount | typeError | indexError
  deriving DecidableEq, Repr

/-- `xpathcompiler` (compiler/__init__.py:16-35): the graph, and the number of temporary names. -/
structure CState (V : Type) where
  g : Graph V
  nlocals : Nat

/-- A call that emits code. -/
def Gen (V : Type) := CState V → Except CompError (CState V)

namespace Gen

variable {V : Type}

/-- One after the other. -/
def seq (a b : Gen V) : Gen V := fun s =>
  match a s with
  | .error e => .error e
  | .ok s => b s

@[inherit_doc] scoped infixr:60 " ;; " => Gen.seq

/-- Nothing. -/
def skip : Gen V := fun s => .ok s

/-- An exception. -/
def fail (e : CompError) : Gen V := fun _ => .error e

/-- `compiler.emit`. -/
def emit (is : List (Ins V)) : Gen V := fun s => .ok { s with g := s.g.emit is }

/-- `compiler.new_block()`. -/
def withBlock (k : Nat → Gen V) : Gen V := fun s => k s.g.blocks.length { s with g := s.g.newBlock }

/-- `compiler.next_block()`. -/
def nextNew : Gen V := fun s => .ok { s with g := s.g.nextNew }

/-- `compiler.next_block(block)`. -/
def next (b : Nat) : Gen V := fun s => .ok { s with g := s.g.nextBlock b }

end Gen

open Gen

/-- The name of a temporary variable (compiler/__init__.py:56-58). -/
def tmp (k : Nat) : Str := '$' :: Nat.toDigits 10 k

/-- `compiler.tmpname()` (compiler/__init__.py:56-58). -/
def Gen.withTmp {V : Type} (k : Str → Gen V) : Gen V := fun s =>
  k (tmp (s.nlocals + 1)) { s with nlocals := s.nlocals + 1 }

variable {V : Type}

/-- `context` as the argument of LOAD_FAST. -/
def ctxName : Str := s!! "context"

/-- LOAD_FAST context, LOAD_ATTR name. -/
def loadCtx (name : Str) : List (Ins V) := [.fast .load ctxName, .attr .load name]

/-- LOAD_FAST context, STORE_ATTR name. -/
def storeCtx (name : Str) : List (Ins V) := [.fast .load ctxName, .attr .store name]

/-- A conversion by a call: `compile_as_boolean`, `_number`, `_string` of `expression` (expressions/__init__.py:21-46),
`compile_as_nodeset` of variables (basics.py:114-120). -/
def convert (f : V) (own : Gen V) : Gen V := emit [.const f] ;; own ;; emit [.num .callFunction 1]

/-- The methods that an expression has from `expression` (expressions/__init__.py:21-58). -/
def inherited (K : Known V) (own : Gen V) : Mode → Gen V
  | .plain => own
  | .boolean => convert K.boolean own
  | .number => convert K.number own
  | .string => convert K.string own
  | .nodeset => fail .typeError
  | .iterable => fail .typeError

/-- `literal` (basics.py:21-45, 67, 81). -/
def literalGen (K : Known V) (isNumber notEmpty : Bool) (number string : Option V) : Mode → Gen V
  | .plain => if isNumber then emit [.const (number.getD K.nan)] else emit [.const (string.getD K.empty)]
  | .boolean => emit [.const (if notEmpty then K.true else K.false)]
  | .number => emit [.const (number.getD K.nan)]
  | .string => emit [.const (string.getD K.empty)]
  | .nodeset => fail .typeError
  | .iterable => fail .typeError

/-- `variable_reference.compile`: the code (basics.py:105-111). -/
def varCode (K : Known V) (ns : Option V) (loc : Str) : Gen V :=
  emit (loadCtx (s!! "variables") ++
    [.const (ns.getD K.none), .const (K.str loc), .num .buildTuple 2, .op .binarySubscr])

/-- `variable_reference.compile`: the variable is looked for (basics.py:89-104). -/
def varFind (env : Env V) (pre : Option Str) (loc : Str) : Except CompError (Option V) :=
  match pre with
  | none => if env.variables none loc then .ok none else .error .undefinedVariable
  | some p =>
    match env.namespaces p with
    | none => .error .undefinedPrefix
    | some ns => if env.variables (some ns) loc then .ok (some ns) else .error .undefinedVariable

/-- `variable_reference.compile` (basics.py:89-112). -/
def varGen (K : Known V) (env : Env V) (pre : Option Str) (loc : Str) : Gen V :=
  match varFind env pre loc with
  | .error e => fail e
  | .ok ns => varCode K ns loc

/-- The methods of `variable_reference` (basics.py:89-127). -/
def varModes (K : Known V) (own : Gen V) : Mode → Gen V
  | .nodeset => convert K.nodeset own
  | .iterable => emit [.op .popTop] ;; own ;; emit [.op .getIter]
  | m => inherited K own m

/-- `evaluate`, `evaluate_as_boolean`, ... (functioncalls.py:46-98). -/
def methodName : Mode → Str
  | .boolean => s!! "evaluate_as_boolean"
  | .number => s!! "evaluate_as_number"
  | .string => s!! "evaluate_as_string"
  | .nodeset => s!! "evaluate_as_nodeset"
  | _ => s!! "evaluate"

/-- The methods of `function_call` (functioncalls.py:46-98). -/
def callGen (self : V) : Mode → Gen V
  | .iterable => fail .typeError
  | m => emit [.const self, .attr .load (methodName m), .fast .load ctxName, .num .callFunction 1]

/-- The methods of `true_function`, `false_function` (functions/booleans.py:45-48, 61-64). -/
def knownGen (self value : V) : Mode → Gen V
  | .plain => emit [.const value]
  | .boolean => emit [.const value]
  | m => callGen self m

/-- The number of arguments is wrong (functioncalls.py:148-184). -/
def argsWrong (s : Sig) (argc : Nat) : Bool :=
  let maxargs : Int := s.args - 1
  let minargs : Int := maxargs - s.defaults
  ((argc : Int) > maxargs && !s.varargs) || (argc : Int) < minargs

/-- `extension_function.compile`: the function is looked for and its arguments are counted (functioncalls.py:137-184). -/
def extFind (env : Env V) (pre loc : Str) (argc : Nat) : Except CompError (Func V) :=
  match env.namespaces pre with
  | none => .error .undefinedPrefix
  | some ns =>
    match env.functions ns loc with
    | none => .error .undefinedFunction
    | some f =>
      match f.sig with
      | some s => if argsWrong s argc then .error .argCount else .ok f
      | none => .ok f

/-- `extension_function.compile`: the function is loaded (functioncalls.py:187-207). -/
def funcCode (f : Func V) : List (Ins V) :=
  match f.dynamic with
  | some d => [.const d, .fast .load ctxName, .num .callFunction 1]
  | none => [.const f.value]

/-- `extension_function.compile` (functioncalls.py:136-213). -/
def extGen (env : Env V) (pre loc : Str) (args : List V) : Gen V :=
  match extFind env pre loc args.length with
  | .error e => fail e
  | .ok f =>
    emit (funcCode f ++ (.fast .load ctxName :: args.map .const) ++ [.num .callFunction (1 + args.length)])

/-- The methods of `extension_function`. -/
def extModes (self : V) (own : Gen V) : Mode → Gen V
  | .plain => own
  | m => callGen self m

/-- `_logical_expr.compile_as_boolean` (booleans.py:26-35). -/
def logicGen (isOr : Bool) (l r : Gen V) : Gen V :=
  withBlock fun stop =>
    l ;; emit [.jump (if isOr then .jumpIfTrue else .jumpIfFalse) stop] ;; nextNew ;; emit [.op .popTop] ;; r ;; next stop

/-- The methods of boolean expressions. -/
def booleanModes (K : Known V) (own : Gen V) : Mode → Gen V
  | .boolean => own
  | m => inherited K own m

/-- `_opmap` (numbers.py:20-26). -/
def Arith.op : Arith → Op
  | .add => .binaryAdd
  | .sub => .binarySubtract
  | .mul => .binaryMultiply
  | .div => .binaryDivide
  | .mod => .binaryModulo

/-- The methods of number expressions. -/
def numberModes (K : Known V) (own : Gen V) : Mode → Gen V
  | .number => own
  | m => inherited K own m

/-- LOAD_FAST context, LOAD_ATTR node, BUILD_TUPLE 1. -/
def contextNodes : List (Ins V) := loadCtx (s!! "node") ++ [.num .buildTuple 1]

/-- `_make_block` (nodesets.py:15-41). -/
def makeBlock (body : Gen V) : Gen V :=
  emit (loadCtx (s!! "node") ++ loadCtx (s!! "position") ++ loadCtx (s!! "size")) ;; body ;;
  emit (.op .rotFour :: (storeCtx (s!! "size") ++ storeCtx (s!! "position") ++ storeCtx (s!! "node")))

/-- `_make_loop` (nodesets.py:43-74). -/
def makeLoop (iterable : Gen V) (found empty : List (Ins V)) : Gen V :=
  makeBlock <|
    withBlock fun stop => withBlock fun els =>
      emit contextNodes ;; iterable ;; emit [.op .getIter, .jump .forIter els] ;; emit found ;;
      emit [.op .rotTwo, .op .popTop, .jump .jumpForward stop] ;; next els ;; emit empty ;; next stop

/-- `compile_as_nodeset` (nodesets.py:98-107). -/
def makeNodeset (K : Known V) (iterable : Gen V) : Gen V :=
  makeBlock (emit (.const K.nodeset :: contextNodes) ;; iterable ;; emit [.num .callFunction 1])

/-- The methods of `nodeset_expression` (nodesets.py:76-108). -/
def nodesetModes (K : Known V) (iterable : Gen V) : Mode → Gen V
  | .plain => makeNodeset K iterable
  | .nodeset => makeNodeset K iterable
  | .boolean => makeLoop iterable [.op .popTop, .const K.true] [.const K.false]
  | .number => makeLoop iterable [.const K.number, .op .rotTwo, .num .callFunction 1]
      [.const K.number, .attr .load (s!! "NaN")]
  | .string => makeLoop iterable [.const K.string, .op .rotTwo, .num .callFunction 1] [.const K.empty]
  | .iterable => iterable

/-- The paths of a union, in `compile_iterable` (nodesets.py:138-141). -/
def unionArgs (tmpname : Str) : List (Gen V) → Gen V
  | [] => skip
  | p :: ps => emit [.fast .load tmpname] ;; p ;; unionArgs tmpname ps

/-- `union_expr.compile_iterable` (nodesets.py:126-146). -/
def unionGen (K : Known V) (ps : List (Gen V)) : Gen V :=
  withTmp fun t =>
    emit [.fast .store t, .const K.unioniter] ;; unionArgs t ps ;; emit [.num .callFunction ps.length, .fast .delete t]

/-- The loop of `union_expr.compile_as_boolean` (nodesets.py:150-155). -/
def unionTests (stop : Nat) : List (Gen V) → Gen V
  | [] => fail .indexError
  | [p] => p
  | p :: ps => p ;; emit [.jump .jumpIfTrue stop] ;; nextNew ;; emit [.op .popTop] ;; unionTests stop ps

/-- `union_expr.compile_as_boolean` (nodesets.py:148-157). -/
def unionBoolean (ps : List (Gen V)) : Gen V := withBlock fun stop => unionTests stop ps ;; next stop

/-- The call of a `select` with the nodes on the stack (nodesets.py:225-232, locationpaths/__init__.py:43-51). -/
def selectCode (select : V) : List (Ins V) :=
  [.const select, .fast .load ctxName, .op .rotThree, .op .rotThree, .num .callFunction 2]

/-- `path_expr.compile_iterable` (nodesets.py:190-198). -/
def pathGen (isNodeset : Bool) (iterable nodeset p : Gen V) : Gen V :=
  (if isNodeset then iterable else emit [.op .popTop] ;; nodeset) ;; p

/-- `filter_expr.compile_iterable` (nodesets.py:219-233). -/
def filterGen (nodeset : Gen V) (select : Option V) : Gen V :=
  emit [.op .popTop] ;; nodeset ;;
    (match select with
     | some s => emit (selectCode s)
     | none => skip)

/-- The steps in `location_path.compile_iterable` (locationpaths/__init__.py:31-51). -/
def stepsCode : List (Step V) → Gen V
  | [] => skip
  | s :: ss =>
    match s.select with
    | none => fail .undefinedPrefix
    | some f => emit (selectCode f) ;; stepsCode ss

/-- `location_path.compile_iterable` (locationpaths/__init__.py:19-52). -/
def stepsGen (absolute : Bool) (ss : List (Step V)) : Gen V :=
  (if absolute then
    emit (.op .popTop :: (loadCtx (s!! "node") ++ [.attr .load (s!! "xml_root"), .num .buildTuple 1])) else skip) ;;
  stepsCode ss

mutual
/-- The `compile` methods. -/
def compile (K : Known V) (env : Env V) : Expr V → Mode → Gen V
  | .literal isNumber notEmpty number string, m => literalGen K isNumber notEmpty number string m
  | .var pre loc, m => varModes K (varGen K env pre loc) m
  | .call self, m => callGen self m
  | .known self value, m => knownGen self value m
  | .ext self pre loc args, m => extModes self (extGen env pre loc args) m
  | .logic isOr l r, m => booleanModes K (logicGen isOr (compile K env l .boolean) (compile K env r .boolean)) m
  | .compare c l r, m => booleanModes K (compile K env l .plain ;; compile K env r .plain ;; emit [.cmp c]) m
  | .arith op l r, m => numberModes K (compile K env l .number ;; compile K env r .number ;; emit [.op op.op]) m
  | .neg e, m => numberModes K (compile K env e .number ;; emit [.op .unaryNegative]) m
  | .union ps, m =>
    match m with
    | .boolean => unionBoolean (compiles K env ps .boolean)
    | m => nodesetModes K (unionGen K (compiles K env ps .iterable)) m
  | .path e p, m =>
    nodesetModes K
      (pathGen e.isNodeset (compile K env e .iterable) (compile K env e .nodeset) (compile K env p .iterable)) m
  | .filter e select, m => nodesetModes K (filterGen (compile K env e .nodeset) select) m
  | .steps absolute ss, m => nodesetModes K (stepsGen absolute ss) m
/-- See `compile`. -/
def compiles (K : Known V) (env : Env V) : Exprs V → Mode → List (Gen V)
  | .nil, _ => []
  | .cons e es, m => compile K env e m :: compiles K env es m
end

/-- `evaluate` and the like: the code of the function (expressions/__init__.py:60-98, compiler/__init__.py:37-54). -/
inductive GenError where
  | comp (e : CompError)
  | asm (e : AsmError)
  deriving DecidableEq, Repr

/-- See `GenError`. -/
def codeOf (K : Known V) (env : Env V) (same : V → V → Bool) (doc : V) (e : Expr V) (m : Mode) :
    Except GenError (Code V) :=
  match compile K env e m { g := Graph.new, nlocals := 0 } with
  | .error x => .error (.comp x)
  | .ok s =>
    match s.g.assemble same [ctxName] doc with
    | .error x => .error (.asm x)
    | .ok c => .ok c

end Verif.Code
