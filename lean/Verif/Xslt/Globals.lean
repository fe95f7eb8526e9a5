import Verif.Py

/-
Global variables and parameters of a stylesheet: `transform_element.prime` (lib/xslt/tree/transform_element.py:463-497),
`variable_element.instantiate` (variable_elements.py:28-42), the choice of the parameters (lib/xslt/processor.py:528-532),
and what of the context and of the stylesheet is left behind by an instantiation that is given up.

Simplifications: values and foci are of any types; the content of a variable is made of value-of (and copy-of), if,
for-each, apply-templates and variable with select; a template rule is its content, chosen by the node, so recursion of
templates is unfolded (a transformation that ends is a finite tree of this kind); no template parameters and no
call-template.  A focus is node, position, size, current node together.
-/
namespace Verif.Globals
open Verif

/-- The expanded name of a variable. -/
abbrev Name := Option Str × Str

/-- A dictionary of variables. -/
abbrev Env (V : Type) := Name → Option V

/-- Assignment to a dictionary. -/
def Env.set {V : Type} (m : Env V) (x : Name) (v : V) : Env V := fun y => if y = x then some v else m y

/-- Exceptions: `XPathError.UNDEFINED_VARIABLE`, `KeyError`, `XsltError.CIRCULAR_VARIABLE`, and all others. -/
inductive Err
  | undefined (x : Name)
  | key (x : Name)
  | circular (x : Name)
  | other (e : Nat)
  deriving DecidableEq

/-- What the function of a compiled expression does: it looks up variables (lib/xpath/expressions/basics.py:111-117)
one after the other, and ends with a value or an exception. -/
inductive Ask (V : Type)
  | ret (v : V)
  | fail (e : Nat)
  | ask (x : Name) (k : V → Ask V)

/-- Lookups in a dictionary: a missing name is a `KeyError`. -/
def Ask.run {V : Type} (m : Env V) : Ask V → Except Err V
  | .ret v => .ok v
  | .fail e => .error (.other e)
  | .ask x k => match m x with
    | some v => (k v).run m
    | none => .error (.key x)

/-- An expression of the stylesheet: `id` is the identity of the expression object, `fv` are the variable references in
it from left to right. -/
structure GExpr (V N : Type) where
  id : Nat
  fv : List Name
  run : N → Ask V

/-- The content of an element, as a sequence of instructions. -/
inductive Code (V N : Type)
  | done
  | out (e : GExpr V N) (rest : Code V N)                          -- xsl:value-of, xsl:copy-of
  | ite (e : GExpr V N) (body rest : Code V N)                     -- xsl:if
  | each (e : GExpr V N) (body rest : Code V N)                    -- xsl:for-each
  | apply (e : GExpr V N) (rule : N → Code V N) (rest : Code V N)  -- xsl:apply-templates
  | var (x : Name) (e : GExpr V N) (rest : Code V N)               -- xsl:variable

/-- Does the content declare variables?  Then the reader puts it between a `push_variables_node` and a
`pop_variables_node` (lib/xslt/reader/__init__.py:549-556, 614-625). -/
def Code.declares {V N : Type} : Code V N → Bool
  | .done => false
  | .out _ r => r.declares
  | .ite _ _ r => r.declares
  | .each _ _ r => r.declares
  | .apply _ _ r => r.declares
  | .var _ _ _ => true

/-- The truth of a value, its nodes (as foci), a result tree fragment, the empty string. -/
structure Ops (V N : Type) where
  truth : V → Bool
  nodes : V → List N
  frag : List V → V
  empty : V

/-- The context (lib/xslt/xsltcontext.py, lib/xpath/__init__.py:112-175) and the stylesheet's compiled expressions.
`dict` is the dictionary with which the context was made, which `global_variables` is a view of.  `cur` is
`context.variables`: `none` is this very dictionary, `some` a copy that a `push_variables_node` made.  `writers` is
`context._writers`, the top one first, each with what was written to it.  `live` says that the methods of the context
are those of the top writer. -/
structure St (V N : Type) where
  dict : Env V
  cur : Option (Env V)
  focus : N
  writers : List (List V)
  live : Bool
  compiled : List Nat

variable {V N : Type}

def St.vars (s : St V N) : Env V := s.cur.getD s.dict

/-- `context.variables[name] = value`. -/
def St.assign (s : St V N) (x : Name) (v : V) : St V N :=
  match s.cur with
  | none => { s with dict := s.dict.set x v }
  | some m => { s with cur := some (m.set x v) }

/-- Output goes to the writer whose methods the context has. -/
def St.write (s : St V N) (v : V) : St V N :=
  match s.live, s.writers with
  | true, w :: ws => { s with writers := (w ++ [v]) :: ws }
  | _, _ => s

/-- `push_tree_writer` (lib/xpath/__init__.py:147-159). -/
def St.push (s : St V N) : St V N := { s with writers := [] :: s.writers, live := true }

/-- `pop_writer` (165-175): the methods of the next writer are copied. -/
def St.pop (s : St V N) : List V × St V N :=
  match s.writers with
  | w :: ws => (w, { s with writers := ws, live := if ws.isEmpty then s.live else true })
  | [] => ([], s)

/-- `del context._writers[num_writers:]` (transform_element.py:477): the methods stay as they are. -/
def St.truncate (s : St V N) (n : Nat) : St V N :=
  { s with writers := s.writers.drop (s.writers.length - n), live := s.live && decide (s.writers.length ≤ n) }

/-- `expression.evaluate` (lib/xpath/expressions/__init__.py:59-65): compiled when it is evaluated first;
`variable_reference.compile` (basics.py:108-110) checks that the variable is there.  Afterwards the function is used. -/
def evalE (e : GExpr V N) (s : St V N) : Except Err V × St V N :=
  if e.id ∈ s.compiled then ((e.run s.focus).run s.vars, s)
  else match e.fv.find? fun x => (s.vars x).isNone with
    | some x => (.error (.undefined x), s)
    | none => ((e.run s.focus).run s.vars, { s with compiled := e.id :: s.compiled })

/-- One node after the other. -/
def runAll (f : N → St V N → Except Err Unit × St V N) : List N → St V N → Except Err Unit × St V N
  | [], s => (.ok (), s)
  | n :: ns, s => match f n { s with focus := n } with
    | (.error x, s) => (.error x, s)
    | (.ok _, s) => runAll f ns s

/-- `process_children` (lib/xslt/src/xslt_element.c:56-85) of an element that may have the two pseudo nodes
(lib/xslt/reader/__init__.py:37-56).  With an exception `pop_variables_node` is not reached. -/
def inScope (declares : Bool) (f : St V N → Except Err Unit × St V N) (s : St V N) : Except Err Unit × St V N :=
  if declares then
    match f { s with cur := some s.vars } with
    | (.ok _, t) => (.ok (), { t with cur := s.cur })
    | (.error x, t) => (.error x, t)
  else f s

/-- A template rule runs with `context.global_variables`; `finally` gives the variables back
(transform_element.py:661-668). -/
def asRule (f : St V N → Except Err Unit × St V N) (s : St V N) : Except Err Unit × St V N :=
  let r := f { s with cur := none }
  (r.1, { r.2 with cur := s.cur })

/-- The `instantiate` methods, one instruction after the other: value_of_element.py:20-31, if_element.py:17-23,
for_each_element.py:36-62 and apply_templates (transform_element.py:579-681; the focus is given back at the end, not in
a `finally`), variable_elements.py:28-42. -/
def exec (o : Ops V N) : Code V N → St V N → Except Err Unit × St V N
  | .done, s => (.ok (), s)
  | .out e rest, s => match evalE e s with
    | (.error x, s) => (.error x, s)
    | (.ok v, s) => exec o rest (s.write v)
  | .ite e body rest, s => match evalE e s with
    | (.error x, s) => (.error x, s)
    | (.ok v, s) => if o.truth v then
        match inScope body.declares (exec o body) s with
        | (.error x, s) => (.error x, s)
        | (.ok _, s) => exec o rest s
      else exec o rest s
  | .each e body rest, s => match evalE e s with
    | (.error x, s) => (.error x, s)
    | (.ok v, s) => match runAll (fun _ => inScope body.declares (exec o body)) (o.nodes v) s with
      | (.error x, s) => (.error x, s)
      | (.ok _, t) => exec o rest { t with focus := s.focus }
  | .apply e rule rest, s => match evalE e s with
    | (.error x, s) => (.error x, s)
    | (.ok v, s) =>
      match runAll (fun n => asRule (inScope (rule n).declares (exec o (rule n)))) (o.nodes v) s with
      | (.error x, s) => (.error x, s)
      | (.ok _, t) => exec o rest { t with focus := s.focus }
  | .var x e rest, s => match evalE e s with
    | (.error y, s) => (.error y, s)
    | (.ok v, s) => exec o rest (s.assign x v)

/-- What gives a variable its value: `select`, content, or neither. -/
inductive Def (V N : Type)
  | select (e : GExpr V N)
  | content (c : Code V N)
  | empty

/-- A top-level `xsl:variable` or `xsl:param` that `setup` (transform_element.py:350-362) left in `_variables`. -/
structure Global (V N : Type) where
  name : Name
  param : Bool
  value : Def V N

/-- `variable_element.instantiate` (variable_elements.py:28-42). -/
def Global.instantiate (o : Ops V N) (g : Global V N) (s : St V N) : Except Err Unit × St V N :=
  match g.value with
  | .select e => match evalE e s with
    | (.error x, s) => (.error x, s)
    | (.ok v, s) => (.ok (), s.assign g.name v)
  | .content c => match inScope c.declares (exec o c) s.push with
    | (.error x, s) => (.error x, s)
    | (.ok _, s) => (.ok (), s.pop.2.assign g.name (o.frag s.pop.1))
  | .empty => (.ok (), s.assign g.name o.empty)

/-- The `for` loop of `prime` (469-479): the deferred elements, and the context.  `num` is `num_writers`. -/
def pass (o : Ops V N) (num : Nat) : List (Global V N) → List (Global V N) → St V N →
    Except Err (List (Global V N)) × St V N
  | [], deferred, s => (.ok deferred, s)
  | g :: gs, deferred, s =>
    if (s.dict g.name).isSome then pass o num gs deferred s
    else match g.instantiate o s with
      | (.ok _, s) => pass o num gs deferred s
      | (.error (.undefined _), s) => pass o num gs (deferred ++ [g]) (s.truncate num)
      | (.error x, s) => (.error x, s)

/-- `remove` and `append` (487-489); elements of `_variables` differ in their names. -/
def moveToEnd (order : List (Global V N)) (g : Global V N) : List (Global V N) :=
  order.eraseP (fun h => h.name = g.name) ++ [g]

/-- The `while` loop of `prime` (468-492): the result, `_variables` and the context.  Without steps left the result is
`none`. -/
def loop (o : Ops V N) (num : Nat) : Nat → List (Global V N) → List (Global V N) → St V N →
    Option (Except Err Unit) × List (Global V N) × St V N
  | 0, order, _, s => (none, order, s)
  | k + 1, order, elements, s => match pass o num elements [] s with
    | (.error x, s) => (some (.error x), order, s)
    | (.ok [], s) => (some (.ok ()), order, s)
    | (.ok (g :: gs), s) =>
      if (g :: gs).map (·.name) = elements.map (·.name) then (some (.error (.circular g.name)), order, s)
      else loop o num k ((g :: gs).foldl moveToEnd order) (g :: gs) s

/-- What a stylesheet object keeps from run to run: `_variables` and the compiled expressions. -/
structure Sheet (V N : Type) where
  order : List (Global V N)
  compiled : List Nat

/-- `self.parameters` (transform_element.py:361-362). -/
def Sheet.parameters (sh : Sheet V N) : List Name := (sh.order.filter (·.param)).map (·.name)

/-- `initial_variables` (lib/xslt/processor.py:528-532). -/
def Sheet.initial (sh : Sheet V N) (given : Env V) : Env V :=
  fun x => if x ∈ sh.parameters then given x else none

/-- The context that a run begins with (processor.py:535-542): one writer. -/
def Sheet.start (sh : Sheet V N) (given : Env V) (n : N) : St V N :=
  { dict := sh.initial given, cur := none, focus := n, writers := [[]], live := true, compiled := sh.compiled }

/-- `prime` in `Processor.run` (543): the outcome, the stylesheet afterwards and the context.  The templates see the
dictionary `dict` (transform_element.py:664). -/
def Sheet.prime (o : Ops V N) (sh : Sheet V N) (given : Env V) (n : N) :
    Option (Except Err Unit) × Sheet V N × St V N :=
  let r := loop o 1 (sh.order.length + 1) sh.order sh.order (sh.start given n)
  (r.1, ⟨r.2.1, r.2.2.compiled⟩, r.2.2)

end Verif.Globals
