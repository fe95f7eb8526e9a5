import Verif.Code.Machine
import Verif.Code.Compile

/-
What an expression computes, said without code: which objects are asked for what, in which order.
-/
namespace Verif.Code.Spec

open Verif.Py Verif.Code

variable {V W : Type}

instance : Monad (Act V W) where
  pure a := fun w => (.ok a, w)
  bind a k := fun w =>
    match a w with
    | (.ok x, w) => k x w
    | (.error e, w) => (.error e, w)

variable (H : Host V W) (K : Known V) (env : Env V) (ctx : V)

/-- With the node, position and size of the context put back afterwards. -/
def saving (body : Act V W V) : Act V W V := do
  let node ← H.getAttr ctx (s!! "node")
  let position ← H.getAttr ctx (s!! "position")
  let size ← H.getAttr ctx (s!! "size")
  let v ← body
  H.setAttr ctx (s!! "size") size
  H.setAttr ctx (s!! "position") position
  H.setAttr ctx (s!! "node") node
  return v

/-- The nodes to begin with: the context node. -/
def start : Act V W V := do
  let node ← H.getAttr ctx (s!! "node")
  return H.tuple [node]

/-- The value for the first thing in an iterable, or the value for nothing. -/
def first (iterable : V → Act V W V) (found : V → Act V W V) (empty : Act V W V) : Act V W V :=
  saving H ctx do
    let nodes ← start H ctx
    let it ← iterable nodes
    let it ← H.iter it
    match ← H.next it with
    | some node => found node
    | none => empty

/-- A list of nodes as a boolean, number, string and node set. -/
def nodesetAs (iterable : V → Act V W V) : Mode → V → Act V W V
  | .boolean, _ => first H ctx iterable (fun _ => return K.true) (return K.false)
  | .number, _ => first H ctx iterable (fun node => H.call K.number [node]) (H.getAttr K.number (s!! "NaN"))
  | .string, _ => first H ctx iterable (fun node => H.call K.string [node]) (return K.empty)
  | .iterable, nodes => iterable nodes
  | _, _ => saving H ctx do
    let nodes ← start H ctx
    let it ← iterable nodes
    H.call K.nodeset [it]

/-- A value as a boolean, number, string. -/
def valueAs (value : Act V W V) : Mode → Act V W V
  | .boolean => do H.call K.boolean [← value]
  | .number => do H.call K.number [← value]
  | .string => do H.call K.string [← value]
  | _ => value

/-- The method of a function for each way to be evaluated. -/
def method : Mode → Str
  | .boolean => s!! "evaluate_as_boolean"
  | .number => s!! "evaluate_as_number"
  | .string => s!! "evaluate_as_string"
  | .nodeset => s!! "evaluate_as_nodeset"
  | _ => s!! "evaluate"

/-- Unions, paths, filters and location paths give nodes one by one; other expressions give them as a node set. -/
def givesNodes : Expr V → Bool
  | .union _ => true
  | .path _ _ => true
  | .filter _ _ => true
  | .steps _ _ => true
  | _ => false

/-- One method of an object, with the context. -/
def ask (self : V) (m : Mode) : Act V W V := do
  let f ← H.getAttr self (method m)
  H.call f [ctx]

/-- The first value that is true (`or`) or false (`and`), or the last. -/
def decide (isOr : Bool) (a b : Act V W V) : Act V W V := do
  let x ← a
  let t ← H.truth x
  if t = isOr then return x else b

/-- The first value that is true, or the last. -/
def anyTrue : List (Act V W V) → Act V W V
  | [] => return K.false
  | [a] => a
  | a :: as => decide H true a (anyTrue as)

/-- All of them, in order. -/
def all : List (Act V W V) → Act V W (List V)
  | [] => return []
  | a :: as => do
    let v ← a
    let vs ← all as
    return v :: vs

/-- `select(context, nodes)`, one after the other. -/
def selects : List V → V → Act V W V
  | [], nodes => return nodes
  | f :: fs, nodes => do
    let nodes ← H.call f [ctx, nodes]
    selects fs nodes

/-- The binary operation for an operator. -/
def binOf : Arith → Bin
  | .add => .add
  | .sub => .sub
  | .mul => .mul
  | .div => .div
  | .mod => .mod

/-- The namespace of a name: none without a prefix. -/
def namespaceOf (pre : Option Str) : V := (pre.bind env.namespaces).getD K.none

/-- The extension function with a name. -/
def funcOf (pre loc : Str) : Option (Func V) := (env.namespaces pre).bind fun ns => env.functions ns loc

/-- The object to call for an extension function: the function, or what a function that is not to be kept is found to
be now. -/
def funcValue : Option (Func V) → Act V W V
  | some f =>
    match f.dynamic with
    | some d => H.call d [ctx]
    | none => return f.value
  | none => return K.none

mutual
/-- The value of an expression in one of the ways; `nodes` is looked at only if an iterable is asked for. -/
def eval : Expr V → Mode → V → Act V W V
  | .literal isNumber notEmpty number string, m, _ =>
    match m with
    | .boolean => return if notEmpty then K.true else K.false
    | .number => return number.getD K.nan
    | .string => return string.getD K.empty
    | _ => return if isNumber then number.getD K.nan else string.getD K.empty
  | .var pre loc, m, _ =>
    let value := do
      let vars ← H.getAttr ctx (s!! "variables")
      H.binary .subscr vars (H.tuple [namespaceOf K env pre, K.str loc])
    match m with
    | .nodeset => do H.call K.nodeset [← value]
    | .iterable => do H.iter (← value)
    | m => valueAs H K value m
  | .call self, m, _ => ask H ctx self m
  | .known self value, m, _ =>
    match m with
    | .plain => return value
    | .boolean => return value
    | m => ask H ctx self m
  | .ext self pre loc args, m, _ =>
    match m with
    | .plain => do
      let f ← funcValue H K ctx (funcOf env pre loc)
      H.call f (ctx :: args)
    | m => ask H ctx self m
  | .logic isOr l r, m, n =>
    let value := decide H isOr (eval l .boolean n) (eval r .boolean n)
    if m = .boolean then value else valueAs H K value m
  | .compare c l r, m, n =>
    let value := do
      let a ← eval l .plain n
      let b ← eval r .plain n
      H.compare c a b
    if m = .boolean then value else valueAs H K value m
  | .arith op l r, m, n =>
    let value := do
      let a ← eval l .number n
      let b ← eval r .number n
      H.binary (binOf op) a b
    if m = .number then value else valueAs H K value m
  | .neg e, m, n =>
    let value := do
      let a ← eval e .number n
      H.negative a
    if m = .number then value else valueAs H K value m
  | .union ps, m, n =>
    match m with
    | .boolean => anyTrue H K (evals ps .boolean n)
    | m => nodesetAs H K ctx (fun nodes => do
        let its ← all (evals ps .iterable nodes)
        H.call K.unioniter its) m n
  | .path e p, m, n =>
    nodesetAs H K ctx (fun nodes => do
      let nodes ← eval e (if givesNodes e then .iterable else .nodeset) nodes
      eval p .iterable nodes) m n
  | .filter e select, m, n =>
    nodesetAs H K ctx (fun nodes => do
      let nodes ← eval e .nodeset nodes
      selects H ctx select.toList nodes) m n
  | .steps absolute ss, m, n =>
    nodesetAs H K ctx (fun nodes => do
      if absolute then
        let node ← H.getAttr ctx (s!! "node")
        let root ← H.getAttr node (s!! "xml_root")
        selects H ctx (ss.filterMap (·.select)) (H.tuple [root])
      else selects H ctx (ss.filterMap (·.select)) nodes) m n
/-- See `eval`. -/
def evals : Exprs V → Mode → V → List (Act V W V)
  | .nil, _, _ => []
  | .cons e es, m, n => eval e m n :: evals es m n
end

/-- How a function ends. -/
def result (r : Except V V × W) : Out V W :=
  match r with
  | (.ok v, w) => .ret v w
  | (.error e, w) => .raised e w

end Verif.Code.Spec
