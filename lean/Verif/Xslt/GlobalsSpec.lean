import Verif.Xslt.Globals

/-
What XSLT 1.0 section 11.4 says about global variables: the value of a variable is the value of its definition, where
references are to the values of the other variables, in whatever order they are declared; a parameter has the value
that is passed for it.  A definition that needs its own value has none.
-/
namespace Verif.Globals.Spec
open Verif Verif.Globals

variable {V N : Type}

/-- The value of an expression, where all variables in it have to be defined. -/
def expr (env : Env V) (n : N) (e : GExpr V N) : Except Err V :=
  match e.fv.find? fun x => (env x).isNone with
  | some x => .error (.undefined x)
  | none => (e.run n).run env

/-- Concatenation of what is made for each node. -/
def concat (f : N → Except Err (List V)) : List N → Except Err (List V)
  | [] => .ok []
  | n :: ns => match f n with
    | .error x => .error x
    | .ok a => match concat f ns with
      | .error x => .error x
      | .ok b => .ok (a ++ b)

/-- One result after the other. -/
def andThen (a : Except Err (List V)) (b : Except Err (List V)) : Except Err (List V) :=
  match a with
  | .error x => .error x
  | .ok a => match b with
    | .error x => .error x
    | .ok b => .ok (a ++ b)

/-- What the content of an element makes: `glob` are the global variables, `env` all that are in scope, `n` is the
focus.  A variable is in scope in what follows its declaration, up to the end of the element around it. -/
def content (o : Ops V N) (glob : Env V) : Code V N → Env V → N → Except Err (List V)
  | .done, _, _ => .ok []
  | .out e rest, env, n => match expr env n e with
    | .error x => .error x
    | .ok v => andThen (.ok [v]) (content o glob rest env n)
  | .ite e body rest, env, n => match expr env n e with
    | .error x => .error x
    | .ok v => if o.truth v then andThen (content o glob body env n) (content o glob rest env n)
      else content o glob rest env n
  | .each e body rest, env, n => match expr env n e with
    | .error x => .error x
    | .ok v => andThen (concat (fun m => content o glob body env m) (o.nodes v)) (content o glob rest env n)
  | .apply e rule rest, env, n => match expr env n e with
    | .error x => .error x
    | .ok v => andThen (concat (fun m => content o glob (rule m) glob m) (o.nodes v)) (content o glob rest env n)
  | .var x e rest, env, n => match expr env n e with
    | .error y => .error y
    | .ok v => content o glob rest (env.set x v) n

/-- The value of a definition, given the values of global variables. -/
def value (o : Ops V N) (glob : Env V) (n : N) : Def V N → Except Err V
  | .select e => expr glob n e
  | .content c => match content o glob c glob n with
    | .error x => .error x
    | .ok vs => .ok (o.frag vs)
  | .empty => .ok o.empty

/-- The values of the global variables `gs`: `given` are the parameters passed, `n` is the focus of the
transformation. -/
inductive HasValue (o : Ops V N) (gs : List (Global V N)) (given : Env V) (n : N) : Name → V → Prop
  | passed (g : Global V N) (v : V) : g ∈ gs → g.param = true → given g.name = some v →
      HasValue o gs given n g.name v
  | computed (g : Global V N) (env : Env V) (v : V) : g ∈ gs → ¬ (g.param = true ∧ given g.name ≠ none) →
      (∀ y w, env y = some w → HasValue o gs given n y w) → value o env n g.value = .ok v →
      HasValue o gs given n g.name v

/-- The definition of a variable fails for another reason than a missing variable. -/
def Fails (o : Ops V N) (gs : List (Global V N)) (given : Env V) (n : N) (e : Nat) : Prop :=
  ∃ g ∈ gs, ¬ (g.param = true ∧ given g.name ≠ none) ∧ ∃ env : Env V,
    (∀ y w, env y = some w → HasValue o gs given n y w) ∧ value o env n g.value = .error (.other e)

/-- The outcome `r` of making the values, and the context `s` afterwards, are right: it ends; without an exception if
and only if all variables have values, and then these are the values that templates see, nothing was written, and the
templates begin with the focus of the transformation, no local variables, and the writer of the result; otherwise a
variable without a value is reported, or the exception of a definition is passed on. -/
structure Right (o : Ops V N) (gs : List (Global V N)) (given : Env V) (n : N) (r : Option (Except Err Unit))
    (s : St V N) : Prop where
  ends : r ≠ none
  ok : r = some (.ok ()) ↔ ∀ g ∈ gs, ∃ v, HasValue o gs given n g.name v
  values : r = some (.ok ()) → ∀ x v, s.dict x = some v ↔ HasValue o gs given n x v
  context : r = some (.ok ()) → s.cur = none ∧ s.focus = n ∧ s.writers = [[]] ∧ s.live = true
  error : ∀ x, r = some (.error x) →
    (∃ g ∈ gs, x = .circular g.name ∧ ¬ ∃ v, HasValue o gs given n g.name v) ∨
    ∃ e, x = .other e ∧ Fails o gs given n e

/-! Which stylesheets the theorems are about -/

/-- The names that a function may look up. -/
def Asks (fv : List Name) : Ask V → Prop
  | .ret _ => True
  | .fail _ => True
  | .ask x k => x ∈ fv ∧ ∀ v, Asks fv (k v)

/-- A function only looks up the variables of the expression; those that are not among the local ones `bound` are the
ones that `refs` lists for this expression. -/
def FitsE (refs : Nat → List Name) (bound : List Name) (e : GExpr V N) : Prop :=
  (∀ n, Asks e.fv (e.run n)) ∧ (∀ x ∈ e.fv, x ∈ bound ∨ x ∈ refs e.id) ∧ (∀ x ∈ refs e.id, x ∈ e.fv ∧ x ∉ bound)

/-- The same for all expressions in a content. -/
def Fits (refs : Nat → List Name) : List Name → Code V N → Prop
  | _, .done => True
  | b, .out e r => FitsE refs b e ∧ Fits refs b r
  | b, .ite e c r => FitsE refs b e ∧ Fits refs b c ∧ Fits refs b r
  | b, .each e c r => FitsE refs b e ∧ Fits refs b c ∧ Fits refs b r
  | b, .apply e c r => FitsE refs b e ∧ (∀ n, Fits refs [] (c n)) ∧ Fits refs b r
  | b, .var x e r => FitsE refs b e ∧ Fits refs (x :: b) r

def FitsDef (refs : Nat → List Name) : Def V N → Prop
  | .select e => FitsE refs [] e
  | .content c => Fits refs [] c
  | .empty => True

/-- All global variables that a content refers to are in `a`. -/
def Refs (refs : Nat → List Name) (a : List Name) : Code V N → Prop
  | .done => True
  | .out e r => (∀ x ∈ refs e.id, x ∈ a) ∧ Refs refs a r
  | .ite e c r => (∀ x ∈ refs e.id, x ∈ a) ∧ Refs refs a c ∧ Refs refs a r
  | .each e c r => (∀ x ∈ refs e.id, x ∈ a) ∧ Refs refs a c ∧ Refs refs a r
  | .apply e c r => (∀ x ∈ refs e.id, x ∈ a) ∧ (∀ n, Refs refs a (c n)) ∧ Refs refs a r
  | .var _ e r => (∀ x ∈ refs e.id, x ∈ a) ∧ Refs refs a r

def RefsDef (refs : Nat → List Name) (a : List Name) : Def V N → Prop
  | .select e => ∀ x ∈ refs e.id, x ∈ a
  | .content c => Refs refs a c
  | .empty => True

/-- All global variables that a content refers to inside of for-each, apply-templates and elements that declare
variables are in `a`. -/
def Inner (refs : Nat → List Name) (a : List Name) : Code V N → Prop
  | .done => True
  | .out _ r => Inner refs a r
  | .ite _ c r => (if c.declares then Refs refs a c else Inner refs a c) ∧ Inner refs a r
  | .each _ c r => Refs refs a c ∧ Inner refs a r
  | .apply _ c r => (∀ n, Refs refs a (c n)) ∧ Inner refs a r
  | .var _ _ _ => False

def InnerDef (refs : Nat → List Name) (a : List Name) : Def V N → Prop
  | .select _ => True
  | .content c => if c.declares then Refs refs a c else Inner refs a c
  | .empty => True

/-- Declarations in which every variable comes after those that it refers to. -/
def Ordered (refs : Nat → List Name) : List Name → List (Global V N) → Prop
  | _, [] => True
  | a, g :: gs => RefsDef refs a g.value ∧ Ordered refs (g.name :: a) gs

/-- All variables have a `select` attribute or no content, each with an expression of its own. -/
structure Selects (gs : List (Global V N)) : Prop where
  no : ∀ g ∈ gs, ∀ c, g.value ≠ .content c
  own : ∀ g ∈ gs, ∀ h ∈ gs, ∀ e e', g.value = .select e → h.value = .select e' → e.id = e'.id → g = h

/-- A stylesheet as the reader and `setup` leave it: one variable of each name; `refs` are the global variables that an
expression refers to. -/
structure Proper (refs : Nat → List Name) (gs : List (Global V N)) : Prop where
  names : (gs.map (·.name)).Nodup
  fits : ∀ g ∈ gs, FitsDef refs g.value

/-- The stylesheet object after transformations with the given parameters and documents. -/
def after (o : Ops V N) (sh : Sheet V N) : List (Env V × N) → Sheet V N
  | [] => sh
  | r :: rs => after o (sh.prime o r.1 r.2).2.1 rs

end Verif.Globals.Spec
