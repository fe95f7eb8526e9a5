/-
What metadata extraction should give.
-/
import Verif.Eg.Meta

namespace Verif.Eg.Meta.Spec
open Verif.Write (UStr)
open Verif.Eg (Name)
open Verif.Eg.Meta (Attrs Cues Models El Env Triple Val)

/-- The cues of an element of the example, with their defaults: an empty
`ak:resource` is a generated identifier, an empty `ak:rel` the element's
name, an empty `ak:value` the element; a value without relationship is
called by the element's name; a relationship without value, on an element
that is no resource, has the element as its value. -/
def cuesOf (a : Attrs) : Cues where
  resource := a.resource.map fun r => if r = [] then u!! "generate-id()" else r
  rel :=
    match a.rel, a.value with
    | some r, _ => some (if r = [] then u!! "local-name()" else r)
    | none, some _ => some (u!! "local-name()")
    | none, none => none
  value :=
    match a.value, a.rel, a.resource with
    | some v, _, _ => some (if v = [] then u!! "." else v)
    | none, some _, none => some (u!! ".")
    | none, _, _ => none
  context := a.context
  others := a.rels

mutual
/-- All elements of a subtree in document order, each with its ancestors, the
nearest first. -/
def chain (above : List El) : El → List (El × List El)
  | .elem n i ks => (.elem n i ks, above) :: chains (.elem n i ks :: above) ks
def chains (above : List El) : List El → List (El × List El)
  | [] => []
  | e :: es => chain above e ++ chains above es
end

/-- Whether the context an element's class asks for is met. -/
def admitted (env : Env) (m : Models) (e : El) : Bool :=
  match (m e.name).context with
  | none => true
  | some c => env.test c e.id

/-- The identifier of an element that is a resource. -/
def resourceId (env : Env) (m : Models) (e : El) : Option UStr :=
  (m e.name).resource.map fun r =>
    if r = u!! "generate-id()" then env.nodeId e.id else env.str r e.id

/-- The resource something belongs to: the nearest of the given elements that
is one, or the base. -/
def owner (env : Env) (m : Models) (base : UStr) (es : List El) : UStr :=
  (es.findSome? (resourceId env m)).getD base

/-- The value of the element's own relationship: what its `ak:value` gives,
or its identifier if it is a resource, or the element. -/
def value (env : Env) (m : Models) (e : El) : Val :=
  match (m e.name).value with
  | some v => env.val v e.id
  | none =>
    match resourceId env m e with
    | some r => .atom r
    | none => .list [.node e.id]

/-- The statements an element makes: its own relationship is a statement
about the resource around it, the relationships in its `ak:rel` elements
are about itself if it is a resource. -/
def statements (env : Env) (m : Models) (base : UStr) (e : El) (above : List El) : List Triple :=
  ((m e.name).rel.toList.map fun r => (owner env m base above, env.str r e.id, value env m e)) ++
  (m e.name).others.map fun o => (owner env m base (e :: above), env.str o.1 e.id, env.val o.2 e.id)

/-- All statements of a document: those of the elements that are admitted
together with everything around them, in document order. -/
def metadata (env : Env) (m : Models) (tops : List El) (base : UStr) : List Triple :=
  ((chains [] tops).filter fun c => (c.1 :: c.2).all (admitted env m)).flatMap fun c =>
    statements env m base c.1 c.2

/-- The values stated for a property of a resource, in order. -/
def valuesOf (rows : List Triple) (rid key : UStr) : List Val :=
  (rows.filter fun r => r.1 = rid ∧ r.2.1 = key).map (·.2.2)

/-- One value stands for itself, several are given as a list. -/
def entry : List Val → Option Val
  | [] => none
  | [v] => some v
  | vs => some (.list vs)

end Verif.Eg.Meta.Spec
