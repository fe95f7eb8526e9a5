import Verif.Template.Select

/-
`xsl:key` and `key()`: the dispatch table and the values of the keys (lib/xslt/tree/transform_element.py:55-172,
287-294) and the function (lib/xslt/functions/__init__.py:73-108).

Simplifications: the lookup of prefixes has been done (as in Verif.Eval), so `context.namespaces` does not appear; the
values are computed completely before the first of them is used, as `__missing__` does; the generator `_match_nodes`
is a function that returns a list.  Patterns and `use` are those of Verif.Template.Pattern and Verif.Eval.
-/
namespace Verif.Template
open Verif Verif.XPath Verif.Dom Verif.Eval

/-- An `xsl:key` element: the alternatives of `match`, and `use`. -/
structure KeyDecl where
  name : Name
  alts : List Pat
  use : Expr

/-- `keys[name]` (transform_element.py:287-294): stable sorting and grouping keep the order of the elements of one
name. -/
def keysNamed (ks : List KeyDecl) (name : Name) : List KeyDecl := ks.filter fun k => decide (k.name = name)

/-- `_key_dispatch_table.__init__`, first part (62-84).  The entries have the form of those for templates; import
precedence, priority, position are not used, and `tmpl` is the index of the element. -/
def keyTable (d : Doc) : Nat → List KeyDecl → Table → Except XErr Table
  | _, [], tb => .ok tb
  | i, k :: ks, tb => match addAlts d ⟨0, none, none, k.alts⟩ 0 i k.alts tb with
    | .error e => .error e
    | .ok tb => keyTable d (i + 1) ks tb

/-- `_matches_attribute` (105). -/
def matchesAttr (tb : Table) : Bool := (tb (.kind .attr)).isSome

/-- The strings of a value of `use` (140-144); also of the second argument of `key()` (functions/__init__.py:96-106). -/
def keyStrings (d : Doc) : EVal → Except XErr (List Str)
  | .nodes l => .ok (l.map (strVal d))
  | .sc v => match toStr d (.sc v) with
    | .error e => .error e
    | .ok s => .ok [s]

/-- `context.node, context.position, context.size = focus`. -/
def Ctx.focus (c c' : Ctx) : Ctx := { c' with node := c.node, position := c.position, size := c.size }

/-- The value of `use` for a node that matches (137-145). -/
def useStrings (d : Doc) (fuel : Nat) (ks : List KeyDecl) (i n : Nat) (c : Ctx) : Out (List Str) :=
  match ks[i]? with
  | none => .raise .attributeError
  | some k => (eval d fuel .any k.use { c with node := n, position := 1, size := 1 }).bind fun v c' =>
    match keyStrings d v with
    | .error e => .raise e
    | .ok l => .ok l (Ctx.focus c c')

/-- The loop over the patterns for a node (129-145). -/
def matchEntries (d : Doc) (fuel : Nat) (ks : List KeyDecl) (n : Nat) : List Info → Ctx → Out (List (Str × Nat))
  | [], c => .ok [] c
  | i :: is, c => (matchPat d fuel i.steps n c).bind fun b c =>
    (if b then useStrings d fuel ks i.tmpl n c else .ok [] c).bind fun l c =>
      (matchEntries d fuel ks n is c).bind fun rest c => .ok (l.map (·, n) ++ rest) c

/-- `for node in nodes`, with the position. -/
def visitAll {α : Type} (f : Nat → Nat → Ctx → Out (List α)) : Nat → List Nat → Ctx → Out (List α)
  | _, [], c => .ok [] c
  | pos, n :: ns, c => (f n pos c).bind fun a c => (visitAll f (pos + 1) ns c).bind fun b c => .ok (a ++ b) c

/-- `_match_nodes(context, nodes)`: the focus is saved, the size set, and at the end the focus restored (107-110,
157). -/
def visitList {α : Type} (f : Nat → Nat → Ctx → Out (List α)) (l : List Nat) (c : Ctx) : Out (List α) :=
  (visitAll f 1 l { c with size := l.length }).bind fun a c' => .ok a (Ctx.focus c c')

/-- The nodes below a node that are visited: children, and then attributes if a pattern can match one (147-156). -/
def below (d : Doc) (attrs : Bool) (n : Nat) (visit : List Nat → Ctx → Out (List (Str × Nat))) (c : Ctx) :
    Out (List (Str × Nat)) :=
  match d.h.kind n with
  | .element => (visit (d.h.kids n) c).bind fun a c =>
    if attrs && !(d.attrs n).isEmpty then (visit (d.attrs n) c).bind fun b c => .ok (a ++ b) c else .ok a c
  | .entity => visit (d.h.kids n) c
  | _ => .ok [] c

/-- One node of `_match_nodes` (111-156); `tb` is the expanded table. -/
def visitNode (d : Doc) (fuel : Nat) (ks : List KeyDecl) (tb : Table) : Nat → Nat → Nat → Ctx → Out (List (Str × Nat))
  | 0, _, _, _ => .stuck
  | k + 1, n, pos, c =>
    (matchEntries d fuel ks n (lookup d tb n) { c with node := n, current := n, position := pos }).bind fun a c =>
      (below d (matchesAttr tb) n (visitList (visitNode d fuel ks tb k)) c).bind fun b c => .ok (a ++ b) c

/-- `__missing__` (159-172): the pairs for all nodes of a document.  The new context has the document as its node. -/
def keyPairs (d : Doc) (fuel : Nat) (ord : List FKey) (ks : List KeyDecl) (root : Nat) : Out (List (Str × Nat)) :=
  match keyTable d 0 ks Table.empty with
  | .error e => .raise e
  | .ok tb =>
    visitList (visitNode d fuel ks (expand id ord tb) fuel) [root] ⟨root, 1, 1, root⟩

/-- `key_values[value]`: a set of nodes made into a node-set, none if the value does not occur (159-172). -/
def keyNodes (d : Doc) (ps : List (Str × Nat)) (s : Str) : List Nat :=
  sortNodes d (dictKeys ((ps.filter fun p => decide (p.1 = s)).map (·.2)))

/-- The result for the second argument (functions/__init__.py:95-107): `nodeset(result)` sorts. -/
def keyResult (d : Doc) (ps : List (Str × Nat)) : EVal → Except XErr (List Nat)
  | .nodes l => .ok (sortNodes d (l.flatMap fun y => keyNodes d ps (strVal d y)))
  | .sc v => match toStr d (.sc v) with
    | .error e => .error e
    | .ok s => .ok (sortNodes d (keyNodes d ps s))

/-- `key(name, arg)` at a context node, for the expanded name and the value of the second argument; `rootOf` fails
only for a node outside of any document, where the code has an assertion (160). -/
def keyCall (d : Doc) (fuel : Nat) (ord : List FKey) (ks : List KeyDecl) (name : Name) (arg : EVal) (n : Nat) (c : Ctx) :
    Out (List Nat) :=
  if keysNamed ks name = [] then .ok [] c
  else match rootOf d.h fuel n with
    | none => .stuck
    | some root => (keyPairs d fuel ord (keysNamed ks name) root).bind fun ps _ =>
      match keyResult d ps arg with
      | .error e => .raise e
      | .ok l => .ok l c

end Verif.Template
