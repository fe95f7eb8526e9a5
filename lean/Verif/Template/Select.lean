import Verif.Template.Pattern

/-
Which template rule is used for a node: the dispatch tables built by `transform_element.setup`
(lib/xslt/tree/transform_element.py:364-440) and the search in `apply_templates` (598-640) and `apply_imports`
(530-573).

Simplifications: priorities are rational numbers (the code has Python floats, where `priority="nan"` has no place in
the order); templates without `match` have no alternatives; the lookup of prefixes has been done (as in
Verif.Eval).
-/
namespace Verif.Template
open Verif Verif.XPath Verif.Dom Verif.Eval

/-- An expanded name. -/
abbrev Name := Option Str × Option Str

/-- An `xsl:template` element with its import precedence; `alts` are the alternatives of `match`. -/
structure Tmpl where
  prec : Nat
  priority : Option Rat
  mode : Option Name
  alts : List Pat

/-- The keys of the tables: the types of nodes (`tree.node` for patterns without a distinct type), and for elements
the name, or none for the wildcards (transform_element.py:43-51). -/
inductive FKey
  | any
  | kind (k : Kind)
  | wild
  | named (n : Name)
  deriving DecidableEq

/-- `priority` of the node tests (nodetests.py:17, 87-92, 144, 165, 192). -/
def testPriority : NodeTest → Rat
  | .name _ _ | .pi _ => 0
  | .inNs _ => -1/4
  | .node | .kind _ | .any => -1/2

/-- `priority` of the tests in patterns (also xpatterns/__init__.py:90, 124, 136). -/
def CTest.priority : CTest → Rat
  | .test _ t => testPriority t
  | .pred _ _ _ | .document | .idKey _ => 1/2

/-- `node_type` and `name_key` of the node tests as a key (nodetests.py:18-21, 63-83, 115, 148, 195). -/
def testKey : NodeTest → FKey
  | .node => .any
  | .kind k => .kind k
  | .pi _ => .kind .pi
  | .any | .inNs _ => .wild
  | .name ns l => .named (ns, some l)

/-- `node_type` and `name_key` of a pattern with one step (xpatterns/__init__.py:40-45, 95-96, 125, 137). -/
def CTest.key : CTest → FKey
  | .test .attr _ | .pred .attr _ _ => .kind .attr
  | .test .child t | .pred .child t _ => testKey t
  | .document => .kind .entity
  | .idKey _ => .any

/-- A pattern with several steps has no `name_key` of its own (46-48). -/
def FKey.noName : FKey → FKey
  | .named _ => .wild
  | k => k

/-- The key of a pattern; its steps are in reverse order (xpatterns/__init__.py:36-50, transform_element.py:390-405). -/
def patKey : List CPat → FKey
  | [] => .any
  | [s] => s.test.key
  | s :: _ :: _ => s.test.key.noName

/-- `node_test.priority`: that of the test of a single step, else that of the pattern (xpatterns/__init__.py:39,
46-49). -/
def patPriority : List CPat → Rat
  | [s] => s.test.priority
  | _ => 1/2

/-- An entry of the tables: the sort key, the pattern, the index of the template (transform_element.py:385-386). -/
structure Info where
  prec : Nat
  prio : Rat
  pos : Nat
  steps : List CPat
  tmpl : Nat

/-- The table of one mode. -/
abbrev Table := FKey → Option (List Info)

/-- Replace a list. -/
def Table.set (tb : Table) (k : FKey) (l : List Info) : Table := fun k' => if k' = k then some l else tb k'

/-- `mode_table[type_key]...append(info)` (390-410).  A first name makes the table for elements, which then also has
the list of wildcards (the code makes it at 428). -/
def Table.add (tb : Table) (k : FKey) (i : Info) : Table :=
  match k with
  | .named n => (tb.set .wild ((tb .wild).getD [])).set (.named n) ((tb (.named n)).getD [] ++ [i])
  | k => tb.set k ((tb k).getD [] ++ [i])

/-- The tables of all modes. -/
abbrev Tables := Option Name → Option Table

/-- A table without entries. -/
def Table.empty : Table := fun _ => none

/-- The entries for one template: `for pattern in match` (378-410). -/
def addAlts (d : Doc) (t : Tmpl) (pos idx : Nat) : List Pat → Table → Except XErr Table
  | [], tb => .ok tb
  | p :: ps, tb => match compilePat d p with
    | .error e => .error e
    | .ok steps =>
      addAlts d t pos idx ps (tb.add (patKey steps) ⟨t.prec, t.priority.getD (patPriority steps), pos, steps, idx⟩)

/-- One template (371-410); `if match`. -/
def addTmpl (d : Doc) (t : Tmpl) (pos idx : Nat) (tbs : Tables) : Except XErr Tables :=
  if t.alts = [] then .ok tbs
  else match addAlts d t pos idx t.alts ((tbs t.mode).getD Table.empty) with
    | .error e => .error e
    | .ok tb => .ok fun m => if m = t.mode then some tb else tbs m

/-- `elements.reverse()`, `for position, element in enumerate(elements)` (368-371): the templates from the last one
to the first one. -/
def buildFrom (d : Doc) (n : Nat) : List (Tmpl × Nat) → Tables → Except XErr Tables
  | [], tbs => .ok tbs
  | (t, idx) :: ts, tbs => match addTmpl d t n idx tbs with
    | .error e => .error e
    | .ok tbs => buildFrom d (n + 1) ts tbs

/-- All templates. -/
def build (d : Doc) (ts : List Tmpl) : Except XErr Tables :=
  buildFrom d 0 ts.zipIdx.reverse (fun _ => none)

/-- The wildcards, for a name (430-431). -/
def wildFor (tb : Table) : FKey → List Info
  | .named _ => (tb .wild).getD []
  | _ => []

/-- One round of the loops at 425-440: the list is extended by the wildcards (for a name) and the patterns without
type, and sorted.  The lists are the objects that are in the table, so the one for `any` is appended to itself. -/
def expandKey (sort : List Info → List Info) (tb : Table) (k : FKey) : Table :=
  tb.set k (sort ((tb k).getD [] ++ wildFor tb k ++ (tb .any).getD []))

/-- The loops; `ord` is the order in which the keys of the dictionaries come (416-440). -/
def expand (sort : List Info → List Info) (ord : List FKey) (tb : Table) : Table :=
  ord.foldl (expandKey sort) (tb.set .any ((tb .any).getD []))

/-- The template rules for a node (602-617). -/
def lookup (d : Doc) (tb : Table) (n : Nat) : List Info :=
  match d.h.kind n with
  | .element => match tb .wild with
    | some wild => (tb (.named (d.name n))).getD wild
    | none => (tb .any).getD []
  | k => match tb (.kind k) with
    | some l => l
    | none => (tb .any).getD []

/-- The first entry that matches (619-626). -/
def findRule (d : Doc) (fuel : Nat) : List Info → Nat → Ctx → Out (Option Nat)
  | [], _, c => .ok none c
  | i :: is, n, c => (matchPat d fuel i.steps n c).bind fun b c =>
      if b then .ok (some i.tmpl) c else findRule d fuel is n c

/-- `except XpathError` in `apply_imports` (558-560) names no existing class. -/
def misspelt {α : Type} : Out α → Out α
  | .raise _ => .raise .nameError
  | o => o

/-- The same in `apply_imports` (550-572): only entries with a lower import precedence. -/
def findImport (d : Doc) (fuel : Nat) (below : Nat) : List Info → Nat → Ctx → Out (Option Nat)
  | [], _, c => .ok none c
  | i :: is, n, c =>
    if i.prec < below then (misspelt (matchPat d fuel i.steps n c)).bind fun b c =>
      if b then .ok (some i.tmpl) c else findImport d fuel below is n c
    else findImport d fuel below is n c

/-- What the dictionaries and `list.sort` leave open: the order of the keys, for each mode, and the order of entries
with the same sort key. -/
structure Runtime where
  sort : List Info → List Info
  ord : Option Name → List FKey

/-- The rules for a node in a mode: `setup` and the lookup of `apply_templates` (602-617). -/
def rulesFor (d : Doc) (rt : Runtime) (ts : List Tmpl) (mode : Option Name) (n : Nat) : Except XErr (List Info) :=
  match build d ts with
  | .error e => .error e
  | .ok tbs => match tbs mode with
    | some tb => .ok (lookup d (expand rt.sort (rt.ord mode) tb) n)
    | none => .ok []

/-- `apply_templates`, for one node: the index of the template that is instantiated, none for the built-in one. -/
def select (d : Doc) (fuel : Nat) (rt : Runtime) (ts : List Tmpl) (mode : Option Name) (n : Nat) (c : Ctx) :
    Out (Option Nat) :=
  match rulesFor d rt ts mode n with
  | .error e => .raise e
  | .ok l => findRule d fuel l n c

/-- `apply_imports` in a template with import precedence `below`. -/
def selectImport (d : Doc) (fuel : Nat) (rt : Runtime) (ts : List Tmpl) (mode : Option Name) (below n : Nat)
    (c : Ctx) : Out (Option Nat) :=
  match rulesFor d rt ts mode n with
  | .error e => .raise e
  | .ok l => findImport d fuel below l n c

end Verif.Template
