import Verif.Xslt.Sort
import Verif.Template.Select

/-
Running a stylesheet: the `instantiate` methods of lib/xslt/tree, `apply_templates` and `apply_imports`
(transform_element.py:529-681), with the mutable state of lib/xslt/xsltcontext.py.

The model is an interpreter with fuel, as in Verif.Eval: `stuck` means that the fuel was too small.  The output is the
list of calls made on the writer.

Simplifications: names are expanded names (prefixes are the writer's business, C54); `xsl:variable`, `xsl:param` and
`xsl:with-param` have a `select` attribute; the values of global variables are given; attributes other than those of
literal result elements are constants; no attribute sets, no `xsl:number`, no `xsl:message`, no extension elements; an
unknown name in `xsl:call-template` is reported when it is called (the code: before the run).
-/
namespace Verif.Xslt
open Verif Verif.XPath Verif.Dom Verif.Eval Verif.Template

/-- `context.variables`, and the parameters that are passed to a template. -/
abbrev Vars := Name → Option EVal

def Vars.empty : Vars := fun _ => none

/-- Assignment to a dictionary. -/
def Vars.set (vs : Vars) (x : Name) (v : EVal) : Vars := fun y => if y = x then some v else vs y

/-- An XPath expression with variables: `fv` are their names, `build` puts an expression in the place of each. -/
structure XExpr where
  fv : List Name
  build : (Name → Expr) → Expr
  only : ∀ ρ σ, (∀ x ∈ fv, ρ x = σ x) → build ρ = build σ

/-- `variable_reference.evaluate` (lib/xpath/expressions/basics.py:111-136): the value, or an exception when it is
evaluated. -/
def varExpr (vs : Vars) (x : Name) : Expr :=
  match vs x with
  | some v => .var v
  | none => .fn .obj (fun _ => .error .undefinedVariable) []

/-- An `xsl:sort` element. -/
structure XSort where
  select : XExpr
  number : Bool
  caseOrder : Option CaseOrder
  descending : Bool

def XSort.key (k : XSort) (vs : Vars) : SortKey :=
  ⟨k.select.build (varExpr vs), k.number, k.caseOrder, k.descending⟩

/-- A part of an attribute value template (lib/xslt/expressions/avt.py:15-34). -/
inductive AvtPart
  | text (s : Str)
  | expr (e : XExpr)

/-- The instructions. -/
inductive Instr
  | text (s : Str)                                                -- text, xsl:text
  | valueOf (e : XExpr)
  | valueOfCurrent                                                -- <xsl:value-of select="current()"/>
  | lit (name : Name) (attrs : List (Name × List AvtPart)) (body : List Instr)
  | attribute (name : Name) (body : List Instr)
  | comment (body : List Instr)
  | pi (target : Str) (body : List Instr)
  | copy (body : List Instr)
  | copyOf (e : XExpr)
  | ite (test : XExpr) (body : List Instr)
  | choose (whens : List (XExpr × List Instr)) (otherwise : Option (List Instr))
  | forEach (select : XExpr) (sorts : List XSort) (body : List Instr)
  | apply (select : Option XExpr) (sorts : List XSort) (mode : Option Name) (params : List (Name × XExpr))
  | applyImports
  | call (name : Name) (params : List (Name × XExpr)) (tail : Bool)   -- `tail` is `_tail_recursive`
  | variable (name : Name) (e : XExpr)

/-- An `xsl:template` element: what `match`, `mode` and `priority` say, its name, its parameters with their default
values, and its content. -/
structure XTmpl where
  rule : Tmpl
  name : Option Name
  params : List (Name × XExpr)
  body : List Instr

/-! `template_element.setup`: the call that is turned into a loop -/

/-- Does the content declare variables?  Then the reader puts it between a `push_variables_node` and a
`pop_variables_node` (lib/xslt/reader/__init__.py:549-556). -/
def declares : List Instr → Bool
  | [] => false
  | .variable _ _ :: _ => true
  | _ :: is => declares is

/-- `last_instruction` (lib/xslt/src/xslt_element.c:629-641): none if the last child is a pseudo node. -/
def lastInstr (body : List Instr) : Option Instr := if declares body then none else body.getLast?

/-- The calls of the template `name` that the search at template_element.py:52-66 meets at the given depth, each as
the list of choices that lead to it. -/
def hitsAt (name : Name) : Nat → Instr → List (List Nat)
  | 0, .call n _ _ => if n = name then [[]] else []
  | k + 1, .ite _ body => match lastInstr body with
    | some i => (hitsAt name k i).map (0 :: ·)
    | none => []
  | k + 1, .choose whens otherwise =>
    ((whens.map (·.2)) ++ otherwise.toList).zipIdx.flatMap fun b => match lastInstr b.1 with
      | some i => (hitsAt name k i).map (b.2 :: ·)
      | none => []
  | _, _ => []

/-- The list `endpoints` grows while the loop runs over it, so the search goes by depth and from left to right; it
ends with the first hit. -/
def firstHit (name : Name) (i : Instr) : Nat → Nat → Option (List Nat)
  | _, 0 => none
  | k, n + 1 => match hitsAt name k i with
    | p :: _ => some p
    | [] => firstHit name i (k + 1) n

mutual
/-- The greatest number of instructions inside each other. -/
def Instr.depth : Instr → Nat
  | .ite _ body => depthOf body + 1
  | .choose whens otherwise => (depthWhens whens).max (depthOpt otherwise) + 1
  | _ => 0
def depthOf : List Instr → Nat
  | [] => 0
  | i :: is => i.depth.max (depthOf is)
def depthWhens : List (XExpr × List Instr) → Nat
  | [] => 0
  | w :: ws => (depthPair w).max (depthWhens ws)
def depthPair : XExpr × List Instr → Nat
  | (_, b) => depthOf b
def depthOpt : Option (List Instr) → Nat
  | none => 0
  | some b => depthOf b
end

/-- Apply a function to the last element. -/
def onLast (f : Instr → Instr) : List Instr → List Instr
  | [] => []
  | [i] => [f i]
  | i :: is => i :: onLast f is

/-- Apply a function to one branch of `xsl:choose`. -/
def onBranch (f : List Instr → List Instr) : Nat → List (XExpr × List Instr) → Option (List Instr) →
    List (XExpr × List Instr) × Option (List Instr)
  | _, [], o => ([], o.map f)
  | 0, w :: ws, o => ((w.1, f w.2) :: ws, o)
  | k + 1, w :: ws, o => (w :: (onBranch f k ws o).1, (onBranch f k ws o).2)

/-- `last._tail_recursive = True` for the call that the list of choices leads to. -/
def markPath : List Nat → Instr → Instr
  | [], .call n ps _ => .call n ps true
  | _ :: p, .ite e body => .ite e (onLast (markPath p) body)
  | b :: p, .choose ws o => .choose (onBranch (onLast (markPath p)) b ws o).1 (onBranch (onLast (markPath p)) b ws o).2
  | _, i => i

/-- `setup` (35-67).  With parameters, `_instructions` is without the pseudo nodes; otherwise the last one may be a
pseudo node. -/
def XTmpl.setup (t : XTmpl) : XTmpl :=
  match t.name, (if t.params = [] then lastInstr t.body else t.body.getLast?) with
  | some name, some i => match firstHit name i 0 (i.depth + 1) with
    | some p => { t with body := onLast (markPath p) t.body }
    | none => t
  | _, _ => t

/-! The state -/

/-- The calls made on the writer.  `source` is the element whose namespace declarations are copied. -/
inductive Event
  | start (name : Name) (source : Option Nat)
  | finish
  | attr (name : Name) (value : Str)
  | text (s : Str)
  | comment (s : Str)
  | pi (target data : Str)
  | ns (n : Nat)                                                 -- a copy of the namespace node
  deriving DecidableEq

/-- A stylesheet, after `setup` of its templates; `rt` as in Verif.Template, `tbl` as in Verif.Xslt.Sort. -/
structure Sheet where
  ts : List XTmpl
  rt : Runtime
  tbl : CaseTable
  globals : Vars

def Sheet.rules (sh : Sheet) : List Tmpl := sh.ts.map (·.rule)

/-- `named_templates` (transform_element.py:368-412): the templates are visited from the last one to the first one,
and the first one seen with a name is taken.  (A second one with the same precedence is an error.) -/
def Sheet.named (sh : Sheet) (x : Name) : Option Nat :=
  (sh.ts.zipIdx.reverse.find? fun t => t.1.name = some x).map (·.2)

/-- The attributes of the context that instructions change. -/
structure St where
  ctx : Ctx
  vars : Vars
  template : Option Nat
  mode : Option Name
  recursive : Option Vars

/-- The outcome of an instruction. -/
inductive Res
  | stuck
  | raise (e : XErr)
  | ok (out : List Event) (s : St)

/-- Output that came before. -/
def Res.after (o : List Event) : Res → Res
  | .ok o' s => .ok (o ++ o') s
  | r => r

/-- One after the other. -/
def Res.bind : Res → (St → Res) → Res
  | .ok o s, k => (k s).after o
  | .raise e, _ => .raise e
  | .stuck, _ => .stuck

/-- Go on with the value of an expression. -/
def withVal {α : Type} (o : Out α) (s : St) (k : α → St → Res) : Res :=
  match o with
  | .stuck => .stuck
  | .raise e => .raise e
  | .ok v c => k v { s with ctx := c }

/-- Change the output and the state at the end. -/
def Res.map (f : List Event → List Event) (g : St → St) : Res → Res
  | .ok o s => .ok (f o) (g s)
  | r => r

/-! Expressions -/

def evalX (d : Doc) (fuel : Nat) (m : Mode) (e : XExpr) (s : St) : Out EVal :=
  eval d fuel m (e.build (varExpr s.vars)) s.ctx

/-- The string in a result of `evaluate_as_string`. -/
def _root_.Verif.Eval.EVal.asStr : EVal → Str
  | .sc (.str s) => s
  | _ => []

/-- `evaluate_as_boolean`. -/
def _root_.Verif.Eval.EVal.asBool : EVal → Bool
  | .sc (.bool b) => b
  | _ => false

/-- `evaluate_as_nodeset`. -/
def _root_.Verif.Eval.EVal.asNodes : EVal → List Nat
  | .nodes l => l
  | _ => []

/-- The parameters of `xsl:call-template` and `xsl:apply-templates` (call_template_element.py:47-50). -/
def evalParams (d : Doc) (fuel : Nat) : List (Name × XExpr) → Vars → Ctx → Out Vars
  | [], _, c => .ok Vars.empty c
  | (x, e) :: ps, vs, c => (eval d fuel .any (e.build (varExpr vs)) c).bind fun v c =>
      (evalParams d fuel ps vs c).bind fun rest c =>
        .ok (fun y => match rest y with | some w => some w | none => if y = x then some v else none) c

/-- `avt_expression.evaluate` (avt.py:36-42). -/
def evalAvt (d : Doc) (fuel : Nat) : List AvtPart → Vars → Ctx → Out Str
  | [], _, c => .ok [] c
  | .text s :: ps, vs, c => (evalAvt d fuel ps vs c).bind fun r c => .ok (s ++ r) c
  | .expr e :: ps, vs, c => (eval d fuel .str (e.build (varExpr vs)) c).bind fun v c =>
      (evalAvt d fuel ps vs c).bind fun r c => .ok (v.asStr ++ r) c

/-- The attributes of a literal result element (literal_element.py:56-58). -/
def evalAttrs (d : Doc) (fuel : Nat) : List (Name × List AvtPart) → Vars → Ctx → Out (List Event)
  | [], _, c => .ok [] c
  | (n, ps) :: as, vs, c => (evalAvt d fuel ps vs c).bind fun v c =>
      (evalAttrs d fuel as vs c).bind fun r c => .ok (.attr n v :: r) c

/-- The nodes for `xsl:for-each` and `xsl:apply-templates` (for_each_element.py:24-46,
apply_templates_element.py:26-52). -/
def selectNodes (d : Doc) (fuel : Nat) (sh : Sheet) (e : Option XExpr) (sorts : List XSort) (s : St) :
    Out (List Nat) :=
  if sorts = [] then sortInput d fuel (e.map (·.build (varExpr s.vars))) s.ctx
  else sortedNodes d sh.tbl fuel (e.map (·.build (varExpr s.vars))) (sorts.map (·.key s.vars)) s.ctx

/-! Writers -/

/-- `stringwriter` (lib/writers/stringwriter.py): collects text, raises for other nodes.  Its method for processing
instructions has the wrong name, so they are dropped.  Simplification: the exception comes at the end. -/
def collectText : List Event → Except XErr Str
  | [] => .ok []
  | .text s :: es => match collectText es with
    | .ok r => .ok (s ++ r)
    | .error e => .error e
  | .pi _ _ :: es => collectText es
  | _ :: _ => .error .xsltError

/-- `context.text(...)`, but not for the empty string (value_of_element.py:27, text_element.py:26). -/
def writeText (s : Str) : List Event := if s = [] then [] else [.text s]

/-- `data.replace(u'--', u'- -')` -/
def replaceDashes : Str → Str
  | '-' :: '-' :: s => '-' :: ' ' :: '-' :: replaceDashes s
  | c :: s => c :: replaceDashes s
  | [] => []

/-- comment_element.py:34-38. -/
def commentData (s : Str) : Str :=
  if (replaceDashes s).getLast? = some '-' then replaceDashes s ++ [' '] else replaceDashes s

/-- `'?>' in data` -/
def hasPiEnd : Str → Bool
  | '?' :: '>' :: _ => true
  | _ :: s => hasPiEnd s
  | [] => false

/-- processing_instruction_element.py:34-43: for data with `?>` a variable is used that does not exist.  The check of
the target (22-24) never fires. -/
def piData (s : Str) : Except XErr Str := if hasPiEnd s then .error .nameError else .ok s

/-- The end of `xsl:attribute`, `xsl:comment`, `xsl:processing-instruction`: what the text collected is made into. -/
def gather (f : Str → Except XErr Event) (r : Res) : Res :=
  match r with
  | .ok o s => match collectText o with
    | .error e => .raise e
    | .ok t => match f t with
      | .error e => .raise e
      | .ok ev => .ok [ev] s
  | r => r

/-- `pop_variables_node` (reader/__init__.py:43-54). -/
def popVars (vs : Vars) (r : Res) : Res := r.map id fun s => { s with vars := vs }

/-- Content with its pseudo nodes (reader/__init__.py:28-54, 549-556), run by `f`. -/
def block (f : List Instr → St → Res) (body : List Instr) (s : St) : Res :=
  if declares body then popVars s.vars (f body s) else f body s

/-! The instructions -/

/-- `copy_node` (lib/xpath/__init__.py:182-207). -/
def copyNode (d : Doc) : Nat → Nat → Option (List Event)
  | 0, _ => none
  | fuel + 1, n => match d.h.kind n with
    | .element => match all fuel (d.h.kids n) with
      | some content => some (.start (d.name n) (some n) :: (d.attrs n).map (fun a => .attr (d.name a) (d.val a)) ++
          content ++ [.finish])
      | none => none
    | .attr => some [.attr (d.name n) (d.val n)]
    | .text => some [.text (d.val n)]
    | .pi => some [.pi ((d.name n).2.getD []) (d.val n)]
    | .comment => some [.comment (d.val n)]
    | .entity => all fuel (d.h.kids n)
    | .ns => some [.ns n]
where
  /-- The children. -/
  all (fuel : Nat) : List Nat → Option (List Event)
    | [] => some []
    | n :: ns => match copyNode d fuel n, all fuel ns with
      | some a, some b => some (a ++ b)
      | _, _ => none

/-- The event for a node without content (copy_element.py:44-66), if it has none. -/
def copyLeaf (d : Doc) (n : Nat) : List Event :=
  match d.h.kind n with
  | .text | .comment => [.text (d.val n)]
  | .attr => [.attr (d.name n) (d.val n)]
  | .pi => [.pi ((d.name n).2.getD []) (d.val n)]
  | .ns => [.ns n]
  | .element | .entity => []

/-- The value that a parameter gets (template_element.py:98-102). -/
def bindParam (d : Doc) (fuel : Nat) (given : Vars) (p : Name × XExpr) (s : St) : Res :=
  match given p.1 with
  | some v => .ok [] { s with vars := s.vars.set p.1 v }
  | none => withVal (evalX d fuel .any p.2 s) s fun v s => .ok [] { s with vars := s.vars.set p.1 v }

/-- The loop over the parameters. -/
def bindParams (d : Doc) (fuel : Nat) (given : Vars) : List (Name × XExpr) → St → Res
  | [], s => .ok [] s
  | p :: ps, s => (bindParam d fuel given p s).bind (bindParams d fuel given ps)

/-- The text of a number, string or boolean, for `xsl:copy-of`. -/
def copyScalar (d : Doc) (v : EVal) (s : St) : Res :=
  match toStr d v with
  | .ok t => .ok [.text t] s
  | .error e => .raise e

/-- A list of nodes, for `xsl:copy-of`. -/
def copyNodes (d : Doc) (fuel : Nat) (l : List Nat) (s : St) : Res :=
  match copyNode.all d fuel l with
  | some o => .ok o s
  | none => .stuck

/-- `xsl:copy-of` (copy_of_element.py:19-31). -/
def copyVal (d : Doc) (fuel : Nat) (v : EVal) (s : St) : Res :=
  match v with
  | .nodes l => copyNodes d fuel l s
  | v => copyScalar d v s

mutual
/-- `instantiate`. -/
def run (d : Doc) (sh : Sheet) : Nat → Instr → St → Res
  | 0, _, _ => .stuck
  | fuel + 1, i, s => match i with
    | .text t => .ok (writeText t) s
    | .valueOf e => withVal (evalX d fuel .str e s) s fun v s => .ok (writeText v.asStr) s
    | .valueOfCurrent => .ok (writeText (strVal d s.ctx.current)) s
    | .lit name attrs body => withVal (evalAttrs d fuel attrs s.vars s.ctx) s fun as s =>
        (block (runAll d sh fuel) body s).map (fun o => .start name none :: as ++ o ++ [.finish]) id
    | .attribute name body => gather (fun t => .ok (.attr name t)) (block (runAll d sh fuel) body s)
    | .comment body => gather (fun t => .ok (.comment (commentData t))) (block (runAll d sh fuel) body s)
    | .pi target body => gather (fun t => (piData t).map (.pi target)) (block (runAll d sh fuel) body s)
    | .copy body => match d.h.kind s.ctx.node with
      | .element => (block (runAll d sh fuel) body s).map
          (fun o => .start (d.name s.ctx.node) (some s.ctx.node) :: o ++ [.finish]) id
      | .entity => block (runAll d sh fuel) body s
      | _ => .ok (copyLeaf d s.ctx.node) s
    | .copyOf e => withVal (evalX d fuel .any e s) s (copyVal d fuel)
    | .ite e body => withVal (evalX d fuel .bool e s) s fun v s =>
        if v.asBool then block (runAll d sh fuel) body s else .ok [] s
    | .choose whens otherwise => runWhens d sh fuel whens otherwise s
    | .forEach e sorts body =>
      -- with variables in the content, the first child is a pseudo node, and the sort keys are not found (24-34)
      withVal (selectNodes d fuel sh (some e) (if declares body then [] else sorts) s) s fun nodes s =>
        (runEach d sh fuel body nodes 1 { s with ctx := { s.ctx with size := nodes.length }, template := none }).map id
          fun s' => { s' with ctx := s.ctx, template := s.template }
    | .apply e sorts mode params => withVal (evalParams d fuel params s.vars s.ctx) s fun given s =>
        withVal (selectNodes d fuel sh e sorts s) s fun nodes s => runApply d sh fuel nodes mode given s
    | .applyImports => match s.template.bind (sh.ts[·]?) with
      | none => .raise .xsltError
      | some t => withVal (selectImport d fuel sh.rt sh.rules s.mode t.rule.prec s.ctx.node s.ctx) s fun r s =>
          match r with
          | some i => (runTmpl d sh fuel i Vars.empty { s with template := some i, vars := sh.globals }).map id
              fun s' => { s' with template := s.template, vars := s.vars }
          | none => runBuiltin d sh fuel s
    | .call name params tail => withVal (evalParams d fuel params s.vars s.ctx) s fun given s =>
        if tail then .ok [] { s with recursive := some given }
        else match sh.named name with
          | none => .raise .xsltError
          | some i => runTmpl d sh fuel i given s
    | .variable x e => withVal (evalX d fuel .any e s) s fun v s => .ok [] { s with vars := s.vars.set x v }

/-- `process_children` (xslt_element.c:56-85), without the pseudo nodes. -/
def runAll (d : Doc) (sh : Sheet) : Nat → List Instr → St → Res
  | 0, _, _ => .stuck
  | _ + 1, [], s => .ok [] s
  | fuel + 1, i :: is, s => (run d sh fuel i s).bind (runAll d sh fuel is)

/-- `choose_element.instantiate` (choose_elements.py:44-56). -/
def runWhens (d : Doc) (sh : Sheet) : Nat → List (XExpr × List Instr) → Option (List Instr) → St → Res
  | 0, _, _, _ => .stuck
  | _ + 1, [], none, s => .ok [] s
  | fuel + 1, [], some body, s => block (runAll d sh fuel) body s
  | fuel + 1, w :: ws, o, s => withVal (evalX d fuel .bool w.1 s) s fun v s =>
      if v.asBool then block (runAll d sh fuel) w.2 s else runWhens d sh fuel ws o s

/-- The loop of `for_each_element.instantiate` (for_each_element.py:52-60). -/
def runEach (d : Doc) (sh : Sheet) : Nat → List Instr → List Nat → Nat → St → Res
  | 0, _, _, _, _ => .stuck
  | _ + 1, _, [], _, s => .ok [] s
  | fuel + 1, body, n :: ns, p, s =>
    (block (runAll d sh fuel) body { s with ctx := { s.ctx with node := n, current := n, position := p } }).bind
      (runEach d sh fuel body ns (p + 1))

/-- `apply_templates` (transform_element.py:575-681): the context is set up, and restored except for the current
node. -/
def runApply (d : Doc) (sh : Sheet) : Nat → List Nat → Option Name → Vars → St → Res
  | 0, _, _, _, _ => .stuck
  | fuel + 1, nodes, mode, given, s =>
    (runNodes d sh fuel nodes 1 given { s with ctx := { s.ctx with size := nodes.length }, mode := mode }).map id
      fun s' => { s' with
        ctx := { s'.ctx with node := s.ctx.node, position := s.ctx.position, size := s.ctx.size }
        template := s.template
        mode := s.mode }

/-- The loop of `apply_templates` (598-676). -/
def runNodes (d : Doc) (sh : Sheet) : Nat → List Nat → Nat → Vars → St → Res
  | 0, _, _, _, _ => .stuck
  | _ + 1, [], _, _, s => .ok [] s
  | fuel + 1, n :: ns, p, given, s =>
    (withVal (select d fuel sh.rt sh.rules s.mode n { s.ctx with node := n, current := n, position := p }) s fun r s =>
      match r with
      | some i => popVars s.vars (runTmpl d sh fuel i given { s with template := some i, vars := sh.globals })
      | none => runBuiltin d sh fuel s).bind (runNodes d sh fuel ns (p + 1) given)

/-- The built-in rules (570-573, 672-675). -/
def runBuiltin (d : Doc) (sh : Sheet) : Nat → St → Res
  | 0, _ => .stuck
  | fuel + 1, s => match d.h.kind s.ctx.node with
    | .element | .entity => runApply d sh fuel (d.h.kids s.ctx.node) s.mode Vars.empty s
    | .text | .attr => .ok [.text (d.val s.ctx.node)] s
    | _ => .ok [] s

/-- `template_element.instantiate` (template_element.py:86-119). -/
def runTmpl (d : Doc) (sh : Sheet) : Nat → Nat → Vars → St → Res
  | 0, _, _, _ => .stuck
  | fuel + 1, i, given, s => match sh.ts[i]? with
    | none => .raise .xsltError
    | some t =>
      if t.params = [] then runLoop d sh fuel t given s else popVars s.vars (runLoop d sh fuel t given s)

/-- "a do/while loop" (94-114). -/
def runLoop (d : Doc) (sh : Sheet) : Nat → XTmpl → Vars → St → Res
  | 0, _, _, _ => .stuck
  | fuel + 1, t, given, s =>
    ((bindParams d fuel given t.params { s with recursive := none }).bind fun s =>
      if t.params = [] then block (runAll d sh fuel) t.body s else runAll d sh fuel t.body s).bind fun s =>
        match s.recursive with
        | none => .ok [] s
        | some given => runLoop d sh fuel t given s
end

/-- `setup` for all templates (lib/xslt/src/xslt_node.c:91-103; lib/xslt/reader/__init__.py:593-599, when the element
is complete). -/
def Sheet.setup (sh : Sheet) : Sheet := { sh with ts := sh.ts.map XTmpl.setup }

/-- `processor._run` (lib/xslt/processor.py): the output for a document, given by its root. -/
def transform (d : Doc) (sh : Sheet) (fuel : Nat) (root : Nat) : Res :=
  runApply d sh fuel [root] none Vars.empty
    { ctx := ⟨root, 1, 1, root⟩, vars := sh.globals, template := none, mode := none, recursive := none }

end Verif.Xslt
