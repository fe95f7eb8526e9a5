import Verif.Xslt.Inst
import Verif.Xslt.SortSpec
import Verif.Template.SelectSpec
import Verif.Template.PatternLemmas

/-
What a stylesheet means: XSLT 1.0, sections 5 to 11.  Variables are lexically scoped; an instruction has a context
node, position and size, a current template rule and a current mode, and contributes a fragment of the result tree,
which is written as a sequence of events (text, tags, attributes).
-/
namespace Verif.Xslt.Spec
open Verif Verif.XPath Verif.Dom Verif.Dom.Spec Verif.Eval Verif.Eval.Spec Verif.Xslt Verif.Template
open Verif.Template.Spec (Chosen)

/-- Where an instruction is instantiated. -/
structure Focus where
  node : Nat
  pos : Nat
  size : Nat
  rule : Option Nat
  mode : Option Name

/-- The value of an expression, converted as asked for. -/
def Val (d : Doc) (env : Vars) (f : Focus) (m : Mode) (e : XExpr) (v : EVal) : Prop :=
  MeansAs d m (e.build (varExpr env)) f.node f.pos f.size v

/-- A text node; there are no empty ones. -/
def textNode (s : Str) : List Event := if s = [] then [] else [.text s]

/-- Attribute value templates (7.6.2). -/
def AvtVal (d : Doc) (env : Vars) (f : Focus) : List AvtPart → Str → Prop
  | [], s => s = []
  | .text t :: ps, s => ∃ r, s = t ++ r ∧ AvtVal d env f ps r
  | .expr e :: ps, s => ∃ v r, s = v ++ r ∧ Val d env f .str e (.sc (.str v)) ∧ AvtVal d env f ps r

/-- The attributes of a literal result element (7.1.1). -/
def Attrs (d : Doc) (env : Vars) (f : Focus) : List (Name × List AvtPart) → List Event → Prop
  | [], o => o = []
  | (n, ps) :: as, o => ∃ v r, o = .attr n v :: r ∧ AvtVal d env f ps v ∧ Attrs d env f as r

/-- The parameters passed by `xsl:with-param` (11.6). -/
def Given (d : Doc) (env : Vars) (f : Focus) (ps : List (Name × XExpr)) (given : Vars) : Prop :=
  (∀ p ∈ ps, given p.1 ≠ none) ∧ ∀ x v, given x = some v → ∃ e, (x, e) ∈ ps ∧ Val d env f .any e v

/-- The bindings of the parameters of a template: the value passed, or the default value, in which the parameters
before it are visible. -/
inductive Bound (d : Doc) (f : Focus) (given : Vars) : List (Name × XExpr) → Vars → Vars → Prop
  | nil {env} : Bound d f given [] env env
  | passed {x e ps env env' v} : given x = some v → Bound d f given ps (env.set x v) env' →
      Bound d f given ((x, e) :: ps) env env'
  | default {x e ps env env' v} : given x = none → Val d env f .any e v → Bound d f given ps (env.set x v) env' →
      Bound d f given ((x, e) :: ps) env env'

/-- The nodes for `xsl:for-each` and `xsl:apply-templates`, sorted (10). -/
def NodesFor (d : Doc) (env : Vars) (f : Focus) (e : Option XExpr) (sorts : List XSort) (nodes : List Nat) : Prop :=
  ∃ l, SelectedBy d (e.map (·.build (varExpr env))) f.node f.pos f.size l ∧
    (if sorts = [] then nodes = l else SortedBy d (sorts.map (·.key env)) l nodes)

/-- The text of the content of `xsl:attribute`, `xsl:comment` or `xsl:processing-instruction`; processing
instructions, which are an error, are ignored. -/
inductive TextOf : List Event → Str → Prop
  | nil : TextOf [] []
  | text {s es t} : TextOf es t → TextOf (.text s :: es) (s ++ t)
  | pi {x y es t} : TextOf es t → TextOf (.pi x y :: es) t

/-- "insert a space after any occurrence of - that is followed by another - or that ends the comment" (7.4). -/
def spaced : Str → Str
  | [] => []
  | '-' :: s => match s with
    | [] => ['-', ' ']
    | '-' :: _ => '-' :: ' ' :: spaced s
    | _ => '-' :: spaced s
  | c :: s => c :: spaced s

/-- "insert a space between the ? and the >" (7.3). -/
def piSpaced : Str → Str
  | [] => []
  | '?' :: s => match s with
    | '>' :: _ => '?' :: ' ' :: piSpaced s
    | _ => '?' :: piSpaced s
  | c :: s => c :: piSpaced s

/-- A copy of a node with all that belongs to it (11.3). -/
inductive Copy (d : Doc) : List Nat → List Event → Prop
  | nil : Copy d [] []
  | element {n ns o o'} : d.h.kind n = .element → Copy d (d.h.kids n) o → Copy d ns o' →
      Copy d (n :: ns) (.start (d.name n) (some n) :: (d.attrs n).map (fun a => .attr (d.name a) (d.val a)) ++ o ++
        .finish :: o')
  | root {n ns o o'} : d.h.kind n = .entity → Copy d (d.h.kids n) o → Copy d ns o' → Copy d (n :: ns) (o ++ o')
  | text {n ns o} : d.h.kind n = .text → Copy d ns o → Copy d (n :: ns) (textNode (d.val n) ++ o)
  | attr {n ns o} : d.h.kind n = .attr → Copy d ns o → Copy d (n :: ns) (.attr (d.name n) (d.val n) :: o)
  | comment {n ns o} : d.h.kind n = .comment → Copy d ns o → Copy d (n :: ns) (.comment (d.val n) :: o)
  | pi {n ns o} : d.h.kind n = .pi → Copy d ns o → Copy d (n :: ns) (.pi ((d.name n).2.getD []) (d.val n) :: o)
  | ns {n ns o} : d.h.kind n = .ns → Copy d ns o → Copy d (n :: ns) (.ns n :: o)

/-- `xsl:copy` for a node without content (7.5). -/
inductive LeafCopy (d : Doc) (n : Nat) : List Event → Prop
  | text : d.h.kind n = .text → LeafCopy d n (textNode (d.val n))
  | attr : d.h.kind n = .attr → LeafCopy d n [.attr (d.name n) (d.val n)]
  | comment : d.h.kind n = .comment → LeafCopy d n [.comment (d.val n)]
  | pi : d.h.kind n = .pi → LeafCopy d n [.pi ((d.name n).2.getD []) (d.val n)]
  | ns : d.h.kind n = .ns → LeafCopy d n [.ns n]

/-- The template with a name: that with the highest import precedence (6). -/
def NamedBy (ts : List XTmpl) (x : Name) (i : Nat) : Prop :=
  ∃ t, ts[i]? = some t ∧ t.name = some x ∧ ∀ (j : Nat) u, ts[j]? = some u → u.name = some x → j ≠ i →
    u.rule.prec < t.rule.prec

mutual
/-- The instruction contributes these events. -/
inductive Inst (d : Doc) (sh : Sheet) : Vars → Focus → Instr → List Event → Prop
  | text {env f s} : Inst d sh env f (.text s) (textNode s)
  | valueOf {env f e s} : Val d env f .str e (.sc (.str s)) → Inst d sh env f (.valueOf e) (textNode s)
  | valueOfCurrent {env f} : Inst d sh env f .valueOfCurrent (textNode (strVal d f.node))
  | lit {env f name attrs body as o} : Attrs d env f attrs as → Insts d sh env f body o →
      Inst d sh env f (.lit name attrs body) (.start name none :: as ++ o ++ [.finish])
  | attribute {env f name body o t} : Insts d sh env f body o → TextOf o t →
      Inst d sh env f (.attribute name body) [.attr name t]
  | comment {env f body o t} : Insts d sh env f body o → TextOf o t →
      Inst d sh env f (.comment body) [.comment (spaced t)]
  | pi {env f target body o t} : Insts d sh env f body o → TextOf o t →
      Inst d sh env f (.pi target body) [.pi target (piSpaced t)]
  | copyElement {env f body o} : d.h.kind f.node = .element → Insts d sh env f body o →
      Inst d sh env f (.copy body) (.start (d.name f.node) (some f.node) :: o ++ [.finish])
  | copyRoot {env f body o} : d.h.kind f.node = .entity → Insts d sh env f body o → Inst d sh env f (.copy body) o
  | copyLeaf {env f body o} : LeafCopy d f.node o → Inst d sh env f (.copy body) o
  | copyNodes {env f e l o} : Val d env f .any e (.nodes l) → Copy d l o → Inst d sh env f (.copyOf e) o
  | copyScalar {env f e v s} : Val d env f .any e (.sc v) → Val d env f .str e (.sc (.str s)) →
      Inst d sh env f (.copyOf e) (textNode s)
  | iteTrue {env f e body o} : Val d env f .bool e (.sc (.bool true)) → Insts d sh env f body o →
      Inst d sh env f (.ite e body) o
  | iteFalse {env f e body} : Val d env f .bool e (.sc (.bool false)) → Inst d sh env f (.ite e body) []
  | choose {env f ws other o} : Branch d sh env f ws other o → Inst d sh env f (.choose ws other) o
  | forEach {env f e sorts body nodes o} : NodesFor d env f (some e) sorts nodes →
      Each d sh env f body nodes.length 1 nodes o → Inst d sh env f (.forEach e sorts body) o
  | apply {env f e sorts mode ps given nodes o} : Given d env f ps given → NodesFor d env f e sorts nodes →
      Applied d sh mode given nodes.length 1 nodes o → Inst d sh env f (.apply e sorts mode ps) o
  | applyImports {env f i t r o} : f.rule = some i → sh.ts[i]? = some t →
      Chosen d sh.rules f.mode f.node (fun u => u.prec < t.rule.prec) r → Rule d sh f Vars.empty r o →
      Inst d sh env f .applyImports o
  | call {env f name ps tail given i o} : Given d env f ps given → NamedBy sh.ts name i → Body d sh f given i o →
      Inst d sh env f (.call name ps tail) o

/-- Several instructions; a variable is visible in those that follow it. -/
inductive Insts (d : Doc) (sh : Sheet) : Vars → Focus → List Instr → List Event → Prop
  | nil {env f} : Insts d sh env f [] []
  | cons {env f i is o o'} : Inst d sh env f i o → Insts d sh env f is o' → Insts d sh env f (i :: is) (o ++ o')
  | variable {env f x e v is o} : Val d env f .any e v → Insts d sh (env.set x v) f is o →
      Insts d sh env f (.variable x e :: is) o

/-- `xsl:choose` (9.2). -/
inductive Branch (d : Doc) (sh : Sheet) :
    Vars → Focus → List (XExpr × List Instr) → Option (List Instr) → List Event → Prop
  | yes {env f w ws other o} : Val d env f .bool w.1 (.sc (.bool true)) → Insts d sh env f w.2 o →
      Branch d sh env f (w :: ws) other o
  | no {env f w ws other o} : Val d env f .bool w.1 (.sc (.bool false)) → Branch d sh env f ws other o →
      Branch d sh env f (w :: ws) other o
  | otherwise {env f body o} : Insts d sh env f body o → Branch d sh env f [] (some body) o
  | none {env f} : Branch d sh env f [] none []

/-- `xsl:for-each` (8): the nodes from position `p` on.  There is no current template rule. -/
inductive Each (d : Doc) (sh : Sheet) : Vars → Focus → List Instr → Nat → Nat → List Nat → List Event → Prop
  | nil {env f body size p} : Each d sh env f body size p [] []
  | cons {env f body size p n ns o o'} : Insts d sh env ⟨n, p, size, none, f.mode⟩ body o →
      Each d sh env f body size (p + 1) ns o' → Each d sh env f body size p (n :: ns) (o ++ o')

/-- `xsl:apply-templates` (5.4): the nodes from position `p` on. -/
inductive Applied (d : Doc) (sh : Sheet) : Option Name → Vars → Nat → Nat → List Nat → List Event → Prop
  | nil {mode given size p} : Applied d sh mode given size p [] []
  | cons {mode given size p n ns r o o'} : Chosen d sh.rules mode n (fun _ => True) r →
      Rule d sh ⟨n, p, size, none, mode⟩ given r o → Applied d sh mode given size (p + 1) ns o' →
      Applied d sh mode given size p (n :: ns) (o ++ o')

/-- A template rule, or a built-in one (5.8). -/
inductive Rule (d : Doc) (sh : Sheet) : Focus → Vars → Option Nat → List Event → Prop
  | template {f given i o} : Body d sh { f with rule := some i } given i o → Rule d sh f given (some i) o
  | children {f given o} : d.h.kind f.node = .element ∨ d.h.kind f.node = .entity →
      Applied d sh f.mode Vars.empty (d.h.kids f.node).length 1 (d.h.kids f.node) o → Rule d sh f given none o
  | text {f given} : d.h.kind f.node = .text ∨ d.h.kind f.node = .attr →
      Rule d sh f given none (textNode (d.val f.node))
  | nothing {f given} : d.h.kind f.node = .comment ∨ d.h.kind f.node = .pi ∨ d.h.kind f.node = .ns →
      Rule d sh f given none []

/-- The content of a template.  What is visible: the global variables and its parameters. -/
inductive Body (d : Doc) (sh : Sheet) : Focus → Vars → Nat → List Event → Prop
  | mk {f given i t env o} : sh.ts[i]? = some t → Bound d f given t.params sh.globals env →
      Insts d sh env f t.body o → Body d sh f given i o
end

/-- The result of a transformation (5.1): "processing the list consisting of just the root node". -/
def Result (d : Doc) (sh : Sheet) (root : Nat) (o : List Event) : Prop := Applied d sh none Vars.empty 1 1 [root] o

/-- Empty texts are dropped by the writer. -/
def norm (o : List Event) : List Event := o.filter (· ≠ .text [])

/-- Start and end tags are nested. -/
inductive Nested : List Event → Prop
  | nil : Nested []
  | leaf {e es} : (∀ n s, e ≠ .start n s) → e ≠ .finish → Nested es → Nested (e :: es)
  | element {n s es es'} : Nested es → Nested es' → Nested (.start n s :: es ++ .finish :: es')

/-! What the theorems assume -/

/-- The variables of the expression are in scope, and it is evaluated rightly whatever their values. -/
def ExprOk (d : Doc) (r : Nat) (m : Mode) (scope : List Name) (e : XExpr) : Prop :=
  (∀ x ∈ e.fv, x ∈ scope) ∧
  ∀ ρ : Name → EVal, (∀ x, GoodVal d r (ρ x)) → Good d r m (e.build fun x => .var (ρ x))

def ExprsOk (d : Doc) (r : Nat) (scope : List Name) (ps : List (Name × XExpr)) : Prop :=
  ∀ p ∈ ps, ExprOk d r .any scope p.2

def AvtOk (d : Doc) (r : Nat) (scope : List Name) (ps : List AvtPart) : Prop :=
  ∀ e, .expr e ∈ ps → ExprOk d r .str scope e

def SortOk (d : Doc) (r : Nat) (scope : List Name) (k : XSort) : Prop :=
  (k.number = true ∨ k.caseOrder = none) ∧ ExprOk d r (if k.number then .num else .str) scope k.select

/-- What a stylesheet may use, apart from expressions: `shadows` is whether local variables may have the names of
global ones (`globals`), in which case there are no calls. -/
structure Rules where
  shadows : Bool
  globals : List Name

def Rules.local (R : Rules) (x : Name) : Prop := R.shadows = true ∨ x ∉ R.globals

mutual
/-- The instruction `i`, whose source is `i0`, is handled rightly.  The flag of a call may be set if it is one of the
template `tail` and comes last; `named` are the indices of named templates.  Not allowed: `current()`; `xsl:copy` if
the document has comments; comments with computed content; sort keys in an `xsl:for-each` with variables. -/
inductive InstrOk (d : Doc) (r : Nat) (named : Name → Option Nat) (R : Rules) : Option Nat → List Name → Instr → Instr → Prop
  | text {tail Γ s} : InstrOk d r named R tail Γ (.text s) (.text s)
  | valueOf {tail Γ e} : ExprOk d r .str Γ e → InstrOk d r named R tail Γ (.valueOf e) (.valueOf e)
  | lit {tail Γ name attrs b b0} : (∀ a ∈ attrs, AvtOk d r Γ a.2) → InstrsOk d r named R none Γ b b0 →
      InstrOk d r named R tail Γ (.lit name attrs b) (.lit name attrs b0)
  | attribute {tail Γ name b b0} : InstrsOk d r named R none Γ b b0 →
      InstrOk d r named R tail Γ (.attribute name b) (.attribute name b0)
  | comment {tail Γ s} : commentData s = spaced s → InstrOk d r named R tail Γ (.comment [.text s]) (.comment [.text s])
  | pi {tail Γ target b b0} : InstrsOk d r named R none Γ b b0 →
      InstrOk d r named R tail Γ (.pi target b) (.pi target b0)
  | copy {tail Γ b b0} : (∀ n, d.h.kind n ≠ .comment) → InstrsOk d r named R none Γ b b0 →
      InstrOk d r named R tail Γ (.copy b) (.copy b0)
  | copyOf {tail Γ e} : ExprOk d r .any Γ e → InstrOk d r named R tail Γ (.copyOf e) (.copyOf e)
  | ite {tail Γ e b b0} : ExprOk d r .bool Γ e → InstrsOk d r named R (if declares b then none else tail) Γ b b0 →
      InstrOk d r named R tail Γ (.ite e b) (.ite e b0)
  | choose {tail Γ ws ws0 o o0} : WhensOk d r named R tail Γ ws o ws0 o0 →
      InstrOk d r named R tail Γ (.choose ws o) (.choose ws0 o0)
  | forEach {tail Γ e sorts b b0} : ExprOk d r .nodes Γ e → (∀ k ∈ sorts, SortOk d r Γ k) →
      (sorts = [] ∨ declares b = false) → InstrsOk d r named R none Γ b b0 →
      InstrOk d r named R tail Γ (.forEach e sorts b) (.forEach e sorts b0)
  | apply {tail Γ e sorts mode ps} : (∀ e', e = some e' → ExprOk d r .nodes Γ e') → (∀ k ∈ sorts, SortOk d r Γ k) →
      ExprsOk d r Γ ps → InstrOk d r named R tail Γ (.apply e sorts mode ps) (.apply e sorts mode ps)
  | applyImports {tail Γ} : InstrOk d r named R tail Γ .applyImports .applyImports
  | call {tail Γ name ps} : R.shadows = false → ExprsOk d r Γ ps →
      InstrOk d r named R tail Γ (.call name ps false) (.call name ps false)
  | tailCall {i Γ name ps} : R.shadows = false → ExprsOk d r Γ ps → named name = some i →
      InstrOk d r named R (some i) Γ (.call name ps true) (.call name ps false)

/-- The same for the content of an element. -/
inductive InstrsOk (d : Doc) (r : Nat) (named : Name → Option Nat) (R : Rules) :
    Option Nat → List Name → List Instr → List Instr → Prop
  | nil {tail Γ} : InstrsOk d r named R tail Γ [] []
  | last {tail Γ i i0} : InstrOk d r named R tail Γ i i0 → InstrsOk d r named R tail Γ [i] [i0]
  | cons {tail Γ i i0 is is0} : InstrOk d r named R none Γ i i0 → InstrsOk d r named R tail Γ is is0 →
      InstrsOk d r named R tail Γ (i :: is) (i0 :: is0)
  | variable {tail Γ x e is is0} : ExprOk d r .any Γ e → R.local x → InstrsOk d r named R tail (x :: Γ) is is0 →
      InstrsOk d r named R tail Γ (.variable x e :: is) (.variable x e :: is0)

/-- The same for the branches of `xsl:choose`. -/
inductive WhensOk (d : Doc) (r : Nat) (named : Name → Option Nat) (R : Rules) : Option Nat → List Name →
    List (XExpr × List Instr) → Option (List Instr) → List (XExpr × List Instr) → Option (List Instr) → Prop
  | none {tail Γ} : WhensOk d r named R tail Γ [] none [] none
  | otherwise {tail Γ b b0} : InstrsOk d r named R (if declares b then none else tail) Γ b b0 →
      WhensOk d r named R tail Γ [] (some b) [] (some b0)
  | cons {tail Γ e b b0 ws o ws0 o0} : ExprOk d r .bool Γ e →
      InstrsOk d r named R (if declares b then none else tail) Γ b b0 → WhensOk d r named R tail Γ ws o ws0 o0 →
      WhensOk d r named R tail Γ ((e, b) :: ws) o ((e, b0) :: ws0) o0
end

/-- The parameters of a template: the scope of its content. -/
def ParamsOk (d : Doc) (r : Nat) (R : Rules) : List Name → List (Name × XExpr) → Prop
  | _, [] => True
  | Γ, p :: ps => ExprOk d r .any Γ p.2 ∧ R.local p.1 ∧ ParamsOk d r R (p.1 :: Γ) ps

def paramScope : List Name → List (Name × XExpr) → List Name
  | Γ, [] => Γ
  | Γ, p :: ps => paramScope (p.1 :: Γ) ps

/-- A stylesheet as written: no call is marked as a tail call (`InstrsOk … none`), and of templates with the same
name the later one has the higher import precedence.  An overridden template must not end with a call of itself. -/
structure SourceOk (d : Doc) (r : Nat) (R : Rules) (sh : Sheet) : Prop where
  good : ∀ x v, sh.globals x = some v → GoodVal d r v
  defined : ∀ x ∈ R.globals, sh.globals x ≠ none
  runtime : Template.Spec.RuntimeOk sh.rt d sh.rules
  patterns : ∀ mode n, InDoc d r n → Template.Spec.SheetOk d r sh.rules mode n
  named : ∀ (i j : Nat) (t u : XTmpl) x, sh.ts[i]? = some t → sh.ts[j]? = some u → i < j → t.name = some x →
    u.name = some x → t.rule.prec < u.rule.prec ∧ t.setup = t
  content : ∀ t ∈ sh.ts, ParamsOk d r R R.globals t.params ∧
    InstrsOk d r sh.named R none (paramScope R.globals t.params) t.body t.body

mutual
/-- The instruction comes to an end: `rank` is a measure of nodes, `level` of templates, and `c` the level of the
template at hand.  Templates are applied to nodes of lower rank, and templates of lower level are called.  In the
content of an `xsl:for-each` for which the rank is not known (`none`) there is neither. -/
inductive InstrEnds (d : Doc) (sh : Sheet) (rank level : Nat → Nat) : Option Nat → Instr → Prop
  | text {c s} : InstrEnds d sh rank level c (.text s)
  | valueOf {c e} : InstrEnds d sh rank level c (.valueOf e)
  | valueOfCurrent {c} : InstrEnds d sh rank level c .valueOfCurrent
  | lit {c name attrs b} : InstrsEnd d sh rank level c b → InstrEnds d sh rank level c (.lit name attrs b)
  | attribute {c name b} : InstrsEnd d sh rank level c b → InstrEnds d sh rank level c (.attribute name b)
  | comment {c b} : InstrsEnd d sh rank level c b → InstrEnds d sh rank level c (.comment b)
  | pi {c target b} : InstrsEnd d sh rank level c b → InstrEnds d sh rank level c (.pi target b)
  | copy {c b} : InstrsEnd d sh rank level c b → InstrEnds d sh rank level c (.copy b)
  | copyOf {c e} : InstrEnds d sh rank level c (.copyOf e)
  | ite {c e b} : InstrsEnd d sh rank level c b → InstrEnds d sh rank level c (.ite e b)
  | choose {c ws o} : WhensEnd d sh rank level c ws o → InstrEnds d sh rank level c (.choose ws o)
  | forEach {c e sorts b} :
      (∀ fuel sorts s nodes c, selectNodes d fuel sh (some e) sorts s = .ok nodes c →
        ∀ n ∈ nodes, rank n ≤ rank s.ctx.node) →
      InstrsEnd d sh rank level c b → InstrEnds d sh rank level c (.forEach e sorts b)
  | forEachFree {c e sorts b} : InstrsEnd d sh rank level none b → InstrEnds d sh rank level c (.forEach e sorts b)
  | apply {c e sorts mode ps} :
      (∀ fuel s nodes c, selectNodes d fuel sh e sorts s = .ok nodes c → ∀ n ∈ nodes, rank n < rank s.ctx.node) →
      InstrEnds d sh rank level (some c) (.apply e sorts mode ps)
  | applyImports {c} : InstrEnds d sh rank level (some c) .applyImports
  | call {c name ps} : (∀ i, sh.named name = some i → level i < c) →
      InstrEnds d sh rank level (some c) (.call name ps false)
  | variable {c x e} : InstrEnds d sh rank level c (.variable x e)

inductive InstrsEnd (d : Doc) (sh : Sheet) (rank level : Nat → Nat) : Option Nat → List Instr → Prop
  | nil {c} : InstrsEnd d sh rank level c []
  | cons {c i is} : InstrEnds d sh rank level c i → InstrsEnd d sh rank level c is →
      InstrsEnd d sh rank level c (i :: is)

inductive WhensEnd (d : Doc) (sh : Sheet) (rank level : Nat → Nat) :
    Option Nat → List (XExpr × List Instr) → Option (List Instr) → Prop
  | none {c} : WhensEnd d sh rank level c [] none
  | otherwise {c b} : InstrsEnd d sh rank level c b → WhensEnd d sh rank level c [] (some b)
  | cons {c e b ws o} : InstrsEnd d sh rank level c b → WhensEnd d sh rank level c ws o →
      WhensEnd d sh rank level c ((e, b) :: ws) o
end

/-- The children of a node have a lower rank, and every template comes to an end. -/
structure SheetEnds (d : Doc) (sh : Sheet) (rank level : Nat → Nat) : Prop where
  kids : ∀ n, ∀ x ∈ d.h.kids n, rank x < rank n
  content : ∀ (i : Nat) (t : XTmpl), sh.ts[i]? = some t → InstrsEnd d sh rank level (some (level i)) t.body

end Verif.Xslt.Spec
