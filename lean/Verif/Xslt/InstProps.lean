import Verif.Xslt.InstMark
import Verif.Xslt.InstEnds
import Verif.Xslt.InstNest
import Verif.Template.SelectRefute

/-
C61: running a stylesheet.
-/
namespace Verif.Xslt
open Verif Verif.XPath Verif.Dom Verif.Dom.Spec Verif.Eval Verif.Eval.Spec Verif.Template Verif.Xslt.Spec
open Verif.Template.Spec (RuntimeOk)

variable {d : Doc} {root : Nat} {R : Rules} {sh : Sheet}

theorem root_inDoc (w : DocWF d root) : InDoc d root root :=
  ⟨⟨.inl rfl, w.wf.entity_root _ w.root⟩, .inl (by constructor <;> rw [w.root] <;> simp)⟩

/-- C61: the output for a document is the result that XSLT 1.0 defines.  Missing: what `InstrOk` and `SourceOk` leave
out (`current()`, `xsl:copy` for comments, comments with computed content, sort keys in an `xsl:for-each` with
variables, locals with the name of a global together with calls, overridden templates that end with a call of
themselves), and what is not modelled. -/
theorem C61_result_partial (w : DocWF d root) (hae : AttrsOnElements d) (h : SourceOk d root R sh) {fuel : Nat}
    {o : List Event} {s : St} (hrun : transform d sh.setup fuel root = .ok o s) : Result d sh root (norm o) :=
  ((soundRun w hae (style_ok h) fuel).apply _ _ _ _ _ _ hrun
    (by intro n hn; rw [List.mem_singleton.1 hn]; exact root_inDoc w) nofun rfl).2

/-- C61: the output does not depend on the fuel. -/
theorem C61_unique (w : WF d.h) (hr : RuntimeOk sh.rt d sh.rules) {k k' : Nat}
    (hk : transform d sh k root ≠ .stuck) (hk' : transform d sh k' root ≠ .stuck) :
    transform d sh k root = transform d sh k' root := by
  have m : MonoR fun k => transform d sh k root := fun k => (monoRun w hr k).apply _ _ _ _
  rcases Nat.le_total k k' with h | h
  · exact (m.more h hk).symm
  · exact m.more h hk'

/-- C61: a stylesheet that applies templates to nodes of lower rank (such as the children) and calls templates of
lower level comes to an end, with an output or an exception. -/
theorem C61_ends_partial (w : WF d.h) (hr : RuntimeOk sh.rt d sh.rules) {rank level : Nat → Nat}
    (h : SheetEnds d sh rank level) : ∃ fuel, transform d sh fuel root ≠ .stuck := transform_ends w hr h root

/-- C61: start and end tags are nested. -/
theorem C61_nested {fuel : Nat} {o : List Event} {s : St} (h : transform d sh fuel root = .ok o s) : Nested o :=
  (nest fuel).apply _ _ _ _ _ _ h

/-- C61: after an instruction the context node, position, size, current template rule and mode are as before; and so
are the variables, unless it is an `xsl:variable`. -/
theorem C61_focus {fuel : Nat} {i : Instr} {s s' : St} {o : List Event} (h : run d sh fuel i s = .ok o s') :
    s'.ctx.node = s.ctx.node ∧ s'.ctx.position = s.ctx.position ∧ s'.ctx.size = s.ctx.size ∧
    s'.template = s.template ∧ s'.mode = s.mode ∧ ((∀ x e, i ≠ .variable x e) → s'.vars = s.vars) := by
  have := (kept fuel).run _ _ _ _ h
  refine ⟨this.1.ctx.1, this.1.ctx.2.1, this.1.ctx.2.2, this.1.template, this.1.mode, fun hi => this.2 ?_⟩
  cases i <;> first | rfl | exact absurd rfl (hi _ _)

/-! A stylesheet that meets the hypotheses -/

/-- An expression without variables. -/
def closed (e : Expr) : XExpr := ⟨[], fun _ => e, fun _ _ _ => rfl⟩
/-- `$x` -/
def ref (x : Name) : XExpr := ⟨[x], fun ρ => ρ x, fun _ _ h => h x (by simp)⟩
/-- `$x/*` -/
def below (x : Name) : XExpr := ⟨[x], fun ρ => .pathFrom (ρ x) [Eval.kids], fun _ _ h => by simp [h x]⟩

def nm (s : Str) : Name := (none, some s)

/-- `<xsl:template match="/"><out><xsl:call-template name="walk"/><xsl:apply-templates/></out></xsl:template>` -/
def tRoot : XTmpl :=
  ⟨tmpl [.root], none, [], [.lit (nm (s!! "out")) [] [.call (nm (s!! "walk")) [] false, .apply none [] none []]]⟩

/-- `<xsl:template name="walk"><xsl:param name="n" select="/r"/><e/><xsl:if test="$n/*"><xsl:call-template
name="walk"><xsl:with-param name="n" select="$n/*"/></xsl:call-template></xsl:if></xsl:template>` -/
def tWalk : XTmpl :=
  ⟨tmpl [], some (nm (s!! "walk")), [(nm (s!! "n"), closed (.path true [.mk (.tree .child) (Eval.named (s!! "r")) []]))],
    [.lit (nm (s!! "e")) [] [],
      .ite (below (nm (s!! "n"))) [.call (nm (s!! "walk")) [(nm (s!! "n"), below (nm (s!! "n")))] false]]⟩

/-- `<xsl:template match="x"><z a="{.}"/></xsl:template>` -/
def tX : XTmpl :=
  ⟨tmpl [.rel (.one (el (s!! "x")))], none, [],
    [.lit (nm (s!! "z")) [(nm (s!! "a"), [.expr (closed (.path false [.mk (.tree .self) .node []]))])] []]⟩

def mkSheet (ts : List XTmpl) : Sheet := ⟨ts, plainRuntime sample (ts.map (·.rule)), ascii, Vars.empty⟩

def demo : Sheet := mkSheet [tRoot, tWalk, tX]

/-- `<out><e/><e/><e/>1<z a="2"/><z a=""/></out>` -/
def demoOut : List Event :=
  [.start (nm (s!! "out")) none, .start (nm (s!! "e")) none, .finish, .start (nm (s!! "e")) none, .finish,
    .start (nm (s!! "e")) none, .finish, .text (s!! "1"), .start (nm (s!! "z")) none, .attr (nm (s!! "a")) (s!! "2"),
    .finish, .start (nm (s!! "z")) none, .attr (nm (s!! "a")) [], .finish, .finish]

def outOf : Res → Option (List Event)
  | .ok o _ => some o
  | _ => none

theorem outOf_ok {r : Res} {o : List Event} (h : outOf r = some o) : ∃ s, r = .ok o s := by
  cases r <;> simp_all [outOf]

theorem demo_run : outOf (transform sample demo.setup 40 0) = some demoOut := by decide +kernel

theorem sample_attrs : AttrsOnElements sample := by
  intro e a ha
  simp only [sample] at ha
  split at ha
  · subst e; rfl
  · simp at ha

theorem closed_ok {r : Nat} {m : Mode} {Γ : List Name} {e : Expr} (h : Good d r m e) : ExprOk d r m Γ (closed e) :=
  ⟨nofun, fun _ _ => h⟩

theorem ref_ok {r : Nat} {m : Mode} {Γ : List Name} {x : Name} (h : x ∈ Γ) : ExprOk d r m Γ (ref x) :=
  ⟨fun y hy => by rw [List.mem_singleton.1 hy]; exact h, fun ρ hρ => hρ x⟩

theorem below_ok {r : Nat} {Γ : List Name} {x : Name} (h : x ∈ Γ) {m : Mode} (hm : m = .any ∨ m = .bool) :
    ExprOk d r m Γ (below x) := by
  refine ⟨fun y hy => by rw [List.mem_singleton.1 hy]; exact h, fun ρ hρ => ?_⟩
  have := hρ x
  rcases hm with rfl | rfl <;>
    simp [below, Eval.kids, Good, GoodSteps, GoodStep, GoodPreds, StepsOk, ShapeOk, stepsShape, LStep.axis, stepShape,
      baseShape, BaseStable, this]

theorem demo_ok : SourceOk sample 0 ⟨false, []⟩ demo where
  good := nofun
  defined := nofun
  runtime := plain_ok _ _
  patterns := by
    intro mode n hn t ht _ p hp
    have ht : t = tRoot.rule ∨ t = tWalk.rule ∨ t = tX.rule := by
      simpa [demo, mkSheet, Sheet.rules] using ht
    rcases ht with rfl | rfl | rfl
    · rw [show p = .root by simpa [tRoot, tmpl] using hp]
      exact ⟨.inl ⟨trivial, trivial⟩, nofun⟩
    · simp [tWalk, tmpl] at hp
    · rw [show p = .rel (.one (el (s!! "x"))) by simpa [tX, tmpl] using hp]
      exact ⟨.inl ⟨⟨.inl trivial, nofun⟩, trivial⟩, nofun⟩
  named := by
    intro i j t u x hi hj hij ht hu
    have one : ∀ (i : Nat) (t : XTmpl), demo.ts[i]? = some t → t.name = some x → i = 1 := by
      intro i t hi ht
      match i with
      | 0 => cases hi; cases ht
      | 1 => rfl
      | 2 => cases hi; cases ht
      | _ + 3 => cases hi
    have := one i t hi ht
    have := one j u hj hu
    omega
  content := by
    intro t ht
    have ht : t = tRoot ∨ t = tWalk ∨ t = tX := by simpa [demo, mkSheet] using ht
    rcases ht with rfl | rfl | rfl
    · exact ⟨trivial, .last (.lit nofun (.cons (.call rfl nofun) (.last (.apply nofun nofun nofun))))⟩
    · refine ⟨⟨closed_ok ?_, .inr (by simp), trivial⟩, .cons (.lit nofun .nil) (.last (.ite
        (below_ok (by simp [tWalk, paramScope]) (.inr rfl)) (.last (.call rfl fun p hp => ?_))))⟩
      · simp [Good, GoodSteps, GoodStep, GoodPreds, StepsOk, ShapeOk, stepsShape, LStep.axis, stepShape]
      · rw [List.mem_singleton.1 hp]
        exact below_ok (by simp [tWalk, paramScope]) (.inl rfl)
    · refine ⟨trivial, .last (.lit (fun a ha e he => ?_) .nil)⟩
      rw [List.mem_singleton.1 ha] at he
      have he : e = closed (.path false [.mk (.tree .self) .node []]) := by simpa using he
      rw [he]
      exact closed_ok (by
        simp [Good, GoodSteps, GoodStep, GoodPreds, StepsOk, ShapeOk, stepsShape, LStep.axis, stepShape])

example : Result sample demo 0 demoOut := by
  obtain ⟨s, hs⟩ := outOf_ok demo_run
  exact C61_result_partial sample_wf sample_attrs demo_ok hs

/-- `<xsl:template match="y"><y><xsl:call-template name="t"/><xsl:apply-templates/></y></xsl:template>` -/
def tY : XTmpl :=
  ⟨tmpl [.rel (.one (el (s!! "y")))], none, [],
    [.lit (nm (s!! "y")) [] [.call (nm (s!! "t")) [] false, .apply none [] none []]]⟩

/-- `<xsl:template name="t"><xsl:apply-imports/></xsl:template>` -/
def tT : XTmpl := ⟨tmpl [], some (nm (s!! "t")), [], [.applyImports]⟩

/-- The calls and the children of a node: that ends for every document. -/
example (w : WF d.h) (rt : Runtime) (tbl : CaseTable) (vs : Vars) (hr : RuntimeOk rt d [tY.rule, tT.rule]) (root : Nat) :
    ∃ fuel, transform d ⟨[tY, tT], rt, tbl, vs⟩ fuel root ≠ .stuck := by
  obtain ⟨rank, hk⟩ := exists_rank w
  refine C61_ends_partial (rank := rank) (level := fun i => if i = 0 then 1 else 0) w hr ⟨hk, ?_⟩
  intro i t ht
  match i, ht with
  | 0, ht =>
    cases ht
    refine .cons (.lit (.cons (.call ?_) (.cons (.apply (children_lower hk _)) .nil))) .nil
    intro i hi
    have : i = 1 := by
      have : some 1 = some i := by rw [← hi]; rfl
      cases this; rfl
    simp [this]
  | 1, ht => cases ht; exact .cons .applyImports .nil
  | _ + 2, ht => cases ht

end Verif.Xslt
