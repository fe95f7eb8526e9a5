import Verif.Xslt.InstKeeps

/-
The output of a run is what the stylesheet means.
-/
namespace Verif.Xslt
open Verif Verif.XPath Verif.Dom Verif.Dom.Spec Verif.Eval Verif.Eval.Spec Verif.Template
open Verif.Xslt.Spec
open Verif.Template.Spec (Chosen SheetOk RuntimeOk)

variable {d : Doc} {r : Nat} {sh sh0 : Sheet} {R : Rules}

/-! Output -/

theorem norm_append (a b : List Event) : norm (a ++ b) = norm a ++ norm b := List.filter_append ..

theorem norm_writeText (s : Str) : norm (writeText s) = textNode s := by
  unfold writeText textNode
  split
  · rfl
  · rename_i h; simp [norm, h]

theorem norm_text (s : Str) : norm [.text s] = textNode s := by
  unfold textNode
  split
  · rename_i h; simp [norm, h]
  · rename_i h; simp [norm, h]

theorem norm_cons {e : Event} {o : List Event} (h : e ≠ .text []) : norm (e :: o) = e :: norm o := by
  simp [norm, h]

theorem norm_attrs {o : List Event} (h : ∀ e ∈ o, ∃ n v, e = .attr n v) : norm o = o := by
  induction o with
  | nil => rfl
  | cons e o ih =>
    obtain ⟨n, v, rfl⟩ := h e (by simp)
    rw [norm_cons (by simp), ih fun e he => h e (by simp [he])]

theorem textOf_norm {o : List Event} {t : Str} (h : collectText o = .ok t) : TextOf (norm o) t := by
  induction o generalizing t with
  | nil => cases h; exact .nil
  | cons e o ih =>
    cases e with
    | text s =>
      simp only [collectText] at h
      split at h
      · rename_i u hu
        cases h
        by_cases hs : s = []
        · subst hs
          simpa [norm] using ih hu
        · rw [norm_cons (by simpa using hs)]
          exact .text (ih hu)
      · cases h
    | pi x y =>
      rw [norm_cons (by simp)]
      exact .pi (ih h)
    | start | finish | attr | comment | ns => cases h

theorem piSpaced_same {s : Str} (h : hasPiEnd s = false) : piSpaced s = s := by
  fun_induction piSpaced s with
  | case1 => rfl
  | case2 => simp [hasPiEnd] at h
  | case3 s hs ih =>
    congr 1
    apply ih
    rw [hasPiEnd.eq_def] at h
    split at h
    · cases h
    · rename_i heq; cases heq; exact h
    · rename_i heq; cases heq
  | case4 c s hc ih =>
    congr 1
    apply ih
    rw [hasPiEnd.eq_def] at h
    split at h
    · cases h
    · rename_i heq; cases heq; exact h
    · rename_i heq; cases heq

theorem copy_norm (fuel : Nat) :
    (∀ n o ns o', copyNode d fuel n = some o → Copy d ns o' → Copy d (n :: ns) (norm o ++ o')) ∧
    (∀ l o, copyNode.all d fuel l = some o → Copy d l (norm o)) := by
  induction fuel with
  | zero =>
    have h1 : ∀ n o ns o', copyNode d 0 n = some o → Copy d ns o' → Copy d (n :: ns) (norm o ++ o') := by
      intro n o ns o' h; simp [copyNode] at h
    refine ⟨h1, fun l => ?_⟩
    cases l with
    | nil => intro o h; simp [copyNode.all] at h; subst h; exact .nil
    | cons n l => intro o h; simp [copyNode.all, copyNode] at h
  | succ fuel ih =>
    have h1 : ∀ n o ns o', copyNode d (fuel + 1) n = some o → Copy d ns o' → Copy d (n :: ns) (norm o ++ o') := by
      intro n o ns o' h hn
      rw [copyNode] at h
      split at h
      · rename_i hk
        split at h
        · rename_i content hc
          cases h
          have := Copy.element hk (ih.2 _ _ hc) hn
          rw [norm_append, norm_append, norm_cons (by simp), norm_attrs (fun e he => by
            obtain ⟨a, _, rfl⟩ := List.mem_map.1 he; exact ⟨_, _, rfl⟩)]
          simpa [norm, List.append_assoc] using this
        · cases h
      · cases h; exact .attr ‹_› hn
      · cases h; rw [norm_text]; exact .text ‹_› hn
      · cases h; exact .pi ‹_› hn
      · cases h; exact .comment ‹_› hn
      · exact .root ‹_› (ih.2 _ _ h) hn
      · cases h; exact .ns ‹_› hn
    refine ⟨h1, fun l => ?_⟩
    induction l with
    | nil => intro o h; simp [copyNode.all] at h; subst h; exact .nil
    | cons n l ihl =>
      intro o h
      rw [copyNode.all] at h
      split at h
      · rename_i a b ha hb
        cases h
        rw [norm_append]
        exact h1 _ _ _ _ ha (ihl _ hb)
      · cases h

/-! Expressions -/

/-- The variables in scope have the values that they should have. -/
def Vis (d : Doc) (r : Nat) (env : Vars) (Γ : List Name) (vs : Vars) : Prop :=
  ∀ x ∈ Γ, ∃ v, env x = some v ∧ vs x = some v ∧ GoodVal d r v

def GoodVars (d : Doc) (r : Nat) (vs : Vars) : Prop := ∀ x v, vs x = some v → GoodVal d r v

theorem Vis.set {env vs : Vars} {Γ : List Name} (h : Vis d r env Γ vs) {x : Name} {v : EVal} (hv : GoodVal d r v) :
    Vis d r (env.set x v) (x :: Γ) (vs.set x v) := by
  intro y hy
  by_cases e : y = x
  · exact ⟨v, by simp [Vars.set, e], by simp [Vars.set, e], hv⟩
  · obtain ⟨u, h1, h2, h3⟩ := h y (by simpa [e] using hy)
    exact ⟨u, by simp [Vars.set, e, h1], by simp [Vars.set, e, h2], h3⟩

theorem build_env {env vs : Vars} {Γ : List Name} (h : Vis d r env Γ vs) {m : Mode} {e : XExpr}
    (he : ExprOk d r m Γ e) :
    e.build (varExpr vs) = e.build (varExpr env) ∧ Good d r m (e.build (varExpr env)) := by
  classical
  refine ⟨e.only _ _ fun x hx => ?_, ?_⟩
  · obtain ⟨v, h1, h2, _⟩ := h x (he.1 x hx)
    simp [varExpr, h1, h2]
  · let ρ : Name → EVal := fun x => if x ∈ Γ then (env x).getD (.sc (.str [])) else .sc (.str [])
    have := he.2 ρ fun x => by
      by_cases hx : x ∈ Γ
      · obtain ⟨v, h1, _, h3⟩ := h x hx
        simp only [ρ, hx, if_true, h1]
        exact h3
      · simp only [ρ, hx, if_false]
        trivial
    rw [e.only (varExpr env) (fun x => .var (ρ x)) fun x hx => ?_]
    · exact this
    · obtain ⟨v, h1, _, _⟩ := h x (he.1 x hx)
      simp [varExpr, ρ, h1, he.1 x hx]

/-- The state is that of the focus. -/
structure AtFocus (c : Ctx) (f : Focus) : Prop where
  node : c.node = f.node
  pos : c.position = f.pos
  size : c.size = f.size

theorem AtFocus.same {c c' : Ctx} {f : Focus} (h : AtFocus c f) (hs : Same c c') : AtFocus c' f :=
  ⟨hs.1.trans h.node, hs.2.1.trans h.pos, hs.2.2.trans h.size⟩

theorem eval_right (w : DocWF d r) {fuel : Nat} {env vs : Vars} {Γ : List Name} (h : Vis d r env Γ vs) {m : Mode}
    {e : XExpr} (he : ExprOk d r m Γ e) {f : Focus} {c c' : Ctx} (hf : AtFocus c f) (hn : InDoc d r f.node) {v : EVal}
    (hv : eval d fuel m (e.build (varExpr vs)) c = .ok v c') :
    Val d env f m e v ∧ GoodVal d r v ∧ AtFocus c' f := by
  obtain ⟨h1, h2⟩ := build_env h he
  rw [h1] at hv
  obtain ⟨g1, g2, g3⟩ := (sound w fuel).eval _ _ _ _ _ hv h2 (hf.node ▸ hn)
  refine ⟨?_, g2, hf.same g3⟩
  rw [hf.node, hf.pos, hf.size] at g1
  exact g1

theorem params_right (w : DocWF d r) {fuel : Nat} {env vs : Vars} {Γ : List Name} (h : Vis d r env Γ vs)
    {f : Focus} (hn : InDoc d r f.node) (ps : List (Name × XExpr)) (he : ExprsOk d r Γ ps) {c c' : Ctx}
    (hf : AtFocus c f) {given : Vars} (hv : evalParams d fuel ps vs c = .ok given c') :
    Given d env f ps given ∧ GoodVars d r given ∧ AtFocus c' f := by
  induction ps generalizing c given with
  | nil =>
    cases hv
    exact ⟨⟨by simp, fun x v h => by cases h⟩, fun x v h => by (cases h), hf⟩
  | cons p ps ih =>
    obtain ⟨x, e⟩ := p
    obtain ⟨v, c1, h1, h2⟩ := bind_ok hv
    obtain ⟨rest, c2, h3, h4⟩ := bind_ok h2
    cases h4
    obtain ⟨g1, g2, g3⟩ := eval_right w h (he (x, e) (by simp)) hf hn h1
    obtain ⟨⟨k1, k2⟩, k3, k4⟩ := ih (fun p hp => he p (by simp [hp])) g3 h3
    have key : ∀ y u, (match rest y with | some w => some w | none => if y = x then some v else none) = some u →
        rest y = some u ∨ (y = x ∧ u = v) := by
      intro y u hu
      cases hr : rest y with
      | some w => rw [hr] at hu; exact .inl (by simpa using hu)
      | none =>
        rw [hr] at hu
        simp at hu
        exact .inr ⟨hu.1, hu.2.symm⟩
    refine ⟨⟨?_, ?_⟩, ?_, k4⟩
    · intro p hp
      cases hr : rest p.1 with
      | some w => simp [hr]
      | none =>
        rcases List.mem_cons.1 hp with rfl | hp
        · simp [hr]
        · exact absurd hr (k1 p hp)
    · intro y u hu
      rcases key y u hu with hu | ⟨rfl, rfl⟩
      · obtain ⟨e', m1, m2⟩ := k2 y u hu
        exact ⟨e', by simp [m1], m2⟩
      · exact ⟨e, by simp, g1⟩
    · intro y u hu
      rcases key y u hu with hu | ⟨rfl, rfl⟩
      · exact k3 y u hu
      · exact g2

theorem str_right {env : Vars} {f : Focus} {e : XExpr} {v : EVal} (h : Val d env f .str e v) :
    Val d env f .str e (.sc (.str v.asStr)) := by
  obtain ⟨u, h1, s, rfl, h2⟩ := h
  exact ⟨u, h1, s, rfl, h2⟩

theorem bool_right {env : Vars} {f : Focus} {e : XExpr} {v : EVal} (h : Val d env f .bool e v) :
    Val d env f .bool e (.sc (.bool v.asBool)) := by
  obtain ⟨u, h1, s, rfl, h2⟩ := h
  exact ⟨u, h1, s, rfl, h2⟩

theorem avt_right (w : DocWF d r) {fuel : Nat} {env vs : Vars} {Γ : List Name} (h : Vis d r env Γ vs)
    {f : Focus} (hn : InDoc d r f.node) (ps : List AvtPart) (he : AvtOk d r Γ ps) {c c' : Ctx}
    (hf : AtFocus c f) {s : Str} (hv : evalAvt d fuel ps vs c = .ok s c') :
    AvtVal d env f ps s ∧ AtFocus c' f := by
  induction ps generalizing c s with
  | nil => cases hv; exact ⟨rfl, hf⟩
  | cons p ps ih =>
    cases p with
    | text t =>
      obtain ⟨v, c1, h1, h2⟩ := bind_ok hv
      cases h2
      obtain ⟨g1, g2⟩ := ih (fun p hp => he p (by simp [hp])) hf h1
      exact ⟨⟨v, rfl, g1⟩, g2⟩
    | expr e =>
      obtain ⟨v, c1, h1, h2⟩ := bind_ok hv
      obtain ⟨rest, c2, h3, h4⟩ := bind_ok h2
      cases h4
      obtain ⟨g1, g2, g3⟩ := eval_right w h (he e (by simp)) hf hn h1
      obtain ⟨k1, k2⟩ := ih (fun p hp => he p (by simp [hp])) g3 h3
      exact ⟨⟨v.asStr, rest, rfl, str_right g1, k1⟩, k2⟩

theorem attrs_right (w : DocWF d r) {fuel : Nat} {env vs : Vars} {Γ : List Name} (h : Vis d r env Γ vs)
    {f : Focus} (hn : InDoc d r f.node) (as : List (Name × List AvtPart)) (he : ∀ a ∈ as, AvtOk d r Γ a.2) {c c' : Ctx}
    (hf : AtFocus c f) {o : List Event} (hv : evalAttrs d fuel as vs c = .ok o c') :
    Attrs d env f as o ∧ AtFocus c' f ∧ norm o = o := by
  induction as generalizing c o with
  | nil => cases hv; exact ⟨rfl, hf, rfl⟩
  | cons p as ih =>
    obtain ⟨v, c1, h1, h2⟩ := bind_ok hv
    obtain ⟨rest, c2, h3, h4⟩ := bind_ok h2
    cases h4
    obtain ⟨g1, g2⟩ := avt_right w h hn _ (he p (by simp)) hf h1
    obtain ⟨k1, k2, k3⟩ := ih (fun p hp => he p (by simp [hp])) g2 h3
    exact ⟨⟨v, rest, rfl, g1, k1⟩, k2, by rw [norm_cons (by simp), k3]⟩

theorem sorted_inDoc (w : DocWF d r) {tbl : CaseTable} {fuel : Nat} {e : Option Expr} {keys : List SortKey}
    (he : SelectOk d r e) (hk : ∀ k ∈ keys, KeyOk d r k) {c c' : Ctx} {res : List Nat} (hc : InDoc d r c.node)
    (h : sortedNodes d tbl fuel e keys c = .ok res c') : ∀ n ∈ res, InDoc d r n := by
  obtain ⟨nodes, c1, h1, h2⟩ := bind_ok h
  obtain ⟨g1, g2, g3, g4⟩ := sortInput_right w he hc h1
  obtain ⟨rows, c2, h3, h5⟩ := bind_ok h2
  cases h5
  obtain ⟨g5, _, g6⟩ := decorate_right w (nodes := nodes) (by simpa using hk) g3 rfl h3
  intro n hn
  apply g3
  rw [← g5]
  exact (sortLoop_perm.map _).mem_iff.1 hn

theorem nodes_right (w : DocWF d r) {fuel : Nat} {env : Vars} {Γ : List Name} {s : St} (h : Vis d r env Γ s.vars)
    {f : Focus} (hn : InDoc d r f.node) (hf : AtFocus s.ctx f) {e : Option XExpr} {sorts : List XSort} {l : List Nat}
    {c' : Ctx} (he : ∀ e', e = some e' → ExprOk d r .nodes Γ e') (hk : ∀ k ∈ sorts, SortOk d r Γ k)
    (hv : selectNodes d fuel sh e sorts s = .ok l c') :
    NodesFor d env f e sorts l ∧ (∀ n ∈ l, InDoc d r n) ∧ AtFocus c' f := by
  have hs := hf.same (keeps_selectNodes hv)
  unfold selectNodes at hv
  have e1 : e.map (·.build (varExpr s.vars)) = e.map (·.build (varExpr env)) := by
    cases e with
    | none => rfl
    | some e => simp [(build_env h (he e rfl)).1]
  have e2 : sorts.map (·.key s.vars) = sorts.map (·.key env) := by
    apply List.map_congr_left
    intro k hk'
    simp [XSort.key, (build_env h (hk k hk').2).1]
  have he' : SelectOk d r (e.map (·.build (varExpr env))) := by
    cases e with
    | none => trivial
    | some e => exact (build_env h (he e rfl)).2
  have hk' : ∀ k ∈ sorts.map (·.key env), KeyOk d r k := by
    intro k hk1
    obtain ⟨x, hx, rfl⟩ := List.mem_map.1 hk1
    exact ⟨(hk x hx).1, (build_env h (hk x hx).2).2⟩
  rw [e1, e2] at hv
  have hc : InDoc d r s.ctx.node := hf.node ▸ hn
  split at hv
  · rename_i hs0
    obtain ⟨g1, _, g3, _⟩ := sortInput_right w he' hc hv
    rw [hf.node, hf.pos, hf.size] at g1
    exact ⟨⟨l, g1, by rw [if_pos hs0]⟩, g3, hs⟩
  · rename_i hs0
    obtain ⟨l', g1, g2⟩ := C60_order_partial w he' hk' hc hv
    rw [hf.node, hf.pos, hf.size] at g1
    exact ⟨⟨l', g1, by rw [if_neg hs0]; exact g2⟩, sorted_inDoc w he' hk' hc hv, hs⟩

/-! Instructions -/

/-- The stylesheet `sh` that is run and its source. -/
structure StyleOk (d : Doc) (r : Nat) (R : Rules) (sh sh0 : Sheet) : Prop where
  globals : sh0.globals = sh.globals
  good : GoodVars d r sh.globals
  defined : ∀ x ∈ R.globals, sh.globals x ≠ none
  rules : sh0.rules = sh.rules
  runtime : RuntimeOk sh.rt d sh.rules
  patterns : ∀ mode n, InDoc d r n → SheetOk d r sh.rules mode n
  named : ∀ x i, sh.named x = some i → NamedBy sh0.ts x i
  tmpl : ∀ (i : Nat) (t : XTmpl), sh.ts[i]? = some t → ∃ t0, sh0.ts[i]? = some t0 ∧ t0.params = t.params ∧
    t0.rule = t.rule ∧ ParamsOk d r R R.globals t.params ∧
    InstrsOk d r sh.named R (if t.params = [] ∧ declares t.body = true then none else some i)
      (paramScope R.globals t.params) t.body t0.body

/-- An instruction that ends with a tail call of the template `tail` has the output that the call makes it have. -/
def Outcome (d : Doc) (r : Nat) (R : Rules) (sh0 : Sheet) (tail : Option Nat) (f : Focus) (P : List Event → Prop) (o : List Event)
    (s' : St) : Prop :=
  (s'.recursive = none ∧ P (norm o)) ∨
  ∃ j given, R.shadows = false ∧ tail = some j ∧ s'.recursive = some given ∧ GoodVars d r given ∧
    ∀ o2, Body d sh0 f given j o2 → P (norm o ++ o2)

theorem Outcome.none {f : Focus} {P : List Event → Prop} {o : List Event} {s' : St}
    (h : Outcome d r R sh0 none f P o s') : s'.recursive = none ∧ P (norm o) := by
  rcases h with h | ⟨j, g, _, h, _⟩
  · exact h
  · cases h

theorem Outcome.mono {tail : Option Nat} {f : Focus} {P Q : List Event → Prop} {o : List Event} {s' : St}
    (h : Outcome d r R sh0 tail f P o s') (hpq : ∀ o, P o → Q o) : Outcome d r R sh0 tail f Q o s' := by
  rcases h with h | ⟨j, g, h0, h1, h2, h3, h4⟩
  · exact .inl ⟨h.1, hpq _ h.2⟩
  · exact .inr ⟨j, g, h0, h1, h2, h3, fun o2 h => hpq _ (h4 o2 h)⟩

/-- Local variables do not change the global ones. -/
def Glob (R : Rules) (sh : Sheet) (vs : Vars) : Prop := R.shadows = false → ∀ x ∈ R.globals, vs x = sh.globals x

/-- The state at an instruction. -/
structure AtSt (s : St) (f : Focus) : Prop where
  ctx : AtFocus s.ctx f
  rule : s.template = f.rule
  mode : s.mode = f.mode
  plain : s.recursive = none

theorem AtSt.next {s s' : St} {f : Focus} (h : AtSt s f) (k : Kept s s') (hr : s'.recursive = none) : AtSt s' f :=
  ⟨h.ctx.same k.ctx, k.template.trans h.rule, k.mode.trans h.mode, hr⟩

structure SoundRun (d : Doc) (r : Nat) (R : Rules) (sh sh0 : Sheet) (fuel : Nat) : Prop where
  run : ∀ tail Γ i i0 env f s o s', InstrOk d r sh.named R tail Γ i i0 → Vis d r env Γ s.vars → Glob R sh s.vars →
    AtSt s f → InDoc d r f.node → run d sh fuel i s = .ok o s' → Outcome d r R sh0 tail f (Inst d sh0 env f i0) o s'
  all : ∀ tail Γ b b0 env f s o s', InstrsOk d r sh.named R tail Γ b b0 → Vis d r env Γ s.vars → Glob R sh s.vars →
    AtSt s f → InDoc d r f.node → runAll d sh fuel b s = .ok o s' →
    Outcome d r R sh0 tail f (Insts d sh0 env f b0) o s' ∧ Glob R sh s'.vars
  whens : ∀ tail Γ ws ot ws0 ot0 env f s o s', WhensOk d r sh.named R tail Γ ws ot ws0 ot0 → Vis d r env Γ s.vars →
    Glob R sh s.vars → AtSt s f → InDoc d r f.node → runWhens d sh fuel ws ot s = .ok o s' →
    Outcome d r R sh0 tail f (Branch d sh0 env f ws0 ot0) o s'
  each : ∀ Γ b b0 env f size ns p s o s', runEach d sh fuel b ns p s = .ok o s' → InstrsOk d r sh.named R none Γ b b0 → Vis d r env Γ s.vars → Glob R sh s.vars →
    (∀ n ∈ ns, InDoc d r n) → s.ctx.size = size → s.template = none → s.mode = f.mode → s.recursive = none →
    s'.recursive = none ∧ Each d sh0 env f b0 size p ns (norm o)
  apply : ∀ ns mode given s o s', runApply d sh fuel ns mode given s = .ok o s' → (∀ n ∈ ns, InDoc d r n) → GoodVars d r given → s.recursive = none →
    s'.recursive = none ∧ Applied d sh0 mode given ns.length 1 ns (norm o)
  nodes : ∀ ns mode given size p s o s', runNodes d sh fuel ns p given s = .ok o s' → (∀ n ∈ ns, InDoc d r n) → GoodVars d r given → s.recursive = none →
    s.ctx.size = size → s.mode = mode →
    s'.recursive = none ∧ Applied d sh0 mode given size p ns (norm o)
  builtin : ∀ given f s o s', runBuiltin d sh fuel s = .ok o s' → s.ctx.node = f.node → s.mode = f.mode → InDoc d r f.node → s.recursive = none →
    s'.recursive = none ∧ Rule d sh0 f given none (norm o)
  tmpl : ∀ i given f s o s', runTmpl d sh fuel i given s = .ok o s' → GoodVars d r given → Vis d r sh.globals R.globals s.vars → AtSt s f → InDoc d r f.node →
    s'.recursive = none ∧ Body d sh0 f given i (norm o)
  loop : ∀ i t given f s o s', sh.ts[i]? = some t → GoodVars d r given → Vis d r sh.globals R.globals s.vars →
    AtFocus s.ctx f → s.template = f.rule → s.mode = f.mode → InDoc d r f.node →
    runLoop d sh fuel t given s = .ok o s' → s'.recursive = none ∧ Body d sh0 f given i (norm o)

theorem block_right {fuel : Nat} (ih : SoundRun d r R sh sh0 fuel) {tail : Option Nat} {Γ : List Name}
    {b b0 : List Instr} {env : Vars} {f : Focus} {s s' : St} {o : List Event}
    (hb : InstrsOk d r sh.named R (if declares b then none else tail) Γ b b0) (hv : Vis d r env Γ s.vars)
    (hg : Glob R sh s.vars) (hs : AtSt s f) (hn : InDoc d r f.node) (h : block (runAll d sh fuel) b s = .ok o s') :
    Outcome d r R sh0 tail f (Insts d sh0 env f b0) o s' := by
  unfold block at h
  split at h
  · rename_i hd
    rw [if_pos hd] at hb
    obtain ⟨o1, s1, h1, rfl, rfl⟩ := res_map h
    have := (ih.all _ _ _ _ _ _ _ _ _ hb hv hg hs hn h1).1.none
    exact .inl this
  · rename_i hd
    rw [if_neg hd] at hb
    exact (ih.all _ _ _ _ _ _ _ _ _ hb hv hg hs hn h).1

theorem block_none {fuel : Nat} (ih : SoundRun d r R sh sh0 fuel) {Γ : List Name}
    {b b0 : List Instr} {env : Vars} {f : Focus} {s s' : St} {o : List Event}
    (hb : InstrsOk d r sh.named R none Γ b b0) (hv : Vis d r env Γ s.vars)
    (hg : Glob R sh s.vars) (hs : AtSt s f) (hn : InDoc d r f.node) (h : block (runAll d sh fuel) b s = .ok o s') :
    s'.recursive = none ∧ Insts d sh0 env f b0 (norm o) :=
  (block_right ih (tail := none) (by simpa using hb) hv hg hs hn h).none

theorem bind_right (w : DocWF d r) {fuel : Nat} {given : Vars} (hgood : GoodVars d r given) {f : Focus}
    (hn : InDoc d r f.node) (ps : List (Name × XExpr)) {Γ : List Name} {env : Vars} {s s' : St} {o : List Event}
    (hp : ParamsOk d r R Γ ps) (hv : Vis d r env Γ s.vars) (hg : Glob R sh s.vars) (hf : AtFocus s.ctx f)
    (h : bindParams d fuel given ps s = .ok o s') :
    ∃ env', Bound d f given ps env env' ∧ Vis d r env' (paramScope Γ ps) s'.vars ∧ Glob R sh s'.vars := by
  induction ps generalizing Γ env s o with
  | nil => cases h; exact ⟨env, .nil, hv, hg⟩
  | cons p ps ih =>
    obtain ⟨x, e⟩ := p
    obtain ⟨p1, p2, p3⟩ := hp
    obtain ⟨o1, s1, o2, h1, h2, rfl⟩ := res_bind h
    have glob : ∀ v, Glob R sh (s.vars.set x v) := by
      intro v hs y hy
      have : y ≠ x := by
        rcases p2 with p2 | p2
        · rw [hs] at p2; cases p2
        · intro e; exact p2 (e ▸ hy)
      simpa [Vars.set, this] using hg hs y hy
    unfold bindParam at h1
    split at h1
    · rename_i v hv'
      cases h1
      obtain ⟨env', g1, g2, g3⟩ := ih (s := { s with vars := s.vars.set x v }) p3
        (hv.set (x := x) (hgood _ _ hv')) (glob v) hf h2
      exact ⟨env', .passed hv' g1, g2, g3⟩
    · rename_i hv'
      obtain ⟨v, c, h3, h4⟩ := res_withVal h1
      cases h4
      obtain ⟨g1, g2, g3⟩ := eval_right w hv p1 hf hn h3
      obtain ⟨env', k1, k2, k3⟩ := ih p3 (hv.set (x := x) g2) (glob v) g3 h2
      exact ⟨env', .default hv' g1 k1, k2, k3⟩

theorem soundRun (w : DocWF d r) (hae : AttrsOnElements d) (hok : StyleOk d r R sh sh0) (fuel : Nat) :
    SoundRun d r R sh sh0 fuel := by
  induction fuel with
  | zero =>
    refine ⟨?_, ?_, ?_, ?_, ?_, ?_, ?_, ?_, ?_⟩
    · intro _ _ _ _ _ _ _ _ _ _ _ _ _ _ h; simp [run] at h
    · intro _ _ _ _ _ _ _ _ _ _ _ _ _ _ h; simp [runAll] at h
    · intro _ _ _ _ _ _ _ _ _ _ _ _ _ _ _ _ h; simp [runWhens] at h
    · intro _ _ _ _ _ _ _ _ _ _ _ h; simp [runEach] at h
    · intro _ _ _ _ _ _ h; simp [runApply] at h
    · intro _ _ _ _ _ _ _ _ h; simp [runNodes] at h
    · intro _ _ _ _ _ h; simp [runBuiltin] at h
    · intro _ _ _ _ _ _ h; simp [runTmpl] at h
    · intro _ _ _ _ _ _ _ _ _ _ _ _ _ _ h; simp [runLoop] at h
  | succ fuel ih =>
    refine ⟨?_, ?_, ?_, ?_, ?_, ?_, ?_, ?_, ?_⟩
    · -- run
      intro tail Γ i i0 env f s o s' hi hv hg hs hn h
      rw [run.eq_def] at h
      dsimp only at h
      have visGlob : R.shadows = false → Vis d r sh.globals R.globals s.vars := by
        intro hsh x hx
        cases hx' : sh.globals x with
        | none => exact absurd hx' (hok.defined x hx)
        | some v => exact ⟨v, rfl, by rw [hg hsh x hx, hx'], hok.good _ _ hx'⟩
      have at' : ∀ {c}, Same s.ctx c → AtSt { s with ctx := c } f := fun hc => hs.next (.of_same hc) hs.plain
      cases hi with
      | text =>
        cases h
        exact .inl ⟨hs.plain, by rw [norm_writeText]; exact .text⟩
      | valueOf he =>
        obtain ⟨v, c, h1, h2⟩ := res_withVal h
        cases h2
        obtain ⟨g1, _, _⟩ := eval_right w hv he hs.ctx hn h1
        exact .inl ⟨hs.plain, by rw [norm_writeText]; exact .valueOf (str_right g1)⟩
      | lit ha hb =>
        obtain ⟨as, c, h1, h2⟩ := res_withVal h
        obtain ⟨o1, s1, h3, rfl, rfl⟩ := res_map h2
        obtain ⟨g1, g2, g3⟩ := attrs_right w hv hn _ ha hs.ctx h1
        obtain ⟨k1, k2⟩ := block_none ih hb (s := { s with ctx := c }) hv hg (at' (keeps_evalAttrs _ h1)) hn h3
        refine .inl ⟨k1, ?_⟩
        rw [List.cons_append, List.cons_append, norm_cons (by simp), norm_append, norm_append, g3]
        exact .lit g1 k2
      | «attribute» hb =>
        obtain ⟨o1, t, ev, h1, h2, h3, rfl⟩ := res_gather h
        cases h3
        obtain ⟨k1, k2⟩ := block_none ih hb hv hg hs hn h1
        exact .inl ⟨k1, .attribute k2 (textOf_norm h2)⟩
      | comment hc =>
        rename_i t
        obtain ⟨o1, u, ev, h1, h2, h3, rfl⟩ := res_gather h
        cases h3
        obtain ⟨k1, k2⟩ := block_none ih (b0 := [.text t]) (Γ := Γ) (.last .text) hv hg hs hn h1
        have hu : u = t := by
          cases fuel with
          | zero => simp [block, declares, runAll] at h1
          | succ fuel =>
            cases fuel with
            | zero => simp [block, declares, runAll, run, Res.bind] at h1
            | succ fuel =>
              simp [block, declares, runAll, run, Res.bind, Res.after] at h1
              rw [← h1.1] at h2
              unfold writeText at h2
              split at h2
              · cases h2; exact Eq.symm ‹_›
              · simpa [collectText] using h2.symm
        subst hu
        refine .inl ⟨k1, ?_⟩
        rw [norm_cons (by simp), hc]
        exact .comment k2 (textOf_norm h2)
      | pi hb =>
        rename_i target b b0
        obtain ⟨o1, t, ev, h1, h2, h3, rfl⟩ := res_gather h
        obtain ⟨k1, k2⟩ := block_none ih hb hv hg hs hn h1
        unfold piData at h3
        split at h3
        · cases h3
        · rename_i hp
          cases h3
          refine .inl ⟨k1, ?_⟩
          have := Inst.pi (target := target) k2 (textOf_norm h2)
          rwa [piSpaced_same (by simpa using hp)] at this
      | copy hc hb =>
        rw [hs.ctx.node] at h
        dsimp only at h
        split at h
        · rename_i hk
          obtain ⟨o1, s1, h3, rfl, rfl⟩ := res_map h
          obtain ⟨k1, k2⟩ := block_none ih hb hv hg hs hn h3
          refine .inl ⟨k1, ?_⟩
          rw [List.cons_append, norm_cons (by simp), norm_append]
          exact .copyElement hk k2
        · rename_i hk
          obtain ⟨k1, k2⟩ := block_none ih hb hv hg hs hn h
          exact .inl ⟨k1, .copyRoot hk k2⟩
        · cases h
          refine .inl ⟨hs.plain, .copyLeaf ?_⟩
          unfold copyLeaf
          cases hk : d.h.kind f.node with
          | text => dsimp only; rw [norm_text]; exact .text hk
          | comment => exact absurd hk (hc _)
          | attr => exact .attr hk
          | pi => exact .pi hk
          | ns => exact .ns hk
          | element => exact absurd hk ‹_›
          | entity => exact absurd hk ‹_›
      | copyOf he =>
        obtain ⟨v, c, h1, h2⟩ := res_withVal h
        obtain ⟨g1, _, _⟩ := eval_right w hv he hs.ctx hn h1
        cases v with
        | nodes l =>
          simp only [copyVal, copyNodes] at h2
          split at h2
          · rename_i hl
            cases h2
            exact .inl ⟨hs.plain, .copyNodes g1 ((copy_norm fuel).2 _ _ hl)⟩
          · cases h2
        | sc v =>
          simp only [copyVal, copyScalar] at h2
          split at h2
          · rename_i t ht
            cases h2
            refine .inl ⟨hs.plain, ?_⟩
            rw [norm_text]
            refine .copyScalar g1 ?_
            obtain ⟨u, m1, m2⟩ := g1
            exact ⟨u, m1, t, rfl, m2 ▸ ht⟩
          · cases h2
      | ite he hb =>
        obtain ⟨v, c, h1, h2⟩ := res_withVal h
        obtain ⟨g1, _, _⟩ := eval_right w hv he hs.ctx hn h1
        have g1 := bool_right g1
        have ha := at' ((keeps fuel).eval _ _ _ _ _ h1)
        split at h2
        · rename_i hb'
          rw [hb'] at g1
          exact (block_right ih hb (s := { s with ctx := c }) hv hg ha hn h2).mono fun o ho => .iteTrue g1 ho
        · rename_i hb'
          cases h2
          rw [show v.asBool = false by simpa using hb'] at g1
          exact .inl ⟨hs.plain, .iteFalse g1⟩
      | choose hw => exact (ih.whens _ _ _ _ _ _ _ _ _ _ _ hw hv hg hs hn h).mono fun o ho => .choose ho
      | forEach he hk hd hb =>
        rename_i e sorts b b0
        obtain ⟨l, c, h1, h2⟩ := res_withVal h
        have hsorts : (if declares b then [] else sorts) = sorts := by
          rcases hd with rfl | hd
          · simp
          · simp [hd]
        rw [hsorts] at h1
        obtain ⟨g1, g2, g3⟩ := nodes_right w hv hn hs.ctx (fun e' h => by cases h; exact he) hk h1
        obtain ⟨o1, s1, h3, rfl, rfl⟩ := res_map h2
        have k := ih.each Γ b b0 env f l.length l 1 _ _ _ h3 hb hv hg g2 rfl rfl hs.mode hs.plain
        exact .inl ⟨k.1, .forEach g1 k.2⟩
      | apply he hk hp =>
        obtain ⟨given, c, h1, h2⟩ := res_withVal h
        obtain ⟨g1, g2, g3⟩ := params_right w hv hn _ hp hs.ctx h1
        obtain ⟨l, c2, h3, h4⟩ := res_withVal h2
        obtain ⟨k1, k2, k3⟩ := nodes_right w (s := { s with ctx := c }) hv hn g3 he hk h3
        have k := ih.apply _ _ _ _ _ _ h4 k2 g2 hs.plain
        exact .inl ⟨k.1, .apply g1 k1 k.2⟩
      | applyImports =>
        dsimp only at h
        split at h
        · cases h
        · rename_i t ht
          obtain ⟨j, ht1, ht2⟩ := Option.bind_eq_some_iff.1 ht
          obtain ⟨rr, c, h1, h2⟩ := res_withVal h
          have hchosen := C59_imports_partial w hae hok.runtime (hs.ctx.node ▸ hn) (hs.ctx.node ▸ hn)
            (hok.patterns _ _ (hs.ctx.node ▸ hn)) h1
          obtain ⟨t0, e1, e2, e3, _⟩ := hok.tmpl _ _ ht2
          rw [← hok.rules, hs.ctx.node, hs.mode, ← e3] at hchosen
          have ha := at' (keeps_selectImport h1)
          have hrule : f.rule = some j := hs.rule ▸ ht1
          split at h2
          · obtain ⟨o1, s1, h3, rfl, rfl⟩ := res_map h2
            rename_i i
            have k := ih.tmpl i Vars.empty { f with rule := some i } _ _ _ h3 (fun x v h => by cases h)
              (fun x hx => by
                cases hx' : sh.globals x with
                | none => exact absurd hx' (hok.defined x hx)
                | some v => exact ⟨v, rfl, hx', hok.good _ _ hx'⟩)
              ⟨⟨ha.ctx.node, ha.ctx.pos, ha.ctx.size⟩, rfl, ha.mode, ha.plain⟩ hn
            exact .inl ⟨k.1, .applyImports hrule e1 hchosen (.template k.2)⟩
          · have k := ih.builtin Vars.empty f _ _ _ h2 ha.ctx.node ha.mode hn ha.plain
            exact .inl ⟨k.1, .applyImports hrule e1 hchosen k.2⟩
      | call hsh hp =>
        obtain ⟨given, c, h1, h2⟩ := res_withVal h
        obtain ⟨g1, g2, g3⟩ := params_right w hv hn _ hp hs.ctx h1
        simp only [Bool.false_eq_true, if_false] at h2
        split at h2
        · cases h2
        · rename_i i hi
          have k := ih.tmpl i given f _ _ _ h2 g2 (visGlob hsh) (at' (keeps_evalParams _ h1)) hn
          exact .inl ⟨k.1, .call g1 (hok.named _ _ hi) k.2⟩
      | tailCall hsh hp hi =>
        obtain ⟨given, c, h1, h2⟩ := res_withVal h
        obtain ⟨g1, g2, g3⟩ := params_right w hv hn _ hp hs.ctx h1
        simp only [if_true] at h2
        cases h2
        exact .inr ⟨_, given, hsh, rfl, rfl, g2, fun o2 h => .call g1 (hok.named _ _ hi) h⟩
    · -- all
      intro tail Γ b b0 env f s o s' hb hv hg hs hn h
      cases hb with
      | nil =>
        simp only [runAll] at h
        cases h
        exact ⟨.inl ⟨hs.plain, .nil⟩, hg⟩
      | last hi =>
        rw [runAll] at h
        obtain ⟨o1, s1, o2, h1, h2, rfl⟩ := res_bind h
        have hvars : s1.vars = s.vars := by
          refine ((kept fuel).run _ _ _ _ h1).2 ?_
          cases hi <;> rfl
        cases fuel with
        | zero => simp [runAll] at h2
        | succ fuel =>
          simp only [runAll] at h2
          cases h2
          rw [List.append_nil]
          refine ⟨(ih.run _ _ _ _ _ _ _ _ _ hi hv hg hs hn h1).mono fun o ho => ?_, hvars ▸ hg⟩
          simpa using Insts.cons ho .nil
      | cons hi hb =>
        rw [runAll] at h
        obtain ⟨o1, s1, o2, h1, h2, rfl⟩ := res_bind h
        have hk := (kept fuel).run _ _ _ _ h1
        have hvars : s1.vars = s.vars := by
          refine hk.2 ?_
          cases hi <;> rfl
        obtain ⟨k1, k2⟩ := (ih.run _ _ _ _ _ _ _ _ _ hi hv hg hs hn h1).none
        obtain ⟨m1, m2⟩ := ih.all _ _ _ _ _ _ _ _ _ hb (hvars ▸ hv) (hvars ▸ hg) (hs.next hk.1 k1) hn h2
        refine ⟨?_, m2⟩
        rw [Outcome, norm_append]
        rcases m1 with m1 | ⟨j, g, n0, n1, n2, n3, n4⟩
        · exact .inl ⟨m1.1, .cons k2 m1.2⟩
        · refine .inr ⟨j, g, n0, n1, n2, n3, fun o2 ho => ?_⟩
          rw [List.append_assoc]
          exact .cons k2 (n4 o2 ho)
      | «variable» he hl hb =>
        rename_i x e is is0
        rw [runAll] at h
        obtain ⟨o1, s1, o2, h1, h2, rfl⟩ := res_bind h
        cases fuel with
        | zero => simp [run] at h1
        | succ fuel =>
          have hk := (kept (fuel + 1)).run _ _ _ _ h1
          rw [run.eq_def] at h1
          dsimp only at h1
          obtain ⟨v, c, h3, h4⟩ := res_withVal h1
          cases h4
          obtain ⟨g1, g2, g3⟩ := eval_right w hv he hs.ctx hn h3
          have glob : Glob R sh (s.vars.set x v) := by
            intro hsh y hy
            have : y ≠ x := by
              rcases hl with p2 | p2
              · rw [hsh] at p2; cases p2
              · intro e; exact p2 (e ▸ hy)
            simpa [Vars.set, this] using hg hsh y hy
          obtain ⟨m1, m2⟩ := ih.all _ _ _ _ (env.set x v) f _ _ _ hb (hv.set (x := x) g2) glob
            (hs.next hk.1 hs.plain) hn h2
          exact ⟨m1.mono fun o ho => .variable g1 ho, m2⟩
    · -- whens
      intro tail Γ ws ot ws0 ot0 env f s o s' hw hv hg hs hn h
      cases hw with
      | none =>
        simp only [runWhens] at h
        cases h
        exact .inl ⟨hs.plain, .none⟩
      | otherwise hb =>
        rw [runWhens] at h
        exact (block_right ih hb hv hg hs hn h).mono fun o ho => .otherwise ho
      | cons he hb hw =>
        rw [runWhens] at h
        obtain ⟨v, c, h1, h2⟩ := res_withVal h
        obtain ⟨g1, _, _⟩ := eval_right w hv he hs.ctx hn h1
        have g1 := bool_right g1
        have ha := hs.next (.of_same ((keeps fuel).eval _ _ _ _ _ h1)) hs.plain
        split at h2
        · rename_i hb'
          rw [hb'] at g1
          exact (block_right ih hb (s := { s with ctx := c }) hv hg ha hn h2).mono fun o ho => .yes g1 ho
        · rename_i hb'
          rw [show v.asBool = false by simpa using hb'] at g1
          exact (ih.whens _ _ _ _ _ _ _ _ { s with ctx := c } _ _ hw hv hg ha hn h2).mono
            fun o ho => .no g1 ho
    · -- each
      intro Γ b b0 env f size ns p s o s' h hb hv hg hns hsz ht hm hrec
      cases ns with
      | nil =>
        simp only [runEach] at h
        cases h
        exact ⟨hrec, .nil⟩
      | cons n ns =>
        rw [runEach] at h
        obtain ⟨o1, s1, o2, h1, h2, rfl⟩ := res_bind h
        have hk := block_kept (kept fuel) h1
        obtain ⟨k1, k2⟩ := block_none ih hb (f := ⟨n, p, size, none, f.mode⟩)
          (s := { s with ctx := { s.ctx with node := n, current := n, position := p } }) hv hg
          ⟨⟨rfl, rfl, hsz⟩, ht, hm, hrec⟩ (hns n (by simp)) h1
        obtain ⟨m1, m2⟩ := ih.each Γ b b0 env f size ns (p + 1) s1 _ _ h2 hb (hk.2 ▸ hv) (hk.2 ▸ hg)
          (fun n hn => hns n (by simp [hn])) (hk.1.ctx.2.2.trans hsz) (hk.1.template.trans ht) (hk.1.mode.trans hm)
          k1
        exact ⟨m1, by rw [norm_append]; exact .cons k2 m2⟩
    · -- apply
      intro ns mode given s o s' h hns hg hrec
      rw [runApply] at h
      obtain ⟨o1, s1, h1, rfl, rfl⟩ := res_map h
      have := ih.nodes ns mode given ns.length 1 _ _ _ h1 hns hg hrec rfl rfl
      exact this
    · -- nodes
      intro ns mode given size p s o s' h hns hg hrec hsz hm
      cases ns with
      | nil =>
        simp only [runNodes] at h
        cases h
        exact ⟨hrec, .nil⟩
      | cons n ns =>
        rw [runNodes] at h
        obtain ⟨o1, s1, o2, h1, h2, rfl⟩ := res_bind h
        obtain ⟨rr, c, h3, h4⟩ := res_withVal h1
        have hn := hns n (by simp)
        have hchosen := C59_chosen_partial w hae hok.runtime hn (by exact hn) (hok.patterns s.mode n hn) h3
        rw [← hok.rules, hm] at hchosen
        have hsame := keeps_select h3
        have key : (s1.recursive = none ∧ Rule d sh0 ⟨n, p, size, none, mode⟩ given rr (norm o1)) ∧
            s1.ctx.size = size ∧ s1.mode = mode := by
          split at h4
          · rename_i i
            obtain ⟨o3, s3, h5, rfl, rfl⟩ := res_map h4
            have hk := (kept fuel).tmpl _ _ _ _ _ h5
            have k := ih.tmpl i given ⟨n, p, size, some i, mode⟩ _ _ _ h5 hg
              (fun x hx => by
                cases hx' : sh.globals x with
                | none => exact absurd hx' (hok.defined x hx)
                | some v => exact ⟨v, rfl, hx', hok.good _ _ hx'⟩)
              ⟨⟨hsame.1, hsame.2.1, hsame.2.2.trans hsz⟩, rfl, hm, hrec⟩ hn
            exact ⟨⟨k.1, .template k.2⟩, hk.1.ctx.2.2.trans (hsame.2.2.trans hsz), hk.1.mode.trans hm⟩
          · have hk := (kept fuel).builtin _ _ _ h4
            have k := ih.builtin given ⟨n, p, size, none, mode⟩ _ _ _ h4 hsame.1 hm hn hrec
            exact ⟨k, hk.1.ctx.2.2.trans (hsame.2.2.trans hsz), hk.1.mode.trans hm⟩
        obtain ⟨m1, m2⟩ := ih.nodes ns mode given size (p + 1) s1 _ _ h2 (fun n hn => hns n (by simp [hn])) hg
          key.1.1 key.2.1 key.2.2
        exact ⟨m1, by rw [norm_append]; exact .cons hchosen key.1.2 m2⟩
    · -- builtin
      intro given f s o s' h hnode hm hn hrec
      rw [runBuiltin] at h
      have kids : ∀ x ∈ d.h.kids f.node, InDoc d r x := fun x hx => kids_inDoc w hn hx
      rw [hnode, hm] at h
      split at h
      · rename_i hk
        have := ih.apply _ _ _ _ _ _ h kids (fun x v h => by cases h) hrec
        exact ⟨this.1, .children (.inl hk) this.2⟩
      · rename_i hk
        have := ih.apply _ _ _ _ _ _ h kids (fun x v h => by cases h) hrec
        exact ⟨this.1, .children (.inr hk) this.2⟩
      · rename_i hk
        cases h
        rw [norm_text]
        exact ⟨hrec, .text (.inl hk)⟩
      · rename_i hk
        cases h
        rw [norm_text]
        exact ⟨hrec, .text (.inr hk)⟩
      · cases h
        refine ⟨hrec, .nothing ?_⟩
        cases hk : d.h.kind f.node <;> simp_all
    · -- tmpl
      intro i given f s o s' h hg hv hs hn
      rw [runTmpl] at h
      split at h
      · cases h
      · rename_i t ht
        split at h
        · exact ih.loop i t given f _ _ _ ht hg hv hs.ctx hs.rule hs.mode hn h
        · obtain ⟨o1, s1, h1, rfl, rfl⟩ := res_map h
          have := ih.loop i t given f _ _ _ ht hg hv hs.ctx hs.rule hs.mode hn h1
          exact this
    · -- loop
      intro i t given f s o s' ht hgood hv hf hrule hm hn h
      rw [runLoop] at h
      obtain ⟨o1, s1, o2, h1, h2, rfl⟩ := res_bind h
      obtain ⟨o3, s3, o4, h3, h4, rfl⟩ := res_bind h1
      obtain ⟨t0, e1, e2, e3, hp, hb⟩ := hok.tmpl _ _ ht
      have hg : Glob R sh s.vars := fun _ x hx => by
        obtain ⟨v, h1, h2, _⟩ := hv x hx
        rw [h1, h2]
      obtain ⟨k1, k2, rfl, _⟩ := keeps_bindParams _ h3
      obtain ⟨env', b1, b2, b3⟩ := bind_right w hgood hn _ hp (s := { s with recursive := none }) hv hg hf h3
      have hs3 : AtSt s3 f := ⟨hf.same k1.ctx, k1.template.trans hrule, k1.mode.trans hm, k2⟩
      -- the output of one turn
      have key : Outcome d r R sh0 (some i) f (Insts d sh0 env' f t0.body) o4 s1 ∧ Glob R sh s1.vars := by
        split at h4
        · rename_i hp0
          have hb' : InstrsOk d r sh.named R (if declares t.body then none else some i) (paramScope R.globals t.params)
              t.body t0.body := by
            simpa [hp0] using hb
          refine ⟨block_right ih hb' b2 b3 hs3 hn h4, ?_⟩
          rw [(block_kept (kept fuel) h4).2]
          exact b3
        · rename_i hp0
          rw [if_neg (by simp [hp0])] at hb
          exact ih.all _ _ _ _ _ _ _ _ _ hb b2 b3 hs3 hn h4
      have body : ∀ o, Insts d sh0 env' f t0.body o → Body d sh0 f given i o := fun o ho =>
        .mk e1 (by rw [e2, hok.globals]; exact b1) ho
      have hs1 : Kept s3 s1 := by
        split at h4
        · exact (block_kept (kept fuel) h4).1
        · exact ((kept fuel).all _ _ _ _ h4).1
      rcases key with ⟨⟨m1, m2⟩ | ⟨j, g, m0, m1, m2, m3, m4⟩, hglob⟩
      · rw [m1] at h2
        cases h2
        exact ⟨m1, by simpa using body _ m2⟩
      · cases m1
        rw [m2] at h2
        dsimp only at h2
        have hsh : Vis d r sh.globals R.globals s1.vars := by
          intro x hx
          obtain ⟨v, h1, h2, h3⟩ := hv x hx
          exact ⟨v, h1, by rw [hglob m0 x hx, h1], h3⟩
        have := ih.loop i t g f _ _ _ ht m3 hsh (hs3.ctx.same hs1.ctx) (hs1.template.trans hs3.rule)
          (hs1.mode.trans hs3.mode) hn h2
        exact ⟨this.1, by simpa [norm_append] using body _ (m4 _ this.2)⟩

end Verif.Xslt
