import Verif.Xslt.InstMono

/-
Stylesheets that come to an end.
-/
namespace Verif.Xslt
open Verif Verif.XPath Verif.Dom Verif.Dom.Spec Verif.Eval Verif.Eval.Spec Verif.Template Verif.Xslt.Spec
open Verif.Template.Spec (RuntimeOk)

set_option linter.unusedSectionVars false

variable {d : Doc} {sh : Sheet} {rank level : Nat → Nat}

def HaltsR (F : Nat → Res) : Prop := ∃ k, F k ≠ .stuck
def MonoR (F : Nat → Res) : Prop := ∀ k, LeR (F k) (F (k + 1))

theorem MonoR.more {F : Nat → Res} (hm : MonoR F) {k k' : Nat} (hk : k ≤ k') (h : F k ≠ .stuck) : F k' = F k := by
  induction hk with
  | refl => rfl
  | @step j hj ih =>
    rcases hm j with hs | hs
    · exact absurd (ih ▸ hs) h
    · rw [← hs]; exact ih

theorem haltsR_const {x : Res} (h : x ≠ .stuck) : HaltsR fun _ => x := ⟨0, h⟩

theorem HaltsR.bind {F : Nat → Res} {G : Nat → St → Res} (hF : HaltsR F) (mF : MonoR F) (mG : ∀ s, MonoR (G · s))
    (hG : ∀ o s, (∃ k, F k = .ok o s) → HaltsR (G · s)) : HaltsR fun k => (F k).bind (G k) := by
  obtain ⟨k, hk⟩ := hF
  cases hx : F k with
  | stuck => exact absurd hx hk
  | raise e => exact ⟨k, by simp only [hx]; simp [Res.bind]⟩
  | ok o s =>
    obtain ⟨j, hj⟩ := hG o s ⟨k, hx⟩
    refine ⟨max k j, ?_⟩
    dsimp only
    rw [mF.more (Nat.le_max_left k j) (by rw [hx]; simp), hx, Res.bind, (mG s).more (Nat.le_max_right k j) hj]
    cases hg : G j s with
    | stuck => exact absurd hg hj
    | raise e => simp [Res.after]
    | ok o s => simp [Res.after]

theorem HaltsR.map {F : Nat → Res} {f : List Event → List Event} {g : St → St} (h : HaltsR F) :
    HaltsR fun k => (F k).map f g := by
  obtain ⟨k, hk⟩ := h
  refine ⟨k, ?_⟩
  dsimp only
  cases hx : F k with
  | stuck => exact absurd hx hk
  | raise e => simp [Res.map]
  | ok o s => simp [Res.map]

theorem HaltsR.gather {F : Nat → Res} {f : Str → Except XErr Event} (h : HaltsR F) :
    HaltsR fun k => gather f (F k) := by
  obtain ⟨k, hk⟩ := h
  refine ⟨k, ?_⟩
  dsimp only
  cases hx : F k with
  | stuck => exact absurd hx hk
  | raise e => simp [Xslt.gather]
  | ok o s =>
    simp only [Xslt.gather]
    split
    · simp
    · split <;> simp

theorem HaltsR.withVal {α : Type} {F : Nat → Out α} {s : St} {G : Nat → α → St → Res} (hF : Halts F) (mF : Mono F)
    (mG : ∀ v s, MonoR (G · v s)) (hG : ∀ v c, (∃ k, F k = .ok v c) → HaltsR (G · v { s with ctx := c })) :
    HaltsR fun k => withVal (F k) s (G k) := by
  obtain ⟨k, hk⟩ := hF
  cases hx : F k with
  | stuck => exact absurd hx hk
  | raise e => exact ⟨k, by simp only [hx]; simp [Xslt.withVal]⟩
  | ok v c =>
    obtain ⟨j, hj⟩ := hG v c ⟨k, hx⟩
    refine ⟨max k j, ?_⟩
    dsimp only
    rw [mF.more (Nat.le_max_left k j) (by rw [hx]; simp), hx, Xslt.withVal,
      (mG v _).more (Nat.le_max_right k j) hj]
    exact hj

theorem HaltsR.succ {F : Nat → Res} (h : HaltsR fun k => F (k + 1)) : HaltsR F := h.elim fun k hk => ⟨k + 1, hk⟩

theorem HaltsR.block {F : Nat → List Instr → St → Res} {b : List Instr} {s : St} (h : HaltsR (F · b s)) :
    HaltsR fun k => block (F k) b s := by
  unfold Xslt.block
  split
  · exact h.map
  · exact h

/-! Expressions -/

theorem evalX_halts (w : WF d.h) (m : Mode) (e : XExpr) (s : St) : Halts fun k => evalX d k m e s :=
  (term w _).1 m s.ctx

theorem evalParams_halts (w : WF d.h) (ps : List (Name × XExpr)) (vs : Vars) (c : Ctx) :
    Halts fun k => evalParams d k ps vs c := by
  induction ps generalizing c with
  | nil => exact halts_const (by simp)
  | cons p ps ih =>
    simp only [evalParams]
    exact ((term w _).1 _ c).bind (eval_mono _ _ _) fun v c _ =>
      ⟨(ih c).bind (evalParams_mono _ _ _) fun _ _ _ => ⟨halts_const (by simp), mono_const⟩,
        (evalParams_mono _ _ _).bind fun _ _ => mono_const⟩

theorem evalAvt_halts (w : WF d.h) (ps : List AvtPart) (vs : Vars) (c : Ctx) : Halts fun k => evalAvt d k ps vs c := by
  induction ps generalizing c with
  | nil => exact halts_const (by simp)
  | cons p ps ih =>
    cases p with
    | text s =>
      simp only [evalAvt]
      exact (ih c).bind (evalAvt_mono _ _ _) fun _ _ _ => ⟨halts_const (by simp), mono_const⟩
    | expr e =>
      simp only [evalAvt]
      exact ((term w _).1 _ c).bind (eval_mono _ _ _) fun v c _ =>
        ⟨(ih c).bind (evalAvt_mono _ _ _) fun _ _ _ => ⟨halts_const (by simp), mono_const⟩,
          (evalAvt_mono _ _ _).bind fun _ _ => mono_const⟩

theorem evalAttrs_halts (w : WF d.h) (as : List (Name × List AvtPart)) (vs : Vars) (c : Ctx) :
    Halts fun k => evalAttrs d k as vs c := by
  induction as generalizing c with
  | nil => exact halts_const (by simp)
  | cons p ps ih =>
    simp only [evalAttrs]
    exact (evalAvt_halts w _ _ c).bind (evalAvt_mono _ _ _) fun v c _ =>
      ⟨(ih c).bind (evalAttrs_mono _ _ _) fun _ _ _ => ⟨halts_const (by simp), mono_const⟩,
        (evalAttrs_mono _ _ _).bind fun _ _ => mono_const⟩

theorem selectNodes_halts (w : WF d.h) (e : Option XExpr) (sorts : List XSort) (s : St) :
    Halts fun k => selectNodes d k sh e sorts s := by
  unfold selectNodes
  split
  · exact (sortInput_halts w _ _).1
  · exact C60_ends w

theorem select_halts (w : WF d.h) {rt : Runtime} {ts : List Tmpl} (hr : RuntimeOk rt d ts) (mode : Option Name)
    (n : Nat) (c : Ctx) : Halts fun k => select d k rt ts mode n c := C59_ends w hr mode n c

theorem misspelt_halts {α : Type} {F : Nat → Out α} (h : Halts F) : Halts fun k => misspelt (F k) := by
  obtain ⟨k, hk⟩ := h
  refine ⟨k, ?_⟩
  dsimp only
  cases hx : F k with
  | stuck => exact absurd hx hk
  | raise e => simp [misspelt]
  | ok o s => simp [misspelt]

theorem findImport_halts (w : WF d.h) (below : Nat) {l : List Info} (hl : ∀ i ∈ l, ∃ p, compilePat d p = .ok i.steps)
    (n : Nat) (c : Ctx) : Halts fun k => findImport d k below l n c := by
  induction l generalizing c with
  | nil => exact halts_const (by simp)
  | cons i l ih =>
    obtain ⟨p, hp⟩ := hl i (by simp)
    have hl' : ∀ i ∈ l, ∃ p, compilePat d p = .ok i.steps := fun i h => hl i (by simp [h])
    have ih' := fun c => ih hl' c
    simp only [findImport]
    split
    · refine Halts.bind (misspelt_halts (matchSteps_halts w hp n c).1)
        (misspelt_mono (matchSteps_halts w hp n c).2) fun b c _ => ?_
      cases b
      · exact ⟨ih' c, findImport_mono w below hl' n c⟩
      · exact ⟨halts_const (by simp), mono_const⟩
    · exact ih' c

theorem selectImport_halts (w : WF d.h) {rt : Runtime} {ts : List Tmpl} (hr : RuntimeOk rt d ts) (mode : Option Name)
    (below n : Nat) (c : Ctx) : Halts fun k => selectImport d k rt ts mode below n c := by
  unfold selectImport
  cases hl : rulesFor d rt ts mode n with
  | error e => exact halts_const (by simp)
  | ok l =>
    exact findImport_halts w below (l := l) (by
      intro i hi
      obtain ⟨t, p, hp, _⟩ := (rulesFor_right hr hl).2.1 i hi
      exact ⟨p, hp.steps⟩) n c

theorem copy_halts (w : WF d.h) : ∃ fuel, ∀ l, copyNode.all d fuel l ≠ none := by
  obtain ⟨depth, hd, _, hsz⟩ := exists_depth w
  have node : ∀ fuel n, d.h.size + 1 ≤ depth n + fuel → copyNode d fuel n ≠ none := by
    intro fuel
    induction fuel with
    | zero => intro n h; have := hsz n; omega
    | succ fuel ih =>
      intro n h
      have all : ∀ l, (∀ x ∈ l, d.h.parent x = some n) → copyNode.all d fuel l ≠ none := by
        intro l hl
        induction l with
        | nil => simp [copyNode.all]
        | cons x l ihl =>
          rw [copyNode.all]
          have h1 := ih x (by have := hd x n (hl x (by simp)); omega)
          have h2 := ihl fun y hy => hl y (by simp [hy])
          split
          · simp
          · rename_i hno
            cases ha : copyNode d fuel x with
            | none => exact absurd ha h1
            | some a =>
              cases hb : copyNode.all d fuel l with
              | none => exact absurd hb h2
              | some b => exact absurd hb (hno a b ha)
      have kids := all (d.h.kids n) fun x hx => w.kids_parent n x hx
      rw [copyNode]
      split
      · split
        · simp
        · rename_i hno; exact absurd hno kids
      all_goals first | simp; done | exact kids
  refine ⟨d.h.size + 1, fun l => ?_⟩
  induction l with
  | nil => simp [copyNode.all]
  | cons x l ihl =>
    rw [copyNode.all]
    have h1 := node (d.h.size + 1) x (by omega)
    split
    · simp
    · rename_i hno
      cases ha : copyNode d (d.h.size + 1) x with
      | none => exact absurd ha h1
      | some a =>
        cases hb : copyNode.all d (d.h.size + 1) l with
        | none => exact absurd hb ihl
        | some b => exact absurd hb (hno a b ha)

theorem copyVal_halts (w : WF d.h) (v : EVal) (s : St) : HaltsR fun k => copyVal d k v s := by
  cases v with
  | sc v =>
    refine ⟨0, ?_⟩
    simp only [copyVal, copyScalar]
    split <;> simp
  | nodes l =>
    obtain ⟨k, hk⟩ := copy_halts w
    refine ⟨k, ?_⟩
    simp only [copyVal, copyNodes]
    split
    · simp
    · rename_i h; exact absurd h (hk l)

theorem bindParams_halts (w : WF d.h) (given : Vars) (ps : List (Name × XExpr)) (s : St) :
    HaltsR fun k => bindParams d k given ps s := by
  induction ps generalizing s with
  | nil => exact haltsR_const (by simp)
  | cons p ps ih =>
    simp only [bindParams]
    refine HaltsR.bind (F := fun k => bindParam d k given p s) ?_ ?_ (fun s k => bindParams_mono k given ps s)
      fun o s _ => ih s
    · unfold bindParam
      split
      · exact haltsR_const (by simp)
      · exact .withVal (evalX_halts w _ _ _) (fun k => evalX_mono k _ _ _) (fun _ _ _ => .refl)
          fun _ _ _ => haltsR_const (by simp)
    · intro k
      unfold bindParam
      split
      · exact .refl
      · exact .withVal (evalX_mono _ _ _ _) fun _ _ => .refl

/-! No tail calls are left over -/

structure PlainAt (d : Doc) (sh : Sheet) (fuel : Nat) : Prop where
  run : ∀ rank level c i s o s', run d sh fuel i s = .ok o s' → InstrEnds d sh rank level c i → s.recursive = none →
    s'.recursive = none
  all : ∀ rank level c b s o s', runAll d sh fuel b s = .ok o s' → InstrsEnd d sh rank level c b →
    s.recursive = none → s'.recursive = none
  whens : ∀ rank level c ws ot s o s', runWhens d sh fuel ws ot s = .ok o s' → WhensEnd d sh rank level c ws ot →
    s.recursive = none → s'.recursive = none
  each : ∀ rank level c b ns p s o s', runEach d sh fuel b ns p s = .ok o s' → InstrsEnd d sh rank level c b →
    s.recursive = none → s'.recursive = none
  apply : ∀ ns m g s o s', runApply d sh fuel ns m g s = .ok o s' → s.recursive = none → s'.recursive = none
  nodes : ∀ ns p g s o s', runNodes d sh fuel ns p g s = .ok o s' → s.recursive = none → s'.recursive = none
  builtin : ∀ s o s', runBuiltin d sh fuel s = .ok o s' → s.recursive = none → s'.recursive = none
  tmpl : ∀ i g s o s', runTmpl d sh fuel i g s = .ok o s' → s'.recursive = none
  loop : ∀ t g s o s', runLoop d sh fuel t g s = .ok o s' → s'.recursive = none

theorem block_plain {fuel : Nat} (ih : PlainAt d sh fuel) {c : Option Nat} {b : List Instr} {s s' : St}
    {o : List Event} (h : block (runAll d sh fuel) b s = .ok o s') (hb : InstrsEnd d sh rank level c b)
    (hs : s.recursive = none) : s'.recursive = none := by
  unfold block at h
  split at h
  · obtain ⟨o1, s1, h1, rfl, rfl⟩ := res_map h
    have := ih.all _ _ _ _ _ _ _ h1 hb hs
    exact this
  · exact ih.all _ _ _ _ _ _ _ h hb hs

theorem plain (fuel : Nat) : PlainAt d sh fuel := by
  induction fuel with
  | zero =>
    refine ⟨?_, ?_, ?_, ?_, ?_, ?_, ?_, ?_, ?_⟩
    · intro _ _ _ _ _ _ _ h; simp [run] at h
    · intro _ _ _ _ _ _ _ h; simp [runAll] at h
    · intro _ _ _ _ _ _ _ _ h; simp [runWhens] at h
    · intro _ _ _ _ _ _ _ _ _ h; simp [runEach] at h
    · intro _ _ _ _ _ _ h; simp [runApply] at h
    · intro _ _ _ _ _ _ h; simp [runNodes] at h
    · intro _ _ _ h; simp [runBuiltin] at h
    · intro _ _ _ _ _ h; simp [runTmpl] at h
    · intro _ _ _ _ _ h; simp [runLoop] at h
  | succ fuel ih =>
    refine ⟨?_, ?_, ?_, ?_, ?_, ?_, ?_, ?_, ?_⟩
    · intro rank level c i s o s' h hi hs
      rw [run.eq_def] at h
      dsimp only at h
      cases hi with
      | text => cases h; exact hs
      | valueOf =>
        obtain ⟨v, c, h1, h2⟩ := res_withVal h
        cases h2; exact hs
      | valueOfCurrent => cases h; exact hs
      | lit hb =>
        obtain ⟨v, c, h1, h2⟩ := res_withVal h
        obtain ⟨o1, s1, h3, rfl, rfl⟩ := res_map h2
        exact block_plain ih h3 hb hs
      | «attribute» hb =>
        obtain ⟨o1, t, ev, h1, _, _, rfl⟩ := res_gather h
        exact block_plain ih h1 hb hs
      | comment hb =>
        obtain ⟨o1, t, ev, h1, _, _, rfl⟩ := res_gather h
        exact block_plain ih h1 hb hs
      | pi hb =>
        obtain ⟨o1, t, ev, h1, _, _, rfl⟩ := res_gather h
        exact block_plain ih h1 hb hs
      | copy hb =>
        dsimp only at h
        split at h
        · obtain ⟨o1, s1, h3, rfl, rfl⟩ := res_map h
          exact block_plain ih h3 hb hs
        · exact block_plain ih h hb hs
        · cases h; exact hs
      | copyOf =>
        obtain ⟨v, c, h1, h2⟩ := res_withVal h
        cases v with
        | nodes l =>
          simp only [copyVal, copyNodes] at h2
          split at h2
          · cases h2; exact hs
          · cases h2
        | sc v =>
          simp only [copyVal, copyScalar] at h2
          split at h2
          · cases h2; exact hs
          · cases h2
      | ite hb =>
        obtain ⟨v, c, h1, h2⟩ := res_withVal h
        split at h2
        · exact block_plain ih h2 hb hs
        · cases h2; exact hs
      | choose hw => exact ih.whens _ _ _ _ _ _ _ _ h hw hs
      | forEach _ hb =>
        obtain ⟨v, c, h1, h2⟩ := res_withVal h
        obtain ⟨o1, s1, h3, rfl, rfl⟩ := res_map h2
        have := ih.each _ _ _ _ _ _ _ _ _ h3 hb hs
        exact this
      | forEachFree hb =>
        obtain ⟨v, c, h1, h2⟩ := res_withVal h
        obtain ⟨o1, s1, h3, rfl, rfl⟩ := res_map h2
        have := ih.each _ _ _ _ _ _ _ _ _ h3 hb hs
        exact this
      | apply _ =>
        obtain ⟨v, c, h1, h2⟩ := res_withVal h
        obtain ⟨v2, c2, h3, h4⟩ := res_withVal h2
        exact ih.apply _ _ _ _ _ _ h4 hs
      | applyImports =>
        dsimp only at h
        split at h
        · cases h
        · obtain ⟨v, c, h1, h2⟩ := res_withVal h
          split at h2
          · obtain ⟨o1, s1, h3, rfl, rfl⟩ := res_map h2
            have := ih.tmpl _ _ _ _ _ h3
            exact this
          · exact ih.builtin _ _ _ h2 hs
      | call _ =>
        obtain ⟨v, c, h1, h2⟩ := res_withVal h
        simp only [Bool.false_eq_true, if_false] at h2
        split at h2
        · cases h2
        · exact ih.tmpl _ _ _ _ _ h2
      | «variable» =>
        obtain ⟨v, c, h1, h2⟩ := res_withVal h
        cases h2; exact hs
    · intro rank level c b s o s' h hb hs
      cases hb with
      | nil => simp only [runAll] at h; cases h; exact hs
      | cons hi hb =>
        rw [runAll] at h
        obtain ⟨o1, s1, o2, h1, h2, rfl⟩ := res_bind h
        exact ih.all _ _ _ _ _ _ _ h2 hb (ih.run _ _ _ _ _ _ _ h1 hi hs)
    · intro rank level c ws ot s o s' h hw hs
      cases hw with
      | none => simp only [runWhens] at h; cases h; exact hs
      | otherwise hb => rw [runWhens] at h; exact block_plain ih h hb hs
      | cons hb hw =>
        rw [runWhens] at h
        obtain ⟨v, c, h1, h2⟩ := res_withVal h
        split at h2
        · exact block_plain ih h2 hb hs
        · exact ih.whens _ _ _ _ _ _ _ _ h2 hw hs
    · intro rank level c b ns p s o s' h hb hs
      cases ns with
      | nil => simp only [runEach] at h; cases h; exact hs
      | cons n ns =>
        rw [runEach] at h
        obtain ⟨o1, s1, o2, h1, h2, rfl⟩ := res_bind h
        exact ih.each _ _ _ _ _ _ _ _ _ h2 hb (block_plain ih h1 hb hs)
    · intro ns m g s o s' h hs
      rw [runApply] at h
      obtain ⟨o1, s1, h1, rfl, rfl⟩ := res_map h
      have := ih.nodes _ _ _ _ _ _ h1 hs
      exact this
    · intro ns p g s o s' h hs
      cases ns with
      | nil => simp only [runNodes] at h; cases h; exact hs
      | cons n ns =>
        rw [runNodes] at h
        obtain ⟨o1, s1, o2, h1, h2, rfl⟩ := res_bind h
        refine ih.nodes _ _ _ _ _ _ h2 ?_
        obtain ⟨v, c, h3, h4⟩ := res_withVal h1
        split at h4
        · obtain ⟨o3, s3, h5, rfl, rfl⟩ := res_map h4
          have := ih.tmpl _ _ _ _ _ h5
          exact this
        · exact ih.builtin _ _ _ h4 hs
    · intro s o s' h hs
      rw [runBuiltin] at h
      split at h
      · exact ih.apply _ _ _ _ _ _ h hs
      · exact ih.apply _ _ _ _ _ _ h hs
      · cases h; exact hs
      · cases h; exact hs
      · cases h; exact hs
    · intro i g s o s' h
      rw [runTmpl] at h
      split at h
      · cases h
      · split at h
        · exact ih.loop _ _ _ _ _ h
        · obtain ⟨o1, s1, h1, rfl, rfl⟩ := res_map h
          have := ih.loop _ _ _ _ _ h1
          exact this
    · intro t g s o s' h
      rw [runLoop] at h
      obtain ⟨o1, s1, o2, h1, h2, rfl⟩ := res_bind h
      split at h2
      · cases h2; assumption
      · exact ih.loop _ _ _ _ _ h2

theorem findImport_prec {fuel below : Nat} {l : List Info} {n i : Nat} {c c' : Ctx}
    (h : findImport d fuel below l n c = .ok (some i) c') : ∃ x ∈ l, x.tmpl = i ∧ x.prec < below := by
  induction l generalizing c with
  | nil => simp [findImport] at h
  | cons x l ih =>
    rw [findImport] at h
    split at h
    · rename_i hp
      cases hm : misspelt (matchPat d fuel x.steps n c) with
      | stuck => rw [hm] at h; cases h
      | raise e => rw [hm] at h; cases h
      | ok b c1 =>
        rw [hm] at h
        cases b
        · obtain ⟨y, hy, g⟩ := ih h
          exact ⟨y, by simp [hy], g⟩
        · cases h; exact ⟨x, by simp, rfl, hp⟩
    · obtain ⟨y, hy, g⟩ := ih h
      exact ⟨y, by simp [hy], g⟩

/-- What `xsl:apply-imports` finds has a lower precedence. -/
theorem selectImport_prec (hr : RuntimeOk sh.rt d sh.rules) {fuel below : Nat} {mode : Option Name} {n i : Nat}
    {c c' : Ctx} (h : selectImport d fuel sh.rt sh.rules mode below n c = .ok (some i) c') :
    ∃ t, sh.ts[i]? = some t ∧ t.rule.prec < below := by
  unfold selectImport at h
  split at h
  · cases h
  · rename_i l hl
    obtain ⟨x, hx, rfl, hp⟩ := findImport_prec h
    obtain ⟨t, p, hrule, _⟩ := (rulesFor_right hr hl).2.1 x hx
    have := hrule.idx
    rw [Sheet.rules, List.getElem?_map] at this
    cases ht : sh.ts[x.tmpl]? with
    | none => rw [ht] at this; cases this
    | some t' =>
      rw [ht] at this
      cases this
      exact ⟨t', rfl, by rw [← hrule.prec]; exact hp⟩

/-! The induction -/

/-- The import precedence of the current template rule. -/
def precOf (sh : Sheet) (s : St) : Nat := ((s.template.bind (sh.ts[·]?)).map (·.rule.prec)).getD 0

section
variable (w : WF d.h) (hr : RuntimeOk sh.rt d sh.rules)
include w hr

theorem apply_halts {ns : List Nat} (h1 : ∀ n ∈ ns, ∀ s : St, s.ctx.node = n → HaltsR fun k => runBuiltin d sh k s)
    (h2 : ∀ n ∈ ns, ∀ i g (s : St), s.ctx.node = n → HaltsR fun k => runTmpl d sh k i g s) (m : Option Name) (g : Vars)
    (s : St) : HaltsR fun k => runApply d sh k ns m g s := by
  refine HaltsR.succ ?_
  simp only [runApply]
  refine HaltsR.map ?_
  generalize { s with ctx := { s.ctx with size := ns.length }, mode := m } = s0
  generalize 1 = p
  induction ns generalizing s0 p with
  | nil => exact ⟨1, by simp [runNodes]⟩
  | cons n ns ih =>
    refine HaltsR.succ ?_
    simp only [runNodes]
    refine HaltsR.bind (F := fun k => withVal (select d k sh.rt sh.rules s0.mode n _) s0 _) ?_ ?_
      (fun s k => (monoRun w hr k).nodes ns (p + 1) g s)
      fun o s1 _ => ih (fun n hn => h1 n (by simp [hn])) (fun n hn => h2 n (by simp [hn])) s1 (p + 1)
    · refine HaltsR.withVal (select_halts w hr _ _ _) (select_mono w hr _ _ _) (fun v s1 k => ?_) fun v c hv => ?_
      · cases v with
        | none => exact (monoRun w hr k).builtin _
        | some i => exact ((monoRun w hr k).tmpl _ _ _).map
      obtain ⟨k, hk⟩ := hv
      have hn := (keeps_select hk).1
      cases v with
      | none => exact h1 n (by simp) _ hn
      | some i => exact (h2 n (by simp) i g _ hn).map
    · intro k
      exact .withVal (select_mono w hr _ _ _ k) fun v s1 => by
        cases v with
        | none => exact (monoRun w hr k).builtin _
        | some i => exact ((monoRun w hr k).tmpl _ _ _).map

theorem each_halts {body : List Instr} {t : Option Nat} {ns : List Nat}
    (h : ∀ n ∈ ns, ∀ s : St, s.ctx.node = n → s.template = t → HaltsR fun k => runAll d sh k body s) (p : Nat) (s : St)
    (hs : s.template = t) : HaltsR fun k => runEach d sh k body ns p s := by
  induction ns generalizing p s with
  | nil => exact ⟨1, by simp [runEach]⟩
  | cons n ns ih =>
    refine HaltsR.succ ?_
    simp only [runEach]
    refine HaltsR.bind (F := fun k => block (runAll d sh k) body _) (HaltsR.block (h n (by simp) _ rfl hs))
      (fun k => LeR.block (monoRun w hr k).all _ _) (fun s k => (monoRun w hr k).each _ _ _ _) fun o s' ho => ?_
    have hk := (block_kept (kept _) ho.choose_spec).1
    exact ih (fun n hn => h n (by simp [hn])) (p + 1) s' (hk.template.trans hs)

variable {a b : Nat} (hE : SheetEnds d sh rank level)
  (lowRank : ∀ s : St, rank s.ctx.node < a → (HaltsR fun k => runBuiltin d sh k s) ∧
    ∀ i g, HaltsR fun k => runTmpl d sh k i g s)
include lowRank

theorem apply_low {n : Nat} (hn : rank n ≤ a) {ns : List Nat} (hns : ∀ x ∈ ns, rank x < rank n) (m : Option Name)
    (g : Vars) (s : St) : HaltsR fun k => runApply d sh k ns m g s :=
  apply_halts w hr (fun x hx s hs => (lowRank s (by rw [hs]; have := hns x hx; omega)).1)
    (fun x hx i g s hs => (lowRank s (by rw [hs]; have := hns x hx; omega)).2 i g) m g s

include hE

theorem builtin_low (s : St) (hs : rank s.ctx.node ≤ a) : HaltsR fun k => runBuiltin d sh k s := by
  refine HaltsR.succ ?_
  simp only [runBuiltin]
  split
  · exact apply_low w hr lowRank hs (hE.kids _) _ _ _
  · exact apply_low w hr lowRank hs (hE.kids _) _ _ _
  · exact haltsR_const (by simp)
  · exact haltsR_const (by simp)
  · exact haltsR_const (by simp)

variable (lowPrec : ∀ (s : St) i g, rank s.ctx.node ≤ a → precOf sh s < b → HaltsR fun k => runTmpl d sh k i g s)
  {c : Nat} (lowLevel : ∀ (s : St) i g, rank s.ctx.node ≤ a → precOf sh s ≤ b → level i < c →
    HaltsR fun k => runTmpl d sh k i g s)
include lowPrec lowLevel

/-- Nothing, for content that does not depend on it. -/
def Low (sh : Sheet) (rank : Nat → Nat) (a b : Nat) (l : Option Nat) (s : St) : Prop :=
  l ≠ none → rank s.ctx.node ≤ a ∧ precOf sh s ≤ b

omit w hr lowRank hE lowPrec lowLevel in
theorem Low.kept {l : Option Nat} {s s' : St} (h : Low sh rank a b l s) (k : Kept s s') : Low sh rank a b l s' := by
  intro hl
  obtain ⟨h1, h2⟩ := h hl
  exact ⟨by rw [k.ctx.1]; exact h1, by rw [precOf, k.template]; exact h2⟩

mutual
theorem run_halts : ∀ {l : Option Nat} {i : Instr}, InstrEnds d sh rank level l i → (l = none ∨ l = some c) →
    ∀ s, Low sh rank a b l s → HaltsR fun k => run d sh k i s
  | _, _, .text, hl, s, hs => by
    refine HaltsR.succ ?_
    simp only [run]; exact haltsR_const (by simp)
  | _, _, .valueOf, hl, s, hs => by
    refine HaltsR.succ ?_
    simp only [run]
    exact .withVal (evalX_halts w _ _ _) (fun k => evalX_mono k _ _ _) (fun _ _ _ => .refl)
      fun _ _ _ => haltsR_const (by simp)
  | _, _, .valueOfCurrent, hl, s, hs => by
    refine HaltsR.succ ?_
    simp only [run]; exact haltsR_const (by simp)
  | _, _, .lit hb, hl, s, hs => by
    refine HaltsR.succ ?_
    simp only [run]
    exact .withVal (evalAttrs_halts w _ _ _) (evalAttrs_mono _ _ _) (fun v s k => (LeR.block (monoRun w hr k).all _ s).map)
      fun v c hv => (HaltsR.block (all_halts hb hl _ (hs.kept (.of_same (keeps_evalAttrs _ hv.choose_spec))))).map
  | _, _, .«attribute» hb, hl, s, hs => by
    refine HaltsR.succ ?_
    simp only [run]; exact (HaltsR.block (all_halts hb hl _ hs)).gather
  | _, _, .comment hb, hl, s, hs => by
    refine HaltsR.succ ?_
    simp only [run]; exact (HaltsR.block (all_halts hb hl _ hs)).gather
  | _, _, .pi hb, hl, s, hs => by
    refine HaltsR.succ ?_
    simp only [run]; exact (HaltsR.block (all_halts hb hl _ hs)).gather
  | _, _, .copy hb, hl, s, hs => by
    refine HaltsR.succ ?_
    simp only [run]
    split
    · exact (HaltsR.block (all_halts hb hl _ hs)).map
    · exact HaltsR.block (all_halts hb hl _ hs)
    · exact haltsR_const (by simp)
  | _, _, .copyOf, hl, s, hs => by
    refine HaltsR.succ ?_
    simp only [run]
    exact .withVal (evalX_halts w _ _ _) (fun k => evalX_mono k _ _ _) (fun v s k => copyVal_mono k v s)
      fun v c _ => copyVal_halts w v _
  | _, _, .ite hb, hl, s, hs => by
    refine HaltsR.succ ?_
    simp only [run]
    refine .withVal (evalX_halts w _ _ _) (fun k => evalX_mono k _ _ _) (fun v s k => ?_) fun v c hv => ?_
    · dsimp only; split
      · exact LeR.block (monoRun w hr k).all _ s
      · exact .refl
    · split
      · exact HaltsR.block (all_halts hb hl _ (hs.kept (.of_same ((keeps _).eval _ _ _ _ _ hv.choose_spec))))
      · exact haltsR_const (by simp)
  | _, _, .choose hw, hl, s, hs => by
    refine HaltsR.succ ?_
    simp only [run]; exact whens_halts hw hl _ hs
  | _, _, .forEach hn hb, hl, s, hs => by
    refine HaltsR.succ ?_
    simp only [run]
    refine .withVal (selectNodes_halts w _ _ _) (selectNodes_mono w _ _ _)
      (fun v s k => ((monoRun w hr k).each _ _ _ _).map) fun v c' hv => ?_
    obtain ⟨k, hk⟩ := hv
    refine HaltsR.map (each_halts w hr (t := none) (fun x hx s1 h1 h2 => all_halts hb hl s1 fun hne => ?_) _ _ rfl)
    have := hs hne
    rw [h1]
    exact ⟨Nat.le_trans (hn _ _ _ _ _ hk x hx) this.1, by rw [precOf, h2]; exact Nat.zero_le _⟩
  | _, _, .forEachFree hb, hl, s, hs => by
    refine HaltsR.succ ?_
    simp only [run]
    refine .withVal (selectNodes_halts w _ _ _) (selectNodes_mono w _ _ _)
      (fun v s k => ((monoRun w hr k).each _ _ _ _).map) fun v c' hv => ?_
    exact HaltsR.map (each_halts w hr (t := none) (fun x hx s1 h1 h2 =>
      all_halts hb (.inl rfl) s1 fun hne => absurd rfl hne) _ _ rfl)
  | _, _, .apply hn, hl, s, hs => by
    refine HaltsR.succ ?_
    simp only [run]
    refine .withVal (evalParams_halts w _ _ _) (evalParams_mono _ _ _)
      (fun g s k => .withVal (selectNodes_mono w _ _ _ k) fun v s => (monoRun w hr k).apply _ _ _ _) fun g c1 hg => ?_
    refine .withVal (selectNodes_halts w _ _ _) (selectNodes_mono w _ _ _)
      (fun v s k => (monoRun w hr k).apply _ _ _ _) fun v c2 hv => ?_
    obtain ⟨k, hk⟩ := hv
    obtain ⟨k', hk'⟩ := hg
    have hsame := (keeps_evalParams _ hk').1
    have := (hs (by simp)).1
    exact apply_low w hr lowRank this (fun x hx => by
      have := hn _ _ _ _ hk x hx
      rwa [hsame] at this) _ _ _
  | _, _, .applyImports, hl, s, hs => by
    refine HaltsR.succ ?_
    simp only [run]
    split
    · exact haltsR_const (by simp)
    · rename_i t ht
      have hlow := hs (by simp)
      have hp : t.rule.prec ≤ b := by
        have := hlow.2
        unfold precOf at this
        rw [ht] at this
        simpa using this
      refine .withVal (selectImport_halts w hr _ _ _ _) (selectImport_mono w hr _ _ _ _) (fun v s k => ?_)
        fun v c' hv => ?_
      · cases v with
        | none => exact (monoRun w hr k).builtin _
        | some i => exact ((monoRun w hr k).tmpl _ _ _).map
      · obtain ⟨k, hk⟩ := hv
        have hsame := keeps_selectImport hk
        cases v with
        | none => exact builtin_low w hr hE lowRank _ (by dsimp only; rw [hsame.1]; exact hlow.1)
        | some i =>
          refine HaltsR.map (lowPrec _ i Vars.empty (by dsimp only; rw [hsame.1]; exact hlow.1) ?_)
          obtain ⟨t', ht', hlt⟩ := selectImport_prec hr hk
          simp only [precOf, Option.bind_some, ht', Option.map_some, Option.getD_some]
          omega
  | _, _, .call hn, hl, s, hs => by
    refine HaltsR.succ ?_
    have hc := hl.resolve_left (by simp)
    cases hc
    simp only [run]
    refine .withVal (evalParams_halts w _ _ _) (evalParams_mono _ _ _) (fun g s k => ?_) fun g c1 hg => ?_
    · simp only [Bool.false_eq_true, if_false]
      split
      · exact .refl
      · exact (monoRun w hr k).tmpl _ _ _
    · simp only [Bool.false_eq_true, if_false]
      split
      · exact haltsR_const (by simp)
      · rename_i i hi
        obtain ⟨k', hk'⟩ := hg
        have hlow := (hs.kept (.of_same (keeps_evalParams _ hk'))) (by simp)
        exact lowLevel _ i g hlow.1 hlow.2 (hn i hi)
  | _, _, .«variable», hl, s, hs => by
    refine HaltsR.succ ?_
    simp only [run]
    exact .withVal (evalX_halts w _ _ _) (fun k => evalX_mono k _ _ _) (fun _ _ _ => .refl)
      fun _ _ _ => haltsR_const (by simp)

theorem all_halts : ∀ {l : Option Nat} {body : List Instr}, InstrsEnd d sh rank level l body →
    (l = none ∨ l = some c) → ∀ s, Low sh rank a b l s → HaltsR fun k => runAll d sh k body s
  | _, _, .nil, hl, s, hs => ⟨1, by simp [runAll]⟩
  | _, _, .cons hi hb, hl, s, hs => by
    refine HaltsR.succ ?_
    simp only [runAll]
    exact HaltsR.bind (run_halts hi hl s hs) (fun k => (monoRun w hr k).run _ _) (fun s k => (monoRun w hr k).all _ _)
      fun o s' ho => all_halts hb hl s' (hs.kept ((kept _).run _ _ _ _ ho.choose_spec).1)

theorem whens_halts : ∀ {l : Option Nat} {ws : List (XExpr × List Instr)} {o : Option (List Instr)},
    WhensEnd d sh rank level l ws o → (l = none ∨ l = some c) → ∀ s, Low sh rank a b l s → HaltsR fun k => runWhens d sh k ws o s
  | _, _, _, .none, hl, s, hs => ⟨1, by simp [runWhens]⟩
  | _, _, _, .otherwise hb, hl, s, hs => by
    refine HaltsR.succ ?_
    simp only [runWhens]
    exact HaltsR.block (all_halts hb hl s hs)
  | _, _, _, .cons hb hw, hl, s, hs => by
    refine HaltsR.succ ?_
    simp only [runWhens]
    refine .withVal (evalX_halts w _ _ _) (fun k => evalX_mono k _ _ _) (fun v s k => ?_) fun v c hv => ?_
    · dsimp only; split
      · exact LeR.block (monoRun w hr k).all _ s
      · exact (monoRun w hr k).whens _ _ _
    · have hs' := hs.kept (.of_same ((keeps _).eval _ _ _ _ _ hv.choose_spec))
      split
      · exact HaltsR.block (all_halts hb hl _ hs')
      · exact whens_halts hw hl _ hs'
end

/-- A template comes to an end if what it may start does. -/
theorem tmpl_low (s : St) (i : Nat) (g : Vars) (hs : rank s.ctx.node ≤ a) (hp : precOf sh s ≤ b) (hi : level i = c) :
    HaltsR fun k => runTmpl d sh k i g s := by
  refine HaltsR.succ ?_
  simp only [runTmpl]
  cases ht : sh.ts[i]? with
  | none => exact haltsR_const (by simp)
  | some t =>
    have hb := hE.content i t ht
    rw [hi] at hb
    suffices HaltsR fun k => runLoop d sh k t g s by
      dsimp only
      split
      · exact this
      · exact this.map
    refine HaltsR.succ ?_
    simp only [runLoop]
    have mbody : ∀ s : St, MonoR fun k => if t.params = [] then block (runAll d sh k) t.body s
        else runAll d sh k t.body s := by
      intro s k
      dsimp only
      split
      · exact LeR.block (monoRun w hr k).all _ _
      · exact (monoRun w hr k).all _ _
    have mtail : ∀ s : St, MonoR fun k => match s.recursive with
        | none => .ok [] s
        | some given => runLoop d sh k t given s := by
      intro s k
      dsimp only
      split
      · exact .refl
      · exact (monoRun w hr k).loop _ _ _
    refine HaltsR.bind (F := fun k => (bindParams d k g t.params _).bind fun s => if t.params = [] then _ else _)
      (HaltsR.bind (bindParams_halts w g t.params _) (fun k => bindParams_mono k _ _ _) mbody fun o s1 h1 => ?_)
      (fun k => LeR.bind (bindParams_mono k _ _ _) fun s => mbody s k) mtail fun o s1 h1 => ?_
    · obtain ⟨k, hk⟩ := h1
      have hkept := (keeps_bindParams _ hk).1
      have hlow : Low sh rank a b (some c) s1 := Low.kept (s := { s with recursive := none }) (fun _ => ⟨hs, hp⟩) hkept
      have := all_halts w hr hE lowRank lowPrec lowLevel hb (.inr rfl) s1 hlow
      split
      · exact this.block
      · exact this
    · obtain ⟨k, hk⟩ := h1
      obtain ⟨o2, s2, o3, h2, h3, rfl⟩ := res_bind hk
      have hrec := (keeps_bindParams _ h2).2.1
      have : s1.recursive = none := by
        split at h3
        · exact block_plain (plain _) h3 hb hrec
        · exact (plain _).all _ _ _ _ _ _ _ h3 hb hrec
      rw [this]
      exact haltsR_const (by simp)

end

/-- Everything comes to an end. -/
theorem ends (w : WF d.h) (hr : RuntimeOk sh.rt d sh.rules) (hE : SheetEnds d sh rank level) (a : Nat) (s : St)
    (hs : rank s.ctx.node < a) :
    (HaltsR fun k => runBuiltin d sh k s) ∧ ∀ i g, HaltsR fun k => runTmpl d sh k i g s := by
  induction a generalizing s with
  | zero => omega
  | succ a iha =>
    refine ⟨builtin_low w hr hE iha s (by omega), ?_⟩
    have prec : ∀ b (s : St), rank s.ctx.node ≤ a → precOf sh s < b → ∀ i g, HaltsR fun k => runTmpl d sh k i g s := by
      intro b
      induction b with
      | zero => intro s _ h; omega
      | succ b ihb =>
        intro s hs hb i g
        have lev : ∀ c (s : St) i g, rank s.ctx.node ≤ a → precOf sh s ≤ b → level i < c →
            HaltsR fun k => runTmpl d sh k i g s := by
          intro c
          induction c with
          | zero => intro s i g _ _ h; omega
          | succ c ihc =>
            intro s i g h1 h2 h3
            rcases Nat.lt_or_ge (level i) c with h | h
            · exact ihc s i g h1 h2 h
            · exact tmpl_low w hr hE iha (fun s i g h1 h2 => ihb s h1 h2 i g) ihc s i g h1 h2 (by omega)
        exact lev (level i + 1) s i g hs (by omega) (by omega)
    exact prec (precOf sh s + 1) s (by omega) (by omega)

theorem transform_ends (w : WF d.h) (hr : RuntimeOk sh.rt d sh.rules) (hE : SheetEnds d sh rank level) (root : Nat) :
    HaltsR fun k => transform d sh k root :=
  apply_halts w hr (fun _ _ s _ => (ends w hr hE _ s (Nat.lt_succ_self _)).1)
    (fun _ _ i g s _ => (ends w hr hE _ s (Nat.lt_succ_self _)).2 i g) _ _ _

theorem decorate_nodes {fuel : Nat} {ks : List SortKey} {p : Nat} {l : List Nat} {c c' : Ctx} {rows : List Row}
    (h : decorate d fuel ks p l c = .ok rows c') : rows.map (·.1) = l := by
  induction l generalizing p c rows with
  | nil => cases h; rfl
  | cons n l ih =>
    rw [decorate] at h
    obtain ⟨vs, c1, _, h2⟩ := bind_ok h
    obtain ⟨rows', c2, h3, h4⟩ := bind_ok h2
    cases h4
    rw [List.map_cons, ih h3]

/-- Sorting does not change which nodes are selected. -/
theorem selectNodes_perm {fuel : Nat} {e : Option XExpr} {sorts : List XSort} {s : St} {nodes : List Nat} {c : Ctx}
    (h : selectNodes d fuel sh e sorts s = .ok nodes c) :
    ∃ nodes' c', sortInput d fuel (e.map (·.build (varExpr s.vars))) s.ctx = .ok nodes' c' ∧ nodes.Perm nodes' := by
  unfold selectNodes at h
  split at h
  · exact ⟨nodes, c, h, .refl _⟩
  · unfold sortedNodes at h
    obtain ⟨ns, c1, h1, h2⟩ := bind_ok h
    obtain ⟨rows, c2, h3, h4⟩ := bind_ok h2
    cases h4
    exact ⟨ns, c1, h1, by rw [← decorate_nodes h3]; exact sortLoop_perm.map _⟩

/-- The children of a node, in whatever order, have a lower rank. -/
theorem children_lower (hk : ∀ n, ∀ x ∈ d.h.kids n, rank x < rank n) (sorts : List XSort) (fuel : Nat) (s : St)
    (nodes : List Nat) (c : Ctx) (h : selectNodes d fuel sh none sorts s = .ok nodes c) :
    ∀ n ∈ nodes, rank n < rank s.ctx.node := by
  obtain ⟨nodes', c', h1, hp⟩ := selectNodes_perm h
  cases h1
  exact fun n hn => hk _ n (hp.mem_iff.1 hn)

/-- There is such a rank. -/
theorem exists_rank (w : WF d.h) : ∃ rank : Nat → Nat, ∀ n, ∀ x ∈ d.h.kids n, rank x < rank n := by
  obtain ⟨depth, hd, _, hsz⟩ := exists_depth w
  refine ⟨fun n => d.h.size - depth n, fun n x hx => ?_⟩
  have := hd x n (w.kids_parent n x hx)
  have := hsz x
  dsimp only
  omega

end Verif.Xslt
