import Verif.Xslt.InstSpec
import Verif.Xslt.SortProps
import Verif.Template.SelectProps

/-
What an instruction leaves as it was, whatever the stylesheet.
-/
namespace Verif.Xslt
open Verif Verif.XPath Verif.Dom Verif.Dom.Spec Verif.Eval Verif.Eval.Spec Verif.Template
open Verif.Xslt.Spec

variable {d : Doc} {r : Nat} {sh : Sheet}

/-! Results -/

theorem res_bind {x : Res} {k : St → Res} {o : List Event} {s' : St} (h : x.bind k = .ok o s') :
    ∃ o1 s1 o2, x = .ok o1 s1 ∧ k s1 = .ok o2 s' ∧ o = o1 ++ o2 := by
  cases x with
  | stuck => cases h
  | raise e => cases h
  | ok o1 s1 =>
    refine ⟨o1, s1, ?_⟩
    simp only [Res.bind] at h
    cases hk : k s1 with
    | stuck => rw [hk] at h; cases h
    | raise e => rw [hk] at h; cases h
    | ok o2 s2 => rw [hk] at h; cases h; exact ⟨o2, rfl, rfl, rfl⟩

theorem res_map {x : Res} {f : List Event → List Event} {g : St → St} {o : List Event} {s' : St}
    (h : x.map f g = .ok o s') : ∃ o1 s1, x = .ok o1 s1 ∧ o = f o1 ∧ s' = g s1 := by
  cases x with
  | stuck => cases h
  | raise e => cases h
  | ok o1 s1 => cases h; exact ⟨o1, s1, rfl, rfl, rfl⟩

theorem res_withVal {α : Type} {x : Out α} {s s' : St} {k : α → St → Res} {o : List Event}
    (h : withVal x s k = .ok o s') : ∃ v c, x = .ok v c ∧ k v { s with ctx := c } = .ok o s' := by
  cases x with
  | stuck => cases h
  | raise e => cases h
  | ok v c => exact ⟨v, c, rfl, h⟩

theorem res_gather {f : Str → Except XErr Event} {x : Res} {o : List Event} {s' : St} (h : gather f x = .ok o s') :
    ∃ o1 t ev, x = .ok o1 s' ∧ collectText o1 = .ok t ∧ f t = .ok ev ∧ o = [ev] := by
  cases x with
  | stuck => cases h
  | raise e => cases h
  | ok o1 s1 =>
    simp only [gather] at h
    cases ht : collectText o1 with
    | error e => rw [ht] at h; cases h
    | ok t =>
      rw [ht] at h
      cases hf : f t with
      | error e => simp only [hf] at h; cases h
      | ok ev => simp only [hf] at h; cases h; exact ⟨o1, t, ev, rfl, ht, hf, rfl⟩

/-! Patterns -/

theorem keeps_testMatch {fuel : Nat} {t : CTest} {n : Nat} {c c' : Ctx} {b : Bool}
    (h : t.match d fuel n c = .ok b c') : Same c c' := by
  cases t with
  | test a t => exact keeps_ret h
  | pred a t ss =>
    simp only [CTest.match, predMatch] at h
    split at h
    · cases h
    · cases h; exact .refl
    · split at h
      · cases h
      · obtain ⟨l, c1, h1, h2⟩ := bind_ok h
        cases h2
        exact keeps_restore h1
  | document => cases h; exact .refl
  | idKey f =>
    obtain ⟨v, c1, h1, h2⟩ := bind_ok h
    have := (keeps fuel).eval _ _ _ _ _ h1
    split at h2
    · cases h2; exact this
    · cases h2

theorem keeps_climbTo {fuel : Nat} {t : CTest} (k : Nat) {n : Option Nat} {c c' : Ctx} {b : Option Nat}
    (h : climbTo d fuel t k n c = .ok b c') : Same c c' := by
  induction k generalizing n c with
  | zero =>
    cases n with
    | none => cases h; exact .refl
    | some n => cases h
  | succ k ih =>
    cases n with
    | none => cases h; exact .refl
    | some n =>
      obtain ⟨v, c1, h1, h2⟩ := bind_ok h
      have := keeps_testMatch h1
      split at h2
      · cases h2; exact this
      · exact this.trans (ih h2)

theorem keeps_matchLoop {fuel : Nat} (ss : List CPat) {n : Nat} {c c' : Ctx} {b : Bool}
    (h : matchLoop d fuel ss n c = .ok b c') : Same c c' := by
  induction ss generalizing n c with
  | nil => cases h; exact .refl
  | cons s ss ih =>
    rw [matchLoop] at h
    split at h
    · obtain ⟨v, c1, h1, h2⟩ := bind_ok h
      have := keeps_climbTo _ h1
      split at h2
      · cases h2; exact this
      · exact this.trans (ih h2)
    · split at h
      · cases h; exact .refl
      · obtain ⟨v, c1, h1, h2⟩ := bind_ok h
        have := keeps_testMatch h1
        split at h2
        · exact this.trans (ih h2)
        · cases h2; exact this

theorem keeps_matchPat {fuel : Nat} {ss : List CPat} {n : Nat} {c c' : Ctx} {b : Bool}
    (h : matchPat d fuel ss n c = .ok b c') : Same c c' := by
  cases ss with
  | nil => cases h
  | cons s ss =>
    obtain ⟨v, c1, h1, h2⟩ := bind_ok h
    have := keeps_testMatch h1
    split at h2
    · exact this.trans (keeps_matchLoop _ h2)
    · cases h2; exact this

theorem keeps_findRule {fuel : Nat} (is : List Info) {n : Nat} {c c' : Ctx} {b : Option Nat}
    (h : findRule d fuel is n c = .ok b c') : Same c c' := by
  induction is generalizing c with
  | nil => cases h; exact .refl
  | cons i is ih =>
    obtain ⟨v, c1, h1, h2⟩ := bind_ok h
    have := keeps_matchPat h1
    split at h2
    · cases h2; exact this
    · exact this.trans (ih h2)

theorem keeps_findImport {fuel below : Nat} (is : List Info) {n : Nat} {c c' : Ctx} {b : Option Nat}
    (h : findImport d fuel below is n c = .ok b c') : Same c c' := by
  induction is generalizing c with
  | nil => cases h; exact .refl
  | cons i is ih =>
    rw [findImport] at h
    split at h
    · obtain ⟨v, c1, h1, h2⟩ := bind_ok h
      have : Same c c1 := by
        cases hm : matchPat d fuel i.steps n c with
        | stuck => rw [hm] at h1; cases h1
        | raise e => rw [hm] at h1; cases h1
        | ok b c2 => rw [hm] at h1; cases h1; exact keeps_matchPat hm
      split at h2
      · cases h2; exact this
      · exact this.trans (ih h2)
    · exact ih h

theorem keeps_select {fuel : Nat} {rt : Runtime} {ts : List Tmpl} {mode : Option Name} {n : Nat} {c c' : Ctx}
    {b : Option Nat} (h : select d fuel rt ts mode n c = .ok b c') : Same c c' := by
  unfold select at h
  split at h
  · cases h
  · exact keeps_findRule _ h

theorem keeps_selectImport {fuel below : Nat} {rt : Runtime} {ts : List Tmpl} {mode : Option Name} {n : Nat}
    {c c' : Ctx} {b : Option Nat} (h : selectImport d fuel rt ts mode below n c = .ok b c') : Same c c' := by
  unfold selectImport at h
  split at h
  · cases h
  · exact keeps_findImport _ h

/-! Expressions -/

theorem keeps_evalParams {fuel : Nat} (ps : List (Name × XExpr)) {vs g : Vars} {c c' : Ctx}
    (h : evalParams d fuel ps vs c = .ok g c') : Same c c' := by
  induction ps generalizing c c' g with
  | nil => cases h; exact .refl
  | cons p ps ih =>
    obtain ⟨v, c1, h1, h2⟩ := bind_ok h
    obtain ⟨v2, c2, h3, h4⟩ := bind_ok h2
    cases h4
    exact ((keeps fuel).eval _ _ _ _ _ h1).trans (ih h3)

theorem keeps_evalAvt {fuel : Nat} (ps : List AvtPart) {vs : Vars} {c c' : Ctx} {t : Str}
    (h : evalAvt d fuel ps vs c = .ok t c') : Same c c' := by
  induction ps generalizing c c' t with
  | nil => cases h; exact .refl
  | cons p ps ih =>
    cases p with
    | text s =>
      obtain ⟨v, c1, h1, h2⟩ := bind_ok h
      cases h2
      exact ih h1
    | expr e =>
      obtain ⟨v, c1, h1, h2⟩ := bind_ok h
      obtain ⟨v2, c2, h3, h4⟩ := bind_ok h2
      cases h4
      exact ((keeps fuel).eval _ _ _ _ _ h1).trans (ih h3)

theorem keeps_evalAttrs {fuel : Nat} (as : List (Name × List AvtPart)) {vs : Vars} {c c' : Ctx} {t : List Event}
    (h : evalAttrs d fuel as vs c = .ok t c') : Same c c' := by
  induction as generalizing c c' t with
  | nil => cases h; exact .refl
  | cons p ps ih =>
    obtain ⟨v, c1, h1, h2⟩ := bind_ok h
    obtain ⟨v2, c2, h3, h4⟩ := bind_ok h2
    cases h4
    exact (keeps_evalAvt _ h1).trans (ih h3)

theorem keeps_sortInput {fuel : Nat} {e : Option Expr} {c c' : Ctx} {l : List Nat}
    (h : sortInput d fuel e c = .ok l c') : Same c c' := by
  cases e with
  | none => cases h; exact .refl
  | some e =>
    obtain ⟨v, c2, h3, h4⟩ := bind_ok h
    have := (keeps fuel).eval _ _ _ _ _ h3
    split at h4
    · cases h4; exact this
    · cases h4

theorem keeps_selectNodes {fuel : Nat} {e : Option XExpr} {sorts : List XSort} {s : St} {c' : Ctx} {l : List Nat}
    (h : selectNodes d fuel sh e sorts s = .ok l c') : Same s.ctx c' := by
  unfold selectNodes at h
  split at h
  · exact keeps_sortInput h
  · exact C60_focus h

/-! Instructions -/

/-- The focus, the current template and the mode are the same. -/
structure Kept (s s' : St) : Prop where
  ctx : Same s.ctx s'.ctx
  template : s'.template = s.template
  mode : s'.mode = s.mode

theorem Kept.refl {s : St} : Kept s s := ⟨.refl, rfl, rfl⟩
theorem Kept.trans {a b c : St} (h1 : Kept a b) (h2 : Kept b c) : Kept a c :=
  ⟨h1.ctx.trans h2.ctx, h2.template.trans h1.template, h2.mode.trans h1.mode⟩
theorem Kept.of_same {s : St} {c : Ctx} (h : Same s.ctx c) : Kept s { s with ctx := c } := ⟨h, rfl, rfl⟩

/-- The variables, too. -/
def Kept' (s s' : St) : Prop := Kept s s' ∧ s'.vars = s.vars

theorem Kept'.of_same {s : St} {c : Ctx} (h : Same s.ctx c) : Kept' s { s with ctx := c } := ⟨.of_same h, rfl⟩
theorem Kept'.trans {a b c : St} (h1 : Kept' a b) (h2 : Kept' b c) : Kept' a c :=
  ⟨h1.1.trans h2.1, h2.2.trans h1.2⟩
theorem Kept'.refl {s : St} : Kept' s s := ⟨.refl, rfl⟩

theorem keeps_bindParams {fuel : Nat} {given : Vars} (ps : List (Name × XExpr)) {s s' : St} {o : List Event}
    (h : bindParams d fuel given ps s = .ok o s') : Kept s s' ∧ s'.recursive = s.recursive ∧ o = [] ∧
      (ps = [] → s' = s) := by
  induction ps generalizing s o with
  | nil => cases h; exact ⟨.refl, rfl, rfl, fun _ => rfl⟩
  | cons p ps ih =>
    obtain ⟨o1, s1, o2, h1, h2, rfl⟩ := res_bind h
    obtain ⟨g1, g2, g3, _⟩ := ih h2
    suffices Kept s s1 ∧ s1.recursive = s.recursive ∧ o1 = [] by
      exact ⟨this.1.trans g1, g2.trans this.2.1, by rw [g3, this.2.2]; rfl, fun h => by cases h⟩
    unfold bindParam at h1
    split at h1
    · cases h1; exact ⟨⟨.refl, rfl, rfl⟩, rfl, rfl⟩
    · obtain ⟨v, c, h3, h4⟩ := res_withVal h1
      cases h4
      exact ⟨⟨(keeps fuel).eval _ _ _ _ _ h3, rfl, rfl⟩, rfl, rfl⟩

def Instr.isVariable : Instr → Bool
  | .variable _ _ => true
  | _ => false

structure KeptAt (d : Doc) (sh : Sheet) (fuel : Nat) : Prop where
  run : ∀ i s o s', run d sh fuel i s = .ok o s' → Kept s s' ∧ (i.isVariable = false → s'.vars = s.vars)
  all : ∀ b s o s', runAll d sh fuel b s = .ok o s' → Kept s s' ∧ (declares b = false → s'.vars = s.vars)
  whens : ∀ ws ot s o s', runWhens d sh fuel ws ot s = .ok o s' → Kept' s s'
  each : ∀ b ns p s o s', runEach d sh fuel b ns p s = .ok o s' →
    s'.ctx.size = s.ctx.size ∧ s'.template = s.template ∧ s'.mode = s.mode ∧ s'.vars = s.vars
  apply : ∀ ns m g s o s', runApply d sh fuel ns m g s = .ok o s' → Kept' s s'
  nodes : ∀ ns p g s o s', runNodes d sh fuel ns p g s = .ok o s' →
    s'.ctx.size = s.ctx.size ∧ s'.mode = s.mode ∧ s'.vars = s.vars
  builtin : ∀ s o s', runBuiltin d sh fuel s = .ok o s' → Kept' s s'
  tmpl : ∀ i g s o s', runTmpl d sh fuel i g s = .ok o s' → Kept' s s'
  loop : ∀ t g s o s', runLoop d sh fuel t g s = .ok o s' → Kept s s' ∧ (t.params = [] → s'.vars = s.vars)

theorem block_kept {fuel : Nat} (ih : KeptAt d sh fuel) {b : List Instr} {s s' : St} {o : List Event}
    (h : block (runAll d sh fuel) b s = .ok o s') : Kept' s s' := by
  unfold block at h
  split at h
  · obtain ⟨o1, s1, h1, rfl, rfl⟩ := res_map h
    have := (ih.all _ _ _ _ h1).1
    exact ⟨⟨this.ctx, this.template, this.mode⟩, rfl⟩
  · rename_i hd
    have := ih.all _ _ _ _ h
    exact ⟨this.1, this.2 (by simpa using hd)⟩

theorem declares_cons {i : Instr} {is : List Instr} (h : declares (i :: is) = false) :
    i.isVariable = false ∧ declares is = false := by
  cases i <;> simp_all [declares, Instr.isVariable]

theorem kept (fuel : Nat) : KeptAt d sh fuel := by
  induction fuel with
  | zero =>
    refine ⟨?_, ?_, ?_, ?_, ?_, ?_, ?_, ?_, ?_⟩
    · intro _ _ _ _ h; simp [run] at h
    · intro _ _ _ _ h; simp [runAll] at h
    · intro _ _ _ _ _ h; simp [runWhens] at h
    · intro _ _ _ _ _ _ h; simp [runEach] at h
    · intro _ _ _ _ _ _ h; simp [runApply] at h
    · intro _ _ _ _ _ _ h; simp [runNodes] at h
    · intro _ _ _ h; simp [runBuiltin] at h
    · intro _ _ _ _ _ h; simp [runTmpl] at h
    · intro _ _ _ _ _ h; simp [runLoop] at h
  | succ fuel ih =>
    refine ⟨?_, ?_, ?_, ?_, ?_, ?_, ?_, ?_, ?_⟩
    · intro i s o s' h
      have both : Kept' s s' → Kept s s' ∧ (i.isVariable = false → s'.vars = s.vars) := fun h => ⟨h.1, fun _ => h.2⟩
      rw [run.eq_def] at h
      dsimp only at h
      cases i with
      | text t => cases h; exact both .refl
      | valueOf e =>
        obtain ⟨v, c, h1, h2⟩ := res_withVal h
        cases h2
        exact both (.of_same ((keeps fuel).eval _ _ _ _ _ h1))
      | valueOfCurrent => cases h; exact both .refl
      | lit name attrs body =>
        obtain ⟨v, c, h1, h2⟩ := res_withVal h
        obtain ⟨o1, s1, h3, rfl, rfl⟩ := res_map h2
        exact both ((Kept'.of_same (keeps_evalAttrs _ h1)).trans (block_kept ih h3))
      | «attribute» name body =>
        obtain ⟨o1, t, ev, h1, _, _, rfl⟩ := res_gather h
        exact both (block_kept ih h1)
      | comment body =>
        obtain ⟨o1, t, ev, h1, _, _, rfl⟩ := res_gather h
        exact both (block_kept ih h1)
      | pi target body =>
        obtain ⟨o1, t, ev, h1, _, _, rfl⟩ := res_gather h
        exact both (block_kept ih h1)
      | copy body =>
        dsimp only at h
        split at h
        · obtain ⟨o1, s1, h3, rfl, rfl⟩ := res_map h
          exact both (block_kept ih h3)
        · exact both (block_kept ih h)
        · cases h; exact both .refl
      | copyOf e =>
        obtain ⟨v, c, h1, h2⟩ := res_withVal h
        have := Kept'.of_same ((keeps fuel).eval _ _ _ _ _ h1)
        cases v with
        | nodes l =>
          simp only [copyVal, copyNodes] at h2
          split at h2
          · cases h2; exact both this
          · cases h2
        | sc v =>
          simp only [copyVal, copyScalar] at h2
          split at h2
          · cases h2; exact both this
          · cases h2
      | ite e body =>
        obtain ⟨v, c, h1, h2⟩ := res_withVal h
        have := Kept'.of_same ((keeps fuel).eval _ _ _ _ _ h1)
        split at h2
        · exact both (this.trans (block_kept ih h2))
        · cases h2; exact both this
      | choose ws ot => exact both (ih.whens _ _ _ _ _ h)
      | forEach e sorts body =>
        obtain ⟨v, c, h1, h2⟩ := res_withVal h
        obtain ⟨o1, s1, h3, rfl, rfl⟩ := res_map h2
        have := Kept'.of_same (keeps_selectNodes h1)
        have g := ih.each _ _ _ _ _ _ h3
        exact both ⟨⟨this.1.ctx, rfl, g.2.2.1⟩, g.2.2.2⟩
      | apply e sorts mode ps =>
        obtain ⟨v, c, h1, h2⟩ := res_withVal h
        obtain ⟨v2, c2, h3, h4⟩ := res_withVal h2
        exact both (((Kept'.of_same (keeps_evalParams _ h1)).trans
          (.of_same (s := { s with ctx := c }) (keeps_selectNodes h3))).trans (ih.apply _ _ _ _ _ _ h4))
      | applyImports =>
        dsimp only at h
        split at h
        · cases h
        · obtain ⟨v, c, h1, h2⟩ := res_withVal h
          have := Kept'.of_same (keeps_selectImport h1)
          split at h2
          · obtain ⟨o1, s1, h3, rfl, rfl⟩ := res_map h2
            have g := ih.tmpl _ _ _ _ _ h3
            exact both ⟨⟨this.1.ctx.trans g.1.ctx, rfl, g.1.mode⟩, rfl⟩
          · exact both (this.trans (ih.builtin _ _ _ h2))
      | call name ps tail =>
        obtain ⟨v, c, h1, h2⟩ := res_withVal h
        have := Kept'.of_same (keeps_evalParams _ h1)
        split at h2
        · cases h2
          exact both ⟨⟨this.1.ctx, rfl, rfl⟩, rfl⟩
        · split at h2
          · cases h2
          · exact both (this.trans (ih.tmpl _ _ _ _ _ h2))
      | «variable» x e =>
        obtain ⟨v, c, h1, h2⟩ := res_withVal h
        cases h2
        exact ⟨⟨(keeps fuel).eval _ _ _ _ _ h1, rfl, rfl⟩, fun h => by cases h⟩
    · intro b s o s' h
      cases b with
      | nil => simp only [runAll] at h; cases h; exact ⟨.refl, fun _ => rfl⟩
      | cons i is =>
        rw [runAll] at h
        obtain ⟨o1, s1, o2, h1, h2, rfl⟩ := res_bind h
        have g1 := ih.run _ _ _ _ h1
        have g2 := ih.all _ _ _ _ h2
        exact ⟨g1.1.trans g2.1, fun hd => (g2.2 (declares_cons hd).2).trans (g1.2 (declares_cons hd).1)⟩
    · intro ws ot s o s' h
      cases ws with
      | nil =>
        cases ot with
        | none => simp only [runWhens] at h; cases h; exact .refl
        | some b => rw [runWhens] at h; exact block_kept ih h
      | cons w ws =>
        rw [runWhens] at h
        obtain ⟨v, c, h1, h2⟩ := res_withVal h
        have := Kept'.of_same ((keeps fuel).eval _ _ _ _ _ h1)
        split at h2
        · exact this.trans (block_kept ih h2)
        · exact this.trans (ih.whens _ _ _ _ _ h2)
    · intro b ns p s o s' h
      cases ns with
      | nil => simp only [runEach] at h; cases h; exact ⟨rfl, rfl, rfl, rfl⟩
      | cons n ns =>
        rw [runEach] at h
        obtain ⟨o1, s1, o2, h1, h2, rfl⟩ := res_bind h
        have g1 := block_kept ih h1
        have g2 := ih.each _ _ _ _ _ _ h2
        exact ⟨g2.1.trans g1.1.ctx.2.2, g2.2.1.trans g1.1.template, g2.2.2.1.trans g1.1.mode, g2.2.2.2.trans g1.2⟩
    · intro ns m g s o s' h
      rw [runApply] at h
      obtain ⟨o1, s1, h1, rfl, rfl⟩ := res_map h
      have g1 := ih.nodes _ _ _ _ _ _ h1
      exact ⟨⟨⟨rfl, rfl, rfl⟩, rfl, rfl⟩, g1.2.2⟩
    · intro ns p g s o s' h
      cases ns with
      | nil => simp only [runNodes] at h; cases h; exact ⟨rfl, rfl, rfl⟩
      | cons n ns =>
        rw [runNodes] at h
        obtain ⟨o1, s1, o2, h1, h2, rfl⟩ := res_bind h
        have g2 := ih.nodes _ _ _ _ _ _ h2
        suffices s1.ctx.size = s.ctx.size ∧ s1.mode = s.mode ∧ s1.vars = s.vars from
          ⟨g2.1.trans this.1, g2.2.1.trans this.2.1, g2.2.2.trans this.2.2⟩
        obtain ⟨v, c, h3, h4⟩ := res_withVal h1
        have k := keeps_select h3
        split at h4
        · obtain ⟨o3, s3, h5, rfl, rfl⟩ := res_map h4
          have g := ih.tmpl _ _ _ _ _ h5
          exact ⟨g.1.ctx.2.2.trans k.2.2, g.1.mode, rfl⟩
        · have g := ih.builtin _ _ _ h4
          exact ⟨g.1.ctx.2.2.trans k.2.2, g.1.mode, g.2⟩
    · intro s o s' h
      rw [runBuiltin] at h
      split at h
      · exact ih.apply _ _ _ _ _ _ h
      · exact ih.apply _ _ _ _ _ _ h
      · cases h; exact .refl
      · cases h; exact .refl
      · cases h; exact .refl
    · intro i g s o s' h
      rw [runTmpl] at h
      split at h
      · cases h
      · split at h
        · rename_i hp
          have := ih.loop _ _ _ _ _ h
          exact ⟨this.1, this.2 hp⟩
        · obtain ⟨o1, s1, h1, rfl, rfl⟩ := res_map h
          have := (ih.loop _ _ _ _ _ h1).1
          exact ⟨⟨this.ctx, this.template, this.mode⟩, rfl⟩
    · intro t g s o s' h
      rw [runLoop] at h
      obtain ⟨o1, s1, o2, h1, h2, rfl⟩ := res_bind h
      obtain ⟨o3, s3, o4, h3, h4, rfl⟩ := res_bind h1
      obtain ⟨k1, _, _, k2⟩ := keeps_bindParams _ h3
      have k3 : Kept s3 s1 ∧ (t.params = [] → s1.vars = s3.vars) := by
        split at h4
        · have := block_kept ih h4
          exact ⟨this.1, fun _ => this.2⟩
        · rename_i hp
          exact ⟨(ih.all _ _ _ _ h4).1, fun h => absurd h hp⟩
      have k0 : Kept s s1 ∧ (t.params = [] → s1.vars = s.vars) :=
        ⟨(Kept.trans ⟨k1.ctx, k1.template, k1.mode⟩ k3.1), fun hp => (k3.2 hp).trans (by rw [k2 hp])⟩
      split at h2
      · cases h2; exact k0
      · have := ih.loop _ _ _ _ _ h2
        exact ⟨k0.1.trans this.1, fun hp => (this.2 hp).trans (k0.2 hp)⟩

end Verif.Xslt
