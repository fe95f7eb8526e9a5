import Verif.Xslt.InstKeeps

/-
More fuel does not change a result.
-/
namespace Verif.Xslt
open Verif Verif.XPath Verif.Dom Verif.Dom.Spec Verif.Eval Verif.Eval.Spec Verif.Template
open Verif.Template.Spec (RuntimeOk)

variable {d : Doc} {sh : Sheet}

def LeR (x y : Res) : Prop := x = .stuck ∨ x = y

theorem LeR.refl {x : Res} : LeR x x := .inr rfl

theorem LeR.bind {x y : Res} {j k : St → Res} (h : LeR x y) (hk : ∀ s, LeR (j s) (k s)) : LeR (x.bind j) (y.bind k) := by
  rcases h with rfl | rfl
  · exact .inl rfl
  · cases x with
    | stuck => exact .inl rfl
    | raise e => exact .inr rfl
    | ok o s =>
      simp only [Res.bind]
      rcases hk s with h | h
      · rw [h]; exact .inl rfl
      · rw [h]; exact .refl

theorem LeR.map {x y : Res} {f : List Event → List Event} {g : St → St} (h : LeR x y) :
    LeR (x.map f g) (y.map f g) := by
  rcases h with rfl | rfl
  · exact .inl rfl
  · exact .refl

theorem LeR.gather {x y : Res} {f : Str → Except XErr Event} (h : LeR x y) : LeR (gather f x) (gather f y) := by
  rcases h with rfl | rfl
  · exact .inl rfl
  · exact .refl

theorem LeR.withVal {α : Type} {x y : Out α} {s : St} {j k : α → St → Res} (h : Le x y)
    (hk : ∀ v s, LeR (j v s) (k v s)) : LeR (withVal x s j) (withVal y s k) := by
  rcases h with rfl | rfl
  · exact .inl rfl
  · cases x with
    | stuck => exact .inl rfl
    | raise e => exact .inr rfl
    | ok v c => exact hk v _

theorem LeR.block {j k : List Instr → St → Res} (h : ∀ b s, LeR (j b s) (k b s)) (b : List Instr) (s : St) :
    LeR (block j b s) (block k b s) := by
  unfold Xslt.block
  split
  · exact (h b s).map
  · exact h b s

theorem evalX_mono (fuel : Nat) (m : Mode) (e : XExpr) (s : St) : Le (evalX d fuel m e s) (evalX d (fuel + 1) m e s) :=
  eval_mono _ _ _ fuel

theorem evalParams_mono (ps : List (Name × XExpr)) (vs : Vars) (c : Ctx) : Mono fun k => evalParams d k ps vs c := by
  induction ps generalizing c with
  | nil => exact mono_const
  | cons p ps ih =>
    simp only [evalParams]
    exact (eval_mono _ _ _).bind fun v c => (ih c).bind fun _ _ => mono_const

theorem evalAvt_mono (ps : List AvtPart) (vs : Vars) (c : Ctx) : Mono fun k => evalAvt d k ps vs c := by
  induction ps generalizing c with
  | nil => exact mono_const
  | cons p ps ih =>
    cases p with
    | text s =>
      simp only [evalAvt]
      exact (ih c).bind fun _ _ => mono_const
    | expr e =>
      simp only [evalAvt]
      exact (eval_mono _ _ _).bind fun v c => (ih c).bind fun _ _ => mono_const

theorem evalAttrs_mono (as : List (Name × List AvtPart)) (vs : Vars) (c : Ctx) :
    Mono fun k => evalAttrs d k as vs c := by
  induction as generalizing c with
  | nil => exact mono_const
  | cons p ps ih =>
    simp only [evalAttrs]
    exact (evalAvt_mono _ _ _).bind fun v c => (ih c).bind fun _ _ => mono_const

theorem selectNodes_mono (w : WF d.h) (e : Option XExpr) (sorts : List XSort) (s : St) :
    Mono fun k => selectNodes d k sh e sorts s := by
  unfold selectNodes
  split
  · exact (sortInput_halts w _ _).2
  · simp only [sortedNodes]
    exact (sortInput_halts w _ _).2.bind fun v c => ((decorate_halts w _ _ _ _).2).bind fun _ _ => mono_const

theorem select_mono (w : WF d.h) {rt : Runtime} {ts : List Tmpl} (hr : RuntimeOk rt d ts) (mode : Option Name) (n : Nat)
    (c : Ctx) : Mono fun k => select d k rt ts mode n c := by
  unfold select
  cases hl : rulesFor d rt ts mode n with
  | error e => exact mono_const
  | ok l =>
    exact (findRule_halts w (l := l) (by
      intro i hi
      obtain ⟨t, p, hp, _⟩ := (rulesFor_right hr hl).2.1 i hi
      exact ⟨p, hp.steps⟩) n c).2

theorem misspelt_mono {α : Type} {F : Nat → Out α} (h : Mono F) : Mono fun k => misspelt (F k) := by
  intro k
  rcases h k with h | h
  · left; simp only [h]; rfl
  · right; simp only [h]

theorem findImport_mono (w : WF d.h) (below : Nat) {l : List Info} (hl : ∀ i ∈ l, ∃ p, compilePat d p = .ok i.steps)
    (n : Nat) (c : Ctx) : Mono fun k => findImport d k below l n c := by
  induction l generalizing c with
  | nil => exact mono_const
  | cons i l ih =>
    obtain ⟨p, hp⟩ := hl i (by simp)
    have ih' := fun c => ih (fun i h => hl i (by simp [h])) c
    simp only [findImport]
    split
    · refine Mono.bind (misspelt_mono (matchSteps_halts w hp n c).2) fun b c => ?_
      cases b
      · exact ih' c
      · exact mono_const
    · exact ih' c

theorem selectImport_mono (w : WF d.h) {rt : Runtime} {ts : List Tmpl} (hr : RuntimeOk rt d ts) (mode : Option Name)
    (below n : Nat) (c : Ctx) : Mono fun k => selectImport d k rt ts mode below n c := by
  unfold selectImport
  cases hl : rulesFor d rt ts mode n with
  | error e => exact mono_const
  | ok l =>
    exact findImport_mono w below (l := l) (by
      intro i hi
      obtain ⟨t, p, hp, _⟩ := (rulesFor_right hr hl).2.1 i hi
      exact ⟨p, hp.steps⟩) n c

theorem copy_mono (fuel : Nat) :
    (∀ n o, copyNode d fuel n = some o → copyNode d (fuel + 1) n = some o) ∧
    (∀ l o, copyNode.all d fuel l = some o → copyNode.all d (fuel + 1) l = some o) := by
  have step : ∀ fuel, (∀ n o, copyNode d fuel n = some o → copyNode d (fuel + 1) n = some o) →
      ∀ l o, copyNode.all d fuel l = some o → copyNode.all d (fuel + 1) l = some o := by
    intro fuel h l
    induction l with
    | nil => intro o h; simpa [copyNode.all] using h
    | cons n l ih =>
      intro o ho
      rw [copyNode.all] at ho ⊢
      split at ho
      · rename_i a b ha hb
        rw [h _ _ ha, ih _ hb]
        exact ho
      · cases ho
  induction fuel with
  | zero =>
    have : ∀ n o, copyNode d 0 n = some o → copyNode d (0 + 1) n = some o := by
      intro n o h; simp [copyNode] at h
    exact ⟨this, step _ this⟩
  | succ fuel ih =>
    have : ∀ n o, copyNode d (fuel + 1) n = some o → copyNode d (fuel + 1 + 1) n = some o := by
      intro n o h
      rw [copyNode] at h ⊢
      split at h
      · split at h
        · rename_i content hc
          rw [ih.2 _ _ hc]
          exact h
        · cases h
      all_goals first | exact h | exact ih.2 _ _ h
    exact ⟨this, step _ this⟩

theorem copyVal_mono (fuel : Nat) (v : EVal) (s : St) : LeR (copyVal d fuel v s) (copyVal d (fuel + 1) v s) := by
  cases v with
  | sc v => exact .refl
  | nodes l =>
    simp only [copyVal, copyNodes]
    cases h : copyNode.all d fuel l with
    | none => exact .inl rfl
    | some o => rw [(copy_mono fuel).2 _ _ h]; exact .refl

theorem bindParams_mono (fuel : Nat) (given : Vars) (ps : List (Name × XExpr)) (s : St) :
    LeR (bindParams d fuel given ps s) (bindParams d (fuel + 1) given ps s) := by
  induction ps generalizing s with
  | nil => exact .refl
  | cons p ps ih =>
    refine LeR.bind ?_ ih
    unfold bindParam
    split
    · exact .refl
    · exact .withVal (evalX_mono _ _ _ _) fun _ _ => .refl

structure MonoRun (d : Doc) (sh : Sheet) (fuel : Nat) : Prop where
  run : ∀ i s, LeR (run d sh fuel i s) (run d sh (fuel + 1) i s)
  all : ∀ b s, LeR (runAll d sh fuel b s) (runAll d sh (fuel + 1) b s)
  whens : ∀ ws o s, LeR (runWhens d sh fuel ws o s) (runWhens d sh (fuel + 1) ws o s)
  each : ∀ b ns p s, LeR (runEach d sh fuel b ns p s) (runEach d sh (fuel + 1) b ns p s)
  apply : ∀ ns m g s, LeR (runApply d sh fuel ns m g s) (runApply d sh (fuel + 1) ns m g s)
  nodes : ∀ ns p g s, LeR (runNodes d sh fuel ns p g s) (runNodes d sh (fuel + 1) ns p g s)
  builtin : ∀ s, LeR (runBuiltin d sh fuel s) (runBuiltin d sh (fuel + 1) s)
  tmpl : ∀ i g s, LeR (runTmpl d sh fuel i g s) (runTmpl d sh (fuel + 1) i g s)
  loop : ∀ t g s, LeR (runLoop d sh fuel t g s) (runLoop d sh (fuel + 1) t g s)

theorem monoRun (w : WF d.h) (hr : RuntimeOk sh.rt d sh.rules) (fuel : Nat) : MonoRun d sh fuel := by
  induction fuel with
  | zero =>
    refine ⟨?_, ?_, ?_, ?_, ?_, ?_, ?_, ?_, ?_⟩
    · intro i s; exact .inl (by rw [run])
    · intro b s; exact .inl (by rw [runAll])
    · intro ws o s; exact .inl (by rw [runWhens])
    · intro b ns p s; exact .inl (by rw [runEach])
    · intro ns m g s; exact .inl (by rw [runApply])
    · intro ns p g s; exact .inl (by rw [runNodes])
    · intro s; exact .inl (by rw [runBuiltin])
    · intro i g s; exact .inl (by rw [runTmpl])
    · intro t g s; exact .inl (by rw [runLoop])
  | succ fuel ih =>
    refine ⟨?_, ?_, ?_, ?_, ?_, ?_, ?_, ?_, ?_⟩
    · intro i s
      rw [run.eq_def, run.eq_def d sh (fuel + 1 + 1)]
      dsimp only
      cases i with
      | text t => exact .refl
      | valueOf e => exact .withVal (evalX_mono _ _ _ _) fun _ _ => .refl
      | valueOfCurrent => exact .refl
      | lit name attrs body =>
        exact .withVal (evalAttrs_mono _ _ _ fuel) fun _ s => (LeR.block ih.all _ s).map
      | «attribute» name body => exact (LeR.block ih.all _ s).gather
      | comment body => exact (LeR.block ih.all _ s).gather
      | pi target body => exact (LeR.block ih.all _ s).gather
      | copy body =>
        dsimp only
        split
        · exact (LeR.block ih.all _ s).map
        · exact LeR.block ih.all _ s
        · exact .refl
      | copyOf e => exact .withVal (evalX_mono _ _ _ _) fun v s => copyVal_mono fuel v s
      | ite e body =>
        refine .withVal (evalX_mono _ _ _ _) fun v s => ?_
        split
        · exact LeR.block ih.all _ s
        · exact .refl
      | choose ws o => exact ih.whens _ _ _
      | forEach e sorts body => exact .withVal (selectNodes_mono w _ _ _ fuel) fun v s => (ih.each _ _ _ _).map
      | apply e sorts mode ps =>
        exact .withVal (evalParams_mono _ _ _ fuel) fun g s =>
          .withVal (selectNodes_mono w _ _ _ fuel) fun v s => ih.apply _ _ _ _
      | applyImports =>
        dsimp only
        split
        · exact .refl
        · refine .withVal (selectImport_mono w hr _ _ _ _ fuel) fun v s => ?_
          split
          · exact (ih.tmpl _ _ _).map
          · exact ih.builtin _
      | call name ps tail =>
        refine .withVal (evalParams_mono _ _ _ fuel) fun g s => ?_
        split
        · exact .refl
        · split
          · exact .refl
          · exact ih.tmpl _ _ _
      | «variable» x e => exact .withVal (evalX_mono _ _ _ _) fun _ _ => .refl
    · intro b s
      cases b with
      | nil => simp only [runAll]; exact .refl
      | cons i is => rw [runAll, runAll]; exact (ih.run _ _).bind fun s => ih.all _ _
    · intro ws o s
      cases ws with
      | nil =>
        cases o with
        | none => simp only [runWhens]; exact .refl
        | some b => rw [runWhens, runWhens]; exact LeR.block ih.all _ s
      | cons x ws =>
        rw [runWhens, runWhens]
        refine .withVal (evalX_mono _ _ _ _) fun v s => ?_
        split
        · exact LeR.block ih.all _ s
        · exact ih.whens _ _ _
    · intro b ns p s
      cases ns with
      | nil => simp only [runEach]; exact .refl
      | cons n ns => rw [runEach, runEach]; exact (LeR.block ih.all _ _).bind fun s => ih.each _ _ _ _
    · intro ns m g s
      rw [runApply, runApply]
      exact (ih.nodes _ _ _ _).map
    · intro ns p g s
      cases ns with
      | nil => simp only [runNodes]; exact .refl
      | cons n ns =>
        rw [runNodes, runNodes]
        refine LeR.bind (.withVal (select_mono w hr _ _ _ fuel) fun v s => ?_) fun s => ih.nodes _ _ _ _
        split
        · exact (ih.tmpl _ _ _).map
        · exact ih.builtin _
    · intro s
      rw [runBuiltin, runBuiltin]
      split
      · exact ih.apply _ _ _ _
      · exact ih.apply _ _ _ _
      · exact .refl
      · exact .refl
      · exact .refl
    · intro i g s
      rw [runTmpl, runTmpl]
      split
      · exact .refl
      · split
        · exact ih.loop _ _ _
        · exact (ih.loop _ _ _).map
    · intro t g s
      rw [runLoop, runLoop]
      refine LeR.bind (LeR.bind (bindParams_mono _ _ _ _) fun s => ?_) fun s => ?_
      · split
        · exact LeR.block ih.all _ s
        · exact ih.all _ _
      · split
        · exact .refl
        · exact ih.loop _ _ _

end Verif.Xslt
