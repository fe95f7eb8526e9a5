import Verif.Xslt.InstKeeps
import Verif.Xslt.InstSpec

/-
The output is well nested.
-/
namespace Verif.Xslt
open Verif Verif.XPath Verif.Dom Verif.Dom.Spec Verif.Eval Verif.Eval.Spec Verif.Template Verif.Xslt.Spec

variable {d : Doc} {sh : Sheet}

theorem Spec.Nested.append {a b : List Event} (h1 : Nested a) (h2 : Nested b) : Nested (a ++ b) := by
  induction h1 with
  | nil => exact h2
  | leaf h1 h2 _ ih => exact .leaf h1 h2 ih
  | @element n s _ _ h _ _ ih2 =>
    have := Nested.element (n := n) (s := s) h ih2
    simpa using this

theorem Spec.Nested.wrap {n : Name} {s : Option Nat} {a : List Event} (h : Nested a) :
    Nested (.start n s :: a ++ [.finish]) := .element h .nil

theorem nested_attrs {es : List Event} (h : ∀ e ∈ es, ∃ n v, e = .attr n v) : Nested es := by
  induction es with
  | nil => exact .nil
  | cons e es ih =>
    obtain ⟨n, v, rfl⟩ := h e (by simp)
    exact .leaf nofun nofun (ih fun e he => h e (by simp [he]))

theorem nested_writeText {s : Str} : Nested (writeText s) := by
  unfold writeText
  split
  · exact .nil
  · exact .leaf nofun nofun .nil

theorem nested_evalAttrs {fuel : Nat} (as : List (Name × List AvtPart)) {vs : Vars} {c c' : Ctx} {es : List Event}
    (h : evalAttrs d fuel as vs c = .ok es c') : Nested es := by
  refine nested_attrs ?_
  induction as generalizing c es with
  | nil => cases h; simp
  | cons a as ih =>
    rw [evalAttrs] at h
    obtain ⟨v, c1, h1, h2⟩ := bind_ok h
    obtain ⟨r, c2, h3, h4⟩ := bind_ok h2
    cases h4
    intro e he
    rcases List.mem_cons.1 he with rfl | he
    · exact ⟨_, _, rfl⟩
    · exact ih h3 e he

theorem nested_copy (fuel : Nat) :
    (∀ n o, copyNode d fuel n = some o → Nested o) ∧ ∀ l o, copyNode.all d fuel l = some o → Nested o := by
  have step : ∀ fuel, (∀ n o, copyNode d fuel n = some o → Nested o) →
      ∀ l o, copyNode.all d fuel l = some o → Nested o := by
    intro fuel hn l
    induction l with
    | nil => intro o h; rw [copyNode.all] at h; cases h; exact .nil
    | cons x l ih =>
      intro o h
      rw [copyNode.all] at h
      split at h
      · rename_i a b ha hb
        cases h
        exact (hn x a ha).append (ih b hb)
      · cases h
  induction fuel with
  | zero =>
    have : ∀ n o, copyNode d 0 n = some o → Nested o := by intro n o h; simp [copyNode] at h
    exact ⟨this, step 0 this⟩
  | succ fuel ih =>
    have : ∀ n o, copyNode d (fuel + 1) n = some o → Nested o := by
      intro n o h
      rw [copyNode] at h
      split at h
      · split at h
        · rename_i c hc
          cases h
          have := Nested.element (n := d.name n) (s := some n)
            ((nested_attrs (es := (d.attrs n).map fun a => Event.attr (d.name a) (d.val a)) (by
              intro e he
              obtain ⟨a, _, rfl⟩ := List.mem_map.1 he
              exact ⟨_, _, rfl⟩)).append (ih.2 _ _ hc)) .nil
          simpa using this
        · cases h
      all_goals first
        | exact ih.2 _ _ h
        | (cases h; exact .leaf nofun nofun .nil)
    exact ⟨this, step _ this⟩

structure NestAt (d : Doc) (sh : Sheet) (fuel : Nat) : Prop where
  run : ∀ i s o s', run d sh fuel i s = .ok o s' → Nested o
  all : ∀ b s o s', runAll d sh fuel b s = .ok o s' → Nested o
  whens : ∀ ws ot s o s', runWhens d sh fuel ws ot s = .ok o s' → Nested o
  each : ∀ b ns p s o s', runEach d sh fuel b ns p s = .ok o s' → Nested o
  apply : ∀ ns m g s o s', runApply d sh fuel ns m g s = .ok o s' → Nested o
  nodes : ∀ ns p g s o s', runNodes d sh fuel ns p g s = .ok o s' → Nested o
  builtin : ∀ s o s', runBuiltin d sh fuel s = .ok o s' → Nested o
  tmpl : ∀ i g s o s', runTmpl d sh fuel i g s = .ok o s' → Nested o
  loop : ∀ t g s o s', runLoop d sh fuel t g s = .ok o s' → Nested o

theorem block_nest {fuel : Nat} (ih : NestAt d sh fuel) {b : List Instr} {s s' : St} {o : List Event}
    (h : block (runAll d sh fuel) b s = .ok o s') : Nested o := by
  unfold block at h
  split at h
  · obtain ⟨o1, s1, h1, rfl, rfl⟩ := res_map h
    exact ih.all _ _ _ _ h1
  · exact ih.all _ _ _ _ h

theorem nest (fuel : Nat) : NestAt d sh fuel := by
  induction fuel with
  | zero =>
    refine ⟨?_, ?_, ?_, ?_, ?_, ?_, ?_, ?_, ?_⟩
    · intro _ _ _ _ h; simp [run] at h
    · intro _ _ _ _ h; simp [runAll] at h
    · intro _ _ _ _ _ h; simp [runWhens] at h
    · intro _ _ _ _ _ _ h; simp [runEach] at h
    · intro _ _ _ _ _ _ h; simp [runApply] at h
    · intro _ _ _ _ _ _ h; simp [runNodes] at h
    · intro _ _ _ h; simp [runBuiltin] at h
    · intro _ _ _ _ _ h; simp [runTmpl] at h
    · intro _ _ _ _ _ h; simp [runLoop] at h
  | succ fuel ih =>
    refine ⟨?_, ?_, ?_, ?_, ?_, ?_, ?_, ?_, ?_⟩
    · intro i s o s' h
      rw [run.eq_def] at h
      dsimp only at h
      cases i with
      | text t => cases h; exact nested_writeText
      | valueOf e =>
        obtain ⟨v, c, h1, h2⟩ := res_withVal h
        cases h2; exact nested_writeText
      | valueOfCurrent => cases h; exact nested_writeText
      | lit name attrs b =>
        obtain ⟨v, c, h1, h2⟩ := res_withVal h
        obtain ⟨o1, s1, h3, rfl, rfl⟩ := res_map h2
        have := Nested.wrap (n := name) (s := none) ((nested_evalAttrs _ h1).append (block_nest ih h3))
        simpa using this
      | «attribute» name b =>
        obtain ⟨o1, t, ev, h1, _, he, rfl⟩ := res_gather h
        cases he
        exact .leaf nofun nofun .nil
      | comment b =>
        obtain ⟨o1, t, ev, h1, _, he, rfl⟩ := res_gather h
        cases he
        exact .leaf nofun nofun .nil
      | pi target b =>
        obtain ⟨o1, t, ev, h1, _, he, rfl⟩ := res_gather h
        cases hp : piData t with
        | error e => rw [hp] at he; cases he
        | ok x => rw [hp] at he; cases he; exact .leaf nofun nofun .nil
      | copy b =>
        dsimp only at h
        split at h
        · obtain ⟨o1, s1, h3, rfl, rfl⟩ := res_map h
          exact (block_nest ih h3).wrap
        · exact block_nest ih h
        · cases h
          unfold copyLeaf
          split <;> first | exact .nil | exact .leaf nofun nofun .nil
      | copyOf e =>
        obtain ⟨v, c, h1, h2⟩ := res_withVal h
        cases v with
        | nodes l =>
          simp only [copyVal, copyNodes] at h2
          split at h2
          · rename_i hc
            cases h2
            exact (nested_copy fuel).2 _ _ hc
          · cases h2
        | sc v =>
          simp only [copyVal, copyScalar] at h2
          split at h2
          · cases h2; exact .leaf nofun nofun .nil
          · cases h2
      | ite e b =>
        obtain ⟨v, c, h1, h2⟩ := res_withVal h
        split at h2
        · exact block_nest ih h2
        · cases h2; exact .nil
      | choose ws o => exact ih.whens _ _ _ _ _ h
      | forEach e sorts b =>
        obtain ⟨v, c, h1, h2⟩ := res_withVal h
        obtain ⟨o1, s1, h3, rfl, rfl⟩ := res_map h2
        exact ih.each _ _ _ _ _ _ h3
      | apply e sorts mode ps =>
        obtain ⟨v, c, h1, h2⟩ := res_withVal h
        obtain ⟨v2, c2, h3, h4⟩ := res_withVal h2
        exact ih.apply _ _ _ _ _ _ h4
      | applyImports =>
        dsimp only at h
        split at h
        · cases h
        · obtain ⟨v, c, h1, h2⟩ := res_withVal h
          split at h2
          · obtain ⟨o1, s1, h3, rfl, rfl⟩ := res_map h2
            exact ih.tmpl _ _ _ _ _ h3
          · exact ih.builtin _ _ _ h2
      | call name ps tail =>
        obtain ⟨v, c, h1, h2⟩ := res_withVal h
        split at h2
        · cases h2; exact .nil
        · split at h2
          · cases h2
          · exact ih.tmpl _ _ _ _ _ h2
      | «variable» x e =>
        obtain ⟨v, c, h1, h2⟩ := res_withVal h
        cases h2; exact .nil
    · intro b s o s' h
      cases b with
      | nil => simp only [runAll] at h; cases h; exact .nil
      | cons i b =>
        rw [runAll] at h
        obtain ⟨o1, s1, o2, h1, h2, rfl⟩ := res_bind h
        exact (ih.run _ _ _ _ h1).append (ih.all _ _ _ _ h2)
    · intro ws ot s o s' h
      cases ws with
      | nil =>
        cases ot with
        | none => simp only [runWhens] at h; cases h; exact .nil
        | some b => rw [runWhens] at h; exact block_nest ih h
      | cons w ws =>
        rw [runWhens] at h
        obtain ⟨v, c, h1, h2⟩ := res_withVal h
        split at h2
        · exact block_nest ih h2
        · exact ih.whens _ _ _ _ _ h2
    · intro b ns p s o s' h
      cases ns with
      | nil => simp only [runEach] at h; cases h; exact .nil
      | cons n ns =>
        rw [runEach] at h
        obtain ⟨o1, s1, o2, h1, h2, rfl⟩ := res_bind h
        exact (block_nest ih h1).append (ih.each _ _ _ _ _ _ h2)
    · intro ns m g s o s' h
      rw [runApply] at h
      obtain ⟨o1, s1, h1, rfl, rfl⟩ := res_map h
      exact ih.nodes _ _ _ _ _ _ h1
    · intro ns p g s o s' h
      cases ns with
      | nil => simp only [runNodes] at h; cases h; exact .nil
      | cons n ns =>
        rw [runNodes] at h
        obtain ⟨o1, s1, o2, h1, h2, rfl⟩ := res_bind h
        refine Nested.append ?_ (ih.nodes _ _ _ _ _ _ h2)
        obtain ⟨v, c, h3, h4⟩ := res_withVal h1
        split at h4
        · obtain ⟨o3, s3, h5, rfl, rfl⟩ := res_map h4
          exact ih.tmpl _ _ _ _ _ h5
        · exact ih.builtin _ _ _ h4
    · intro s o s' h
      rw [runBuiltin] at h
      split at h
      · exact ih.apply _ _ _ _ _ _ h
      · exact ih.apply _ _ _ _ _ _ h
      · cases h; exact .leaf nofun nofun .nil
      · cases h; exact .leaf nofun nofun .nil
      · cases h; exact .nil
    · intro i g s o s' h
      rw [runTmpl] at h
      split at h
      · cases h
      · split at h
        · exact ih.loop _ _ _ _ _ h
        · obtain ⟨o1, s1, h1, rfl, rfl⟩ := res_map h
          exact ih.loop _ _ _ _ _ h1
    · intro t g s o s' h
      rw [runLoop] at h
      obtain ⟨o1, s1, o2, h1, h2, rfl⟩ := res_bind h
      obtain ⟨o3, s3, o4, h3, h4, rfl⟩ := res_bind h1
      rw [(keeps_bindParams _ h3).2.2.1]
      refine Nested.append (Nested.append .nil ?_) ?_
      · split at h4
        · exact block_nest ih h4
        · exact ih.all _ _ _ _ h4
      · split at h2
        · cases h2; exact .nil
        · exact ih.loop _ _ _ _ _ h2

end Verif.Xslt
