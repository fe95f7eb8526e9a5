import Verif.Eval.Model

/-
More fuel does not change a result: the fuel only bounds the search for it.
-/
namespace Verif.Eval
open Verif Verif.XPath Verif.Dom

variable {d : Doc}

/-- Not finished, or the same. -/
def Le {α : Type} (a b : Out α) : Prop := a = .stuck ∨ a = b

theorem Le.refl {α : Type} {a : Out α} : Le a a := .inr rfl

theorem Le.stuck {α : Type} {b : Out α} : Le .stuck b := .inl rfl

theorem Le.bind {α β : Type} {a b : Out α} {k k' : α → Ctx → Out β} (h : Le a b)
    (hk : ∀ x c, Le (k x c) (k' x c)) : Le (a.bind k) (b.bind k') := by
  rcases h with rfl | rfl
  · exact .inl rfl
  · cases a with
    | stuck => exact .inl rfl
    | raise e => exact .refl
    | ok x c => exact hk x c

theorem collect_mono {σ : Type} {step : σ → Dom.Step σ} {fuel : Nat} {s : σ} {x : Except Err (List Nat)}
    (h : collect step fuel s = some x) : collect step (fuel + 1) s = some x := by
  induction fuel generalizing s x with
  | zero => simp [collect] at h
  | succ fuel ih =>
    rw [collect] at h ⊢
    cases hs : step s with
    | done => rw [hs] at h; exact h
    | raise e => rw [hs] at h; exact h
    | tau s' => rw [hs] at h; exact ih h
    | yield n s' =>
      rw [hs] at h
      simp only at h ⊢
      cases hc : collect step fuel s' with
      | none => rw [hc] at h; cases h
      | some y => rw [ih hc]; rw [hc] at h; exact h

theorem axisNodes_mono {fuel n : Nat} {ax : LAxis} {x : Except Err (List Nat)}
    (h : axisNodes d fuel n ax = some x) : axisNodes d (fuel + 1) n ax = some x := by
  cases ax with
  | attr => exact h
  | namespaces => exact h
  | tree a =>
    cases a
    case precedingSibling =>
      simp only [axisNodes] at h ⊢
      cases hp : Dom.precedingSibling d.h n with
      | ok s => rw [hp] at h; exact collect_mono h
      | error e => rw [hp] at h; exact h
    all_goals exact collect_mono h

/-- For each function of the evaluator. -/
structure MonoAt (d : Doc) (fuel : Nat) : Prop where
  next : ∀ it c, Le (next d fuel it c) (next d (fuel + 1) it c)
  drain : ∀ it c, Le (drain d fuel it c) (drain d (fuel + 1) it c)
  start : ∀ ss it c, Le (start d fuel ss it c) (start d (fuel + 1) ss it c)
  slice : ∀ p v it c, Le (sliceLoop d fuel p v it c) (sliceLoop d (fuel + 1) p v it c)
  iterable : ∀ e n c, Le (iterable d fuel e n c) (iterable d (fuel + 1) e n c)
  iterables : ∀ es n c, Le (iterables d fuel es n c) (iterables d (fuel + 1) es n c)
  drainAll : ∀ its c, Le (drainAll d fuel its c) (drainAll d (fuel + 1) its c)
  eval : ∀ m e c, Le (eval d fuel m e c) (eval d (fuel + 1) m e c)
  args : ∀ as c, Le (evalArgs d fuel as c) (evalArgs d (fuel + 1) as c)
  any : ∀ es c, Le (evalAny d fuel es c) (evalAny d (fuel + 1) es c)

theorem mono_next {fuel : Nat} (ih : MonoAt d fuel) (it : Iter) (c : Ctx) :
    Le (next d (fuel + 1) it c) (next d (fuel + 1 + 1) it c) := by
  cases it with
  | list l => cases l <;> exact .refl
  | filter p t it =>
    rw [next.eq_4, next.eq_4]
    refine (ih.next it c).bind fun x c => ?_
    obtain ⟨o, it⟩ := x
    cases o with
    | none => exact .refl
    | some n => dsimp only; split; exact .refl; exact ih.next _ _
  | pos k it =>
    rw [next.eq_5, next.eq_5]
    refine (ih.next it c).bind fun x c => ?_
    obtain ⟨o, it⟩ := x
    cases o with
    | none => exact .refl
    | some n => dsimp only; split; exact .refl; exact ih.next _ _
  | gen s p it =>
    cases p with
    | none =>
      rw [next.eq_6, next.eq_6]
      split
      · exact (ih.drain it c).bind fun l c => ih.next _ _
      · exact ih.next _ _
    | some p =>
      rw [next.eq_7, next.eq_7]
      refine (ih.next it c).bind fun x c => ?_
      obtain ⟨o, it⟩ := x
      cases o with
      | none => exact .refl
      | some n =>
        dsimp only
        cases s.test with
        | none => exact .refl
        | some t =>
          obtain ⟨m, e, keep⟩ := t
          refine (ih.eval m e _).bind fun v c => ?_
          split; exact .refl; exact ih.next _ _
  | stepCur s ctxs cur =>
    rw [next.eq_8, next.eq_8]
    refine (ih.next cur c).bind fun x c => ?_
    obtain ⟨o, it⟩ := x
    cases o with
    | none => exact ih.next _ _
    | some n => exact .refl
  | step s ctxs =>
    rw [next.eq_9, next.eq_9]
    refine (ih.next ctxs c).bind fun x c => ?_
    obtain ⟨o, it⟩ := x
    cases o with
    | none => exact .refl
    | some n =>
      dsimp only
      cases ha : axisNodes d fuel n s.axis with
      | none => exact .stuck
      | some x =>
        rw [axisNodes_mono ha]
        cases x with
        | error e => exact .refl
        | ok l =>
          refine (ih.start _ _ _).bind fun it c => ?_
          split
          · exact (ih.drain _ _).bind fun l c => ih.next _ _
          · exact ih.next _ _

theorem mono (fuel : Nat) : MonoAt d fuel := by
  induction fuel with
  | zero =>
    constructor <;> intros <;> exact .inl (by simp only [next, drain, start, sliceLoop, iterable, iterables,
      drainAll, eval, evalArgs, evalAny])
  | succ fuel ih =>
    refine ⟨mono_next ih, ?_, ?_, ?_, ?_, ?_, ?_, ?_, ?_, ?_⟩
    · intro it c
      rw [drain, drain]
      refine (ih.next it c).bind fun x c => ?_
      obtain ⟨o, it⟩ := x
      cases o with
      | none => exact .refl
      | some n => exact (ih.drain it c).bind fun l c => .refl
    · intro ss it c
      cases ss with
      | nil => exact .refl
      | cons s ss =>
        cases s with
        | pos k => exact ih.start _ _ _
        | never => exact .refl
        | slice gt e =>
          simp only [start]
          refine (ih.eval _ _ _).bind fun v c => ?_
          split
          all_goals
            split
            · exact ih.start _ _ _
            · exact (ih.slice _ _ _ _).bind fun it c => ih.start _ _ _
        | number b e => exact ih.start _ _ _
        | boolean e => exact ih.start _ _ _
        | generic e => exact ih.start _ _ _
    · intro p v it c
      rw [sliceLoop, sliceLoop]
      refine (ih.next it c).bind fun x c => ?_
      obtain ⟨o, it⟩ := x
      cases o with
      | none => exact .refl
      | some n => dsimp only; split; exact .refl; exact ih.slice _ _ _ _
    · intro e n c
      cases e with
      | lit b s => exact .refl
      | var v => cases v <;> exact .refl
      | position => exact .refl
      | last => exact .refl
      | fn ty f args => exact .refl
      | and l r => exact .refl
      | or l r => exact .refl
      | cmp op l r => exact .refl
      | path ab steps => exact .refl
      | union es =>
        exact (ih.iterables es n c).bind fun its c => (ih.drainAll its c).bind fun l c => .refl
      | filter e preds =>
        simp only [iterable]
        refine (ih.eval _ _ _).bind fun v c => ?_
        cases v with
        | sc s => exact .refl
        | nodes l =>
          dsimp only
          cases mkSels d preds with
          | error e => exact .refl
          | ok sels => exact ih.start _ _ _
      | pathFrom e steps =>
        simp only [iterable]
        split
        · exact (ih.iterable e n c).bind fun it c => .refl
        · exact (ih.eval _ _ _).bind fun v c => .refl
    · intro es n c
      cases es with
      | nil => exact .refl
      | cons e es => exact (ih.iterable e n c).bind fun it c => (ih.iterables es n c).bind fun its c => .refl
    · intro its c
      cases its with
      | nil => exact .refl
      | cons it its => exact (ih.drainAll its c).bind fun l c => (ih.drain it c).bind fun m c => .refl
    · intro m e c
      have nodeset : ∀ e, Le
          (restore c ((iterable d fuel e c.node c).bind fun it c => match m with
            | .any | .nodes => (drain d fuel it c).bind fun l c => .ok (.nodes (sortNodes d l)) c
            | .bool => (next d fuel it c).bind fun r c => .ok (.sc (.bool r.1.isSome)) c
            | .num => (next d fuel it c).bind fun r c => ret (convert d .num (.nodes r.1.toList)) c
            | .str => (next d fuel it c).bind fun r c => ret (convert d .str (.nodes r.1.toList)) c))
          (restore c ((iterable d (fuel + 1) e c.node c).bind fun it c => match m with
            | .any | .nodes => (drain d (fuel + 1) it c).bind fun l c => .ok (.nodes (sortNodes d l)) c
            | .bool => (next d (fuel + 1) it c).bind fun r c => .ok (.sc (.bool r.1.isSome)) c
            | .num => (next d (fuel + 1) it c).bind fun r c => ret (convert d .num (.nodes r.1.toList)) c
            | .str => (next d (fuel + 1) it c).bind fun r c => ret (convert d .str (.nodes r.1.toList)) c)) := by
        intro e
        refine Le.bind ((ih.iterable e c.node c).bind fun it c => ?_) fun _ _ => .refl
        cases m with
        | any => exact (ih.drain _ _).bind fun _ _ => .refl
        | nodes => exact (ih.drain _ _).bind fun _ _ => .refl
        | bool => exact (ih.next _ _).bind fun _ _ => .refl
        | num => exact (ih.next _ _).bind fun _ _ => .refl
        | str => exact (ih.next _ _).bind fun _ _ => .refl
      cases e with
      | lit b s => exact .refl
      | var v => exact .refl
      | position => exact .refl
      | last => exact .refl
      | fn ty f args => exact (ih.args args c).bind fun vs c => .refl
      | and l r =>
        simp only [eval]
        refine (ih.eval _ _ _).bind fun v c => ?_
        split
        · exact (ih.eval _ _ _).bind fun _ _ => .refl
        · exact .refl
      | or l r =>
        simp only [eval]
        refine (ih.eval _ _ _).bind fun v c => ?_
        split
        · exact .refl
        · exact (ih.eval _ _ _).bind fun _ _ => .refl
      | cmp op l r =>
        simp only [eval]
        exact (ih.eval _ _ _).bind fun v c => (ih.eval _ _ _).bind fun _ _ => .refl
      | path ab steps => cases m <;> exact nodeset _
      | union es =>
        cases m
        case bool => exact ih.any _ _
        all_goals exact nodeset _
      | filter e preds => cases m <;> exact nodeset _
      | pathFrom e steps => cases m <;> exact nodeset _
    · intro as c
      cases as with
      | nil => exact .refl
      | cons a as =>
        obtain ⟨m, e⟩ := a
        exact (ih.eval m e c).bind fun v c => (ih.args as c).bind fun vs c => .refl
    · intro es c
      cases es with
      | nil => exact .refl
      | cons e es =>
        simp only [evalAny]
        refine (ih.eval _ _ _).bind fun v c => ?_
        split
        · exact .refl
        · exact ih.any _ _

/-- A result stays the same with more fuel. -/
theorem eval_more {fuel fuel' : Nat} (hf : fuel ≤ fuel') {m : Mode} {e : Expr} {c : Ctx}
    (h : eval d fuel m e c ≠ .stuck) : eval d fuel' m e c = eval d fuel m e c := by
  induction hf with
  | refl => rfl
  | @step k hk ih =>
    rcases (mono (d := d) k).eval m e c with hs | hs
    · rw [hs] at ih; exact absurd ih.symm h
    · exact hs.symm.trans ih

end Verif.Eval
