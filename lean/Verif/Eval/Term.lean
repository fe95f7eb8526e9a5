import Verif.Eval.Mono
import Verif.Eval.AxisLemmas

/-
Evaluation ends: for every expression, by every method, in every context of a well-formed forest.
-/
namespace Verif.Eval
open Verif Verif.XPath Verif.Dom Verif.Dom.Spec Verif.Eval.Spec

variable {d : Doc}

/-- More fuel does not change a result. -/
def Mono {α : Type} (F : Nat → Out α) : Prop := ∀ k, Le (F k) (F (k + 1))

/-- There is enough fuel. -/
def Halts {α : Type} (F : Nat → Out α) : Prop := ∃ k, F k ≠ .stuck

theorem Mono.more {α : Type} {F : Nat → Out α} (hm : Mono F) {k k' : Nat} (hk : k ≤ k') (h : F k ≠ .stuck) :
    F k' = F k := by
  induction hk with
  | refl => rfl
  | @step j hj ih =>
    rcases hm j with hs | hs
    · rw [hs] at ih; exact absurd ih.symm h
    · exact hs.symm.trans ih

theorem Halts.succ {α : Type} {F : Nat → Out α} (h : Halts fun k => F (k + 1)) : Halts F :=
  h.elim fun k hk => ⟨k + 1, hk⟩

theorem halts_const {α : Type} {x : Out α} (h : x ≠ .stuck) : Halts fun _ => x := ⟨0, h⟩

theorem halts_ret {α : Type} {x : Except XErr α} {c : Ctx} : Halts fun _ => ret x c :=
  halts_const (by cases x <;> simp [ret])

/-- Composition: the second part only needs to end for what the first can return. -/
theorem Halts.bind {α β : Type} {F : Nat → Out α} {G : α → Ctx → Nat → Out β} (hF : Halts F) (mF : Mono F)
    (hG : ∀ a c, (∃ k, F k = .ok a c) → Halts (G a c) ∧ Mono (G a c)) :
    Halts fun k => (F k).bind fun a c => G a c k := by
  obtain ⟨k, hk⟩ := hF
  cases hx : F k with
  | stuck => exact absurd hx hk
  | raise e => exact ⟨k, by simp [hx, Out.bind]⟩
  | ok a c =>
    obtain ⟨⟨j, hj⟩, mG⟩ := hG a c ⟨k, hx⟩
    refine ⟨max k j, ?_⟩
    have h1 : F (max k j) = .ok a c := (mF.more (Nat.le_max_left k j) hk).trans hx
    have h2 : G a c (max k j) = G a c j := mG.more (Nat.le_max_right k j) hj
    simp only [h1, Out.bind, h2]
    exact hj

theorem mono_const {α : Type} {x : Out α} : Mono fun _ => x := fun _ => .refl

theorem Mono.bind {α β : Type} {F : Nat → Out α} {G : α → Ctx → Nat → Out β} (hF : Mono F)
    (hG : ∀ a c, Mono (G a c)) : Mono fun k => (F k).bind fun a c => G a c k :=
  fun k => (hF k).bind fun a c => hG a c k

/-! Axes -/

theorem collect_of_yields {σ : Type} {step : σ → Dom.Step σ} {s : σ} {l : List Nat}
    (h : Yields step s l) : ∃ fuel, collect step fuel s = some (.ok l) := by
  induction h with
  | done hs => exact ⟨1, by simp [collect, hs]⟩
  | tau hs _ ih => obtain ⟨k, hk⟩ := ih; exact ⟨k + 1, by simp [collect, hs, hk]⟩
  | yield hs _ ih => obtain ⟨k, hk⟩ := ih; exact ⟨k + 1, by simp [collect, hs, hk]⟩

theorem selects_axisNodes {n : Nat} {a : Axis} {l : List Nat} (h : a.Selects d.h n l) :
    ∃ fuel, axisNodes d fuel n (.tree a) = some (.ok l) := by
  cases a
  case precedingSibling =>
    obtain ⟨s, h1, h2⟩ := h
    obtain ⟨k, hk⟩ := collect_of_yields h2
    exact ⟨k, by simp only [axisNodes, h1]; exact hk⟩
  all_goals exact collect_of_yields h

/-- The iterator of an axis ends, or raises. -/
theorem axisNodes_halts (w : WF d.h) (n : Nat) (ax : LAxis) : ∃ fuel x, axisNodes d fuel n ax = some x := by
  cases ax with
  | attr => exact ⟨0, _, rfl⟩
  | namespaces => exact ⟨0, _, rfl⟩
  | tree a =>
    have sel : (∃ l, a.Selects d.h n l) → ∃ fuel x, axisNodes d fuel n (.tree a) = some x := by
      rintro ⟨l, hl⟩
      obtain ⟨k, hk⟩ := selects_axisNodes hl
      exact ⟨k, _, hk⟩
    by_cases ht : TreeNode d.h n
    · obtain ⟨l, hl, _⟩ := C19_axes_partial w ht a
      exact sel ⟨l, hl⟩
    · have hk : isChildKind (d.h.kind n) = false := by
        cases hk : d.h.kind n <;> simp_all [TreeNode, isChildKind]
      have hcon : isContainer (d.h.kind n) = false := by
        cases hk : d.h.kind n <;> simp_all [TreeNode, isContainer]
      cases a with
      | self => exact sel ⟨_, yields_child _⟩
      | child => exact sel ⟨_, yields_child _⟩
      | parent => exact sel ⟨_, yields_child _⟩
      | ancestor => obtain ⟨m, h1, _⟩ := ancestor_node w n; exact sel ⟨m, h1⟩
      | ancestorOrSelf => obtain ⟨m, h1, _⟩ := ancestor_node w n; exact sel ⟨n :: m, .yield rfl h1⟩
      | descendant =>
        exact sel ⟨[], .done (by simp [descendantInit, childIter, hcon, descendantStep, descendantNext])⟩
      | descendantOrSelf =>
        exact sel ⟨[n], .yield rfl (.done (by simp [descendantInit, childIter, hcon, dosStep, descendantNext]))⟩
      | followingSibling => exact sel ⟨_, yields_child _⟩
      | following =>
        cases hp : d.h.parent n with
        | some p => exact ⟨1, .error .invalidState, by simp only [axisNodes, collect, followStep, Dom.followingSibling, hp, idxOf?_attr w hk]⟩
        | none =>
          refine sel ⟨[], .tau (s' := .inner n none) ?_ (.tau (s' := .outer none) ?_ (.done rfl))⟩
          · simp [followStep, Dom.followingSibling, hp]
          · simp [followStep, hp]
      | preceding =>
        cases hp : d.h.parent n with
        | some p => exact ⟨1, .error .invalidState, by simp only [axisNodes, collect, precStep, Dom.precedingSibling, hp, idxOf?_attr w hk]⟩
        | none =>
          refine sel ⟨[], .tau (s' := ⟨none, [.test none]⟩) ?_ (.tau (s' := ⟨none, []⟩) rfl (.done rfl))⟩
          simp [precStep, Dom.precedingSibling, hp]
      | precedingSibling =>
        cases hp : d.h.parent n with
        | some p => exact ⟨1, .error .invalidState, by simp only [axisNodes, Dom.precedingSibling, hp, idxOf?_attr w hk]⟩
        | none => exact sel ⟨[], none, by simp [Dom.precedingSibling, hp], .done rfl⟩

/-! Iterators -/

/-- Every call of `next` ends, and after finitely many the iterator is exhausted. -/
inductive Tot (d : Doc) : Iter → Prop
  | mk {it : Iter} : (∀ c, Halts fun k => next d k it c) →
      (∀ k c n it' c', next d k it c = .ok (some n, it') c' → Tot d it') → Tot d it

theorem Tot.halts {it : Iter} (h : Tot d it) (c : Ctx) : Halts fun k => next d k it c := by
  cases h with | mk h _ => exact h c

theorem Tot.next {it it' : Iter} (h : Tot d it) {k n : Nat} {c c' : Ctx}
    (hn : Eval.next d k it c = .ok (some n, it') c') : Tot d it' := by
  cases h with | mk _ h => exact h k c n it' c' hn

theorem next_mono (it : Iter) (c : Ctx) : Mono fun k => next d k it c := fun k => (mono k).next it c
theorem drain_mono (it : Iter) (c : Ctx) : Mono fun k => drain d k it c := fun k => (mono k).drain it c
theorem start_mono (ss : List Sel) (it : Iter) (c : Ctx) : Mono fun k => start d k ss it c :=
  fun k => (mono k).start ss it c
theorem eval_mono (m : Mode) (e : Expr) (c : Ctx) : Mono fun k => eval d k m e c := fun k => (mono k).eval m e c

theorem tot_list (l : List Nat) : Tot d (.list l) := by
  induction l with
  | nil =>
    refine .mk (fun c => ⟨1, by simp [next]⟩) ?_
    intro k c n it' c' h
    cases k <;> simp [next] at h
  | cons x l ih =>
    refine .mk (fun c => ⟨1, by simp [next]⟩) ?_
    intro k c n it' c' h
    cases k with
    | zero => simp [next] at h
    | succ k => simp [next] at h; obtain ⟨⟨_, rfl⟩, _⟩ := h; exact ih

theorem bind_ok' {α β : Type} {x : Out α} {k : α → Ctx → Out β} {b : β} {c : Ctx}
    (h : x.bind k = .ok b c) : ∃ a c', x = .ok a c' ∧ k a c' = .ok b c := by
  cases x with
  | stuck => cases h
  | raise e => cases h
  | ok a c' => exact ⟨a, c', rfl, h⟩

theorem tot_filter {p : Kind} {t : NodeTest} {it : Iter} (h : Tot d it) : Tot d (.filter p t it) := by
  induction h with
  | @mk it h1 h2 ih =>
    refine .mk (fun c => Halts.succ ?_) ?_
    · simp only [next]
      refine (h1 c).bind (next_mono _ _) fun x c' hx => ?_
      obtain ⟨o, it'⟩ := x
      cases o with
      | none => exact ⟨halts_const (by simp), mono_const⟩
      | some n =>
        obtain ⟨k, hx⟩ := hx
        dsimp only
        by_cases hp : passes d p t n = true
        · simp only [hp, if_true]; exact ⟨halts_const (by simp), mono_const⟩
        · simp only [hp]; exact ⟨(ih k c n it' c' hx).halts _, next_mono _ _⟩
    · intro k c n it' c' hn
      cases k with
      | zero => simp [next] at hn
      | succ k =>
        simp only [next] at hn
        obtain ⟨⟨o, it1⟩, c1, hx, hn⟩ := bind_ok' hn
        cases o with
        | none => simp at hn
        | some m =>
          have := ih k c m it1 c1 hx
          dsimp only at hn
          split at hn
          · cases hn; exact this
          · exact this.next hn

theorem tot_pos {j : Nat} {it : Iter} (h : Tot d it) : Tot d (.pos j it) := by
  induction h generalizing j with
  | @mk it h1 h2 ih =>
    refine .mk (fun c => Halts.succ ?_) ?_
    · simp only [next]
      refine (h1 c).bind (next_mono _ _) fun x c' hx => ?_
      obtain ⟨o, it'⟩ := x
      cases o with
      | none => exact ⟨halts_const (by simp), mono_const⟩
      | some n =>
        obtain ⟨k, hx⟩ := hx
        dsimp only
        by_cases hp : j ≤ 1
        · simp only [hp, if_true]; exact ⟨halts_const (by simp), mono_const⟩
        · simp only [hp, if_false]; exact ⟨(ih k c n it' c' hx).halts _, next_mono _ _⟩
    · intro k c n it' c' hn
      cases k with
      | zero => simp [next] at hn
      | succ k =>
        simp only [next] at hn
        obtain ⟨⟨o, it1⟩, c1, hx, hn⟩ := bind_ok' hn
        cases o with
        | none => simp at hn
        | some m =>
          dsimp only at hn
          split at hn
          · cases hn; exact tot_list []
          · exact (ih k c m it1 c1 hx).next hn

theorem drain_halts {it : Iter} (h : Tot d it) (c : Ctx) : Halts fun k => drain d k it c := by
  induction h generalizing c with
  | @mk it h1 h2 ih =>
    refine Halts.succ ?_
    simp only [drain]
    refine (h1 c).bind (next_mono _ _) fun x c' hx => ?_
    obtain ⟨o, it'⟩ := x
    cases o with
    | none => exact ⟨halts_const (by simp), mono_const⟩
    | some n =>
      obtain ⟨k, hx⟩ := hx
      exact ⟨(ih k c n it' c' hx c').bind (drain_mono _ _) fun l c _ => ⟨halts_const (by simp), mono_const⟩,
        (drain_mono _ _).bind fun _ _ => mono_const⟩

/-- Evaluation of the expression ends. -/
def EvalTot (d : Doc) (e : Expr) : Prop := ∀ m c, Halts fun k => eval d k m e c

/-- The expressions of a predicate's method end. -/
def SelTot (d : Doc) : Sel → Prop
  | .pos _ | .never => True
  | .slice _ e | .number _ e | .boolean e | .generic e => EvalTot d e

theorem selTot_test {s : Sel} (hs : SelTot d s) {m : Mode} {e : Expr} {k : EVal → Nat → Bool}
    (ht : s.test = some (m, e, k)) : EvalTot d e := by
  cases s <;> simp only [Sel.test, Option.some.injEq, Prod.mk.injEq, reduceCtorEq] at ht
  all_goals obtain ⟨_, rfl, _⟩ := ht
  all_goals exact hs

theorem tot_gen {s : Sel} (hs : SelTot d s) {p : Nat} {it : Iter} (h : Tot d it) :
    Tot d (.gen s (some p) it) := by
  induction h generalizing p with
  | @mk it h1 h2 ih =>
    refine .mk (fun c => Halts.succ ?_) ?_
    · simp only [next]
      refine (h1 c).bind (next_mono _ _) fun x c' hx => ?_
      obtain ⟨o, it'⟩ := x
      cases o with
      | none => exact ⟨halts_const (by simp), mono_const⟩
      | some n =>
        obtain ⟨k, hx⟩ := hx
        dsimp only
        cases ht : s.test with
        | none => exact ⟨halts_const (by simp), mono_const⟩
        | some t =>
          obtain ⟨m, e, keep⟩ := t
          have hi : ∀ v c', Mono fun k => if keep v p = true then
              Out.ok (some n, Iter.gen s (some (p + 1)) it') c' else next d k (.gen s (some (p + 1)) it') c' := by
            intro v c'
            split
            · exact mono_const
            · exact next_mono _ _
          refine ⟨(selTot_test hs ht _ _).bind (eval_mono _ _ _) fun v c1 _ => ⟨?_, hi v c1⟩,
            (eval_mono _ _ _).bind hi⟩
          split
          · exact halts_const (by simp)
          · exact (ih k c n it' c' hx).halts _
    · intro k c n it' c' hn
      cases k with
      | zero => simp [next] at hn
      | succ k =>
        simp only [next] at hn
        obtain ⟨⟨o, it1⟩, c1, hx, hn⟩ := bind_ok' hn
        cases o with
        | none => simp at hn
        | some m =>
          dsimp only at hn
          cases ht : s.test with
          | none => rw [ht] at hn; cases hn
          | some t =>
            rw [ht] at hn
            obtain ⟨md, e, keep⟩ := t
            obtain ⟨v, c2, _, hn⟩ := bind_ok' hn
            split at hn
            · cases hn; exact ih k c _ _ c1 hx
            · exact (ih k c m it1 c1 hx).next hn

theorem tot_gen_none {s : Sel} (hs : SelTot d s) {it : Iter} (h : Tot d it) : Tot d (.gen s none it) := by
  cases hz : s.sized with
  | false =>
    refine .mk (fun c => Halts.succ ?_) ?_
    · simp only [next, hz]; exact (tot_gen hs h).halts _
    · intro k c n it' c' hn
      cases k with
      | zero => simp [next] at hn
      | succ k =>
        rw [next.eq_6, hz, if_neg (by simp)] at hn
        exact (tot_gen hs h).next hn
  | true =>
    refine .mk (fun c => Halts.succ ?_) ?_
    · simp only [next, hz, if_true]
      exact (drain_halts h c).bind (drain_mono _ _) fun l c _ =>
        ⟨(tot_gen hs (tot_list l)).halts _, next_mono _ _⟩
    · intro k c n it' c' hn
      cases k with
      | zero => simp [next] at hn
      | succ k =>
        rw [next.eq_6, hz, if_pos rfl] at hn
        obtain ⟨l, c1, _, hn⟩ := bind_ok' hn
        exact (tot_gen hs (tot_list l)).next hn

theorem slice_halts {it : Iter} (h : Tot d it) (p : Nat) (v : EVal) (c : Ctx) :
    Halts fun k => sliceLoop d k p v it c := by
  induction h generalizing c p with
  | @mk it h1 h2 ih =>
    refine Halts.succ ?_
    simp only [sliceLoop]
    refine (h1 c).bind (next_mono _ _) fun x c' hx => ?_
    obtain ⟨o, it'⟩ := x
    cases o with
    | none => exact ⟨halts_const (by simp), mono_const⟩
    | some n =>
      obtain ⟨k, hx⟩ := hx
      dsimp only
      split
      · exact ⟨halts_const (by simp), mono_const⟩
      · exact ⟨ih k c n it' c' hx _ _, fun k => (mono k).slice _ _ _ _⟩

theorem slice_tot {k : Nat} {it it' : Iter} {p : Nat} {v : EVal} {c c' : Ctx} (h : Tot d it)
    (hs : sliceLoop d k p v it c = .ok it' c') : Tot d it' := by
  induction h generalizing k c p with
  | @mk it h1 h2 ih =>
    cases k with
    | zero => simp [sliceLoop] at hs
    | succ k =>
      rw [sliceLoop] at hs
      obtain ⟨⟨o, it1⟩, c1, hx, hs⟩ := bind_ok' hs
      cases o with
      | none => cases hs; exact tot_list []
      | some n =>
        dsimp only at hs
        split at hs
        · cases hs; exact h2 k c n _ _ hx
        · exact ih k c n it1 c1 hx hs

theorem start_halts {ss : List Sel} (hs : ∀ s ∈ ss, SelTot d s) {it : Iter} (h : Tot d it) (c : Ctx) :
    Halts (fun k => start d k ss it c) ∧ ∀ k it' c', start d k ss it c = .ok it' c' → Tot d it' := by
  induction ss generalizing it c with
  | nil =>
    refine ⟨⟨1, by simp [start]⟩, ?_⟩
    intro k it' c' hk
    cases k with
    | zero => simp [start] at hk
    | succ k => simp [start] at hk; obtain ⟨rfl, _⟩ := hk; exact h
  | cons s ss ih =>
    have hs1 := hs s (by simp)
    have ih := fun it h c => ih (fun s hs' => hs s (by simp [hs'])) (it := it) h c
    have gen : ∀ it1, Tot d it1 → (∀ k, start d (k + 1) (s :: ss) it c = start d k ss it1 c) →
        Halts (fun k => start d k (s :: ss) it c) ∧
          ∀ k it' c', start d k (s :: ss) it c = .ok it' c' → Tot d it' := by
      intro it1 h1 he
      refine ⟨Halts.succ ?_, ?_⟩
      · simp only [he]; exact (ih it1 h1 c).1
      · intro k it' c' hk
        cases k with
        | zero => simp [start] at hk
        | succ k => rw [he] at hk; exact (ih it1 h1 c).2 _ _ _ hk
    cases s with
    | pos j => exact gen _ (tot_pos (j := j) h) fun k => by simp [start]
    | number b e => exact gen _ (tot_gen_none hs1 h) fun k => by simp [start]
    | boolean e => exact gen _ (tot_gen_none hs1 h) fun k => by simp [start]
    | generic e => exact gen _ (tot_gen_none hs1 h) fun k => by simp [start]
    | never =>
      refine ⟨⟨1, by simp [start]⟩, ?_⟩
      intro k it' c' hk
      cases k <;> simp [start] at hk
    | slice gt e =>
      have hi : ∀ (v : EVal) (c : Ctx) (p : Nat), Halts (fun k =>
          if beyond p v = true then start d k ss it c
          else (sliceLoop d k (p + 1) v it c).bind fun it c => start d k ss it c) ∧
          Mono (fun k =>
          if beyond p v = true then start d k ss it c
          else (sliceLoop d k (p + 1) v it c).bind fun it c => start d k ss it c) := by
        intro v c p
        split
        · exact ⟨(ih it h c).1, start_mono _ _ _⟩
        · refine ⟨(slice_halts h _ v c).bind (fun k => (mono k).slice _ _ _ _) fun it1 c1 hx => ?_,
            Mono.bind (fun k => (mono k).slice _ _ _ _) fun _ _ => start_mono _ _ _⟩
          obtain ⟨k, hx⟩ := hx
          exact ⟨(ih it1 (slice_tot h hx) c1).1, start_mono _ _ _⟩
      refine ⟨Halts.succ ?_, ?_⟩
      · simp only [start]
        exact (hs1 .num c).bind (eval_mono _ _ _) fun v c1 _ => hi v c1 _
      · intro k it' c' hk
        cases k with
        | zero => simp [start] at hk
        | succ k =>
          simp only [start] at hk
          obtain ⟨v, c1, _, hk⟩ := bind_ok' hk
          split at hk
          all_goals
            split at hk
            · exact (ih it h c1).2 _ _ _ hk
            · obtain ⟨it1, c2, hx, hk⟩ := bind_ok' hk
              exact (ih it1 (slice_tot h hx) c2).2 _ _ _ hk

theorem tot_step (w : WF d.h) {s : CStep} (hs : ∀ x ∈ s.sels, SelTot d x) {ctxs : Iter} (h : Tot d ctxs) :
    Tot d (.step s ctxs) := by
  induction h with
  | @mk ctxs h1 h2 ih =>
    -- the nodes of one context node, then the others
    have cur : ∀ ctxs', Tot d (.step s ctxs') → ∀ cur, Tot d cur → Tot d (.stepCur s ctxs' cur) := by
      intro ctxs' hc cur hcur
      induction hcur with
      | @mk cur g1 g2 ihc =>
        refine .mk (fun c => Halts.succ ?_) ?_
        · simp only [next]
          refine (g1 c).bind (next_mono _ _) fun x c' hx => ?_
          obtain ⟨o, it'⟩ := x
          cases o with
          | none => exact ⟨hc.halts _, next_mono _ _⟩
          | some n => exact ⟨halts_const (by simp), mono_const⟩
        · intro k c n it' c' hn
          cases k with
          | zero => simp [next] at hn
          | succ k =>
            simp only [next] at hn
            obtain ⟨⟨o, it1⟩, c1, hx, hn⟩ := bind_ok' hn
            cases o with
            | none => exact hc.next hn
            | some m => cases hn; exact ihc k c _ _ _ hx
    refine .mk (fun c => Halts.succ ?_) ?_
    · simp only [next]
      refine (h1 c).bind (next_mono _ _) fun x c' hx => ?_
      obtain ⟨o, ctxs'⟩ := x
      cases o with
      | none => exact ⟨halts_const (by simp), mono_const⟩
      | some n =>
        obtain ⟨k, hx⟩ := hx
        have hstep := ih k c n ctxs' c' hx
        dsimp only
        have body : ∀ l : List Nat,
            Halts (fun k => (start d k s.sels (.filter s.axis.principal s.test (.list l)) c').bind fun it c =>
              if s.axis.reverse then
                (drain d k it c).bind fun l c => next d k (.stepCur s ctxs' (.list l.reverse)) c
              else next d k (.stepCur s ctxs' it) c) ∧
            Mono (fun k => (start d k s.sels (.filter s.axis.principal s.test (.list l)) c').bind fun it c =>
              if s.axis.reverse then
                (drain d k it c).bind fun l c => next d k (.stepCur s ctxs' (.list l.reverse)) c
              else next d k (.stepCur s ctxs' it) c) := by
          intro l
          have hm : ∀ (it : Iter) (c : Ctx), Mono (fun k => if s.axis.reverse then
                (drain d k it c).bind fun l c => next d k (.stepCur s ctxs' (.list l.reverse)) c
              else next d k (.stepCur s ctxs' it) c) := by
            intro it c
            split
            · exact (drain_mono _ _).bind fun _ _ => next_mono _ _
            · exact next_mono _ _
          obtain ⟨g1, g2⟩ := start_halts hs (tot_filter (p := s.axis.principal) (t := s.test) (tot_list l)) c'
          refine ⟨g1.bind (start_mono _ _ _) fun it c1 hx => ⟨?_, hm it c1⟩, (start_mono _ _ _).bind hm⟩
          obtain ⟨k, hx⟩ := hx
          have ht := g2 _ _ _ hx
          split
          · exact (drain_halts ht c1).bind (drain_mono _ _) fun l c _ =>
              ⟨(cur ctxs' hstep _ (tot_list _)).halts _, next_mono _ _⟩
          · exact (cur ctxs' hstep _ ht).halts _
        obtain ⟨fa, x, ha⟩ := axisNodes_halts w n s.axis
        have more : ∀ j, fa ≤ j → axisNodes d j n s.axis = some x := by
          intro j hj
          induction hj with
          | refl => exact ha
          | step _ ih => exact axisNodes_mono ih
        refine ⟨?_, ?_⟩
        · cases x with
          | error e => exact ⟨fa, by simp [ha]⟩
          | ok l =>
            obtain ⟨k1, hk1⟩ := (body l).1
            refine ⟨max fa k1, ?_⟩
            dsimp only
            rw [more _ (Nat.le_max_left _ _)]
            have := (body l).2.more (Nat.le_max_right fa k1) hk1
            dsimp only at this hk1 ⊢
            rw [this]
            exact hk1
        · intro j
          dsimp only
          cases hj : axisNodes d j n s.axis with
          | none => exact .stuck
          | some y =>
            rw [axisNodes_mono hj]
            cases y with
            | error e => exact .refl
            | ok l => exact (body l).2 j
    · intro k c n it' c' hn
      cases k with
      | zero => simp [next] at hn
      | succ k =>
        simp only [next] at hn
        obtain ⟨⟨o, ctxs'⟩, c1, hx, hn⟩ := bind_ok' hn
        cases o with
        | none => simp at hn
        | some m =>
          have hstep := ih k c m ctxs' c1 hx
          dsimp only at hn
          cases ha : axisNodes d k m s.axis with
          | none => rw [ha] at hn; cases hn
          | some x =>
            rw [ha] at hn
            cases x with
            | error e => cases hn
            | ok l =>
              obtain ⟨it1, c2, hst, hn⟩ := bind_ok' hn
              have ht := (start_halts hs (tot_filter (p := s.axis.principal) (t := s.test) (tot_list l)) c1).2
                _ _ _ hst
              split at hn
              · obtain ⟨l', c3, _, hn⟩ := bind_ok' hn
                exact (cur ctxs' hstep _ (tot_list _)).next hn
              · exact (cur ctxs' hstep _ ht).next hn

/-! Expressions -/

theorem mkSel_tot {e : Expr} {s : Sel} (he : EvalTot d e)
    (hc : ∀ op l r, e = .cmp op l r → EvalTot d l ∧ EvalTot d r) (hs : mkSel d e = .ok s) : SelTot d s := by
  have lit : ∀ str, litSel d str = .ok s → SelTot d s := by
    intro str h
    unfold litSel at h
    repeat' split at h
    all_goals first | cases h | skip
    all_goals exact trivial
  have typ : .ok (byType e) = Except.ok (ε := XErr) s → SelTot d s := by
    intro h
    cases h
    unfold byType
    split <;> exact he
  cases e with
  | lit b str => exact lit _ hs
  | cmp op l r =>
    obtain ⟨hl, hr⟩ := hc op l r rfl
    simp only [mkSel] at hs
    repeat' split at hs
    all_goals first
      | exact lit _ hs
      | exact typ hs
      | (cases hs; rename Expr.cmp _ _ _ = _ => h; cases h; first | exact hr | exact hl)
      | cases hs
  | var v => exact typ hs
  | position => exact typ hs
  | last => exact typ hs
  | fn ty f args => exact typ hs
  | and l r => exact typ hs
  | or l r => exact typ hs
  | path ab steps => exact typ hs
  | union es => exact typ hs
  | filter e preds => exact typ hs
  | pathFrom e steps => exact typ hs

/-- What is needed of a predicate. -/
def PredTot (d : Doc) (e : Expr) : Prop :=
  EvalTot d e ∧ ∀ op l r, e = .cmp op l r → EvalTot d l ∧ EvalTot d r

/-- What is needed of a step. -/
def StepTot (d : Doc) : LStep → Prop
  | .mk _ _ preds => ∀ e ∈ preds, PredTot d e

theorem mkSels_tot {es : List Expr} {ss : List Sel} (he : ∀ e ∈ es, PredTot d e) (hs : mkSels d es = .ok ss) :
    ∀ s ∈ ss, SelTot d s := by
  induction es generalizing ss with
  | nil => cases hs; nofun
  | cons e es ih =>
    simp only [mkSels] at hs
    cases h1 : mkSel d e with
    | error err => rw [h1] at hs; cases hs
    | ok s =>
      rw [h1] at hs
      cases h2 : mkSels d es with
      | error err => rw [h2] at hs; cases hs
      | ok ss' =>
        rw [h2] at hs
        cases hs
        intro x hx
        rcases List.mem_cons.1 hx with rfl | hx
        · exact mkSel_tot (he e (by simp)).1 (he e (by simp)).2 h1
        · exact ih (fun e h => he e (by simp [h])) h2 x hx

theorem chain_tot (w : WF d.h) {steps : List LStep} (hs : ∀ s ∈ steps, StepTot d s) {it it' : Iter}
    (h : Tot d it) (hc : chain d steps it = .ok it') : Tot d it' := by
  induction steps generalizing it with
  | nil => cases hc; exact h
  | cons s steps ih =>
    simp only [chain] at hc
    cases h1 : mkStep d s with
    | error err => rw [h1] at hc; cases hc
    | ok cs =>
      rw [h1] at hc
      refine ih (fun s h => hs s (by simp [h])) (tot_step w ?_ h) hc
      obtain ⟨ax, t, preds⟩ := s
      simp only [mkStep] at h1
      cases h2 : mkSels d preds with
      | error err => rw [h2] at h1; cases h1
      | ok sels =>
        rw [h2] at h1
        simp only at h1
        split at h1
        · cases h1
        · cases h1; exact mkSels_tot (hs _ List.mem_cons_self) h2

/-- The iterator of the expression can be made, and ends. -/
def IterTot (d : Doc) (e : Expr) : Prop :=
  ∀ n c, (Halts fun k => iterable d k e n c) ∧ ∀ k it c', iterable d k e n c = .ok it c' → Tot d it

theorem iterable_mono (e : Expr) (n : Nat) (c : Ctx) : Mono fun k => iterable d k e n c :=
  fun k => (mono k).iterable e n c

/-- What is done with the iterator of a node-set expression. -/
def finish (d : Doc) : Mode → Iter → Ctx → Nat → Out EVal
  | .any, it, c, k | .nodes, it, c, k => (drain d k it c).bind fun l c => .ok (.nodes (sortNodes d l)) c
  | .bool, it, c, k => (next d k it c).bind fun r c => .ok (.sc (.bool r.1.isSome)) c
  | .num, it, c, k => (next d k it c).bind fun r c => ret (convert d .num (.nodes r.1.toList)) c
  | .str, it, c, k => (next d k it c).bind fun r c => ret (convert d .str (.nodes r.1.toList)) c

theorem finish_halts {m : Mode} {it : Iter} {c : Ctx} (ht : Tot d it) : Halts (finish d m it c) := by
  cases m
  case any => exact (drain_halts ht c).bind (drain_mono _ _) fun _ _ _ => ⟨halts_const (by simp), mono_const⟩
  case nodes => exact (drain_halts ht c).bind (drain_mono _ _) fun _ _ _ => ⟨halts_const (by simp), mono_const⟩
  case bool => exact (ht.halts c).bind (next_mono _ _) fun _ _ _ => ⟨halts_const (by simp), mono_const⟩
  case num => exact (ht.halts c).bind (next_mono _ _) fun _ _ _ => ⟨halts_ret, mono_const⟩
  case str => exact (ht.halts c).bind (next_mono _ _) fun _ _ _ => ⟨halts_ret, mono_const⟩

theorem finish_mono {m : Mode} {it : Iter} {c : Ctx} : Mono (finish d m it c) := by
  cases m
  case any => exact (drain_mono _ _).bind fun _ _ => mono_const
  case nodes => exact (drain_mono _ _).bind fun _ _ => mono_const
  case bool => exact (next_mono _ _).bind fun _ _ => mono_const
  case num => exact (next_mono _ _).bind fun _ _ => mono_const
  case str => exact (next_mono _ _).bind fun _ _ => mono_const

theorem iterTot_evalTot {e : Expr} (hi : IterTot d e) (hn : e.isNodeset = true)
    (ha : ∀ es, e = .union es → ∀ c, Halts fun k => evalAny d k es c) : EvalTot d e := by
  intro m c
  have key : Halts (fun k => ((iterable d k e c.node c).bind fun it c => finish d m it c k).bind fun a c' =>
      .ok a { c' with node := c.node, position := c.position, size := c.size }) := by
    have both := (hi c.node c).1.bind (G := finish d m) (iterable_mono _ _ _) fun it c1 hx => by
      obtain ⟨k, hx⟩ := hx
      exact ⟨finish_halts ((hi c.node c).2 _ _ _ hx), finish_mono⟩
    refine both.bind ((iterable_mono _ _ _).bind fun _ _ => finish_mono) fun a c' _ => ⟨?_, mono_const⟩
    exact halts_const (by simp)
  refine Halts.succ ?_
  cases e with
  | lit b s => cases hn
  | var v => cases hn
  | position => cases hn
  | last => cases hn
  | fn ty f args => cases hn
  | and l r => cases hn
  | or l r => cases hn
  | cmp op l r => cases hn
  | path ab steps => cases m <;> exact key
  | union es =>
    cases m
    case bool => exact ha es rfl c
    all_goals exact key
  | filter e preds => cases m <;> exact key
  | pathFrom e steps => cases m <;> exact key

theorem iterTot_leaf {e : Expr} (h : ∀ k n c, ∃ x, iterable d (k + 1) e n c = x ∧ x ≠ .stuck ∧
    ∀ it c', x = .ok it c' → Tot d it) : IterTot d e := by
  intro n c
  obtain ⟨x, h1, h2, _⟩ := h 0 n c
  refine ⟨⟨1, by simp only [h1]; exact h2⟩, ?_⟩
  intro k it c' hk
  cases k with
  | zero => simp [iterable] at hk
  | succ k =>
    obtain ⟨x, h1, _, h3⟩ := h k n c
    exact h3 it c' (h1.symm.trans hk)

theorem args_mono (as : List Arg) (c : Ctx) : Mono fun k => evalArgs d k as c := fun k => (mono k).args as c
theorem any_mono (es : List Expr) (c : Ctx) : Mono fun k => evalAny d k es c := fun k => (mono k).any es c

theorem iterables_halts {es : List Expr} (he : ∀ e ∈ es, IterTot d e) (n : Nat) (c : Ctx) :
    (Halts fun k => iterables d k es n c) ∧
      ∀ k its c', iterables d k es n c = .ok its c' → ∀ it ∈ its, Tot d it := by
  induction es generalizing c with
  | nil =>
    refine ⟨⟨1, by simp [iterables]⟩, ?_⟩
    intro k its c' hk
    cases k with
    | zero => simp [iterables] at hk
    | succ k => simp [iterables] at hk; obtain ⟨rfl, _⟩ := hk; nofun
  | cons e es ih =>
    have ih := fun c => ih (fun e h => he e (by simp [h])) c
    have h1 := he e (by simp)
    refine ⟨Halts.succ ?_, ?_⟩
    · simp only [iterables]
      exact (h1 n c).1.bind (iterable_mono _ _ _) fun it c1 _ =>
        ⟨(ih c1).1.bind (fun k => (mono k).iterables _ _ _) fun _ _ _ => ⟨halts_const (by simp), mono_const⟩,
         Mono.bind (fun k => (mono k).iterables _ _ _) fun _ _ => mono_const⟩
    · intro k its c' hk
      cases k with
      | zero => simp [iterables] at hk
      | succ k =>
        simp only [iterables] at hk
        obtain ⟨it, c1, hx, hk⟩ := bind_ok' hk
        obtain ⟨its', c2, hy, hk⟩ := bind_ok' hk
        cases hk
        intro x hm
        rcases List.mem_cons.1 hm with rfl | hm
        · exact (h1 n c).2 _ _ _ hx
        · exact (ih c1).2 _ _ _ hy x hm

theorem drainAll_halts {its : List Iter} (h : ∀ it ∈ its, Tot d it) (c : Ctx) :
    Halts fun k => drainAll d k its c := by
  induction its generalizing c with
  | nil => exact ⟨1, by simp [drainAll]⟩
  | cons it its ih =>
    refine Halts.succ ?_
    simp only [drainAll]
    exact (ih (fun it hi => h it (by simp [hi])) c).bind (fun k => (mono k).drainAll _ _) fun l c1 _ =>
      ⟨(drain_halts (h it (by simp)) c1).bind (drain_mono _ _) fun _ _ _ => ⟨halts_const (by simp), mono_const⟩,
       (drain_mono _ _).bind fun _ _ => mono_const⟩

theorem any_halts {es : List Expr} (h : ∀ e ∈ es, EvalTot d e) (c : Ctx) : Halts fun k => evalAny d k es c := by
  induction es generalizing c with
  | nil => exact ⟨1, by simp [evalAny]⟩
  | cons e es ih =>
    refine Halts.succ ?_
    simp only [evalAny]
    refine (h e (by simp) .bool c).bind (eval_mono _ _ _) fun v c1 _ => ?_
    split
    · exact ⟨halts_const (by simp), mono_const⟩
    · exact ⟨ih (fun e hi => h e (by simp [hi])) c1, any_mono _ _⟩

theorem union_tot {es : List Expr} (he : ∀ e ∈ es, IterTot d e) : IterTot d (.union es) := by
  intro n c
  obtain ⟨h1, h2⟩ := iterables_halts he n c
  refine ⟨Halts.succ ?_, ?_⟩
  · simp only [iterable]
    refine h1.bind (fun k => (mono k).iterables _ _ _) fun its c1 hx => ?_
    obtain ⟨k, hx⟩ := hx
    exact ⟨(drainAll_halts (h2 _ _ _ hx) c1).bind (fun k => (mono k).drainAll _ _) fun _ _ _ =>
      ⟨halts_const (by simp), mono_const⟩, Mono.bind (fun k => (mono k).drainAll _ _) fun _ _ => mono_const⟩
  · intro k it c' hk
    cases k with
    | zero => simp [iterable] at hk
    | succ k =>
      simp only [iterable] at hk
      obtain ⟨its, c1, _, hk⟩ := bind_ok' hk
      obtain ⟨l, c2, _, hk⟩ := bind_ok' hk
      cases hk
      exact tot_list _

theorem filter_tot {e : Expr} {preds : List Expr} (he : EvalTot d e) (hp : ∀ e ∈ preds, PredTot d e) :
    IterTot d (.filter e preds) := by
  intro n c
  refine ⟨Halts.succ ?_, ?_⟩
  · simp only [iterable]
    refine (he .nodes c).bind (eval_mono _ _ _) fun v c1 _ => ?_
    cases v with
    | sc s => exact ⟨halts_const (by simp), mono_const⟩
    | nodes l =>
      dsimp only
      cases hs : mkSels d preds with
      | error e => exact ⟨halts_const (by simp), mono_const⟩
      | ok sels => exact ⟨(start_halts (mkSels_tot hp hs) (tot_list l) c1).1, start_mono _ _ _⟩
  · intro k it c' hk
    cases k with
    | zero => simp [iterable] at hk
    | succ k =>
      simp only [iterable] at hk
      obtain ⟨v, c1, _, hk⟩ := bind_ok' hk
      cases v with
      | sc s => cases hk
      | nodes l =>
        dsimp only at hk
        cases hs : mkSels d preds with
        | error e => rw [hs] at hk; cases hk
        | ok sels => rw [hs] at hk; exact (start_halts (mkSels_tot hp hs) (tot_list l) c1).2 _ _ _ hk

theorem ret_ok' {α : Type} {x : Except XErr α} {c c' : Ctx} {a : α} (h : ret x c = .ok a c') : x = .ok a := by
  cases x with
  | error e => cases h
  | ok b => cases h; rfl

theorem pathFrom_tot (w : WF d.h) {e : Expr} {steps : List LStep} (he : EvalTot d e)
    (hi : IterTot d e) (hs : ∀ s ∈ steps, StepTot d s) : IterTot d (.pathFrom e steps) := by
  intro n c
  refine ⟨Halts.succ ?_, ?_⟩
  · simp only [iterable]
    split
    · exact (hi n c).1.bind (iterable_mono _ _ _) fun _ _ _ => ⟨halts_ret, mono_const⟩
    · refine (he .nodes c).bind (eval_mono _ _ _) fun v c1 _ => ?_
      cases v with
      | sc s => exact ⟨halts_const (by simp), mono_const⟩
      | nodes l => exact ⟨halts_ret, mono_const⟩
  · intro k it c' hk
    cases k with
    | zero => simp [iterable] at hk
    | succ k =>
      simp only [iterable] at hk
      split at hk
      · obtain ⟨it1, c1, hx, hk⟩ := bind_ok' hk
        exact chain_tot w hs ((hi n c).2 _ _ _ hx) (ret_ok' hk)
      · obtain ⟨v, c1, _, hk⟩ := bind_ok' hk
        cases v with
        | sc s => cases hk
        | nodes l => exact chain_tot w hs (tot_list l) (ret_ok' hk)

theorem path_tot (w : WF d.h) {ab : Bool} {steps : List LStep} (hs : ∀ s ∈ steps, StepTot d s) :
    IterTot d (.path ab steps) := by
  refine iterTot_leaf fun k n c => ⟨_, rfl, ?_, ?_⟩
  · simp only [iterable]
    split
    · split
      · simp
      · cases chain d steps (.list [_]) <;> simp [ret]
    · cases chain d steps (.list [n]) <;> simp [ret]
  · intro it c' hx
    simp only [iterable] at hx
    split at hx
    · split at hx
      · cases hx
      · exact chain_tot w hs (tot_list _) (ret_ok' hx)
    · exact chain_tot w hs (tot_list _) (ret_ok' hx)

theorem args_halts {as : List Arg} (h : ∀ m e, Arg.mk m e ∈ as → EvalTot d e) (c : Ctx) :
    Halts fun k => evalArgs d k as c := by
  induction as generalizing c with
  | nil => exact ⟨1, by simp [evalArgs]⟩
  | cons a as ih =>
    obtain ⟨m, e⟩ := a
    refine Halts.succ ?_
    simp only [evalArgs]
    exact (h m e (by simp) m c).bind (eval_mono _ _ _) fun v c1 _ =>
      ⟨(ih (fun m e hi => h m e (by simp [hi])) c1).bind (args_mono _ _) fun _ _ _ =>
        ⟨halts_const (by simp), mono_const⟩, (args_mono _ _).bind fun _ _ => mono_const⟩

theorem notNodeset {e : Expr} (h : ∀ k n c, iterable d (k + 1) e n c = .raise .typeError) : IterTot d e :=
  iterTot_leaf fun k n c => ⟨_, h k n c, by simp, by simp⟩

mutual
theorem term (w : WF d.h) : ∀ e : Expr, EvalTot d e ∧ IterTot d e ∧
    ∀ op l r, e = .cmp op l r → EvalTot d l ∧ EvalTot d r
  | .lit b s => ⟨fun m c => Halts.succ (by simp only [eval]; exact halts_ret),
      notNodeset fun k n c => by simp [iterable], nofun⟩
  | .var v => ⟨fun m c => Halts.succ (by simp only [eval]; exact halts_ret), by
      cases v with
      | sc s => exact notNodeset fun k n c => by simp [iterable]
      | nodes l => exact iterTot_leaf fun k n c => ⟨.ok (.list l) c, by simp [iterable], by simp,
          fun it c' h => by cases h; exact tot_list l⟩, nofun⟩
  | .position => ⟨fun m c => Halts.succ (by simp only [eval]; exact halts_ret),
      notNodeset fun k n c => by simp [iterable], nofun⟩
  | .last => ⟨fun m c => Halts.succ (by simp only [eval]; exact halts_ret),
      notNodeset fun k n c => by simp [iterable], nofun⟩
  | .fn ty f args => ⟨fun m c => Halts.succ (by
      simp only [eval]
      refine (args_halts (termArgs w args) c).bind (args_mono _ _) fun vs c1 _ => ?_
      cases f vs with
      | error e => exact ⟨halts_const (by simp), mono_const⟩
      | ok v => exact ⟨halts_ret, mono_const⟩),
      notNodeset fun k n c => by simp [iterable], nofun⟩
  | .and l r => ⟨fun m c => Halts.succ (by
      simp only [eval]
      refine ((term w l).1 .bool c).bind (eval_mono _ _ _) fun v c1 _ => ?_
      split
      · exact ⟨((term w r).1 .bool c1).bind (eval_mono _ _ _) fun _ _ _ => ⟨halts_ret, mono_const⟩,
          (eval_mono _ _ _).bind fun _ _ => mono_const⟩
      · exact ⟨halts_ret, mono_const⟩),
      notNodeset fun k n c => by simp [iterable], nofun⟩
  | .or l r => ⟨fun m c => Halts.succ (by
      simp only [eval]
      refine ((term w l).1 .bool c).bind (eval_mono _ _ _) fun v c1 _ => ?_
      split
      · exact ⟨halts_ret, mono_const⟩
      · exact ⟨((term w r).1 .bool c1).bind (eval_mono _ _ _) fun _ _ _ => ⟨halts_ret, mono_const⟩,
          (eval_mono _ _ _).bind fun _ _ => mono_const⟩),
      notNodeset fun k n c => by simp [iterable], nofun⟩
  | .cmp op l r => ⟨fun m c => Halts.succ (by
      simp only [eval]
      refine ((term w l).1 .any c).bind (eval_mono _ _ _) fun v c1 _ => ?_
      have hm : ∀ (u : EVal) (c2 : Ctx), Mono (fun _ : Nat => (match compareVals d op v u with
        | .error e => .raise e
        | .ok b => ret (convert d m b) c2 : Out EVal)) := fun _ _ => mono_const
      refine ⟨((term w r).1 .any c1).bind (eval_mono _ _ _) fun u c2 _ => ⟨?_, hm u c2⟩, (eval_mono _ _ _).bind hm⟩
      cases compareVals d op v u with
      | error e => exact halts_const (by simp)
      | ok b => exact halts_ret),
      notNodeset fun k n c => by simp [iterable], by
        rintro op' l' r' h
        cases h
        exact ⟨(term w l).1, (term w r).1⟩⟩
  | .path ab steps =>
      have hi := path_tot w (ab := ab) (termSteps w steps)
      ⟨iterTot_evalTot hi rfl nofun, hi, nofun⟩
  | .union es =>
      have h := termAll w es
      have hi := union_tot fun e he => (h e he).2.1
      ⟨iterTot_evalTot hi rfl (fun es' he c => by cases he; exact any_halts (fun e he => (h e he).1) c), hi, nofun⟩
  | .filter e preds =>
      have h := termAll w preds
      have hi := filter_tot (term w e).1 fun e he => ⟨(h e he).1, (h e he).2.2⟩
      ⟨iterTot_evalTot hi rfl nofun, hi, nofun⟩
  | .pathFrom e steps =>
      have hi := pathFrom_tot w (term w e).1 (term w e).2.1 (termSteps w steps)
      ⟨iterTot_evalTot hi rfl nofun, hi, nofun⟩
theorem termAll (w : WF d.h) : ∀ (es : List Expr), ∀ e ∈ es, EvalTot d e ∧ IterTot d e ∧
    ∀ op l r, e = .cmp op l r → EvalTot d l ∧ EvalTot d r
  | [], _, h => nomatch h
  | e :: es, x, h => (List.mem_cons.1 h).elim (fun he => he ▸ term w e) (fun he => termAll w es x he)
theorem termArgs (w : WF d.h) : ∀ (as : List Arg) (m : Mode) (e : Expr), Arg.mk m e ∈ as → EvalTot d e
  | [], _, _, h => nomatch h
  | .mk m' e' :: as, m, e, h => (List.mem_cons.1 h).elim
      (fun he => by cases he; exact (term w e').1) (fun he => termArgs w as m e he)
theorem termStep (w : WF d.h) : ∀ s : LStep, StepTot d s
  | .mk _ _ preds => fun e he => ⟨(termAll w preds e he).1, (termAll w preds e he).2.2⟩
theorem termSteps (w : WF d.h) : ∀ (ss : List LStep), ∀ s ∈ ss, StepTot d s
  | [], _, h => nomatch h
  | s :: ss, x, h => (List.mem_cons.1 h).elim (fun he => he ▸ termStep w s) (fun he => termSteps w ss x he)
end

end Verif.Eval
