import Verif.Eval.SoundLemmas

/-
Evaluation gives the value that the specification says: by induction on the nesting of calls, for all
functions of the evaluator together.
-/
namespace Verif.Eval
open Verif Verif.XPath Verif.Dom Verif.Dom.Spec Verif.Eval.Spec

variable {d : Doc} {r : Nat}

/-- Node, position and size of the context are the same. -/
def Same (c c' : Ctx) : Prop := c'.node = c.node ∧ c'.position = c.position ∧ c'.size = c.size

theorem Same.refl {c : Ctx} : Same c c := ⟨rfl, rfl, rfl⟩

theorem Same.trans {a b c : Ctx} (h1 : Same a b) (h2 : Same b c) : Same a c :=
  ⟨h2.1.trans h1.1, h2.2.1.trans h1.2.1, h2.2.2.trans h1.2.2⟩

/-- What is proved of each function. -/
structure Snd (d : Doc) (r : Nat) (fuel : Nat) : Prop where
  next : ∀ it c o it' c', next d fuel it c = .ok (o, it') c' → GoodIter d r it →
    (o = none → den d c.size it = []) ∧
    ∀ n, o = some n → InDoc d r n ∧ GoodIter d r it' ∧ (Stable it → Stable it') ∧
      den d c.size it = n :: den d c'.size it'
  drain : ∀ it c l c', drain d fuel it c = .ok l c' → GoodIter d r it →
    l = den d c.size it ∧ ∀ x ∈ l, InDoc d r x
  start : ∀ ss it c it' c', start d fuel ss it c = .ok it' c' → (∀ x ∈ ss, GoodSel d r x) → GoodIter d r it →
    GoodIter d r it' ∧ (Stable it → (∀ x ∈ ss, x.free) → Stable it') ∧
      den d c'.size it' = selsKeep d ss (den d c.size it)
  slice : ∀ p v it c it' c', sliceLoop d fuel p v it c = .ok it' c' → GoodIter d r it →
    GoodIter d r it' ∧ (Stable it → Stable it') ∧ den d c'.size it' = sliceRest v p (den d c.size it)
  iterable : ∀ e n c it c', iterable d fuel e n c = .ok it c' → Good d r .bool e → e.isNodeset = true →
    n = c.node → InDoc d r c.node →
    GoodIter d r it ∧ (BaseStable e → Stable it) ∧ IterOut d r e c.node c.position c.size (den d c'.size it)
  iterables : ∀ es n c its c', iterables d fuel es n c = .ok its c' → GoodUnion d r es → n = c.node →
    InDoc d r c.node → c' = c ∧ (∀ it ∈ its, GoodIter d r it ∧ ∀ z z', den d z it = den d z' it) ∧
      (∀ it ∈ its, ∀ z, ∀ x ∈ den d z it, TreeNode d.h x) ∧
      ∀ z x, (∃ it ∈ its, x ∈ den d z it) ↔ InSome d es c.node c.position c.size x
  drainAll : ∀ its c l c', drainAll d fuel its c = .ok l c' →
    (∀ it ∈ its, GoodIter d r it ∧ ∀ z z', den d z it = den d z' it) →
    (∀ x ∈ l, InDoc d r x) ∧ ∀ z x, x ∈ l ↔ ∃ it ∈ its, x ∈ den d z it
  eval : ∀ m e c v c', eval d fuel m e c = .ok v c' → Good d r m e → InDoc d r c.node →
    MeansAs d m e c.node c.position c.size v ∧ GoodVal d r v ∧ Same c c'
  args : ∀ as c vs c', evalArgs d fuel as c = .ok vs c' → GoodArgs d r as → InDoc d r c.node →
    ArgsMean d as c.node c.position c.size vs ∧ Same c c'
  any : ∀ es c v c', evalAny d fuel es c = .ok v c' → GoodUnion d r es → InDoc d r c.node →
    (∃ b, v = .sc (.bool b) ∧ (b = true ↔ ∃ x, InSome d es c.node c.position c.size x)) ∧ Same c c'

theorem snd_zero : Snd d r 0 where
  next := by intro _ _ _ _ _ h; simp [Eval.next] at h
  drain := by intro _ _ _ _ h; simp [Eval.drain] at h
  start := by intro _ _ _ _ _ h; simp [Eval.start] at h
  slice := by intro _ _ _ _ _ _ h; simp [Eval.sliceLoop] at h
  iterable := by intro _ _ _ _ _ h; simp [Eval.iterable] at h
  iterables := by intro _ _ _ _ _ h; simp [Eval.iterables] at h
  drainAll := by intro _ _ _ _ h; simp [Eval.drainAll] at h
  eval := by intro _ _ _ _ _ h; simp [Eval.eval] at h
  args := by intro _ _ _ _ h; simp [Eval.evalArgs] at h
  any := by intro _ _ _ _ h; simp [Eval.evalAny] at h

theorem goodSel_free {s : Sel} (hg : GoodSel d r s) (hs : s.sized = false) : s.free := by
  cases s with
  | pos k => trivial
  | never => trivial
  | slice gt e => exact numeric_free hg.2
  | number sized e =>
    have hs : sized = false := hs
    subst hs
    rcases hg.2 with h | h
    · cases h
    · exact h
  | boolean e => exact hg.2
  | generic e => exact hg.2

theorem goodSel_test {s : Sel} (hg : GoodSel d r s) {m : Mode} {e : Expr} {k : EVal → Nat → Bool}
    (ht : s.test = some (m, e, k)) : Good d r m e := by
  cases s <;> simp only [Sel.test, Option.some.injEq, Prod.mk.injEq, reduceCtorEq] at ht
  all_goals obtain ⟨rfl, rfl, _⟩ := ht
  all_goals exact hg.1

theorem snd_next {fuel : Nat} (w : DocWF d r) (ih : Snd d r fuel) (it : Iter) (c : Ctx) (o : Option Nat)
    (it' : Iter) (c' : Ctx) (h : Eval.next d (fuel + 1) it c = .ok (o, it') c') (hg : GoodIter d r it) :
    (o = none → den d c.size it = []) ∧
    ∀ n, o = some n → InDoc d r n ∧ GoodIter d r it' ∧ (Stable it → Stable it') ∧
      den d c.size it = n :: den d c'.size it' := by
  cases it with
  | list l =>
    obtain ⟨rfl, rfl, rfl⟩ := next_list h
    cases l with
    | nil => exact ⟨fun _ => rfl, fun n hn => by simp at hn⟩
    | cons a l =>
      refine ⟨fun hn => by simp at hn, fun n hn => ?_⟩
      simp only [List.head?_cons, Option.some.injEq] at hn
      subst hn
      exact ⟨hg a (by simp), fun x hx => hg x (by simp at hx; simp [hx]), fun _ => trivial, rfl⟩
  | filter p t it =>
    simp only [Eval.next] at h
    obtain ⟨⟨o1, it1⟩, c1, h1, h2⟩ := bind_ok h
    obtain ⟨k1, k2⟩ := ih.next _ _ _ _ _ h1 hg
    cases o1 with
    | none =>
      simp only at h2; cases h2
      exact ⟨fun _ => by simp [den, k1 rfl], fun n hn => by simp at hn⟩
    | some x =>
      obtain ⟨i1, i2, i3, i4⟩ := k2 x rfl
      simp only at h2
      by_cases hp : passes d p t x = true
      · rw [if_pos hp] at h2; cases h2
        refine ⟨fun hn => by simp at hn, fun n hn => ?_⟩
        cases hn
        exact ⟨i1, i2, i3, by simp [den, i4, hp]⟩
      · rw [if_neg hp] at h2
        obtain ⟨j1, j2⟩ := ih.next _ _ _ _ _ h2 i2
        have e1 : den d c.size (.filter p t it) = den d c1.size (.filter p t it1) := by
          simp only [den]; rw [i4, List.filter_cons_of_neg hp]
        refine ⟨fun hn => by rw [e1]; exact j1 hn, fun n hn => ?_⟩
        obtain ⟨m1, m2, m3, m4⟩ := j2 n hn
        exact ⟨m1, m2, fun hs => m3 (i3 hs), by rw [e1]; exact m4⟩
  | pos k it =>
    simp only [Eval.next] at h
    obtain ⟨⟨o1, it1⟩, c1, h1, h2⟩ := bind_ok h
    obtain ⟨k1, k2⟩ := ih.next _ _ _ _ _ h1 hg.2
    cases o1 with
    | none =>
      simp only at h2; cases h2
      exact ⟨fun _ => by simp [den, k1 rfl], fun n hn => by simp at hn⟩
    | some x =>
      obtain ⟨i1, i2, i3, i4⟩ := k2 x rfl
      simp only at h2
      by_cases hp : k ≤ 1
      · rw [if_pos hp] at h2; cases h2
        refine ⟨fun hn => by simp at hn, fun n hn => ?_⟩
        cases hn
        have hk : k - 1 = 0 := by omega
        exact ⟨i1, by simp [GoodIter], fun _ => trivial, by simp [den, i4, hk]⟩
      · rw [if_neg hp] at h2
        obtain ⟨j1, j2⟩ := ih.next _ _ _ _ _ h2 ⟨by omega, i2⟩
        have e1 : den d c.size (.pos k it) = den d c1.size (.pos (k - 1) it1) := by
          simp only [den]
          have hk : k - 1 = (k - 1 - 1) + 1 := by omega
          rw [i4, hk, List.drop_succ_cons]
          rfl
        refine ⟨fun hn => by rw [e1]; exact j1 hn, fun n hn => ?_⟩
        obtain ⟨m1, m2, m3, m4⟩ := j2 n hn
        exact ⟨m1, m2, fun hs => m3 (i3 hs), by rw [e1]; exact m4⟩
  | gen s p it =>
    obtain ⟨g1, g2, g3⟩ := hg
    cases p with
    | none =>
      simp only [Eval.next] at h
      by_cases hz : s.sized = true
      · rw [if_pos hz] at h
        obtain ⟨l, c1, h1, h2⟩ := bind_ok h
        obtain ⟨rfl, k2⟩ := ih.drain _ _ _ _ h1 g2
        obtain ⟨j1, j2⟩ := ih.next _ _ _ _ _ h2 ⟨g1, k2, fun _ => .inr ⟨_, rfl⟩⟩
        have e1 : den d c.size (.gen s none it) =
            den d (den d c.size it).length (.gen s (some 1) (.list (den d c.size it))) := by
          simp only [den, if_pos hz]
        refine ⟨fun hn => by rw [e1]; exact j1 hn, fun n hn => ?_⟩
        obtain ⟨m1, m2, m3, m4⟩ := j2 n hn
        exact ⟨m1, m2, fun hs => m3 ⟨hs.1, trivial⟩, by rw [e1]; exact m4⟩
      · rw [if_neg hz] at h
        have hf := goodSel_free g1 (by simpa using hz)
        obtain ⟨j1, j2⟩ := ih.next _ _ _ _ _ h ⟨g1, g2, fun _ => .inl hf⟩
        have e1 : den d c.size (.gen s none it) = den d c.size (.gen s (some 1) it) := by
          simp only [den, if_neg hz]
        refine ⟨fun hn => by rw [e1]; exact j1 hn, fun n hn => ?_⟩
        obtain ⟨m1, m2, m3, m4⟩ := j2 n hn
        exact ⟨m1, m2, fun hs => m3 hs, by rw [e1]; exact m4⟩
    | some p =>
      simp only [Eval.next] at h
      obtain ⟨⟨o1, it1⟩, c1, h1, h2⟩ := bind_ok h
      obtain ⟨k1, k2⟩ := ih.next _ _ _ _ _ h1 g2
      cases o1 with
      | none =>
        simp only at h2; cases h2
        exact ⟨fun _ => by simp [den, k1 rfl, genKeep, keep], fun n hn => by simp at hn⟩
      | some x =>
        obtain ⟨i1, i2, i3, i4⟩ := k2 x rfl
        simp only at h2
        cases ht : s.test with
        | none => simp [ht] at h2
        | some mek =>
          obtain ⟨m, e, k⟩ := mek
          simp only [ht] at h2
          obtain ⟨v, c2, h3, h4⟩ := bind_ok h2
          obtain ⟨e1, _, e2⟩ := ih.eval _ _ _ _ _ h3 (goodSel_test g1 ht) i1
          have hsz : c2.size = c1.size := e2.2.2
          -- the size that the generator sees has not changed, or does not matter
          have e3 : den d c.size (.gen s (some p) it) = genKeep d s p c1.size (x :: den d c1.size it1) := by
            simp only [den]
            rcases g3 (by simp) with hf | ⟨l, rfl⟩
            · rw [i4]; exact genKeep_size hf
            · obtain ⟨rfl, _, _⟩ := next_list h1
              rw [i4]
          have e4 := genKeep_cons (l := den d c1.size it1) w ht e1
          have g4 : s.free ∨ ∃ l, it1 = .list l := by
            rcases g3 (by simp) with hf | ⟨l, rfl⟩
            · exact .inl hf
            · obtain ⟨_, _, rfl⟩ := next_list h1
              exact .inr ⟨_, rfl⟩
          by_cases hk : k v p = true
          · rw [if_pos hk] at h4; cases h4
            refine ⟨fun hn => by simp at hn, fun n hn => ?_⟩
            cases hn
            refine ⟨i1, ⟨g1, i2, fun _ => g4⟩, fun hs => ⟨hs.1, i3 hs.2⟩, ?_⟩
            rw [e3, e4, if_pos hk]; simp only [den]; rw [hsz]
          · rw [if_neg hk] at h4
            obtain ⟨j1, j2⟩ := ih.next _ _ _ _ _ h4 ⟨g1, i2, fun _ => g4⟩
            have e5 : den d c.size (.gen s (some p) it) = den d c2.size (.gen s (some (p + 1)) it1) := by
              rw [e3, e4, if_neg hk]; simp only [den]; rw [hsz]
            refine ⟨fun hn => by rw [e5]; exact j1 hn, fun n hn => ?_⟩
            obtain ⟨m1, m2, m3, m4⟩ := j2 n hn
            exact ⟨m1, m2, fun hs => m3 ⟨hs.1, i3 hs.2⟩, by rw [e5]; exact m4⟩
  | stepCur s ctxs cur =>
    obtain ⟨g1, g2, g3, g4⟩ := hg
    simp only [Eval.next] at h
    obtain ⟨⟨o1, it1⟩, c1, h1, h2⟩ := bind_ok h
    obtain ⟨k1, k2⟩ := ih.next _ _ _ _ _ h1 g4
    cases o1 with
    | none =>
      simp only at h2
      obtain ⟨j1, j2⟩ := ih.next _ _ _ _ _ h2 ⟨g1, g2, g3⟩
      have e1 : den d c.size (.stepCur s ctxs cur) = den d c1.size (.step s ctxs) := by
        simp only [den]; rw [k1 rfl, den_stable g3 c.size c1.size]; rfl
      refine ⟨fun hn => by rw [e1]; exact j1 hn, fun n hn => ?_⟩
      obtain ⟨m1, m2, m3, m4⟩ := j2 n hn
      exact ⟨m1, m2, fun hs => m3 ⟨hs.1, hs.2.1⟩, by rw [e1]; exact m4⟩
    | some x =>
      obtain ⟨i1, i2, i3, i4⟩ := k2 x rfl
      simp only at h2; cases h2
      refine ⟨fun hn => by simp at hn, fun n hn => ?_⟩
      cases hn
      refine ⟨i1, ⟨g1, g2, g3, i2⟩, fun hs => ⟨hs.1, hs.2.1, i3 hs.2.2⟩, ?_⟩
      simp only [den]; rw [i4, den_stable g3 c.size c'.size]; rfl
  | step s ctxs =>
    obtain ⟨g1, g2, g3⟩ := hg
    simp only [Eval.next] at h
    obtain ⟨⟨o1, it1⟩, c1, h1, h2⟩ := bind_ok h
    obtain ⟨k1, k2⟩ := ih.next _ _ _ _ _ h1 g2
    cases o1 with
    | none =>
      simp only at h2; cases h2
      exact ⟨fun _ => by simp [den, k1 rfl], fun n hn => by simp at hn⟩
    | some x =>
      obtain ⟨i1, i2, i3, i4⟩ := k2 x rfl
      simp only at h2
      cases hax : axisNodes d fuel x s.axis with
      | none => simp [hax] at h2
      | some res =>
        cases res with
        | error e => simp [hax] at h2
        | ok l =>
          simp only [hax] at h2
          obtain ⟨it2, c2, h3, h4⟩ := bind_ok h2
          have hl : ∀ y ∈ l, InDoc d r y := fun y hy =>
            onLAxis_inDoc w i1 (((axisNodes_spec w i1.1 hax).1 y).1 hy)
          obtain ⟨s1, s2, s3⟩ := ih.start _ _ _ _ _ h3 g1 hl
          have hc : cand d s.axis s.test x = l.filter (passes d s.axis.principal s.test) :=
            cand_eq w (candidates_of w i1.1 hax)
          have s3 : den d c2.size it2 = selsKeep d s.sels (cand d s.axis s.test x) := by
            rw [s3, hc]; simp only [den]
          have e1 : den d c.size (.step s ctxs) = stepDen d s x ++ (den d c1.size it1).flatMap (stepDen d s) := by
            simp only [den]; rw [i4]; rfl
          by_cases hrev : s.axis.reverse = true
          · rw [if_pos hrev] at h4
            obtain ⟨l', c3, h5, h6⟩ := bind_ok h4
            obtain ⟨rfl, q2⟩ := ih.drain _ _ _ _ h5 s1
            obtain ⟨j1, j2⟩ := ih.next _ _ _ _ _ h6 ⟨g1, i2, i3 g3, fun y hy => q2 y (by simpa using hy)⟩
            have e2 : den d c.size (.step s ctxs) =
                den d c3.size (.stepCur s it1 (.list (den d c2.size it2).reverse)) := by
              rw [e1]; simp only [den, stepDen, if_pos hrev]
              rw [s3, den_stable (i3 g3) c1.size c3.size]
            refine ⟨fun hn => by rw [e2]; exact j1 hn, fun n hn => ?_⟩
            obtain ⟨m1, m2, m3, m4⟩ := j2 n hn
            exact ⟨m1, m2, fun hs => m3 ⟨hs.1, i3 hs.2, trivial⟩, by rw [e2]; exact m4⟩
          · rw [if_neg hrev] at h4
            obtain ⟨j1, j2⟩ := ih.next _ _ _ _ _ h4 ⟨g1, i2, i3 g3, s1⟩
            have e2 : den d c.size (.step s ctxs) = den d c2.size (.stepCur s it1 it2) := by
              rw [e1]; simp only [den, stepDen, if_neg hrev]
              rw [s3, den_stable (i3 g3) c1.size c2.size]
            refine ⟨fun hn => by rw [e2]; exact j1 hn, fun n hn => ?_⟩
            obtain ⟨m1, m2, m3, m4⟩ := j2 n hn
            refine ⟨m1, m2, fun hs => m3 ⟨hs.1, i3 hs.2, s2 trivial ?_⟩, by rw [e2]; exact m4⟩
            rcases hs.1 with h | h
            · exact absurd h hrev
            · exact h

theorem snd_drain {fuel : Nat} (ih : Snd d r fuel) (it : Iter) (c : Ctx) (l : List Nat) (c' : Ctx)
    (h : Eval.drain d (fuel + 1) it c = .ok l c') (hg : GoodIter d r it) :
    l = den d c.size it ∧ ∀ x ∈ l, InDoc d r x := by
  simp only [Eval.drain] at h
  obtain ⟨⟨o1, it1⟩, c1, h1, h2⟩ := bind_ok h
  obtain ⟨k1, k2⟩ := ih.next _ _ _ _ _ h1 hg
  cases o1 with
  | none => simp only at h2; cases h2; exact ⟨(k1 rfl).symm, by simp⟩
  | some x =>
    obtain ⟨i1, i2, i3, i4⟩ := k2 x rfl
    simp only at h2
    obtain ⟨l', c2, h3, h4⟩ := bind_ok h2
    cases h4
    obtain ⟨rfl, q⟩ := ih.drain _ _ _ _ h3 i2
    refine ⟨i4.symm, fun y hy => ?_⟩
    rcases List.mem_cons.1 hy with rfl | hy
    · exact i1
    · exact q y hy

theorem snd_slice {fuel : Nat} (ih : Snd d r fuel) (p : Nat) (v : EVal) (it : Iter) (c : Ctx) (it' : Iter)
    (c' : Ctx) (h : Eval.sliceLoop d (fuel + 1) p v it c = .ok it' c') (hg : GoodIter d r it) :
    GoodIter d r it' ∧ (Stable it → Stable it') ∧ den d c'.size it' = sliceRest v p (den d c.size it) := by
  simp only [Eval.sliceLoop] at h
  obtain ⟨⟨o1, it1⟩, c1, h1, h2⟩ := bind_ok h
  obtain ⟨k1, k2⟩ := ih.next _ _ _ _ _ h1 hg
  cases o1 with
  | none =>
    simp only at h2; cases h2
    exact ⟨by simp [GoodIter], fun _ => trivial, by rw [k1 rfl]; simp [den, sliceRest]⟩
  | some x =>
    obtain ⟨i1, i2, i3, i4⟩ := k2 x rfl
    simp only at h2
    by_cases hb : beyond p v = true
    · rw [if_pos hb] at h2; cases h2
      exact ⟨i2, i3, by rw [i4, sliceRest, if_pos hb]⟩
    · rw [if_neg hb] at h2
      obtain ⟨j1, j2, j3⟩ := ih.slice _ _ _ _ _ _ h2 i2
      exact ⟨j1, fun hs => j2 (i3 hs), by rw [j3, i4, sliceRest, if_neg hb]⟩

theorem snd_start {fuel : Nat} (w : DocWF d r) (ih : Snd d r fuel) (ss : List Sel) (it : Iter) (c : Ctx)
    (it' : Iter) (c' : Ctx) (h : Eval.start d (fuel + 1) ss it c = .ok it' c')
    (hs : ∀ x ∈ ss, GoodSel d r x) (hg : GoodIter d r it) :
    GoodIter d r it' ∧ (Stable it → (∀ x ∈ ss, x.free) → Stable it') ∧
      den d c'.size it' = selsKeep d ss (den d c.size it) := by
  cases ss with
  | nil => simp only [Eval.start] at h; cases h; exact ⟨hg, fun h _ => h, rfl⟩
  | cons s ss =>
    have hs1 := hs s (by simp)
    have hs2 : ∀ x ∈ ss, GoodSel d r x := fun x hx => hs x (by simp [hx])
    have gen : GoodIter d r (.gen s none it) → (s.free → Stable it → Stable (.gen s none it)) →
        selKeep d s (den d c.size it) = genKeep d s 1 (den d c.size it).length (den d c.size it) →
        Eval.start d fuel ss (.gen s none it) c = .ok it' c' →
        GoodIter d r it' ∧ (Stable it → (∀ x ∈ s :: ss, x.free) → Stable it') ∧
        den d c'.size it' = selsKeep d (s :: ss) (den d c.size it) := by
      intro h1 h2 h3 h4
      obtain ⟨j1, j2, j3⟩ := ih.start _ _ _ _ _ h4 hs2 h1
      refine ⟨j1, fun a b => j2 (h2 (b s (by simp)) a) (fun x hx => b x (by simp [hx])), ?_⟩
      rw [j3, selsKeep, h3]
      congr 1
      simp only [den]
      by_cases hz : s.sized = true
      · rw [if_pos hz]
      · rw [if_neg hz]; exact genKeep_size (goodSel_free hs1 (by simpa using hz))
    have gi : GoodIter d r (.gen s none it) := ⟨hs1, hg, fun hn => absurd rfl hn⟩
    cases s with
    | pos k =>
      simp only [Eval.start] at h
      obtain ⟨j1, j2, j3⟩ := ih.start _ _ _ _ _ h hs2 ⟨hs1, hg⟩
      exact ⟨j1, fun a b => j2 a (fun x hx => b x (by simp [hx])), by rw [j3, selsKeep]; rfl⟩
    | never => simp [Eval.start] at h
    | slice gt e =>
      obtain ⟨hgt, hn⟩ := hs1
      subst hgt
      simp only [Eval.start] at h
      obtain ⟨v, c1, h1, h2⟩ := bind_ok h
      obtain ⟨rfl, hv⟩ := numeric_eval hn h1
      simp only [if_true] at h2
      by_cases hb : beyond 1 v = true
      · rw [if_pos hb] at h2
        obtain ⟨j1, j2, j3⟩ := ih.start _ _ _ _ _ h2 hs2 hg
        refine ⟨j1, fun a b => j2 a (fun x hx => b x (by simp [hx])), ?_⟩
        rw [j3, selsKeep, slice_sel w hv, keep_all fun _ q hq => beyond_mono hq hb]
      · rw [if_neg hb] at h2
        obtain ⟨it1, c2, h3, h4⟩ := bind_ok h2
        obtain ⟨k1, k2, k3⟩ := ih.slice _ _ _ _ _ _ h3 hg
        obtain ⟨j1, j2, j3⟩ := ih.start _ _ _ _ _ h4 hs2 k1
        refine ⟨j1, fun a b => j2 (k2 a) (fun x hx => b x (by simp [hx])), ?_⟩
        rw [j3, k3, selsKeep, slice_sel w hv, keep_beyond (by simpa using hb)]
    | number sized e =>
      simp only [Eval.start] at h
      exact gen gi (fun a b => ⟨a, b⟩) rfl h
    | boolean e =>
      simp only [Eval.start] at h
      exact gen gi (fun a b => ⟨a, b⟩) rfl h
    | generic e =>
      simp only [Eval.start] at h
      exact gen gi (fun a b => ⟨a, b⟩) rfl h

theorem snd_drainAll {fuel : Nat} (ih : Snd d r fuel) (its : List Iter) (c : Ctx) (l : List Nat) (c' : Ctx)
    (h : Eval.drainAll d (fuel + 1) its c = .ok l c')
    (hg : ∀ it ∈ its, GoodIter d r it ∧ ∀ z z', den d z it = den d z' it) :
    (∀ x ∈ l, InDoc d r x) ∧ ∀ z x, x ∈ l ↔ ∃ it ∈ its, x ∈ den d z it := by
  cases its with
  | nil => simp only [Eval.drainAll] at h; cases h; simp
  | cons it its =>
    simp only [Eval.drainAll] at h
    obtain ⟨l1, c1, h1, h2⟩ := bind_ok h
    obtain ⟨l2, c2, h3, h4⟩ := bind_ok h2
    cases h4
    obtain ⟨k1, k2⟩ := ih.drainAll _ _ _ _ h1 (fun it hi => hg it (by simp [hi]))
    obtain ⟨rfl, q⟩ := ih.drain _ _ _ _ h3 (hg it (by simp)).1
    refine ⟨fun x hx => ?_, fun z x => ?_⟩
    · rcases List.mem_append.1 hx with hx | hx
      · exact k1 x hx
      · exact q x hx
    · rw [List.mem_append, k2 z, (hg it (by simp)).2 c1.size z]
      simp only [List.mem_cons, exists_eq_or_imp]
      exact or_comm

theorem snd_args {fuel : Nat} (ih : Snd d r fuel) (as : List Arg) (c : Ctx) (vs : List EVal) (c' : Ctx)
    (h : Eval.evalArgs d (fuel + 1) as c = .ok vs c') (hg : GoodArgs d r as) (hc : InDoc d r c.node) :
    ArgsMean d as c.node c.position c.size vs ∧ Same c c' := by
  cases as with
  | nil => simp only [Eval.evalArgs] at h; cases h; simp only [ArgsMean]; exact ⟨trivial, .refl⟩
  | cons a as =>
    cases a with
    | mk m e =>
      simp only [Eval.evalArgs] at h
      simp only [GoodArgs, GoodArg] at hg
      obtain ⟨v, c1, h1, h2⟩ := bind_ok h
      obtain ⟨vs1, c2, h3, h4⟩ := bind_ok h2
      cases h4
      obtain ⟨k1, _, k3⟩ := ih.eval _ _ _ _ _ h1 hg.1 hc
      obtain ⟨j1, j2⟩ := ih.args _ _ _ _ h3 hg.2 (by rw [k3.1]; exact hc)
      rw [k3.1, k3.2.1, k3.2.2] at j1
      simp only [ArgsMean, ArgMeans]
      exact ⟨⟨v, vs1, k1, j1, rfl⟩, k3.trans j2⟩

/-- The value of an operand of a union is a node-set. -/
theorem operand_nodes {e : Expr} {m : Mode} (hg : Good d r m e) (hu : UnionOperand d e) {n p s : Nat} {v : EVal}
    (hv : Means d e n p s v) : ∃ l, v = .nodes l := by
  cases e with
  | path ab steps => exact means_ty hg hv
  | var x =>
    cases x with
    | nodes l => simp only [Means] at hv; exact ⟨_, hv⟩
    | sc s => exact hu.elim
  | _ => exact hu.elim

theorem snd_any {fuel : Nat} (w : DocWF d r) (ih : Snd d r fuel) (es : List Expr) (c : Ctx) (v : EVal) (c' : Ctx)
    (h : Eval.evalAny d (fuel + 1) es c = .ok v c') (hg : GoodUnion d r es) (hc : InDoc d r c.node) :
    (∃ b, v = .sc (.bool b) ∧ (b = true ↔ ∃ x, InSome d es c.node c.position c.size x)) ∧ Same c c' := by
  cases es with
  | nil => simp only [Eval.evalAny] at h; cases h; exact ⟨⟨false, rfl, by simp [InSome]⟩, .refl⟩
  | cons e es =>
    simp only [Eval.evalAny] at h
    simp only [GoodUnion] at hg
    obtain ⟨v1, c1, h1, h2⟩ := bind_ok h
    obtain ⟨⟨x, hx, b, rfl, hb⟩, _, k3⟩ := ih.eval _ _ _ _ _ h1 hg.1 hc
    obtain ⟨l, rfl⟩ := operand_nodes hg.1 hg.2.1 hx
    have hb' : b = true ↔ ∃ x, x ∈ l := by
      rw [hb]; show l ≠ [] ↔ _
      cases l <;> simp
    cases b with
    | true =>
      simp only [toBool, toBoolean, if_true] at h2; cases h2
      obtain ⟨y, hy⟩ := hb'.1 rfl
      refine ⟨⟨true, rfl, by simp only [true_iff]; exact ⟨y, by simp only [InSome]; exact .inl ⟨l, hx, hy⟩⟩⟩, k3⟩
    | false =>
      simp only [toBool, toBoolean, Bool.false_eq_true, if_false] at h2
      obtain ⟨⟨b, rfl, j1⟩, j2⟩ := ih.any _ _ _ _ h2 hg.2.2 (by rw [k3.1]; exact hc)
      rw [k3.1, k3.2.1, k3.2.2] at j1
      refine ⟨⟨b, rfl, j1.trans ?_⟩, k3.trans j2⟩
      constructor
      · rintro ⟨y, hy⟩; exact ⟨y, by simp only [InSome]; exact .inr hy⟩
      · rintro ⟨y, hy⟩
        simp only [InSome] at hy
        rcases hy with ⟨l', h3, h4⟩ | hy
        · cases means_det w e hx h3
          have := hb'.2 ⟨y, h4⟩; cases this
        · exact ⟨y, hy⟩

/-- The nodes of all operands of a union. -/
theorem union_nodes (w : DocWF d r) {es : List Expr} (hg : GoodUnion d r es) {n : Nat} (hn : InDoc d r n)
    (p s : Nat) : ∃ l : List Nat, (∀ x ∈ l, InDoc d r x) ∧ ∀ x, x ∈ l ↔ InSome d es n p s x := by
  induction es with
  | nil => exact ⟨[], by simp, by simp [InSome]⟩
  | cons e es ih =>
    simp only [GoodUnion] at hg
    obtain ⟨l, h1, h2⟩ := ih hg.2.2
    have hm : ∃ m, Means d e n p s (.nodes m) ∧ ∀ x ∈ m, InDoc d r x := by
      obtain ⟨hg1, hu, _⟩ := hg
      cases e with
      | path ab steps =>
        have hy : ∃ y, StartNode d ab n y ∧ InDoc d r y := by
          cases ab with
          | false => exact ⟨n, rfl, hn⟩
          | true =>
            refine ⟨r, hn.1, root_up hn.1 hn.1.1, .inl ?_⟩
            simp [TreeNode, w.root]
        obtain ⟨y, h3, h4⟩ := hy
        obtain ⟨m, m1, m2, _⟩ := iterOut_means w (e := .path ab steps) (n := n) (p := p) (s := s)
          (l := flow d steps [y]) (by simp only [IterOut]; exact ⟨y, h3, h4, rfl⟩)
        exact ⟨m, m1, m2.2⟩
      | var v =>
        cases v with
        | sc s => exact hu.elim
        | nodes l => simp only [Good] at hg1; exact ⟨l, by simp only [Means], hg1.2⟩
      | _ => exact hu.elim
    obtain ⟨m, m1, m2⟩ := hm
    refine ⟨m ++ l, fun x hx => ?_, fun x => ?_⟩
    · rcases List.mem_append.1 hx with hx | hx
      · exact m2 x hx
      · exact h1 x hx
    · simp only [List.mem_append, InSome, h2]
      constructor
      · rintro (hx | hx)
        · exact .inl ⟨m, m1, hx⟩
        · exact .inr hx
      · rintro (⟨m', h3, hx⟩ | hx)
        · cases means_det w e m1 h3; exact .inl hx
        · exact .inr hx

theorem snd_iterables {fuel : Nat} (w : DocWF d r) (ih : Snd d r fuel) (es : List Expr) (n : Nat) (c : Ctx)
    (its : List Iter) (c' : Ctx) (h : Eval.iterables d (fuel + 1) es n c = .ok its c') (hg : GoodUnion d r es)
    (hn : n = c.node) (hc : InDoc d r c.node) :
    c' = c ∧ (∀ it ∈ its, GoodIter d r it ∧ ∀ z z', den d z it = den d z' it) ∧
      (∀ it ∈ its, ∀ z, ∀ x ∈ den d z it, TreeNode d.h x) ∧
      ∀ z x, (∃ it ∈ its, x ∈ den d z it) ↔ InSome d es c.node c.position c.size x := by
  cases es with
  | nil => simp only [Eval.iterables] at h; cases h; simp [InSome]
  | cons e es =>
    simp only [Eval.iterables] at h
    simp only [GoodUnion] at hg
    obtain ⟨it, c1, h1, h2⟩ := bind_ok h
    obtain ⟨its1, c2, h3, h4⟩ := bind_ok h2
    cases h4
    -- one operand
    have key : c1 = c ∧ GoodIter d r it ∧ (∀ z z', den d z it = den d z' it) ∧
        (∀ z, ∀ x ∈ den d z it, TreeNode d.h x) ∧
        ∀ z x, x ∈ den d z it ↔ ∃ l, Means d e c.node c.position c.size (.nodes l) ∧ x ∈ l := by
      obtain ⟨hg1, hu, _⟩ := hg
      cases e with
      | path ab steps =>
        simp only [Good] at hg1
        obtain ⟨k1, k2, _, y, k3, k4, k5, k6⟩ := path_iterable w h1 hn hc hg1.1 hg1.2.1
        refine ⟨k1, k2, fun z z' => by rw [k6, k6], fun z x hx => ?_, fun z x => ?_⟩
        · rw [k6] at hx
          refine flow_tree w (l := [y]) ?_ x hx
          simp only [UnionOperand] at hu
          cases hl : steps.getLast? with
          | none =>
            rw [hl] at hu
            intro z hz
            rw [List.mem_singleton] at hz; subst hz
            exact k5 hu
          | some s => rw [hl] at hu; exact hu
        · rw [k6]
          obtain ⟨m, m1, _, m3⟩ := iterOut_means w (e := .path ab steps) (p := c.position) (s := c.size)
            (l := flow d steps [y]) (by simp only [IterOut]; exact ⟨y, k3, k4, rfl⟩)
          rw [← m3]
          constructor
          · intro hx; exact ⟨m, m1, hx⟩
          · rintro ⟨l, hl, hx⟩; cases means_det w _ m1 hl; exact hx
      | var v =>
        cases v with
        | sc s => exact hu.elim
        | nodes l =>
          simp only [Good] at hg1
          cases fuel with
          | zero => simp [Eval.iterable] at h1
          | succ fuel =>
            simp only [Eval.iterable] at h1; cases h1
            refine ⟨rfl, hg1.2, fun _ _ => rfl, fun z x hx => hu x hx, fun z x => ?_⟩
            simp only [Means, den]
            constructor
            · intro hx; exact ⟨l, rfl, hx⟩
            · rintro ⟨l', h5, hx⟩; cases h5; exact hx
      | _ => exact hu.elim
    obtain ⟨rfl, k2, k3, k4, k5⟩ := key
    obtain ⟨rfl, j2, j3, j4⟩ := ih.iterables _ _ _ _ _ h3 hg.2.2 hn hc
    refine ⟨rfl, ?_, ?_, fun z x => ?_⟩
    · intro i hi
      rcases List.mem_cons.1 hi with rfl | hi
      · exact ⟨k2, k3⟩
      · exact j2 i hi
    · intro i hi
      rcases List.mem_cons.1 hi with rfl | hi
      · exact k4
      · exact j3 i hi
    · simp only [List.mem_cons, exists_eq_or_imp, InSome]
      rw [k5, j4]

theorem snd_iterable {fuel : Nat} (w : DocWF d r) (ih : Snd d r fuel) (e : Expr) (n : Nat) (c : Ctx) (it : Iter)
    (c' : Ctx) (h : Eval.iterable d (fuel + 1) e n c = .ok it c') (hg : Good d r .bool e)
    (hns : e.isNodeset = true) (hn : n = c.node) (hc : InDoc d r c.node) :
    GoodIter d r it ∧ (BaseStable e → Stable it) ∧
      IterOut d r e c.node c.position c.size (den d c'.size it) := by
  cases e with
  | path ab steps =>
    simp only [Good] at hg
    obtain ⟨rfl, k2, k3, y, k4, k5, _, k6⟩ := path_iterable w h hn hc hg.1 hg.2.1
    exact ⟨k2, k3, by simp only [IterOut]; exact ⟨y, k4, k5, k6 _⟩⟩
  | union es =>
    simp only [Good] at hg
    simp only [Eval.iterable] at h
    obtain ⟨its, c1, h1, h2⟩ := bind_ok h
    obtain ⟨l, c2, h3, h4⟩ := bind_ok h2
    cases h4
    obtain ⟨rfl, k2, k3, k4⟩ := ih.iterables _ _ _ _ _ h1 hg hn hc
    obtain ⟨q1, q2⟩ := ih.drainAll _ _ _ _ h3 k2
    have hmem : ∀ x, x ∈ sortNodes d (dictKeys l) ↔ x ∈ l := fun x => by rw [sortNodes_mem, dictKeys_mem]
    have hin : ∀ x ∈ sortNodes d (dictKeys l), InDoc d r x := fun x hx => q1 x ((hmem x).1 hx)
    refine ⟨hin, fun _ => trivial, ?_⟩
    simp only [IterOut, den]
    refine ⟨?_, hin, fun x => by rw [hmem, q2 0, k4]⟩
    refine tree_sorted w (dictKeys_nodup l) (fun x hx => q1 x ((dictKeys_mem l x).1 hx)) fun x hx => ?_
    obtain ⟨i, hi, hx⟩ := (q2 0 x).1 ((dictKeys_mem l x).1 hx)
    exact k3 i hi 0 x hx
  | filter e preds =>
    simp only [Good] at hg
    simp only [Eval.iterable] at h
    obtain ⟨v, c1, h1, h2⟩ := bind_ok h
    obtain ⟨⟨x, hx, rfl, l, rfl⟩, k2, _⟩ := ih.eval _ _ _ _ _ h1 hg.1 hc
    simp only at h2
    cases hm : mkSels d preds with
    | error err => simp [hm] at h2
    | ok sels =>
      simp only [hm] at h2
      obtain ⟨s1, s2, s3⟩ := mkSels_keep hm hg.2
      obtain ⟨j1, j2, j3⟩ := ih.start _ _ _ _ _ h2 s1 k2.2
      refine ⟨j1, fun hb => j2 trivial (s2 hb), ?_⟩
      simp only [IterOut]
      exact ⟨l, hx, k2, by rw [j3, s3]; rfl⟩
  | pathFrom e steps =>
    simp only [Good] at hg
    simp only [Eval.iterable] at h
    by_cases hb : e.isNodeset = true
    · rw [if_pos hb] at h
      obtain ⟨it1, c1, h1, h2⟩ := bind_ok h
      rw [if_pos hb] at hg
      obtain ⟨k1, k2, k3⟩ := ih.iterable _ _ _ _ _ h1 hg.1 hb hn hc
      obtain ⟨h3, rfl⟩ := ret_ok h2
      obtain ⟨j1, j2, j3⟩ := chain_den h3 hg.2.2.1 hg.2.2.2.1 k1 (fun _ => k2 hg.2.1)
      refine ⟨j1, fun hs => j3 hs (k2 hg.2.1), ?_⟩
      simp only [IterOut]
      exact ⟨_, j2 _, .inl ⟨hb, k3⟩⟩
    · rw [if_neg hb] at h
      obtain ⟨v, c1, h1, h2⟩ := bind_ok h
      rw [if_neg hb] at hg
      obtain ⟨⟨x, hx, rfl, l, rfl⟩, k2, _⟩ := ih.eval _ _ _ _ _ h1 hg.1 hc
      simp only at h2
      obtain ⟨h3, rfl⟩ := ret_ok h2
      obtain ⟨j1, j2, j3⟩ := chain_den h3 hg.2.2.1 hg.2.2.2.1 (by exact k2.2) (fun _ => trivial)
      refine ⟨j1, fun hs => j3 hs trivial, ?_⟩
      simp only [IterOut]
      exact ⟨_, j2 _, .inr ⟨by simpa using hb, hx, k2⟩⟩
  | _ => simp [Expr.isNodeset] at hns

theorem snd_nodeset {fuel : Nat} (w : DocWF d r) (ih : Snd d r fuel) (m : Mode) (e : Expr) (c : Ctx) (v : EVal)
    (c' : Ctx) (h : restore c ((Eval.iterable d fuel e c.node c).bind fun it c => match m with
      | .any | .nodes => (Eval.drain d fuel it c).bind fun l c => .ok (.nodes (sortNodes d l)) c
      | .bool => (Eval.next d fuel it c).bind fun r c => .ok (.sc (.bool r.1.isSome)) c
      | .num => (Eval.next d fuel it c).bind fun r c => ret (convert d .num (.nodes r.1.toList)) c
      | .str => (Eval.next d fuel it c).bind fun r c => ret (convert d .str (.nodes r.1.toList)) c) = .ok v c')
    (hg : Good d r m e) (hns : e.isNodeset = true) (hc : InDoc d r c.node) :
    MeansAs d m e c.node c.position c.size v ∧ GoodVal d r v ∧ Same c c' := by
  obtain ⟨v1, c1, h1, h2⟩ := bind_ok h
  cases h2
  obtain ⟨it, c2, h3, h4⟩ := bind_ok h1
  obtain ⟨k1, _, k3⟩ := ih.iterable _ _ _ _ _ h3 (good_bool hg hns) hns rfl hc
  have first : ∀ o it' c3, Eval.next d fuel it c2 = .ok (o, it') c3 → o = (den d c2.size it).head? := by
    intro o it' c3 hnx
    obtain ⟨n1, n2⟩ := ih.next _ _ _ _ _ hnx k1
    cases o with
    | none => rw [n1 rfl]; rfl
    | some x => rw [(n2 x rfl).2.2.2]; rfl
  have all : (m = .any ∨ m = .nodes) → ((Eval.drain d fuel it c2).bind fun l c => .ok (.nodes (sortNodes d l)) c) =
      .ok v c1 → MeansAs d m e c.node c.position c.size v ∧ GoodVal d r v := by
    intro hm h5
    obtain ⟨l, c3, h6, h7⟩ := bind_ok h5
    cases h7
    obtain ⟨rfl, _⟩ := ih.drain _ _ _ _ h6 k1
    exact iterOut_all w hm hg hns k3
  have conv : (m = .num ∨ m = .str) → ((Eval.next d fuel it c2).bind fun r c =>
      ret (convert d m (.nodes r.1.toList)) c) = .ok v c1 →
      MeansAs d m e c.node c.position c.size v ∧ GoodVal d r v := by
    intro hm h5
    obtain ⟨⟨o, it'⟩, c3, h6, h7⟩ := bind_ok h5
    obtain ⟨h8, _⟩ := ret_ok h7
    rw [first _ _ _ h6] at h8
    refine ⟨iterOut_first w hm hg hns k3 h8, ?_⟩
    have h9 := convert_converts h8
    rcases hm with rfl | rfl
    · obtain ⟨x, rfl, _⟩ := h9; trivial
    · obtain ⟨x, rfl, _⟩ := h9; trivial
  have same : Same c { c1 with node := c.node, position := c.position, size := c.size } := ⟨rfl, rfl, rfl⟩
  cases m with
  | any => have := all (.inl rfl) h4; exact ⟨this.1, this.2, same⟩
  | nodes => have := all (.inr rfl) h4; exact ⟨this.1, this.2, same⟩
  | num => have := conv (.inl rfl) h4; exact ⟨this.1, this.2, same⟩
  | str => have := conv (.inr rfl) h4; exact ⟨this.1, this.2, same⟩
  | bool =>
    obtain ⟨⟨o, it'⟩, c3, h6, h7⟩ := bind_ok h4
    cases h7
    refine ⟨iterOut_bool w k3 ?_, trivial, same⟩
    rw [first _ _ _ h6]
    cases den d c2.size it <;> simp

theorem converted {m : Mode} {e : Expr} {n p s : Nat} {x v : EVal} (hx : Means d e n p s x) (hgx : GoodVal d r x)
    {c c1 c' : Ctx} (hs : Same c c1) (h : ret (convert d m x) c1 = .ok v c') :
    MeansAs d m e n p s v ∧ GoodVal d r v ∧ Same c c' := by
  obtain ⟨h1, rfl⟩ := ret_ok h
  exact ⟨⟨x, hx, convert_converts h1⟩, convert_good hgx h1, hs⟩

theorem snd_eval {fuel : Nat} (w : DocWF d r) (ih : Snd d r fuel) (m : Mode) (e : Expr) (c : Ctx) (v : EVal)
    (c' : Ctx) (h : Eval.eval d (fuel + 1) m e c = .ok v c') (hg : Good d r m e) (hc : InDoc d r c.node) :
    MeansAs d m e c.node c.position c.size v ∧ GoodVal d r v ∧ Same c c' := by
  cases e with
  | lit b s =>
    simp only [Eval.eval] at h
    simp only [Good] at hg
    obtain ⟨h1, rfl⟩ := ret_ok h
    obtain ⟨k1, k2⟩ := evalLit_means (r := r) hg h1 c'.node c'.position c'.size
    exact ⟨k1, k2, .refl⟩
  | var x =>
    simp only [Eval.eval] at h
    simp only [Good] at hg
    exact converted (by simp only [Means]) hg .refl h
  | position =>
    simp only [Eval.eval] at h
    exact converted (by simp only [Means, mkNumber_nat]) (by exact trivial) .refl h
  | last =>
    simp only [Eval.eval] at h
    exact converted (by simp only [Means, mkNumber_nat]) (by exact trivial) .refl h
  | fn ty f args =>
    simp only [Eval.eval] at h
    simp only [Good] at hg
    obtain ⟨vs, c1, h1, h2⟩ := bind_ok h
    obtain ⟨k1, k2⟩ := ih.args _ _ _ _ h1 hg.1 hc
    cases hf : f vs with
    | error e => simp [hf] at h2
    | ok x =>
      simp only [hf] at h2
      exact converted (by simp only [Means]; exact ⟨vs, k1, hf⟩) (hg.2 _ _ hf).2 k2 h2
  | and a b =>
    simp only [Eval.eval] at h
    simp only [Good] at hg
    obtain ⟨v1, c1, h1, h2⟩ := bind_ok h
    obtain ⟨⟨x, hx, t, rfl, ht⟩, _, k3⟩ := ih.eval _ _ _ _ _ h1 hg.1 hc
    cases t with
    | false =>
      simp only [toBool, toBoolean, Bool.false_eq_true, if_false] at h2
      refine converted ?_ (by exact trivial) k3 h2
      rw [Means]
      exact ⟨x, hx, .inl ⟨fun h => by simpa using ht.2 h, rfl⟩⟩
    | true =>
      simp only [toBool, toBoolean, if_true] at h2
      obtain ⟨v2, c2, h3, h4⟩ := bind_ok h2
      obtain ⟨⟨y, hy, hcv⟩, j2, j3⟩ := ih.eval _ _ _ _ _ h3 hg.2 (by rw [k3.1]; exact hc)
      rw [k3.1, k3.2.1, k3.2.2] at hy
      refine converted ?_ j2 (k3.trans j3) h4
      simp only [Means]
      exact ⟨x, hx, .inr ⟨ht.1 rfl, y, hy, hcv⟩⟩
  | or a b =>
    simp only [Eval.eval] at h
    simp only [Good] at hg
    obtain ⟨v1, c1, h1, h2⟩ := bind_ok h
    obtain ⟨⟨x, hx, t, rfl, ht⟩, _, k3⟩ := ih.eval _ _ _ _ _ h1 hg.1 hc
    cases t with
    | true =>
      simp only [toBool, toBoolean, if_true] at h2
      refine converted ?_ (by exact trivial) k3 h2
      rw [Means]
      exact ⟨x, hx, .inl ⟨ht.1 rfl, rfl⟩⟩
    | false =>
      simp only [toBool, toBoolean, Bool.false_eq_true, if_false] at h2
      obtain ⟨v2, c2, h3, h4⟩ := bind_ok h2
      obtain ⟨⟨y, hy, hcv⟩, j2, j3⟩ := ih.eval _ _ _ _ _ h3 hg.2 (by rw [k3.1]; exact hc)
      rw [k3.1, k3.2.1, k3.2.2] at hy
      refine converted ?_ j2 (k3.trans j3) h4
      simp only [Means]
      exact ⟨x, hx, .inr ⟨fun h => by simpa using ht.2 h, y, hy, hcv⟩⟩
  | cmp op a b =>
    simp only [Eval.eval] at h
    simp only [Good] at hg
    obtain ⟨v1, c1, h1, h2⟩ := bind_ok h
    obtain ⟨v2, c2, h3, h4⟩ := bind_ok h2
    obtain ⟨⟨x, hx, k1⟩, _, k3⟩ := ih.eval _ _ _ _ _ h1 hg.1 hc
    obtain ⟨⟨y, hy, j1⟩, _, j3⟩ := ih.eval _ _ _ _ _ h3 hg.2 (by rw [k3.1]; exact hc)
    have k1 : v1 = x := k1
    have j1 : v2 = y := j1
    subst k1; subst j1
    rw [k3.1, k3.2.1, k3.2.2] at hy
    cases hcmp : compareVals d op v1 v2 with
    | error e => simp [hcmp] at h4
    | ok z =>
      simp only [hcmp] at h4
      obtain ⟨t, rfl⟩ := compareVals_bool hcmp
      exact converted (by simp only [Means]; exact ⟨v1, v2, hx, hy, hcmp⟩) (by exact trivial) (k3.trans j3) h4
  | union es =>
    by_cases hm : m = .bool
    · subst hm
      simp only [Eval.eval] at h
      simp only [Good] at hg
      obtain ⟨⟨b, rfl, k1⟩, k2⟩ := ih.any _ _ _ _ h hg hc
      refine ⟨?_, trivial, k2⟩
      obtain ⟨l, h1, h2⟩ := union_nodes w hg hc c.position c.size
      obtain ⟨k, h3, h4⟩ := exists_sorted w l h1
      refine ⟨.nodes k, ?_, b, rfl, k1.trans ?_⟩
      · simp only [Means]; exact ⟨k, rfl, h3, fun x => by rw [h4, h2]⟩
      · show _ ↔ k ≠ []
        constructor
        · rintro ⟨x, hx⟩ rfl
          simpa using (h4 x).2 ((h2 x).2 hx)
        · intro hk
          obtain ⟨x, hx⟩ := List.exists_mem_of_ne_nil k hk
          exact ⟨x, (h2 x).1 ((h4 x).1 hx)⟩
    · rw [Eval.eval] at h
      · exact snd_nodeset w ih m _ c v c' h hg rfl hc
      all_goals first | simp; done | (intro h; exact hm h) | (simp; exact hm)
  | path ab steps =>
    rw [Eval.eval] at h
    · exact snd_nodeset w ih m _ c v c' h hg rfl hc
    all_goals simp
  | filter e preds =>
    rw [Eval.eval] at h
    · exact snd_nodeset w ih m _ c v c' h hg rfl hc
    all_goals simp
  | pathFrom e steps =>
    rw [Eval.eval] at h
    · exact snd_nodeset w ih m _ c v c' h hg rfl hc
    all_goals simp

/-- The functions of the evaluator do what the specification says. -/
theorem sound (w : DocWF d r) (fuel : Nat) : Snd d r fuel := by
  induction fuel with
  | zero => exact snd_zero
  | succ fuel ih =>
    exact ⟨snd_next w ih, snd_drain ih, snd_start w ih, snd_slice ih, snd_iterable w ih, snd_iterables w ih,
      snd_drainAll ih, snd_eval w ih, snd_args ih, snd_any w ih⟩

end Verif.Eval
