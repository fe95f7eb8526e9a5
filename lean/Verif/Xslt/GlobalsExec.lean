import Verif.Xslt.GlobalsLemmas

/-
The instructions do what the specification says; what of the context an exception leaves behind.
-/
namespace Verif.Globals
open Verif Spec

variable {V N : Type}

/-- The variables of all compiled expressions are there. -/
def Known (refs : Nat → List Name) (d : Env V) (compiled : List Nat) : Prop :=
  ∀ i ∈ compiled, ∀ x ∈ refs i, (d x).isSome = true

theorem evalE_spec {refs : Nat → List Name} {b : List Name} {e : GExpr V N} {s : St V N} (h : FitsE refs b e)
    (hs : Scope s.dict b s.vars) (hk : Known refs s.dict s.compiled) :
    ∃ l, evalE e s = (expr s.vars s.focus e, { s with compiled := l }) ∧ Known refs s.dict l := by
  unfold evalE
  by_cases hc : e.id ∈ s.compiled
  · rw [if_pos hc]
    refine ⟨s.compiled, ?_, hk⟩
    have : ∀ x ∈ e.fv, (s.vars x).isSome = true := by
      intro x hx
      by_cases hb : x ∈ b
      · exact hs.bound x hb
      · rw [hs.out x hb]; exact hk _ hc x ((h.2.1 x hx).resolve_left hb)
    rw [expr_def (find_none_iff.mpr this)]
  · rw [if_neg hc]
    cases hd : e.fv.find? (fun x => (s.vars x).isNone) with
    | some x => exact ⟨s.compiled, by rw [expr_undef hd], hk⟩
    | none =>
      refine ⟨e.id :: s.compiled, by rw [expr_def hd], ?_⟩
      intro i hi x hx
      rcases List.mem_cons.mp hi with rfl | hi
      · have := h.2.2 x hx
        rw [← hs.out x this.2]; exact find_none_iff.mp hd x this.1
      · exact hk i hi x hx

/-- What instructions keep of the context; `vs` is written. -/
structure Ran (refs : Nat → List Name) (s t : St V N) (vs : List V) : Prop where
  dict : t.dict = s.dict
  live : t.live = true
  writers : ∀ w ws, s.writers = w :: ws → t.writers = (w ++ vs) :: ws
  known : Known refs t.dict t.compiled

/-- The context of the instructions in a content. -/
structure Good (refs : Nat → List Name) (b : List Name) (s : St V N) : Prop where
  live : s.live = true
  writers : s.writers ≠ []
  known : Known refs s.dict s.compiled
  scope : Scope s.dict b s.vars

theorem Ran.refl {refs : Nat → List Name} {b : List Name} {s : St V N} (h : Good refs b s) : Ran refs s s [] :=
  ⟨rfl, h.live, fun w ws e => by rw [e, List.append_nil], h.known⟩

theorem Ran.trans {refs : Nat → List Name} {s t u : St V N} {a b : List V} (h : Ran refs s t a) (h' : Ran refs t u b) :
    Ran refs s u (a ++ b) :=
  ⟨h'.dict.trans h.dict, h'.live, fun w ws e => by rw [h'.writers _ _ (h.writers w ws e), List.append_assoc], h'.known⟩

theorem Ran.nonempty {refs : Nat → List Name} {s t : St V N} {vs : List V} (h : Ran refs s t vs) (hw : s.writers ≠ []) :
    t.writers ≠ [] := by
  cases e : s.writers with
  | nil => exact absurd e hw
  | cons w ws => rw [h.writers w ws e]; nofun

/-- The state after instructions that gave the variables back. -/
theorem Ran.good {refs : Nat → List Name} {b : List Name} {s t : St V N} {vs : List V} (h : Ran refs s t vs)
    (hg : Good refs b s) (hc : t.cur = s.cur) : Good refs b t := by
  refine ⟨h.live, h.nonempty hg.writers, h.known, ?_⟩
  have : t.vars = s.vars := by unfold St.vars; rw [hc, h.dict]
  rw [this, h.dict]; exact hg.scope

/-- What is known about running `f`, which should make `r`.  `keep` says that the variables are given back, `calm` that
a missing variable leaves focus and variables as they were. -/
structure Does (refs : Nat → List Name) (s : St V N) (r : Except Err (List V)) (keep calm : Prop)
    (p : Except Err Unit × St V N) : Prop where
  ok : ∀ vs, r = .ok vs → p.1 = .ok () ∧ Ran refs s p.2 vs ∧ p.2.focus = s.focus ∧ (keep → p.2.cur = s.cur)
  err : ∀ x, r = .error x → p.1 = .error x ∧ (∃ vs, Ran refs s p.2 vs) ∧
    (calm → (∃ y, x = .undefined y) → p.2.focus = s.focus ∧ p.2.cur = s.cur)

theorem Does.pos {refs : Nat → List Name} {s : St V N} {r : Except Err (List V)} {k c : Prop}
    {p : Except Err Unit × St V N} (h : Does refs s r k c p) {vs : List V} (hr : r = .ok vs) :
    ∃ t, p = (.ok (), t) ∧ Ran refs s t vs ∧ t.focus = s.focus ∧ (k → t.cur = s.cur) := by
  obtain ⟨a, b, d, e⟩ := h.ok vs hr
  exact ⟨p.2, by rw [← a], b, d, e⟩

theorem Does.neg {refs : Nat → List Name} {s : St V N} {r : Except Err (List V)} {k c : Prop}
    {p : Except Err Unit × St V N} (h : Does refs s r k c p) {x : Err} (hr : r = .error x) :
    ∃ t, p = (.error x, t) ∧ (∃ vs, Ran refs s t vs) ∧
      (c → (∃ y, x = .undefined y) → t.focus = s.focus ∧ t.cur = s.cur) := by
  obtain ⟨a, b, d⟩ := h.err x hr
  exact ⟨p.2, by rw [← a], b, d⟩

theorem Does.fails {refs : Nat → List Name} {s t : St V N} {x : Err} {k c : Prop} {vs : List V}
    (h : Ran refs s t vs) (hc : c → (∃ y, x = .undefined y) → t.focus = s.focus ∧ t.cur = s.cur) :
    Does refs s (.error x) k c (.error x, t) :=
  ⟨nofun, fun y hy => by injection hy with hy; subst hy; exact ⟨rfl, ⟨vs, h⟩, hc⟩⟩

/-- More instructions afterwards. -/
theorem Does.after {refs : Nat → List Name} {s t : St V N} {r : Except Err (List V)} {vs : List V} {k c : Prop}
    {p : Except Err Unit × St V N} (h : Ran refs s t vs) (hf : t.focus = s.focus) (hc : t.cur = s.cur)
    (hd : Does refs t r k c p) : Does refs s (andThen (.ok vs) r) k c p := by
  cases r with
  | ok ws =>
    obtain ⟨a, b, d, e⟩ := hd.ok ws rfl
    refine ⟨fun us hu => ?_, nofun⟩
    have : us = vs ++ ws := by injection hu with hu; exact hu.symm
    subst this
    exact ⟨a, h.trans b, d.trans hf, fun hk => (e hk).trans hc⟩
  | error x =>
    obtain ⟨a, ⟨us, b⟩, d⟩ := hd.err x rfl
    refine ⟨nofun, fun y hy => ?_⟩
    have : y = x := by injection hy with hy; exact hy.symm
    subst this
    exact ⟨a, ⟨_, h.trans b⟩, fun hc' hu => ⟨(d hc' hu).1.trans hf, (d hc' hu).2.trans hc⟩⟩

theorem andThen_nil (r : Except Err (List V)) : andThen (.ok []) r = r := by
  cases r <;> rfl

theorem Good.compiled {refs : Nat → List Name} {b : List Name} {s : St V N} (h : Good refs b s) {l : List Nat}
    (hk : Known refs s.dict l) : Good refs b { s with compiled := l } :=
  ⟨h.live, h.writers, hk, h.scope⟩

theorem Good.ran {refs : Nat → List Name} {b : List Name} {s : St V N} (h : Good refs b s) {l : List Nat}
    (hk : Known refs s.dict l) : Ran refs s { s with compiled := l } [] :=
  ⟨rfl, h.live, fun w ws e => by rw [List.append_nil]; exact e, hk⟩

theorem Good.write {refs : Nat → List Name} {b : List Name} {s : St V N} (h : Good refs b s) (v : V) :
    Ran refs s (s.write v) [v] ∧ (s.write v).focus = s.focus ∧ (s.write v).cur = s.cur := by
  have hl := h.live
  cases e : s.writers with
  | nil => exact absurd e h.writers
  | cons w ws =>
    have : s.write v = { s with writers := (w ++ [v]) :: ws } := by unfold St.write; rw [hl, e]
    rw [this]
    refine ⟨⟨rfl, hl, ?_, h.known⟩, rfl, rfl⟩
    intro w' ws' e'
    injection (e.symm.trans e') with e1 e2
    subst e1; subst e2; rfl

/-- The children of an element with or without pseudo nodes. -/
theorem inScope_does {refs : Nat → List Name} {b : List Name} {s : St V N} {c : Code V N} {r : Except Err (List V)}
    {calm : Prop} {f : St V N → Except Err Unit × St V N} (hg : Good refs b s)
    (hf : ∀ s', Good refs b s' → s'.vars = s.vars → s'.dict = s.dict → s'.focus = s.focus →
      (c.declares = true → s'.cur.isSome = true) → Does refs s' r (c.declares = false) calm (f s')) :
    Does refs s r True (c.declares = false ∧ calm) (inScope c.declares f s) := by
  unfold inScope
  cases hd : c.declares with
  | false =>
    rw [hd] at hf
    have := hf s hg rfl rfl rfl nofun
    exact ⟨fun vs hv => ⟨(this.ok vs hv).1, (this.ok vs hv).2.1, (this.ok vs hv).2.2.1, fun _ => (this.ok vs hv).2.2.2 rfl⟩,
      fun x hx => ⟨(this.err x hx).1, (this.err x hx).2.1, fun hc => (this.err x hx).2.2 hc.2⟩⟩
  | true =>
    rw [hd] at hf
    rw [if_pos rfl]
    have := hf { s with cur := some s.vars } ⟨hg.live, hg.writers, hg.known, hg.scope⟩ rfl rfl rfl (fun _ => rfl)
    cases hr : r with
    | ok vs =>
      obtain ⟨t, ht, h1, h2, _⟩ := this.pos hr
      rw [ht]
      refine ⟨fun us hu => ?_, nofun⟩
      injection hu with hu; subst hu
      exact ⟨rfl, ⟨h1.dict, h1.live, h1.writers, h1.known⟩, h2, fun _ => rfl⟩
    | error x =>
      obtain ⟨t, ht, ⟨vs, h1⟩, _⟩ := this.neg hr
      rw [ht]
      exact Does.fails (vs := vs) ⟨h1.dict, h1.live, h1.writers, h1.known⟩ fun h => nomatch h.1

/-- A loop over nodes. -/
theorem runAll_does {refs : Nat → List Name} {b : List Name} {s₀ : St V N} {r : N → Except Err (List V)}
    {f : N → St V N → Except Err Unit × St V N}
    (hf : ∀ n s, Good refs b s → s.cur = s₀.cur → s.dict = s₀.dict → s.focus = n → Does refs s (r n) True False (f n s)) :
    ∀ (ns : List N) (s : St V N), Good refs b s → s.cur = s₀.cur → s.dict = s₀.dict →
      (∀ vs, concat r ns = .ok vs → ∃ t, runAll f ns s = (.ok (), t) ∧ Ran refs s t vs ∧ t.cur = s.cur) ∧
      (∀ x, concat r ns = .error x → ∃ t, runAll f ns s = (.error x, t) ∧ ∃ vs, Ran refs s t vs)
  | [], s, hg, _, _ => by
    refine ⟨fun vs hv => ?_, nofun⟩
    injection hv with hv; subst hv
    exact ⟨s, rfl, Ran.refl hg, rfl⟩
  | n :: ns, s, hg, hc, hd => by
    have hg' : Good refs b { s with focus := n } := ⟨hg.live, hg.writers, hg.known, hg.scope⟩
    have h := hf n { s with focus := n } hg' hc hd rfl
    rw [concat_cons]
    cases hr : r n with
    | error x =>
      obtain ⟨t, ht, ⟨vs, h1⟩, _⟩ := h.neg hr
      have hrun : runAll f (n :: ns) s = (.error x, t) := by rw [runAll, ht]
      refine ⟨nofun, fun y hy => ?_⟩
      have : y = x := by injection hy with hy; exact hy.symm
      subst this
      exact ⟨t, hrun, vs, ⟨h1.dict, h1.live, h1.writers, h1.known⟩⟩
    | ok a =>
      obtain ⟨t, ht, h1, _, h3⟩ := h.pos hr
      have hrun : runAll f (n :: ns) s = runAll f ns t := by rw [runAll, ht]
      have h1' : Ran refs s t a := ⟨h1.dict, h1.live, h1.writers, h1.known⟩
      have h3' : t.cur = s.cur := h3 trivial
      have ih := runAll_does hf ns t (h1'.good hg h3') (h3'.trans hc) (h1'.dict.trans hd)
      rw [hrun]
      cases hq : concat r ns with
      | ok bs =>
        refine ⟨fun vs hv => ?_, nofun⟩
        have : vs = a ++ bs := by injection hv with hv; exact hv.symm
        subst this
        obtain ⟨u, hu, k1, k2⟩ := ih.1 bs hq
        exact ⟨u, hu, h1'.trans k1, k2.trans h3'⟩
      | error x =>
        refine ⟨nofun, fun y hy => ?_⟩
        have : y = x := by injection hy with hy; exact hy.symm
        subst this
        obtain ⟨u, hu, vs, k1⟩ := ih.2 _ hq
        exact ⟨u, hu, _, h1'.trans k1⟩

/-- A template rule. -/
theorem asRule_does {refs : Nat → List Name} {s : St V N} {r : Except Err (List V)} {calm : Prop}
    {f : St V N → Except Err Unit × St V N} (h : Does refs { s with cur := none } r True calm (f { s with cur := none })) :
    Does refs s r True False (asRule f s) := by
  unfold asRule
  exact ⟨fun vs hv => ⟨(h.ok vs hv).1, ⟨(h.ok vs hv).2.1.dict, (h.ok vs hv).2.1.live, (h.ok vs hv).2.1.writers,
      (h.ok vs hv).2.1.known⟩, (h.ok vs hv).2.2.1, fun _ => rfl⟩,
    fun x hx => ⟨(h.err x hx).1, (h.err x hx).2.1.imp fun vs hv => ⟨hv.dict, hv.live, hv.writers, hv.known⟩, nofun⟩⟩

theorem Does.weaken {refs : Nat → List Name} {s : St V N} {r : Except Err (List V)} {k k' c c' : Prop}
    {p : Except Err Unit × St V N} (h : Does refs s r k c p) (hk : k' → k) (hc : c' → c) : Does refs s r k' c' p :=
  ⟨fun vs hv => ⟨(h.ok vs hv).1, (h.ok vs hv).2.1, (h.ok vs hv).2.2.1, fun hk' => (h.ok vs hv).2.2.2 (hk hk')⟩,
    fun x hx => ⟨(h.err x hx).1, (h.err x hx).2.1, fun hc' => (h.err x hx).2.2 (hc hc')⟩⟩

theorem not_undef_of_firm {α : Type} {r : Except Err α} {x : Err} (h : Firm r) (hr : r = .error x) :
    ¬ ∃ y, x = .undefined y := by
  rintro ⟨y, rfl⟩; subst hr; exact not_firm_undef h

/-- When a missing variable leaves the context as it was. -/
def Calm (refs : Nat → List Name) (d : Env V) (c : Code V N) : Prop :=
  ∃ a : List Name, (∀ x ∈ a, (d x).isSome = true) ∧ Inner refs a c

theorem exec_does (o : Ops V N) {refs : Nat → List Name} (c : Code V N) :
    ∀ {b : List Name}, Fits refs b c → ∀ {s : St V N}, Good refs b s → (c.declares = true → s.cur.isSome = true) →
      Does refs s (content o s.dict c s.vars s.focus) (c.declares = false) (Calm refs s.dict c) (exec o c s) := by
  induction c with
  | done =>
    intro b _ s hg _
    refine ⟨fun vs hv => ?_, nofun⟩
    injection hv with hv; subst hv
    exact ⟨rfl, Ran.refl hg, rfl, fun _ => rfl⟩
  | out e r ih =>
    intro b hfit s hg hd
    obtain ⟨l, hl, hk⟩ := evalE_spec hfit.1 hg.scope hg.known
    rw [exec, content, hl]
    cases he : expr s.vars s.focus e with
    | error x => exact Does.fails (hg.ran hk) fun _ _ => ⟨rfl, rfl⟩
    | ok v =>
      dsimp only
      obtain ⟨w1, w2, w3⟩ := (hg.compiled hk).write v
      have w1' : Ran refs s (({ s with compiled := l } : St V N).write v) [v] := (hg.ran hk).trans w1
      have := ih hfit.2 (s := ({ s with compiled := l } : St V N).write v) (w1'.good hg w3)
        (fun h => by rw [w3]; exact hd h)
      have hv : (({ s with compiled := l } : St V N).write v).vars = s.vars := by
        unfold St.vars; rw [w3, w1'.dict]
      rw [hv, w1'.dict, w2] at this
      refine Does.after w1' w2 w3 (this.weaken id ?_)
      rintro ⟨a, h1, h2⟩; exact ⟨a, h1, h2⟩
  | ite e c r ihc ihr =>
    intro b hfit s hg hd
    obtain ⟨l, hl, hk⟩ := evalE_spec hfit.1 hg.scope hg.known
    rw [exec, content, hl]
    cases he : expr s.vars s.focus e with
    | error x => exact Does.fails (hg.ran hk) fun _ _ => ⟨rfl, rfl⟩
    | ok v =>
      dsimp only
      have hrest : ∀ (t : St V N) (vs : List V), Ran refs s t vs → t.focus = s.focus → t.cur = s.cur →
          Does refs s (andThen (.ok vs) (content o s.dict r s.vars s.focus)) (r.declares = false)
            (Calm refs s.dict (.ite e c r)) (exec o r t) := by
        intro t vs w1 w2 w3
        have := ihr hfit.2.2 (s := t) (w1.good hg w3) (fun h => by rw [w3]; exact hd h)
        have hv : t.vars = s.vars := by unfold St.vars; rw [w3, w1.dict]
        rw [hv, w1.dict, w2] at this
        refine Does.after w1 w2 w3 (this.weaken id ?_)
        rintro ⟨a, h1, h2⟩; exact ⟨a, h1, h2.2⟩
      cases ht : o.truth v with
      | false =>
        have := hrest { s with compiled := l } [] (hg.ran hk) rfl rfl
        rw [andThen_nil] at this
        exact this
      | true =>
        rw [if_pos rfl, if_pos rfl]
        have hb := inScope_does (r := content o s.dict c s.vars s.focus) (calm := Calm refs s.dict c) (c := c)
          (f := exec o c) (hg.compiled hk) (fun s' g' hv hdd hf hcur => by
            have := ihc hfit.2.1 (s := s') g' hcur
            rw [hv, hdd, hf] at this; exact this)
        cases hc : content o s.dict c s.vars s.focus with
        | error x =>
          obtain ⟨t, ht, ⟨vs, h1⟩, h2⟩ := hb.neg hc
          rw [ht]
          refine Does.fails ((hg.ran hk).trans h1) ?_
          rintro ⟨a, ha, hin⟩ hu
          cases hdc : c.declares with
          | false =>
            have hin' := hin.1
            rw [hdc] at hin'
            exact h2 ⟨hdc, a, ha, hin'⟩ hu
          | true =>
            have hin' := hin.1
            rw [hdc, if_pos rfl] at hin'
            exact absurd hu (not_undef_of_firm (content_firm o ha c hfit.2.1 hin' hg.scope s.focus) hc)
        | ok vs =>
          obtain ⟨t, ht, h1, h2, h3⟩ := hb.pos hc
          rw [ht]
          exact hrest t vs ((hg.ran hk).trans h1) h2 (h3 trivial)
  | each e c r ihc ihr =>
    intro b hfit s hg hd
    obtain ⟨l, hl, hk⟩ := evalE_spec hfit.1 hg.scope hg.known
    rw [exec, content, hl]
    cases he : expr s.vars s.focus e with
    | error x => exact Does.fails (hg.ran hk) fun _ _ => ⟨rfl, rfl⟩
    | ok v =>
      dsimp only
      have hrest : ∀ (t : St V N) (vs : List V), Ran refs s t vs → t.focus = s.focus → t.cur = s.cur →
          Does refs s (andThen (.ok vs) (content o s.dict r s.vars s.focus)) (r.declares = false)
            (Calm refs s.dict (.each e c r)) (exec o r t) := by
        intro t vs w1 w2 w3
        have := ihr hfit.2.2 (s := t) (w1.good hg w3) (fun h => by rw [w3]; exact hd h)
        have hv : t.vars = s.vars := by unfold St.vars; rw [w3, w1.dict]
        rw [hv, w1.dict, w2] at this
        refine Does.after w1 w2 w3 (this.weaken id ?_)
        rintro ⟨a, h1, h2⟩; exact ⟨a, h1, h2.2⟩
      have hb := runAll_does (s₀ := s) (r := fun m => content o s.dict c s.vars m)
        (f := fun _ => inScope c.declares (exec o c)) (refs := refs) (b := b) (fun n t hgt hct hdt hft => by
          have hvt : t.vars = s.vars := by unfold St.vars; rw [hct, hdt]
          refine (inScope_does (c := c) (calm := Calm refs s.dict c) hgt (fun s' g' hv hdd hf hcur => ?_)).weaken id nofun
          have := ihc hfit.2.1 (s := s') g' hcur
          rw [hv, hdd, hf, hvt, hdt, hft] at this; exact this) (o.nodes v) { s with compiled := l } (hg.compiled hk) rfl rfl
      cases hc : concat (fun m => content o s.dict c s.vars m) (o.nodes v) with
      | error x =>
        obtain ⟨t, ht, vs, h1⟩ := hb.2 x hc
        rw [ht]
        refine Does.fails ((hg.ran hk).trans h1) ?_
        rintro ⟨a, ha, hin⟩ hu
        exact absurd hu (not_undef_of_firm
          (concat_firm (fun m => content_firm o ha c hfit.2.1 hin.1 hg.scope m) (o.nodes v)) hc)
      | ok vs =>
        obtain ⟨t, ht, h1, h3⟩ := hb.1 vs hc
        rw [ht]
        exact hrest { t with focus := s.focus } vs ⟨h1.dict, h1.live, h1.writers, h1.known⟩ rfl h3
  | apply e c r ihc ihr =>
    intro b hfit s hg hd
    obtain ⟨l, hl, hk⟩ := evalE_spec hfit.1 hg.scope hg.known
    rw [exec, content, hl]
    cases he : expr s.vars s.focus e with
    | error x => exact Does.fails (hg.ran hk) fun _ _ => ⟨rfl, rfl⟩
    | ok v =>
      dsimp only
      have hrest : ∀ (t : St V N) (vs : List V), Ran refs s t vs → t.focus = s.focus → t.cur = s.cur →
          Does refs s (andThen (.ok vs) (content o s.dict r s.vars s.focus)) (r.declares = false)
            (Calm refs s.dict (.apply e c r)) (exec o r t) := by
        intro t vs w1 w2 w3
        have := ihr hfit.2.2 (s := t) (w1.good hg w3) (fun h => by rw [w3]; exact hd h)
        have hv : t.vars = s.vars := by unfold St.vars; rw [w3, w1.dict]
        rw [hv, w1.dict, w2] at this
        refine Does.after w1 w2 w3 (this.weaken id ?_)
        rintro ⟨a, h1, h2⟩; exact ⟨a, h1, h2.2⟩
      have hb := runAll_does (s₀ := s) (r := fun m => content o s.dict (c m) s.dict m)
        (f := fun n => asRule (inScope (c n).declares (exec o (c n)))) (refs := refs) (b := b) (fun n t hgt hct hdt hft => by
          subst hft
          have hgt' : Good refs [] { t with cur := none } := ⟨hgt.live, hgt.writers, hgt.known, Scope.glob _⟩
          refine asRule_does (calm := False) ((inScope_does (c := c t.focus) (calm := Calm refs s.dict (c t.focus)) hgt'
            (fun s' g' hv hdd hf hcur => ?_)).weaken id nofun)
          have := ihc t.focus (hfit.2.1 t.focus) (s := s') g' hcur
          rw [hv, hdd, hf] at this
          rw [← hdt]; exact this) (o.nodes v) { s with compiled := l } (hg.compiled hk) rfl rfl
      cases hc : concat (fun m => content o s.dict (c m) s.dict m) (o.nodes v) with
      | error x =>
        obtain ⟨t, ht, vs, h1⟩ := hb.2 x hc
        rw [ht]
        refine Does.fails ((hg.ran hk).trans h1) ?_
        rintro ⟨a, ha, hin⟩ hu
        exact absurd hu (not_undef_of_firm
          (concat_firm (fun m => content_firm o ha (c m) (hfit.2.1 m) (hin.1 m) (Scope.glob _) m) (o.nodes v)) hc)
      | ok vs =>
        obtain ⟨t, ht, h1, h3⟩ := hb.1 vs hc
        rw [ht]
        exact hrest { t with focus := s.focus } vs ⟨h1.dict, h1.live, h1.writers, h1.known⟩ rfl h3
  | var x e r ih =>
    intro b hfit s hg hd
    obtain ⟨l, hl, hk⟩ := evalE_spec hfit.1 hg.scope hg.known
    rw [exec, content, hl]
    cases he : expr s.vars s.focus e with
    | error x => exact Does.fails (hg.ran hk) fun _ _ => ⟨rfl, rfl⟩
    | ok v =>
      dsimp only
      have hsome := hd rfl
      cases hcur : s.cur with
      | none => rw [hcur] at hsome; cases hsome
      | some m =>
        have hvs : s.vars = m := by unfold St.vars; rw [hcur]; rfl
        rw [hvs]
        show Does refs s _ _ _ (exec o r { s with compiled := l, cur := some (m.set x v) })
        have hsc := hg.scope.set x v
        rw [hvs] at hsc
        have := ih hfit.2 (s := { s with compiled := l, cur := some (m.set x v) })
          ⟨hg.live, hg.writers, hk, hsc⟩ (fun _ => rfl)
        refine ⟨fun vs hv => ?_, fun y hy => ?_⟩
        · obtain ⟨p1, p2, p3, _⟩ := this.ok vs hv
          exact ⟨p1, ⟨p2.dict, p2.live, p2.writers, p2.known⟩, p3, nofun⟩
        · obtain ⟨p1, ⟨vs, p2⟩, _⟩ := this.err y hy
          exact ⟨p1, ⟨vs, p2.dict, p2.live, p2.writers, p2.known⟩, fun ⟨_, _, h⟩ => h.elim⟩

end Verif.Globals
