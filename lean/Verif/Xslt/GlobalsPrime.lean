import Verif.Xslt.GlobalsExec

/-
Passes over the variables, and the loop.
-/
namespace Verif.Globals
open Verif Spec

variable {V N : Type}

/-- Values are unique. -/
theorem hasValue_det {o : Ops V N} {gs : List (Global V N)} {given : Env V} {n : N}
    (hn : ∀ g ∈ gs, ∀ h ∈ gs, g.name = h.name → g = h) {x : Name} {v : V} (hv : HasValue o gs given n x v) :
    ∀ {w : V}, HasValue o gs given n x w → v = w := by
  induction hv with
  | passed g v hg hp hgv =>
    intro w hw
    generalize hx : g.name = x at hw
    cases hw with
    | passed g' w hg' hp' hgw => rw [← hx, hgv] at hgw; injection hgw
    | computed g' env w hg' hnp _ _ =>
      have := hn g hg g' hg' hx
      subst this
      exact absurd ⟨hp, by rw [hgv]; nofun⟩ hnp
  | computed g env v hg hnp henv hval ih =>
    intro w hw
    generalize hx : g.name = x at hw
    cases hw with
    | passed g' w hg' hp' hgw =>
      have := hn g hg g' hg' hx
      subst this
      exact absurd ⟨hp', by rw [hgw]; nofun⟩ hnp
    | computed g' env' w hg' hnp' henv' hval' =>
      have := hn g hg g' hg' hx
      subst this
      have s1 : Sub env (fun y => match env y with | some v => some v | none => env' y) := by
        intro y u hu; dsimp only; rw [hu]
      have s2 : Sub env' (fun y => match env y with | some v => some v | none => env' y) := by
        intro y u hu; dsimp only
        cases hy : env y with
        | none => exact hu
        | some z => rw [ih y z hy (henv' y u hu)]
      have e1 := value_mono o s1 (n := n) (d := g.value) (by rw [hval]; exact Firm.ok _)
      have e2 := value_mono o s2 (n := n) (d := g.value) (by rw [hval']; exact Firm.ok _)
      rw [e1, hval, hval'] at e2
      injection e2

def Def.isContent : Def V N → Bool
  | .content _ => true
  | _ => false

theorem truncate_eq (s : St V N) {w : List V} {ws : List (List V)} (h : s.writers = w :: ws) (hl : s.live = true) :
    s.truncate ws.length = { s with writers := ws, live := false } := by
  unfold St.truncate
  rw [h, hl]
  have h1 : (w :: ws).length - ws.length = 1 := by rw [List.length_cons]; omega
  have h2 : ¬ (w :: ws).length ≤ ws.length := by rw [List.length_cons]; omega
  rw [h1]
  have h3 : (true && decide ((w :: ws).length ≤ ws.length)) = false := by rw [decide_eq_false h2]; rfl
  rw [h3]; rfl

theorem truncate_same (s : St V N) : s.truncate s.writers.length = s := by
  unfold St.truncate
  rw [Nat.sub_self, decide_eq_true (Nat.le_refl _), Bool.and_true]; rfl

/-- What an instantiation does. -/
theorem instantiate_ok (o : Ops V N) {refs : Nat → List Name} {g : Global V N} {s : St V N} (hf : FitsDef refs g.value)
    (hc : s.cur = none) (hk : Known refs s.dict s.compiled) (hw : s.writers ≠ []) {v : V}
    (hv : value o s.dict s.focus g.value = .ok v) :
    ∃ l live, g.instantiate o s = (.ok (), { s with dict := s.dict.set g.name v, compiled := l, live := live }) ∧
      Known refs s.dict l ∧ live = (if g.value.isContent then true else s.live) := by
  have hvars : s.vars = s.dict := by unfold St.vars; rw [hc]; rfl
  unfold Global.instantiate
  cases hd : g.value with
  | select e =>
    rw [hd] at hf hv
    obtain ⟨l, hl, hk'⟩ := evalE_spec hf (hvars ▸ Scope.glob s.dict) hk
    rw [hvars] at hl
    have hv' : expr s.dict s.focus e = .ok v := hv
    dsimp only
    rw [hl, hv']
    refine ⟨l, s.live, ?_, hk', rfl⟩
    unfold St.assign; dsimp only; rw [hc]
  | content c =>
    rw [hd] at hf hv
    have hg : Good refs [] s.push := ⟨rfl, nofun, hk, hvars ▸ Scope.glob s.dict⟩
    have := inScope_does (c := c) (r := content o s.dict c s.dict s.focus) (calm := Calm refs s.dict c) hg
      (f := exec o c) (fun s' g' h1 h2 h3 h4 => by
        have := exec_does o c hf g' h4
        rw [h1, h2, h3] at this
        show Does refs s' (content o s.dict c s.dict s.focus) _ _ _
        have e : s.push.vars = s.dict := hvars
        rw [e] at this; exact this)
    rw [value] at hv
    cases hcon : content o s.dict c s.dict s.focus with
    | error x => rw [hcon] at hv; cases hv
    | ok vs =>
      rw [hcon] at hv
      injection hv with hv
      obtain ⟨t, ht, h1, h2, h3⟩ := this.pos hcon
      dsimp only
      rw [ht]
      have hwr : t.writers = vs :: s.writers := h1.writers [] s.writers rfl
      have hcur : t.cur = none := (h3 trivial).trans hc
      have hpop : t.pop = (vs, { t with writers := s.writers, live := true }) := by
        unfold St.pop; rw [hwr]
        cases hs : s.writers with
        | nil => exact absurd hs hw
        | cons a b => rfl
      refine ⟨t.compiled, true, ?_, ?_, rfl⟩
      · dsimp only
        rw [hpop]; unfold St.assign; dsimp only; rw [hcur, hv, h2, h1.dict, hc]; rfl
      · have := h1.known; rw [h1.dict] at this; exact this
  | empty =>
    rw [hd] at hv
    injection hv with hv
    refine ⟨s.compiled, s.live, ?_, hk, rfl⟩
    dsimp only
    unfold St.assign; rw [hc, hv]

/-- What an instantiation leaves behind that is given up. -/
theorem instantiate_err (o : Ops V N) {refs : Nat → List Name} {g : Global V N} {s : St V N} (hf : FitsDef refs g.value)
    (hc : s.cur = none) (hk : Known refs s.dict s.compiled) {x : Err}
    (hv : value o s.dict s.focus g.value = .error x) :
    ∃ t, g.instantiate o s = (.error x, t) ∧ t.dict = s.dict ∧ Known refs s.dict t.compiled ∧
      (t.truncate s.writers.length).writers = s.writers ∧
      (t.truncate s.writers.length).live = (if g.value.isContent then false else s.live) ∧
      ∀ a : List Name, (∀ y ∈ a, (s.dict y).isSome = true) → InnerDef refs a g.value → (∃ y, x = .undefined y) →
        t.focus = s.focus ∧ t.cur = none := by
  have hvars : s.vars = s.dict := by unfold St.vars; rw [hc]; rfl
  unfold Global.instantiate
  cases hd : g.value with
  | select e =>
    rw [hd] at hf hv
    obtain ⟨l, hl, hk'⟩ := evalE_spec hf (hvars ▸ Scope.glob s.dict) hk
    rw [hvars] at hl
    have hv' : expr s.dict s.focus e = .error x := hv
    dsimp only
    rw [hl, hv']
    refine ⟨_, rfl, rfl, hk', ?_, ?_, fun _ _ _ _ => ⟨rfl, hc⟩⟩
    · have := truncate_same { s with compiled := l }
      rw [show ({ s with compiled := l } : St V N).writers.length = s.writers.length from rfl] at this
      rw [this]
    · have := truncate_same { s with compiled := l }
      rw [show ({ s with compiled := l } : St V N).writers.length = s.writers.length from rfl] at this
      rw [this]; rfl
  | content c =>
    rw [hd] at hf hv
    have hg : Good refs [] s.push := ⟨rfl, nofun, hk, hvars ▸ Scope.glob s.dict⟩
    have := inScope_does (c := c) (r := content o s.dict c s.dict s.focus) (calm := Calm refs s.dict c) hg
      (f := exec o c) (fun s' g' h1 h2 h3 h4 => by
        have := exec_does o c hf g' h4
        rw [h1, h2, h3] at this
        show Does refs s' (content o s.dict c s.dict s.focus) _ _ _
        have e : s.push.vars = s.dict := hvars
        rw [e] at this; exact this)
    rw [value] at hv
    cases hcon : content o s.dict c s.dict s.focus with
    | ok vs => rw [hcon] at hv; cases hv
    | error y =>
      rw [hcon] at hv
      injection hv with hv
      subst hv
      obtain ⟨t, ht, ⟨vs, h1⟩, h2⟩ := this.neg hcon
      dsimp only
      rw [ht]
      have hwr : t.writers = ([] ++ vs) :: s.writers := h1.writers [] s.writers rfl
      have htr := truncate_eq t hwr h1.live
      refine ⟨t, rfl, h1.dict, ?_, ?_, ?_, ?_⟩
      · have := h1.known; rw [h1.dict] at this; exact this
      · rw [htr]
      · rw [htr]; rfl
      · intro a ha hin hu
        cases hdc : c.declares with
        | false =>
          have hin' : Inner refs a c := by
            have : InnerDef refs a (.content c : Def V N) = Inner refs a c := by rw [InnerDef, hdc]; rfl
            rw [this] at hin; exact hin
          have := h2 ⟨hdc, a, ha, hin'⟩ hu
          exact ⟨this.1, this.2.trans hc⟩
        | true =>
          have hin' : Refs refs a c := by
            have : InnerDef refs a (.content c : Def V N) = Refs refs a c := by rw [InnerDef, hdc]; rfl
            rw [this] at hin; exact hin
          exact absurd hu (not_undef_of_firm (content_firm o ha c hf hin' (Scope.glob _) s.focus) hcon)
  | empty => rw [hd] at hv; cases hv

/-- What holds before and after each variable. -/
structure Inv (o : Ops V N) (refs : Nat → List Name) (sh : Sheet V N) (given : Env V) (n : N) (s : St V N) : Prop where
  cur : s.cur = none
  focus : s.focus = n
  writers : s.writers = [[]]
  known : Known refs s.dict s.compiled
  sound : ∀ x v, s.dict x = some v → HasValue o sh.order given n x v
  init : Sub (sh.initial given) s.dict
  live : s.live = true ∨ ∃ g ∈ sh.order, g.value.isContent = true ∧ s.dict g.name = none

theorem nodup_inj : ∀ {gs : List (Global V N)}, (gs.map (·.name)).Nodup → ∀ g ∈ gs, ∀ h ∈ gs, g.name = h.name → g = h
  | [], _, _, hg, _, _, _ => nomatch hg
  | a :: gs, hn, g, hg, h, hh, e => by
    rw [List.map_cons, List.nodup_cons] at hn
    rcases List.mem_cons.mp hg with rfl | hg' <;> rcases List.mem_cons.mp hh with rfl | hh'
    · rfl
    · exact absurd (e ▸ List.mem_map_of_mem hh' : g.name ∈ gs.map (·.name)) hn.1
    · exact absurd (e ▸ List.mem_map_of_mem hg' : h.name ∈ gs.map (·.name)) hn.1
    · exact nodup_inj hn.2 g hg' h hh' e

theorem Spec.Proper.inj {refs : Nat → List Name} {gs : List (Global V N)} (h : Proper refs gs) :
    ∀ g ∈ gs, ∀ h ∈ gs, g.name = h.name → g = h := nodup_inj h.names

theorem Sub.set_new {m : Env V} {x : Name} {v : V} (h : m x = none) : Sub m (m.set x v) := by
  intro y w hy; unfold Env.set
  split
  · rename_i e; subst e; rw [h] at hy; cases hy
  · exact hy

theorem Known.mono {refs : Nat → List Name} {d d' : Env V} {l : List Nat} (h : Known refs d l) (hs : Sub d d') :
    Known refs d' l := fun i hi x hx => hs.isSome (h i hi x hx)

section
variable {o : Ops V N} {refs : Nat → List Name} {sh : Sheet V N} {given : Env V} {n : N}

theorem Inv.notPassed {s : St V N} (h : Inv o refs sh given n s) {g : Global V N} (hg : g ∈ sh.order)
    (hd : s.dict g.name = none) : ¬ (g.param = true ∧ given g.name ≠ none) := by
  rintro ⟨hp, hgiv⟩
  cases hx : given g.name with
  | none => exact hgiv hx
  | some w =>
    have : sh.initial given g.name = some w := by
      unfold Sheet.initial Sheet.parameters
      rw [if_pos (List.mem_map_of_mem (List.mem_filter.mpr ⟨hg, hp⟩)), hx]
    rw [h.init _ _ this] at hd; cases hd

theorem Inv.computes {s : St V N} (h : Inv o refs sh given n s) {g : Global V N} (hg : g ∈ sh.order)
    (hd : s.dict g.name = none) {v : V} (hv : value o s.dict n g.value = .ok v) :
    HasValue o sh.order given n g.name v :=
  .computed g s.dict v hg (h.notPassed hg hd) h.sound hv

/-- A variable that gets its value. -/
theorem Inv.step (hp : Proper refs sh.order) {s : St V N} (h : Inv o refs sh given n s) {g : Global V N} (hg : g ∈ sh.order)
    (hd : s.dict g.name = none) {v : V} (hv : value o s.dict n g.value = .ok v) :
    ∃ t, g.instantiate o s = (.ok (), t) ∧ Inv o refs sh given n t ∧ t.dict = s.dict.set g.name v := by
  obtain ⟨l, live, h1, h2, h3⟩ := instantiate_ok o (hp.fits g hg) h.cur h.known (by rw [h.writers]; nofun) (h.focus ▸ hv)
  have hsub : Sub s.dict (s.dict.set g.name v) := Sub.set_new hd
  refine ⟨_, h1, ⟨h.cur, h.focus, h.writers, h2.mono hsub, ?_, ?_, ?_⟩, rfl⟩
  · intro x w hx
    have hx' : (s.dict.set g.name v) x = some w := hx
    unfold Env.set at hx'
    split at hx'
    · rename_i e; subst e; injection hx' with hx'; subst hx'; exact h.computes hg hd hv
    · exact h.sound x w hx'
  · intro x w hx; exact hsub x w (h.init x w hx)
  · cases hc : g.value.isContent with
    | true => rw [hc] at h3; exact .inl h3
    | false =>
      rw [hc] at h3
      rcases h.live with hl | ⟨g', hg', hc', hn'⟩
      · exact .inl (h3.trans hl)
      · refine .inr ⟨g', hg', hc', ?_⟩
        have : g'.name ≠ g.name := by
          intro e; have := hp.inj g' hg' g hg e; subst this; rw [hc] at hc'; cases hc'
        show (s.dict.set g.name v) g'.name = none
        unfold Env.set; rw [if_neg this]; exact hn'

/-- A variable that is deferred. -/
theorem Inv.defer (hp : Proper refs sh.order) {s : St V N} (h : Inv o refs sh given n s) {g : Global V N} (hg : g ∈ sh.order)
    (hd : s.dict g.name = none) {a : List Name} (ha : ∀ y ∈ a, (s.dict y).isSome = true) (hin : InnerDef refs a g.value)
    {x : Name} (hv : value o s.dict n g.value = .error (.undefined x)) :
    ∃ t, g.instantiate o s = (.error (.undefined x), t) ∧ Inv o refs sh given n (t.truncate 1) ∧ t.dict = s.dict := by
  obtain ⟨t, h1, h2, h3, h4, h5, h6⟩ := instantiate_err o (hp.fits g hg) h.cur h.known (h.focus ▸ hv)
  obtain ⟨k1, k2⟩ := h6 a ha hin ⟨x, rfl⟩
  rw [h.writers] at h4 h5
  refine ⟨t, h1, ⟨k2, k1.trans h.focus, h4, ?_, ?_, ?_, ?_⟩, h2⟩
  · show Known refs t.dict t.compiled; rw [h2]; exact h3
  · show ∀ x v, t.dict x = some v → _; rw [h2]; exact h.sound
  · show Sub _ t.dict; rw [h2]; exact h.init
  · cases hc : g.value.isContent with
    | true => exact .inr ⟨g, hg, hc, by show t.dict g.name = none; rw [h2]; exact hd⟩
    | false =>
      rw [hc] at h5
      rcases h.live with hl | ⟨g', hg', hc', hn'⟩
      · exact .inl (h5.trans hl)
      · exact .inr ⟨g', hg', hc', by show t.dict g'.name = none; rw [h2]; exact hn'⟩

/-- A variable with another exception. -/
theorem Inv.fail (hp : Proper refs sh.order) {s : St V N} (h : Inv o refs sh given n s) {g : Global V N} (hg : g ∈ sh.order)
    (hd : s.dict g.name = none) {e : Nat} (hv : value o s.dict n g.value = .error (.other e)) :
    (∃ t, g.instantiate o s = (.error (.other e), t)) ∧ Fails o sh.order given n e := by
  obtain ⟨t, h1, _⟩ := instantiate_err o (hp.fits g hg) h.cur h.known (h.focus ▸ hv)
  exact ⟨⟨t, h1⟩, g, hg, h.notPassed hg hd, s.dict, h.sound, hv⟩

theorem pass_skip {num : Nat} {g : Global V N} {gs acc : List (Global V N)} {s : St V N}
    (h : (s.dict g.name).isSome = true) : pass o num (g :: gs) acc s = pass o num gs acc s := by
  rw [pass, if_pos h]

theorem pass_ok {num : Nat} {g : Global V N} {gs acc : List (Global V N)} {s t : St V N}
    (h : s.dict g.name = none) (hi : g.instantiate o s = (.ok (), t)) :
    pass o num (g :: gs) acc s = pass o num gs acc t := by
  rw [pass, if_neg (by rw [h]; nofun), hi]

theorem pass_defer {num : Nat} {g : Global V N} {gs acc : List (Global V N)} {s t : St V N} {x : Name}
    (h : s.dict g.name = none) (hi : g.instantiate o s = (.error (.undefined x), t)) :
    pass o num (g :: gs) acc s = pass o num gs (acc ++ [g]) (t.truncate num) := by
  rw [pass, if_neg (by rw [h]; nofun), hi]

theorem pass_fail {num : Nat} {g : Global V N} {gs acc : List (Global V N)} {s t : St V N} {e : Nat}
    (h : s.dict g.name = none) (hi : g.instantiate o s = (.error (.other e), t)) :
    pass o num (g :: gs) acc s = (.error (.other e), t) := by
  rw [pass, if_neg (by rw [h]; nofun), hi]

/-- The variables that come after those that they refer to. -/
theorem pass_lead (hp : Proper refs sh.order) (acc rest : List (Global V N)) :
    ∀ (lead : List (Global V N)) (a : List Name) (s : St V N), (∀ g ∈ lead, g ∈ sh.order) → Inv o refs sh given n s →
      (∀ y ∈ a, (s.dict y).isSome = true) → Ordered refs a lead →
      (∃ t, pass o 1 (lead ++ rest) acc s = pass o 1 rest acc t ∧ Inv o refs sh given n t ∧ Sub s.dict t.dict ∧
        (lead = [] → t = s) ∧ ∀ g ∈ lead, (t.dict g.name).isSome = true) ∨
      (∃ t e, pass o 1 (lead ++ rest) acc s = (.error (.other e), t) ∧ Fails o sh.order given n e)
  | [], _, s, _, hi, _, _ => .inl ⟨s, rfl, hi, fun _ _ => id, fun _ => rfl, nofun⟩
  | g :: lead, a, s, hm, hi, ha, ho => by
    have hg := hm g List.mem_cons_self
    have hm' : ∀ g ∈ lead, g ∈ sh.order := fun h hh => hm h (List.mem_cons_of_mem _ hh)
    have next : ∀ t, pass o 1 (g :: lead ++ rest) acc s = pass o 1 (lead ++ rest) acc t → Inv o refs sh given n t →
        Sub s.dict t.dict → (t.dict g.name).isSome = true →
        (∃ u, pass o 1 (g :: lead ++ rest) acc s = pass o 1 rest acc u ∧ Inv o refs sh given n u ∧ Sub s.dict u.dict ∧
          (g :: lead = [] → u = s) ∧ ∀ h ∈ g :: lead, (u.dict h.name).isSome = true) ∨
        (∃ u e, pass o 1 (g :: lead ++ rest) acc s = (.error (.other e), u) ∧ Fails o sh.order given n e) := by
      intro t h1 h2 h3 h4
      rw [h1]
      rcases pass_lead hp acc rest lead (g.name :: a) t hm' h2 (by
        intro y hy
        rcases List.mem_cons.mp hy with rfl | hy
        · exact h4
        · exact h3.isSome (ha y hy)) ho.2 with ⟨u, k1, k2, k3, _, k5⟩ | h
      · refine .inl ⟨u, k1, k2, fun x v hx => k3 x v (h3 x v hx), nofun, ?_⟩
        intro h hh
        rcases List.mem_cons.mp hh with rfl | hh
        · exact k3.isSome h4
        · exact k5 h hh
      · exact .inr h
    cases hd : s.dict g.name with
    | some w =>
      exact next s (pass_skip (by rw [hd]; rfl)) hi (fun _ _ => id) (by rw [hd]; rfl)
    | none =>
      rcases value_firm o ha (hp.fits g hg) ho.1 n with ⟨v, hv⟩ | ⟨e, hv⟩
      · obtain ⟨t, h1, h2, h3⟩ := hi.step hp hg hd hv
        refine next t (pass_ok hd h1) h2 (h3 ▸ Sub.set_new hd) ?_
        rw [h3]; unfold Env.set; rw [if_pos rfl]; rfl
      · obtain ⟨⟨t, h1⟩, h2⟩ := hi.fail hp hg hd hv
        exact .inr ⟨t, e, pass_fail hd h1, h2⟩

/-- Any other variables. -/
theorem pass_rest (hp : Proper refs sh.order) (a : List Name) :
    ∀ (rest acc : List (Global V N)) (s : St V N), (∀ g ∈ rest, g ∈ sh.order) → Inv o refs sh given n s →
      (∀ y ∈ a, (s.dict y).isSome = true) → (∀ g ∈ rest, InnerDef refs a g.value) →
      (∃ D t, pass o 1 rest acc s = (.ok (acc ++ D), t) ∧ Inv o refs sh given n t ∧ Sub s.dict t.dict ∧
        D.Sublist rest ∧ (∀ g ∈ rest, g ∈ D ∨ (t.dict g.name).isSome = true) ∧
        (D.length = rest.length → t.dict = s.dict ∧ ∀ g ∈ rest, s.dict g.name = none ∧
          ∃ x, value o s.dict n g.value = .error (.undefined x))) ∨
      (∃ t e, pass o 1 rest acc s = (.error (.other e), t) ∧ Fails o sh.order given n e)
  | [], acc, s, _, hi, _, _ => by
    refine .inl ⟨[], s, ?_, hi, fun _ _ => id, .slnil, nofun, fun _ => ⟨rfl, nofun⟩⟩
    rw [pass, List.append_nil]
  | g :: rest, acc, s, hm, hi, ha, hin => by
    have hg := hm g List.mem_cons_self
    have hm' : ∀ g ∈ rest, g ∈ sh.order := fun h hh => hm h (List.mem_cons_of_mem _ hh)
    have hin' : ∀ g ∈ rest, InnerDef refs a g.value := fun h hh => hin h (List.mem_cons_of_mem _ hh)
    have next : ∀ t, pass o 1 (g :: rest) acc s = pass o 1 rest acc t → Inv o refs sh given n t →
        Sub s.dict t.dict → (t.dict g.name).isSome = true →
        (∃ D u, pass o 1 (g :: rest) acc s = (.ok (acc ++ D), u) ∧ Inv o refs sh given n u ∧ Sub s.dict u.dict ∧
          D.Sublist (g :: rest) ∧ (∀ h ∈ g :: rest, h ∈ D ∨ (u.dict h.name).isSome = true) ∧
          (D.length = (g :: rest).length → u.dict = s.dict ∧ ∀ h ∈ g :: rest, s.dict h.name = none ∧
            ∃ x, value o s.dict n h.value = .error (.undefined x))) ∨
        (∃ u e, pass o 1 (g :: rest) acc s = (.error (.other e), u) ∧ Fails o sh.order given n e) := by
      intro t h1 h2 h3 h4
      rw [h1]
      rcases pass_rest hp a rest acc t hm' h2 (fun y hy => h3.isSome (ha y hy)) hin' with
        ⟨D, u, k1, k2, k3, k4, k5, _⟩ | h
      · refine .inl ⟨D, u, k1, k2, fun x v hx => k3 x v (h3 x v hx), k4.cons g, ?_, ?_⟩
        · intro h hh
          rcases List.mem_cons.mp hh with rfl | hh
          · exact .inr (k3.isSome h4)
          · exact k5 h hh
        · intro hl
          have := k4.length_le
          rw [List.length_cons] at hl; omega
      · exact .inr h
    cases hd : s.dict g.name with
    | some w =>
      exact next s (pass_skip (by rw [hd]; rfl)) hi (fun _ _ => id) (by rw [hd]; rfl)
    | none =>
      rcases value_tame o s.dict (hp.fits g hg) n with (⟨v, hv⟩ | ⟨e, hv⟩) | ⟨x, hv⟩
      · obtain ⟨t, h1, h2, h3⟩ := hi.step hp hg hd hv
        refine next t (pass_ok hd h1) h2 (h3 ▸ Sub.set_new hd) ?_
        rw [h3]; unfold Env.set; rw [if_pos rfl]; rfl
      · obtain ⟨⟨t, h1⟩, h2⟩ := hi.fail hp hg hd hv
        exact .inr ⟨t, e, pass_fail hd h1, h2⟩
      · obtain ⟨t, h1, h2, h3⟩ := hi.defer hp hg hd ha (hin g List.mem_cons_self) hv
        have h3' : (t.truncate 1).dict = s.dict := h3
        rw [pass_defer hd h1]
        rcases pass_rest hp a rest (acc ++ [g]) (t.truncate 1) hm' h2 (by rw [h3']; exact ha) hin' with
          ⟨D, u, k1, k2, k3, k4, k5, k6⟩ | h
        · rw [h3'] at k3 k6
          refine .inl ⟨g :: D, u, ?_, k2, k3, k4.cons_cons g, ?_, ?_⟩
          · rw [k1, List.append_assoc]; rfl
          · intro h hh
            rcases List.mem_cons.mp hh with rfl | hh
            · exact .inl List.mem_cons_self
            · exact (k5 h hh).imp (List.mem_cons_of_mem _) id
          · intro hl
            obtain ⟨m1, m2⟩ := k6 (by simpa using hl)
            refine ⟨m1, fun h hh => ?_⟩
            rcases List.mem_cons.mp hh with rfl | hh
            · exact ⟨hd, x, hv⟩
            · exact m2 h hh
        · exact .inr h

/-- Without progress, what is missing has no value. -/
theorem stuck_none (hp : Proper refs sh.order) {s : St V N} (hi : Inv o refs sh given n s) {els : List (Global V N)}
    (hall : ∀ g ∈ sh.order, g ∈ els ∨ (s.dict g.name).isSome = true)
    (hstuck : ∀ g ∈ els, s.dict g.name = none ∧ ∃ x, value o s.dict n g.value = .error (.undefined x)) {x : Name} {v : V}
    (hv : HasValue o sh.order given n x v) : (s.dict x).isSome = true := by
  induction hv with
  | passed g v hg hpar hgv =>
    have : sh.initial given g.name = some v := by
      unfold Sheet.initial Sheet.parameters
      rw [if_pos (List.mem_map_of_mem (List.mem_filter.mpr ⟨hg, hpar⟩)), hgv]
    rw [hi.init _ _ this]; rfl
  | computed g env v hg hnp henv hval ih =>
    have hsub : Sub env s.dict := by
      intro y w hy
      have := ih y w hy
      cases hd : s.dict y with
      | none => rw [hd] at this; cases this
      | some u => rw [hasValue_det hp.inj (hi.sound y u hd) (henv y w hy)]
    have := value_mono o hsub (n := n) (d := g.value) (by rw [hval]; exact Firm.ok _)
    rcases hall g hg with he | h
    · obtain ⟨x, hx⟩ := (hstuck g he).2
      rw [this, hval] at hx; cases hx
    · exact h

/-- What the loop ends with. -/
structure Ends (o : Ops V N) (refs : Nat → List Name) (sh : Sheet V N) (given : Env V) (n : N)
    (r : Option (Except Err Unit) × List (Global V N) × St V N) : Prop where
  halts : r.1 ≠ none
  ok : r.1 = some (.ok ()) → Inv o refs sh given n r.2.2 ∧ ∀ g ∈ sh.order, (r.2.2.dict g.name).isSome = true
  err : ∀ x, r.1 = some (.error x) →
    (∃ g ∈ sh.order, x = .circular g.name ∧ ¬ ∃ v, HasValue o sh.order given n g.name v) ∨
    ∃ e, x = .other e ∧ Fails o sh.order given n e

theorem loop_ends (hp : Proper refs sh.order) :
    ∀ (k : Nat) (order lead rest : List (Global V N)) (a : List Name) (s : St V N), (lead ++ rest).length < k →
      (∀ g ∈ lead ++ rest, g ∈ sh.order) → Inv o refs sh given n s → (∀ y ∈ a, (s.dict y).isSome = true) →
      Ordered refs a lead → (∀ g ∈ rest, InnerDef refs (a ++ lead.map (·.name)) g.value) →
      (∀ g ∈ sh.order, g ∈ lead ++ rest ∨ (s.dict g.name).isSome = true) →
      Ends o refs sh given n (loop o 1 k order (lead ++ rest) s)
  | 0, _, _, _, _, _, hl, _, _, _, _, _, _ => by omega
  | k + 1, order, lead, rest, a, s, hl, hm, hi, ha, ho, hin, hall => by
    have hfail : ∀ (t : St V N) (e : Nat), pass o 1 (lead ++ rest) [] s = (.error (.other e), t) →
        Fails o sh.order given n e → Ends o refs sh given n (loop o 1 (k + 1) order (lead ++ rest) s) := by
      intro t e h1 h2
      rw [loop, h1]
      exact ⟨nofun, nofun, fun x hx => by
        have : x = .other e := by injection hx with hx; injection hx with hx; exact hx.symm
        exact .inr ⟨e, this, h2⟩⟩
    rcases pass_lead hp [] rest lead a s (fun g hg => hm g (List.mem_append_left _ hg)) hi ha ho with
      ⟨t, h1, h2, h3, h4, h5⟩ | ⟨t, e, h1, h2⟩
    · have ha' : ∀ y ∈ a ++ lead.map (·.name), (t.dict y).isSome = true := by
        intro y hy
        rcases List.mem_append.mp hy with hy | hy
        · exact h3.isSome (ha y hy)
        · obtain ⟨g, hg, rfl⟩ := List.mem_map.mp hy
          exact h5 g hg
      rcases pass_rest hp _ rest [] t (fun g hg => hm g (List.mem_append_right _ hg)) h2 ha' hin with
        ⟨D, u, k1, k2, k3, k4, k5, k6⟩ | ⟨u, e, k1, k2⟩
      · rw [List.nil_append] at k1
        have hallu : ∀ g ∈ sh.order, g ∈ D ∨ (u.dict g.name).isSome = true := by
          intro g hg
          rcases hall g hg with h | h
          · rcases List.mem_append.mp h with h | h
            · exact .inr (k3.isSome (h5 g h))
            · exact k5 g h
          · exact .inr (k3.isSome (h3.isSome h))
        rw [loop, h1, k1]
        cases D with
        | nil =>
          refine ⟨nofun, fun _ => ⟨k2, fun g hg => (hallu g hg).resolve_left nofun⟩, nofun⟩
        | cons g D =>
          dsimp only
          by_cases hn : (g :: D).map (·.name) = (lead ++ rest).map (·.name)
          · rw [if_pos hn]
            have hlen : (g :: D).length = (lead ++ rest).length := by
              have := congrArg List.length hn
              rw [List.length_map, List.length_map] at this; exact this
            have hle := k4.length_le
            have hlead : lead = [] := by
              cases lead with
              | nil => rfl
              | cons b bs => rw [List.length_append, List.length_cons] at hlen; rw [List.length_cons] at hlen hle; omega
            subst hlead
            have hts := h4 rfl
            subst hts
            obtain ⟨m1, m2⟩ := k6 hlen
            refine ⟨nofun, nofun, fun x hx => ?_⟩
            have : x = .circular g.name := by injection hx with hx; injection hx with hx; exact hx.symm
            subst this
            have hgr : g ∈ rest := k4.subset List.mem_cons_self
            refine .inl ⟨g, hm g hgr, rfl, ?_⟩
            rintro ⟨v, hv⟩
            have := stuck_none hp hi hall m2 hv
            rw [(m2 g hgr).1] at this; cases this
          · rw [if_neg hn]
            have hne : (g :: D).length < (lead ++ rest).length := by
              have hle := k4.length_le
              rcases Nat.lt_or_ge (g :: D).length (lead ++ rest).length with h | h
              · exact h
              · have hlr : (lead ++ rest).length = lead.length + rest.length := List.length_append
                have hlead : lead = [] := by
                  cases lead with
                  | nil => rfl
                  | cons b bs => rw [List.length_cons] at hlr; omega
                subst hlead
                have : g :: D = rest := k4.eq_of_length (by rw [List.nil_append] at h; omega)
                rw [this] at hn; exact absurd rfl hn
            exact loop_ends hp k _ [] (g :: D) _ u (by rw [List.nil_append]; omega)
              (fun h hh => hm h (List.mem_append_right _ (k4.subset hh))) k2
              (fun y hy => k3.isSome (ha' y hy)) trivial
              (fun h hh => by rw [List.map_nil, List.append_nil]; exact hin h (k4.subset hh)) hallu
      · exact hfail u e (h1.trans k1) k2
    · exact hfail t e h1 h2

theorem fails_none (hp : Proper refs sh.order) {e : Nat} (h : Fails o sh.order given n e) :
    ∃ g ∈ sh.order, ¬ ∃ v, HasValue o sh.order given n g.name v := by
  obtain ⟨g, hg, hnp, env, henv, hval⟩ := h
  refine ⟨g, hg, ?_⟩
  rintro ⟨v, hv⟩
  generalize hx : g.name = x at hv
  cases hv with
  | passed g' w hg' hp' hgw =>
    have := hp.inj g hg g' hg' hx
    subst this
    exact absurd ⟨hp', by rw [hgw]; nofun⟩ hnp
  | computed g' env' w hg' hnp' henv' hval' =>
    have := hp.inj g hg g' hg' hx
    subst this
    have s1 : Sub env (fun y => match env y with | some v => some v | none => env' y) := by
      intro y u hu; dsimp only; rw [hu]
    have s2 : Sub env' (fun y => match env y with | some v => some v | none => env' y) := by
      intro y u hu; dsimp only
      cases hy : env y with
      | none => exact hu
      | some z => rw [hasValue_det hp.inj (henv y z hy) (henv' y u hu)]
    have e1 := value_mono o s1 (n := n) (d := g.value) (by rw [hval]; exact .inr ⟨e, rfl⟩)
    have e2 := value_mono o s2 (n := n) (d := g.value) (by rw [hval']; exact Firm.ok _)
    rw [e1, hval, hval'] at e2
    cases e2

/-- A run of a stylesheet that has not been used. -/
theorem prime_right (hp : Proper refs sh.order) (hc : sh.compiled = []) {lead rest : List (Global V N)} {a : List Name}
    (ho : sh.order = lead ++ rest) (ha : ∀ x ∈ a, x ∈ sh.parameters ∧ given x ≠ none) (hl : Ordered refs a lead)
    (hr : ∀ g ∈ rest, InnerDef refs (a ++ lead.map (·.name)) g.value) :
    Right o sh.order given n (sh.prime o given n).1 (sh.prime o given n).2.2 := by
  have hi : Inv o refs sh given n (sh.start given n) := by
    refine ⟨rfl, rfl, rfl, ?_, ?_, fun _ _ => id, .inl rfl⟩
    · intro i hi; exact absurd (show i ∈ sh.compiled from hi) (by rw [hc]; nofun)
    · intro x v hx
      have hx' : sh.initial given x = some v := hx
      unfold Sheet.initial at hx'
      split at hx'
      · rename_i hm
        unfold Sheet.parameters at hm
        obtain ⟨g, hg, rfl⟩ := List.mem_map.mp hm
        obtain ⟨h1, h2⟩ := List.mem_filter.mp hg
        exact .passed g v h1 h2 hx'
      · cases hx'
  have hE := loop_ends hp (sh.order.length + 1) sh.order lead rest a (sh.start given n) (by rw [ho]; omega)
    (by rw [← ho]; exact fun _ => id) hi (by
      intro y hy
      have := ha y hy
      show (sh.initial given y).isSome = true
      unfold Sheet.initial; rw [if_pos this.1]
      cases hg : given y with
      | none => exact absurd hg this.2
      | some v => rfl) hl hr (by rw [← ho]; exact fun g hg => .inl hg)
  rw [← ho] at hE
  refine ⟨hE.halts, ⟨fun h => ?_, fun h => ?_⟩, fun h x v => ⟨?_, ?_⟩, fun h => ?_, hE.err⟩
  · obtain ⟨k1, k2⟩ := hE.ok h
    intro g hg
    have := k2 g hg
    cases hd : (loop o 1 (sh.order.length + 1) sh.order sh.order (sh.start given n)).2.2.dict g.name with
    | none => rw [hd] at this; cases this
    | some v => exact ⟨v, k1.sound _ _ hd⟩
  · show (loop o 1 (sh.order.length + 1) sh.order sh.order (sh.start given n)).1 = some (.ok ())
    cases hr : (loop o 1 (sh.order.length + 1) sh.order sh.order (sh.start given n)).1 with
    | none => exact absurd hr hE.halts
    | some r =>
      cases r with
      | ok u => rfl
      | error x =>
        rcases hE.err x hr with ⟨g, hg, _, hno⟩ | ⟨e, _, hf⟩
        · exact absurd (h g hg) hno
        · obtain ⟨g, hg, hno⟩ := fails_none hp hf
          exact absurd (h g hg) hno
  · exact (hE.ok h).1.sound x v
  · intro hv
    obtain ⟨k1, k2⟩ := hE.ok h
    have hx : ∃ g ∈ sh.order, g.name = x := by
      cases hv with
      | passed g _ hg _ _ => exact ⟨g, hg, rfl⟩
      | computed g _ _ hg _ _ _ => exact ⟨g, hg, rfl⟩
    obtain ⟨g, hg, rfl⟩ := hx
    have := k2 g hg
    show (loop o 1 (sh.order.length + 1) sh.order sh.order (sh.start given n)).2.2.dict g.name = some v
    cases hd : (loop o 1 (sh.order.length + 1) sh.order sh.order (sh.start given n)).2.2.dict g.name with
    | none => rw [hd] at this; cases this
    | some w => rw [hasValue_det hp.inj hv (k1.sound _ _ hd)]
  · obtain ⟨k1, k2⟩ := hE.ok h
    refine ⟨k1.cur, k1.focus, k1.writers, ?_⟩
    rcases k1.live with hl | ⟨g, hg, _, hn⟩
    · exact hl
    · have := k2 g hg
      rw [hn] at this; cases this

end
end Verif.Globals
