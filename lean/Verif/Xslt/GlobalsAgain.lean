import Verif.Xslt.GlobalsPrime

/-
A stylesheet that has been used before, with variables that have `select` attributes: what its compiled expressions
refer to comes earlier in the list, or is a parameter that was passed.
-/
namespace Verif.Globals
open Verif Spec

variable {V N : Type}

/-- Nothing is looked up for the first time. -/
def firm (comp : List Nat) (g : Global V N) : Bool :=
  match g.value with
  | .select e => decide (e.id ∈ comp)
  | .content _ => false
  | .empty => true

/-- What the compiled expressions in a list refer to comes before them, or is in `p`. -/
def Chain (refs : Nat → List Name) (comp : List Nat) (p : List Name) (gs : List (Global V N)) : Prop :=
  ∀ b g l e, gs = b ++ g :: l → g.value = .select e → e.id ∈ comp →
    ∀ x ∈ refs e.id, x ∈ p ∨ ∃ h ∈ b, firm comp h = true ∧ h.name = x

theorem evalE_cases (e : GExpr V N) (s : St V N) :
    (e.id ∈ s.compiled ∧ evalE e s = ((e.run s.focus).run s.vars, s)) ∨
    (e.id ∉ s.compiled ∧ ∃ x, e.fv.find? (fun x => (s.vars x).isNone) = some x ∧ evalE e s = (.error (.undefined x), s)) ∨
    (e.id ∉ s.compiled ∧ e.fv.find? (fun x => (s.vars x).isNone) = none ∧
      evalE e s = ((e.run s.focus).run s.vars, { s with compiled := e.id :: s.compiled })) := by
  unfold evalE
  by_cases hc : e.id ∈ s.compiled
  · rw [if_pos hc]; exact .inl ⟨hc, rfl⟩
  · rw [if_neg hc]
    cases hd : e.fv.find? (fun x => (s.vars x).isNone) with
    | some x => exact .inr (.inl ⟨hc, x, rfl, rfl⟩)
    | none => exact .inr (.inr ⟨hc, rfl, rfl⟩)

theorem run_not_undef (m : Env V) : ∀ (a : Ask V) (x : Name), a.run m ≠ .error (.undefined x)
  | .ret _, _ => nofun
  | .fail _, _ => by intro h; cases h
  | .ask y k, x => by
    intro h
    unfold Ask.run at h
    cases hy : m y with
    | some v => rw [hy] at h; exact run_not_undef m (k v) x h
    | none => rw [hy] at h; cases h

/-- What the names in the dictionary are. -/
def Dom (p : List Name) (b : List (Global V N)) (s : St V N) : Prop :=
  ∀ x, (s.dict x).isSome = true → x ∈ p ∨ ∃ h ∈ b, firm s.compiled h = true ∧ h.name = x

theorem firm_mono {c c' : List Nat} (h : ∀ i ∈ c, i ∈ c') {g : Global V N} (hf : firm c g = true) : firm c' g = true := by
  unfold firm at hf ⊢
  cases hv : g.value with
  | select e => rw [hv] at hf; exact decide_eq_true (h _ (of_decide_eq_true hf))
  | content c => rw [hv] at hf; cases hf
  | empty => rfl

theorem firm_cons {c : List Nat} {g h : Global V N} {e : GExpr V N} {gs : List (Global V N)} (hs : Selects gs)
    (hg : g ∈ gs) (hh : h ∈ gs) (hv : g.value = .select e) (hne : h ≠ g) :
    firm (e.id :: c) h = firm c h := by
  unfold firm
  cases hw : h.value with
  | select e' =>
    have : e'.id ≠ e.id := fun he => hne (hs.own h hh g hg e' e hw hv he)
    dsimp only
    rw [decide_eq_decide, List.mem_cons]
    exact ⟨fun h => h.resolve_left this, .inr⟩
  | content c => rfl
  | empty => rfl

theorem split_eq {gs : List (Global V N)} (hn : (gs.map (·.name)).Nodup) :
    ∀ {b b' : List (Global V N)} {g : Global V N} {l l' : List (Global V N)}, gs = b ++ g :: l → gs = b' ++ g :: l' →
      b = b' := by
  intro b
  induction b generalizing gs with
  | nil =>
    intro b' g l l' h h'
    cases b' with
    | nil => rfl
    | cons a b' =>
      rw [List.nil_append] at h
      rw [List.cons_append] at h'
      rw [h] at h' hn
      injection h' with h1 h2
      subst h1
      rw [List.map_cons, List.nodup_cons] at hn
      exact absurd (List.mem_map_of_mem (h2 ▸ List.mem_append_right b' List.mem_cons_self)) hn.1
  | cons a b ih =>
    intro b' g l l' h h'
    rw [List.cons_append] at h
    subst h
    cases b' with
    | nil =>
      rw [List.nil_append] at h'
      injection h' with h1 h2
      subst h1
      rw [List.map_cons, List.nodup_cons] at hn
      exact absurd (List.mem_map_of_mem (List.mem_append_right b List.mem_cons_self)) hn.1
    | cons a' b' =>
      rw [List.cons_append] at h'
      injection h' with h1 h2
      subst h1
      rw [List.map_cons, List.nodup_cons] at hn
      rw [ih hn.2 rfl h2]

/-- A new compiled expression. -/
theorem Chain.compile {refs : Nat → List Name} {c : List Nat} {p : List Name} {b l : List (Global V N)} {g : Global V N}
    {e : GExpr V N} (h : Chain refs c p (b ++ g :: l)) (hn : ((b ++ g :: l).map (·.name)).Nodup)
    (hs : Selects (b ++ g :: l)) (hv : g.value = .select e)
    (hr : ∀ x ∈ refs e.id, x ∈ p ∨ ∃ h ∈ b, firm c h = true ∧ h.name = x) :
    Chain refs (e.id :: c) p (b ++ g :: l) := by
  intro b' g' l' e' heq hv' hc x hx
  have up : (x ∈ p ∨ ∃ h ∈ b', firm c h = true ∧ h.name = x) →
      (x ∈ p ∨ ∃ h ∈ b', firm (e.id :: c) h = true ∧ h.name = x) := by
    rintro (h | ⟨h, h1, h2, h3⟩)
    · exact .inl h
    · exact .inr ⟨h, h1, firm_mono (fun i hi => List.mem_cons_of_mem _ hi) h2, h3⟩
  by_cases hid : e'.id = e.id
  · have hg' : g' ∈ b ++ g :: l := heq ▸ List.mem_append_right _ List.mem_cons_self
    have := hs.own g' hg' g (List.mem_append_right _ List.mem_cons_self) e' e hv' hv hid
    subst this
    have := split_eq hn rfl heq
    subst this
    rw [hid] at hx
    exact up (hr x hx)
  · exact up (h b' g' l' e' heq hv' ((List.mem_cons.mp hc).resolve_left hid) x hx)

theorem assign_none {s : St V N} (h : s.cur = none) (x : Name) (v : V) :
    s.assign x v = { s with dict := s.dict.set x v } := by
  unfold St.assign; rw [h]

theorem Dom.mono {p : List Name} {b b' : List (Global V N)} {s : St V N} (h : Dom p b s) (hb : ∀ g ∈ b, g ∈ b') :
    Dom p b' s := fun x hx => (h x hx).imp id fun ⟨g, h1, h2⟩ => ⟨g, hb g h1, h2⟩

/-- The variables before the one that is next are the ones with values. -/
theorem pass_chain (o : Ops V N) {refs : Nat → List Name} (p : List Name) (num : Nat) :
    ∀ (l b acc : List (Global V N)) (s : St V N), ((b ++ l).map (·.name)).Nodup → Selects (b ++ l) →
      (∀ g ∈ b ++ l, FitsDef refs g.value) → s.cur = none → Chain refs s.compiled p (b ++ l) → Dom p b s →
      (∀ g ∈ acc, g ∈ b ∧ firm s.compiled g = false) →
      Chain refs (pass o num l acc s).2.compiled p (b ++ l) ∧
      ∀ D, (pass o num l acc s).1 = .ok D → (pass o num l acc s).2.cur = none ∧
        (∃ D', D = acc ++ D' ∧ D'.Sublist l) ∧ (∀ g ∈ D, firm (pass o num l acc s).2.compiled g = false) ∧
        Dom p (b ++ l) (pass o num l acc s).2
  | [], b, acc, s, _, _, _, hc, hch, hdom, hacc => by
    refine ⟨hch, fun D hD => ⟨hc, ⟨[], ?_, .slnil⟩, ?_, hdom.mono fun g hg => List.mem_append_left _ hg⟩⟩
    · have hD' : Except.ok acc = (Except.ok D : Except Err _) := hD
      injection hD' with hD'
      rw [List.append_nil, hD']
    · have hD' : Except.ok acc = (Except.ok D : Except Err _) := hD
      injection hD' with hD'
      subst hD'
      exact fun g hg => (hacc g hg).2
  | g :: l, b, acc, s, hn, hs, hf, hc, hch, hdom, hacc => by
    have e1 : b ++ g :: l = (b ++ [g]) ++ l := by rw [List.append_assoc]; rfl
    have hgm : g ∈ b ++ g :: l := List.mem_append_right _ List.mem_cons_self
    have hgb : ∀ h ∈ b, h ≠ g := by
      intro h hh he
      subst he
      rw [List.map_append, List.nodup_append] at hn
      exact hn.2.2 h.name (List.mem_map_of_mem hh) h.name (List.mem_map_of_mem List.mem_cons_self) rfl
    have next : ∀ (acc' : List (Global V N)) (t : St V N), pass o num (g :: l) acc s = pass o num l acc' t →
        (∃ A, acc' = acc ++ A ∧ A.Sublist [g]) → t.cur = none → Chain refs t.compiled p (b ++ g :: l) →
        Dom p (b ++ [g]) t → (∀ h ∈ acc', h ∈ b ++ [g] ∧ firm t.compiled h = false) →
        Chain refs (pass o num (g :: l) acc s).2.compiled p (b ++ g :: l) ∧
        ∀ D, (pass o num (g :: l) acc s).1 = .ok D → (pass o num (g :: l) acc s).2.cur = none ∧
          (∃ D', D = acc ++ D' ∧ D'.Sublist (g :: l)) ∧
          (∀ h ∈ D, firm (pass o num (g :: l) acc s).2.compiled h = false) ∧
          Dom p (b ++ g :: l) (pass o num (g :: l) acc s).2 := by
      rintro acc' t h1 ⟨A, hA, hsub⟩ h2 h3 h4 h5
      rw [h1, e1]
      obtain ⟨k1, k2⟩ := pass_chain o p num l (b ++ [g]) acc' t (e1 ▸ hn) (e1 ▸ hs) (e1 ▸ hf) h2 (e1 ▸ h3) h4 h5
      refine ⟨k1, fun D hD => ?_⟩
      obtain ⟨m1, ⟨D', m2, m3⟩, m4, m5⟩ := k2 D hD
      refine ⟨m1, ⟨A ++ D', ?_, ?_⟩, m4, m5⟩
      · rw [m2, hA, List.append_assoc]
      · exact hsub.append m3
    have stay : ∀ {h : Global V N}, h ∈ acc → h ∈ b ++ [g] ∧ firm s.compiled h = false := fun hh =>
      ⟨List.mem_append_left _ (hacc _ hh).1, (hacc _ hh).2⟩
    cases hd : s.dict g.name with
    | some w =>
      exact next acc s (pass_skip (by rw [hd]; rfl)) ⟨[], by rw [List.append_nil], List.nil_sublist _⟩ hc hch
        (hdom.mono fun h hh => List.mem_append_left _ hh) (fun h => stay)
    | none =>
      cases hval : g.value with
      | content c => exact absurd hval (hs.no g hgm c)
      | empty =>
        have hi : g.instantiate o s = (.ok (), { s with dict := s.dict.set g.name o.empty }) := by
          unfold Global.instantiate; rw [hval]; dsimp only; rw [assign_none hc]
        refine next acc _ (pass_ok hd hi) ⟨[], by rw [List.append_nil], List.nil_sublist _⟩ hc hch ?_ (fun h => stay)
        intro x hx
        by_cases hxe : x = g.name
        · exact .inr ⟨g, List.mem_append_right _ List.mem_cons_self, by unfold firm; rw [hval], hxe.symm⟩
        · have hx' : ((s.dict.set g.name o.empty) x).isSome = true := hx
          unfold Env.set at hx'; rw [if_neg hxe] at hx'
          exact (hdom.mono fun h hh => List.mem_append_left _ hh) x hx'
      | select e =>
        have hfit : FitsE refs [] e := by have := hf g hgm; rw [hval] at this; exact this
        have hvars : s.vars = s.dict := by unfold St.vars; rw [hc]; rfl
        -- the expression is compiled, or can be
        have good : ∀ c', (∀ i ∈ s.compiled, i ∈ c') → e.id ∈ c' → Chain refs c' p (b ++ g :: l) →
            (∀ h ∈ acc, firm c' h = false) → evalE e s = ((e.run s.focus).run s.vars, { s with compiled := c' }) →
            Chain refs (pass o num (g :: l) acc s).2.compiled p (b ++ g :: l) ∧
            ∀ D, (pass o num (g :: l) acc s).1 = .ok D → (pass o num (g :: l) acc s).2.cur = none ∧
              (∃ D', D = acc ++ D' ∧ D'.Sublist (g :: l)) ∧
              (∀ h ∈ D, firm (pass o num (g :: l) acc s).2.compiled h = false) ∧
              Dom p (b ++ g :: l) (pass o num (g :: l) acc s).2 := by
          intro c' hsub hmem hch' hacc' hev
          cases hrun : (e.run s.focus).run s.vars with
          | ok v =>
            have hi : g.instantiate o s = (.ok (), { s with dict := s.dict.set g.name v, compiled := c' }) := by
              unfold Global.instantiate; rw [hval]; dsimp only; rw [hev, hrun]; dsimp only
              rw [assign_none (s := { s with compiled := c' }) hc]
            refine next acc _ (pass_ok hd hi) ⟨[], by rw [List.append_nil], List.nil_sublist _⟩ hc hch' ?_
              (fun h hh => ⟨(stay hh).1, hacc' h hh⟩)
            intro x hx
            by_cases hxe : x = g.name
            · exact .inr ⟨g, List.mem_append_right _ List.mem_cons_self, by
                unfold firm; rw [hval]; exact decide_eq_true hmem, hxe.symm⟩
            · have hx' : ((s.dict.set g.name v) x).isSome = true := hx
              unfold Env.set at hx'; rw [if_neg hxe] at hx'
              rcases hdom x hx' with h | ⟨h, h1, h2, h3⟩
              · exact .inl h
              · exact .inr ⟨h, List.mem_append_left _ h1, firm_mono hsub h2, h3⟩
          | error x =>
            have hi : g.instantiate o s = (.error x, { s with compiled := c' }) := by
              unfold Global.instantiate; rw [hval]; dsimp only; rw [hev, hrun]
            have hp : pass o num (g :: l) acc s = (.error x, { s with compiled := c' }) := by
              rw [pass, if_neg (by rw [hd]; nofun), hi]
              cases x with
              | undefined y => exact absurd hrun (run_not_undef _ _ y)
              | key y => rfl
              | circular y => rfl
              | other e => rfl
            rw [hp]
            exact ⟨hch', nofun⟩
        rcases evalE_cases e s with ⟨h1, h2⟩ | ⟨h1, x, h2, h3⟩ | ⟨h1, h2, h3⟩
        · exact good s.compiled (fun _ => id) h1 hch (fun h hh => (hacc h hh).2) h2
        · have hi : g.instantiate o s = (.error (.undefined x), s) := by
            unfold Global.instantiate; rw [hval]; dsimp only; rw [h3]
          refine next (acc ++ [g]) (s.truncate num) (pass_defer hd hi) ⟨[g], rfl, .refl _⟩ hc hch
            (hdom.mono fun h hh => List.mem_append_left _ hh) ?_
          intro h hh
          rcases List.mem_append.mp hh with hh | hh
          · exact stay hh
          · rw [List.mem_singleton] at hh
            subst hh
            exact ⟨List.mem_append_right _ List.mem_cons_self, by
              show firm s.compiled h = false
              unfold firm; rw [hval]; exact decide_eq_false h1⟩
        · refine good (e.id :: s.compiled) (fun i hi => List.mem_cons_of_mem _ hi) List.mem_cons_self ?_ ?_ h3
          · refine hch.compile hn hs hval fun x hx => hdom x ?_
            rw [hvars] at h2
            exact find_none_iff.mp h2 x (hfit.2.2 x hx).1
          · intro h hh
            have h4 := hacc h hh
            rw [firm_cons hs hgm (List.mem_append_left _ h4.1) hval (hgb h h4.1)]
            exact h4.2

/-! Moving the deferred variables to the end -/

/-- All but the variables with the names of others. -/
def without (D gs : List (Global V N)) : List (Global V N) := gs.filter fun h => !decide (h.name ∈ D.map (·.name))

theorem eraseP_nodup : ∀ {gs : List (Global V N)}, (gs.map (·.name)).Nodup → ∀ a : Name,
    gs.eraseP (fun h => h.name = a) = gs.filter fun h => !decide (h.name = a)
  | [], _, _ => rfl
  | g :: gs, hn, a => by
    rw [List.map_cons, List.nodup_cons] at hn
    by_cases h : g.name = a
    · rw [List.eraseP_cons_of_pos (by simpa using h), List.filter_cons_of_neg (by simpa using h)]
      symm
      rw [List.filter_eq_self]
      intro h' hh'
      have : h'.name ≠ a := fun e => hn.1 (by rw [h, ← e]; exact List.mem_map_of_mem hh')
      simpa using this
    · rw [List.eraseP_cons_of_neg (by simpa using h), List.filter_cons_of_pos (by simpa using h), eraseP_nodup hn.2]

theorem move_all : ∀ (D gs A : List (Global V N)), (gs.map (·.name)).Nodup → (D.map (·.name)).Nodup → (∀ g ∈ D, g ∈ gs) →
    D.foldl moveToEnd (gs ++ A) = without D gs ++ (A ++ D)
  | [], gs, A, _, _, _ => by
    rw [List.foldl_nil, List.append_nil]
    congr 1
    symm
    unfold without
    rw [List.filter_eq_self]
    intro h _; rfl
  | g :: D, gs, A, hn, hD, hm => by
    rw [List.map_cons, List.nodup_cons] at hD
    have hg := hm g List.mem_cons_self
    have h1 : moveToEnd (gs ++ A) g = gs.filter (fun h => !decide (h.name = g.name)) ++ (A ++ [g]) := by
      unfold moveToEnd
      rw [List.eraseP_append_left (a := g) (p := fun h => decide (h.name = g.name)) (by simp) A hg, eraseP_nodup hn, List.append_assoc]
    rw [List.foldl_cons, h1, move_all D _ (A ++ [g])]
    · have : without D (gs.filter fun h => !decide (h.name = g.name)) = without (g :: D) gs := by
        unfold without
        rw [List.filter_filter]
        apply List.filter_congr
        intro h _
        rw [List.map_cons]
        by_cases h1 : h.name = g.name <;> by_cases h2 : h.name ∈ D.map (·.name) <;> simp_all
      rw [this, List.append_assoc]; rfl
    · exact hn.sublist (List.filter_sublist.map _)
    · exact hD.2
    · intro h hh
      refine List.mem_filter.mpr ⟨hm h (List.mem_cons_of_mem _ hh), ?_⟩
      have : h.name ≠ g.name := fun e => hD.1 (e ▸ List.mem_map_of_mem hh)
      simpa using this

theorem move_end {D gs : List (Global V N)} (hn : (gs.map (·.name)).Nodup) (hs : D.Sublist gs) :
    D.foldl moveToEnd gs = without D gs ++ D := by
  have := move_all D gs [] hn (hn.sublist (hs.map _)) hs.subset
  rw [List.append_nil, List.nil_append] at this
  exact this

theorem mem_move {D gs : List (Global V N)} (hn : (gs.map (·.name)).Nodup) (hs : D.Sublist gs) (g : Global V N) :
    g ∈ without D gs ++ D ↔ g ∈ gs := by
  rw [List.mem_append]
  constructor
  · rintro (h | h)
    · exact (List.mem_filter.mp h).1
    · exact hs.subset h
  · intro h
    by_cases hd : g.name ∈ D.map (·.name)
    · obtain ⟨g', h1, h2⟩ := List.mem_map.mp hd
      rw [nodup_inj hn g h g' (hs.subset h1) h2.symm]; exact .inr h1
    · exact .inl (List.mem_filter.mpr ⟨h, by simpa using hd⟩)

theorem nodup_move {D gs : List (Global V N)} (hn : (gs.map (·.name)).Nodup) (hs : D.Sublist gs) :
    ((without D gs ++ D).map (·.name)).Nodup := by
  rw [List.map_append, List.nodup_append]
  refine ⟨hn.sublist (List.filter_sublist.map _), hn.sublist (hs.map _), ?_⟩
  intro a ha b hb e
  subst e
  obtain ⟨g, h1, rfl⟩ := List.mem_map.mp ha
  have := (List.mem_filter.mp h1).2
  simp [hb] at this

theorem Chain.move {refs : Nat → List Name} {c : List Nat} {p : List Name} {D gs : List (Global V N)}
    (hn : (gs.map (·.name)).Nodup) (hs : D.Sublist gs) (h : Chain refs c p gs) (hD : ∀ g ∈ D, firm c g = false) :
    Chain refs c p (without D gs ++ D) := by
  have notD : ∀ h ∈ gs, firm c h = true → (!decide (h.name ∈ D.map (·.name))) = true := by
    intro h hh hf
    by_cases hd : h.name ∈ D.map (·.name)
    · obtain ⟨g', h1, h2⟩ := List.mem_map.mp hd
      rw [nodup_inj hn h hh g' (hs.subset h1) h2.symm, hD g' h1] at hf; cases hf
    · simpa using hd
  intro b g l e heq hv hc x hx
  have hfg : firm c g = true := by unfold firm; rw [hv]; exact decide_eq_true hc
  have hgm : g ∈ gs := (mem_move hn hs g).mp (heq ▸ List.mem_append_right _ List.mem_cons_self)
  obtain ⟨b0, l0, h0⟩ := List.append_of_mem hgm
  have hnd := nodup_move hn hs
  have hw : without D gs ++ D = without D b0 ++ g :: (without D l0 ++ D) := by
    unfold without
    conv => lhs; rw [h0]
    rw [List.filter_append, List.filter_cons_of_pos (p := fun h : Global V N => !decide (h.name ∈ D.map (·.name))) (notD g hgm hfg),
      List.append_assoc]; rfl
  have hb : b = without D b0 := split_eq hnd heq hw
  rcases h b0 g l0 e h0 hv hc x hx with k | ⟨h', k1, k2, k3⟩
  · exact .inl k
  · refine .inr ⟨h', ?_, k2, k3⟩
    rw [hb]
    exact List.mem_filter.mpr ⟨k1, notD h' (h0 ▸ List.mem_append_left _ k1) k2⟩

theorem Spec.Selects.of_mem {gs gs' : List (Global V N)} (h : Selects gs) (hm : ∀ g, g ∈ gs' → g ∈ gs) : Selects gs' :=
  ⟨fun g hg => h.no g (hm g hg), fun g hg k hk => h.own g (hm g hg) k (hm k hk)⟩

/-- The list and the compiled expressions after a run, however it ends. -/
theorem loop_chain (o : Ops V N) {refs : Nat → List Name} (p : List Name) (num : Nat) :
    ∀ (k : Nat) (b l : List (Global V N)) (s : St V N), ((b ++ l).map (·.name)).Nodup → Selects (b ++ l) →
      (∀ g ∈ b ++ l, FitsDef refs g.value) → s.cur = none → Chain refs s.compiled p (b ++ l) → Dom p b s →
      Chain refs (loop o num k (b ++ l) l s).2.2.compiled p (loop o num k (b ++ l) l s).2.1 ∧
      ((loop o num k (b ++ l) l s).2.1.map (·.name)).Nodup ∧
      ∀ g, g ∈ (loop o num k (b ++ l) l s).2.1 ↔ g ∈ b ++ l
  | 0, b, l, s, hn, _, _, _, hch, _ => ⟨hch, hn, fun _ => Iff.rfl⟩
  | k + 1, b, l, s, hn, hs, hf, hc, hch, hdom => by
    obtain ⟨h1, h2⟩ := pass_chain o p num l b [] s hn hs hf hc hch hdom nofun
    rw [loop]
    cases hp : pass o num l [] s with
    | mk r t =>
      rw [hp] at h1 h2
      cases r with
      | error x => exact ⟨h1, hn, fun _ => Iff.rfl⟩
      | ok D =>
        obtain ⟨k1, ⟨D', k2, k3⟩, k4, k5⟩ := h2 D rfl
        rw [List.nil_append] at k2
        subst k2
        cases D with
        | nil => exact ⟨h1, hn, fun _ => Iff.rfl⟩
        | cons g D =>
          dsimp only
          split
          · exact ⟨h1, hn, fun _ => Iff.rfl⟩
          · have hsub : (g :: D).Sublist (b ++ l) := k3.trans (List.sublist_append_right _ _)
            rw [move_end hn hsub]
            have hmem := mem_move hn hsub
            obtain ⟨m1, m2, m3⟩ := loop_chain o p num k (without (g :: D) (b ++ l)) (g :: D) t (nodup_move hn hsub)
              (hs.of_mem fun h => (hmem h).mp) (fun h hh => hf h ((hmem h).mp hh)) k1 (h1.move hn hsub k4) (by
                intro x hx
                rcases k5 x hx with h | ⟨h, n1, n2, n3⟩
                · exact .inl h
                · refine .inr ⟨h, ?_, n2, n3⟩
                  rcases List.mem_append.mp ((hmem h).mpr n1) with h' | h'
                  · exact h'
                  · rw [k4 h h'] at n2; cases n2)
            exact ⟨m1, m2, fun h => (m3 h).trans (hmem h)⟩

/-! The compiled expressions make no difference -/

/-- A state but for what is compiled. -/
def St.fresh (s : St V N) (c : List Nat) : St V N := { s with compiled := c }

/-- Two runs of the same variables, with `c₀` compiled before and with nothing compiled before. -/
theorem pass_same (o : Ops V N) {refs : Nat → List Name} (c₀ : List Nat) (p : List Name) (num : Nat)
    (gs : List (Global V N)) (hs : Selects gs) (hf : ∀ g ∈ gs, FitsDef refs g.value) :
    ∀ (l b acc : List (Global V N)) (s : St V N) (c : List Nat), (∀ g ∈ l, g ∈ gs) → s.cur = none →
      (∀ i, i ∈ s.compiled ↔ i ∈ c₀ ∨ i ∈ c) → Known refs s.dict c → Chain refs c₀ p (b ++ l) →
      (∀ x ∈ p, (s.dict x).isSome = true) → (∀ h ∈ b, firm c₀ h = true → (s.dict h.name).isSome = true) →
      (∀ g ∈ acc, firm c₀ g = false) →
      ∃ r t c', pass o num l acc s = (r, t) ∧ pass o num l acc (s.fresh c) = (r, t.fresh c') ∧
        ∀ D, r = .ok D → t.cur = none ∧ (∀ i, i ∈ t.compiled ↔ i ∈ c₀ ∨ i ∈ c') ∧ Known refs t.dict c' ∧
          (∀ x ∈ p, (t.dict x).isSome = true) ∧ (∀ h ∈ b ++ l, firm c₀ h = true → (t.dict h.name).isSome = true) ∧
          (∀ g ∈ D, firm c₀ g = false) ∧ ∃ D', D = acc ++ D' ∧ D'.Sublist l
  | [], b, acc, s, c, _, hc, hi, hk, _, hp, hb, hacc =>
    ⟨.ok acc, s, c, rfl, rfl, fun D hD => ⟨hc, hi, hk, hp, by rw [List.append_nil]; exact hb, by
      injection hD with hD; subst hD; exact hacc, [], by
      injection hD with hD; rw [List.append_nil, hD], .slnil⟩⟩
  | g :: l, b, acc, s, c, hm, hc, hi, hk, hch, hp, hb, hacc => by
    have e1 : b ++ g :: l = (b ++ [g]) ++ l := by rw [List.append_assoc]; rfl
    have hgm : g ∈ gs := hm g List.mem_cons_self
    have hm' : ∀ h ∈ l, h ∈ gs := fun h hh => hm h (List.mem_cons_of_mem _ hh)
    have next : ∀ (acc' : List (Global V N)) (t : St V N) (c' : List Nat),
        pass o num (g :: l) acc s = pass o num l acc' t →
        pass o num (g :: l) acc (s.fresh c) = pass o num l acc' (t.fresh c') → t.cur = none →
        (∀ i, i ∈ t.compiled ↔ i ∈ c₀ ∨ i ∈ c') → Known refs t.dict c' → Sub s.dict t.dict →
        (firm c₀ g = true → (t.dict g.name).isSome = true) → (∀ g ∈ acc', firm c₀ g = false) →
        (∃ A, acc' = acc ++ A ∧ A.Sublist [g]) →
        ∃ r t c', pass o num (g :: l) acc s = (r, t) ∧ pass o num (g :: l) acc (s.fresh c) = (r, t.fresh c') ∧
          ∀ D, r = .ok D → t.cur = none ∧ (∀ i, i ∈ t.compiled ↔ i ∈ c₀ ∨ i ∈ c') ∧ Known refs t.dict c' ∧
            (∀ x ∈ p, (t.dict x).isSome = true) ∧ (∀ h ∈ b ++ g :: l, firm c₀ h = true → (t.dict h.name).isSome = true) ∧
            (∀ g ∈ D, firm c₀ g = false) ∧ ∃ D', D = acc ++ D' ∧ D'.Sublist (g :: l) := by
      rintro acc' t c' h1 h2 h3 h4 h5 h6 h7 h8 ⟨A, hA, hsub⟩
      rw [h1, h2, e1]
      obtain ⟨r, u, c'', k1, k2, k3⟩ := pass_same o c₀ p num gs hs hf l (b ++ [g]) acc' t c' hm' h3 h4 h5 (e1 ▸ hch)
        (fun x hx => h6.isSome (hp x hx)) (by
          intro h hh hfi
          rcases List.mem_append.mp hh with hh | hh
          · exact h6.isSome (hb h hh hfi)
          · rw [List.mem_singleton] at hh; subst hh; exact h7 hfi) h8
      refine ⟨r, u, c'', k1, k2, fun D hD => ?_⟩
      obtain ⟨m1, m2, m3, m4, m5, m6, D', m7, m8⟩ := k3 D hD
      exact ⟨m1, m2, m3, m4, m5, m6, A ++ D', by rw [m7, hA, List.append_assoc], hsub.append m8⟩
    have same : ∃ A, acc = acc ++ A ∧ A.Sublist [g] := ⟨[], by rw [List.append_nil], List.nil_sublist _⟩
    cases hd : s.dict g.name with
    | some w =>
      exact next acc s c (pass_skip (by rw [hd]; rfl)) (pass_skip (s := s.fresh c) (by
        show (s.dict g.name).isSome = true; rw [hd]; rfl)) hc hi hk (fun _ _ => id) (fun _ => by rw [hd]; rfl)
        hacc same
    | none =>
      have hset : ∀ v, (((s.dict.set g.name v) g.name)).isSome = true := fun v => by
        unfold Env.set; rw [if_pos rfl]; rfl
      cases hval : g.value with
      | content c => exact absurd hval (hs.no g hgm c)
      | empty =>
        have hi1 : g.instantiate o s = (.ok (), { s with dict := s.dict.set g.name o.empty }) := by
          unfold Global.instantiate; rw [hval]; dsimp only; rw [assign_none hc]
        have hi2 : g.instantiate o (s.fresh c) =
            (.ok (), ({ s with dict := s.dict.set g.name o.empty } : St V N).fresh c) := by
          unfold Global.instantiate; rw [hval]; dsimp only; rw [assign_none (s := s.fresh c) hc]; rfl
        exact next acc _ c (pass_ok hd hi1) (pass_ok (s := s.fresh c) hd hi2) hc hi (hk.mono (Sub.set_new hd))
          (Sub.set_new hd) (fun _ => hset _) hacc same
      | select e =>
        have hfit : FitsE refs [] e := by have := hf g hgm; rw [hval] at this; exact this
        have hvars : s.vars = s.dict := by unfold St.vars; rw [hc]; rfl
        have hvars' : (s.fresh c).vars = s.dict := hvars
        have hfv : ∀ x ∈ e.fv, x ∈ refs e.id := fun x hx => (hfit.2.1 x hx).resolve_left nofun
        have good : ∀ c1 c2, (∀ x ∈ e.fv, (s.dict x).isSome = true) → (∀ i, i ∈ c1 ↔ i ∈ c₀ ∨ i ∈ c2) →
            Known refs s.dict c2 →
            evalE e s = ((e.run s.focus).run s.dict, { s with compiled := c1 }) →
            evalE e (s.fresh c) = ((e.run s.focus).run s.dict, { s with compiled := c2 }) →
            ∃ r t c', pass o num (g :: l) acc s = (r, t) ∧ pass o num (g :: l) acc (s.fresh c) = (r, t.fresh c') ∧
              ∀ D, r = .ok D → t.cur = none ∧ (∀ i, i ∈ t.compiled ↔ i ∈ c₀ ∨ i ∈ c') ∧ Known refs t.dict c' ∧
                (∀ x ∈ p, (t.dict x).isSome = true) ∧
                (∀ h ∈ b ++ g :: l, firm c₀ h = true → (t.dict h.name).isSome = true) ∧
            (∀ g ∈ D, firm c₀ g = false) ∧ ∃ D', D = acc ++ D' ∧ D'.Sublist (g :: l) := by
          intro c1 c2 hdef h12 hk2 hev1 hev2
          cases hrun : (e.run s.focus).run s.dict with
          | ok v =>
            have hi1 : g.instantiate o s = (.ok (), { s with dict := s.dict.set g.name v, compiled := c1 }) := by
              unfold Global.instantiate; rw [hval]; dsimp only; rw [hev1, hrun]; dsimp only
              rw [assign_none (s := { s with compiled := c1 }) hc]
            have hi2 : g.instantiate o (s.fresh c) = (.ok (), { s with dict := s.dict.set g.name v, compiled := c2 }) := by
              unfold Global.instantiate; rw [hval]; dsimp only; rw [hev2, hrun]; dsimp only
              rw [assign_none (s := { s with compiled := c2 }) hc]
            exact next acc { s with dict := s.dict.set g.name v, compiled := c1 } c2 (pass_ok hd hi1)
              (pass_ok (s := s.fresh c) hd hi2) hc h12 (hk2.mono (Sub.set_new hd)) (Sub.set_new hd) (fun _ => hset _) hacc same
          | error x =>
            have hx : ∃ e', x = .other e' := by
              rcases run_asks hdef (hfit.1 s.focus) with ⟨v, hv⟩ | ⟨e', hv⟩
              · rw [hrun] at hv; cases hv
              · rw [hrun] at hv; injection hv with hv; exact ⟨e', hv⟩
            obtain ⟨e', rfl⟩ := hx
            have hi1 : g.instantiate o s = (.error (.other e'), { s with compiled := c1 }) := by
              unfold Global.instantiate; rw [hval]; dsimp only; rw [hev1, hrun]
            have hi2 : g.instantiate o (s.fresh c) = (.error (.other e'), { s with compiled := c2 }) := by
              unfold Global.instantiate; rw [hval]; dsimp only; rw [hev2, hrun]
            exact ⟨_, { s with compiled := c1 }, c2, pass_fail hd hi1, pass_fail (s := s.fresh c) hd hi2, nofun⟩
        by_cases h0 : e.id ∈ c₀
        · -- compiled before this run
          have hdef : ∀ x ∈ e.fv, (s.dict x).isSome = true := by
            intro x hx
            rcases hch b g l e rfl hval h0 x (hfv x hx) with h | ⟨h, k1, k2, k3⟩
            · exact hp x h
            · rw [← k3]; exact hb h k1 k2
          have hfind : e.fv.find? (fun x => (s.dict x).isNone) = none := find_none_iff.mpr hdef
          have hev1 : evalE e s = ((e.run s.focus).run s.dict, { s with compiled := s.compiled }) := by
            unfold evalE; rw [if_pos ((hi _).mpr (.inl h0)), hvars]
          by_cases h1 : e.id ∈ c
          · refine good s.compiled c hdef hi hk hev1 ?_
            unfold evalE; rw [if_pos (show e.id ∈ (s.fresh c).compiled from h1), hvars']; rfl
          · refine good s.compiled (e.id :: c) hdef ?_ ?_ hev1 ?_
            · intro i; rw [hi i, List.mem_cons]
              constructor
              · rintro (h | h)
                · exact .inl h
                · exact .inr (.inr h)
              · rintro (h | h | h)
                · exact .inl h
                · exact .inl (h ▸ h0)
                · exact .inr h
            · intro i h x hx
              rcases List.mem_cons.mp h with rfl | h
              · exact hdef x (hfit.2.2 x hx).1
              · exact hk i h x hx
            · unfold evalE; rw [if_neg (show e.id ∉ (s.fresh c).compiled from h1), hvars', hfind]; rfl
        · by_cases h1 : e.id ∈ c
          · have hdef : ∀ x ∈ e.fv, (s.dict x).isSome = true := fun x hx => hk _ h1 x (hfv x hx)
            refine good s.compiled c hdef hi hk ?_ ?_
            · unfold evalE; rw [if_pos ((hi _).mpr (.inr h1)), hvars]
            · unfold evalE; rw [if_pos (show e.id ∈ (s.fresh c).compiled from h1), hvars']; rfl
          · have hns : e.id ∉ s.compiled := fun h => ((hi _).mp h).elim h0 h1
            cases hfind : e.fv.find? (fun x => (s.dict x).isNone) with
            | some x =>
              have hi1 : g.instantiate o s = (.error (.undefined x), s) := by
                unfold Global.instantiate; rw [hval]; dsimp only
                unfold evalE; rw [if_neg hns, hvars, hfind]
              have hi2 : g.instantiate o (s.fresh c) = (.error (.undefined x), s.fresh c) := by
                unfold Global.instantiate; rw [hval]; dsimp only
                unfold evalE; rw [if_neg (show e.id ∉ (s.fresh c).compiled from h1), hvars', hfind]
              refine next (acc ++ [g]) (s.truncate num) c (pass_defer hd hi1) (pass_defer (s := s.fresh c) hd hi2) hc hi hk
                (fun _ _ => id) ?_ ?_ ⟨[g], rfl, .refl _⟩
              · intro hfi
                unfold firm at hfi; rw [hval] at hfi
                exact absurd (of_decide_eq_true hfi) h0
              · intro h hh
                rcases List.mem_append.mp hh with hh | hh
                · exact hacc h hh
                · rw [List.mem_singleton] at hh; subst hh
                  unfold firm; rw [hval]; exact decide_eq_false h0
            | none =>
              have hdef := find_none_iff.mp hfind
              refine good (e.id :: s.compiled) (e.id :: c) hdef ?_ ?_ ?_ ?_
              · intro i; rw [List.mem_cons, List.mem_cons, hi i]
                constructor
                · rintro (h | h | h)
                  · exact .inr (.inl h)
                  · exact .inl h
                  · exact .inr (.inr h)
                · rintro (h | h | h)
                  · exact .inr (.inl h)
                  · exact .inl h
                  · exact .inr (.inr h)
              · intro i h x hx
                rcases List.mem_cons.mp h with rfl | h
                · exact hdef x (hfit.2.2 x hx).1
                · exact hk i h x hx
              · unfold evalE; rw [if_neg hns, hvars, hfind]
              · unfold evalE; rw [if_neg (show e.id ∉ (s.fresh c).compiled from h1), hvars', hfind]; rfl

theorem loop_same (o : Ops V N) {refs : Nat → List Name} (c₀ : List Nat) (p : List Name) (num : Nat)
    (gs : List (Global V N)) (hs : Selects gs) (hf : ∀ g ∈ gs, FitsDef refs g.value) :
    ∀ (k : Nat) (b l : List (Global V N)) (s : St V N) (c : List Nat), ((b ++ l).map (·.name)).Nodup →
      (∀ g ∈ b ++ l, g ∈ gs) → s.cur = none →
      (∀ i, i ∈ s.compiled ↔ i ∈ c₀ ∨ i ∈ c) → Known refs s.dict c → Chain refs c₀ p (b ++ l) →
      (∀ x ∈ p, (s.dict x).isSome = true) → (∀ h ∈ b, firm c₀ h = true → (s.dict h.name).isSome = true) →
      ∃ r od t c', loop o num k (b ++ l) l s = (r, od, t) ∧ loop o num k (b ++ l) l (s.fresh c) = (r, od, t.fresh c')
  | 0, b, l, s, c, _, _, _, _, _, _, _, _ => ⟨none, b ++ l, s, c, rfl, rfl⟩
  | k + 1, b, l, s, c, hn, hm, hc, hi, hk, hch, hp, hb => by
    obtain ⟨r, t, c', h1, h2, h3⟩ := pass_same o c₀ p num gs hs hf l b [] s c
      (fun g hg => hm g (List.mem_append_right _ hg)) hc hi hk hch hp hb nofun
    rw [loop, loop, h1, h2]
    cases r with
    | error x => exact ⟨_, _, t, c', rfl, rfl⟩
    | ok D =>
      obtain ⟨m1, m2, m3, m4, m5, m6, D', m7, m8⟩ := h3 D rfl
      rw [List.nil_append] at m7
      subst m7
      cases D with
      | nil => exact ⟨_, _, t, c', rfl, rfl⟩
      | cons g D =>
        dsimp only
        split
        · exact ⟨_, _, t, c', rfl, rfl⟩
        · have hsub : (g :: D).Sublist (b ++ l) := m8.trans (List.sublist_append_right _ _)
          rw [move_end hn hsub]
          have hmem := mem_move hn hsub
          exact loop_same o c₀ p num gs hs hf k (without (g :: D) (b ++ l)) (g :: D) t c' (nodup_move hn hsub)
            (fun h hh => hm h ((hmem h).mp hh)) m1 m2 m3 (hch.move hn hsub m6) m4
            (fun h hh => m5 h ((hmem h).mp (List.mem_append_left _ hh)))

/-! Values do not depend on the order of the declarations -/

theorem hasValue_mem {o : Ops V N} {gs gs' : List (Global V N)} {given : Env V} {n : N} (hm : ∀ g, g ∈ gs → g ∈ gs')
    {x : Name} {v : V} (h : HasValue o gs given n x v) : HasValue o gs' given n x v := by
  induction h with
  | passed g v hg hp hgv => exact .passed g v (hm g hg) hp hgv
  | computed g env v hg hnp _ hv ih => exact .computed g env v (hm g hg) hnp ih hv

theorem right_mem {o : Ops V N} {gs gs' : List (Global V N)} {given : Env V} {n : N} (hm : ∀ g, g ∈ gs ↔ g ∈ gs')
    {r : Option (Except Err Unit)} {s : St V N} (h : Right o gs given n r s) : Right o gs' given n r s := by
  have hv : ∀ {x v}, HasValue o gs given n x v ↔ HasValue o gs' given n x v :=
    ⟨hasValue_mem fun g => (hm g).mp, hasValue_mem fun g => (hm g).mpr⟩
  refine ⟨h.ends, ?_, fun hr x v => (h.values hr x v).trans hv, h.context, fun x hx => ?_⟩
  · rw [h.ok]
    exact ⟨fun k g hg => (k g ((hm g).mpr hg)).imp fun _ => hv.mp, fun k g hg => (k g ((hm g).mp hg)).imp fun _ => hv.mpr⟩
  · rcases h.error x hx with ⟨g, h1, h2, h3⟩ | ⟨e, h1, g, h2, h3, env, h4, h5⟩
    · exact .inl ⟨g, (hm g).mp h1, h2, fun ⟨v, k⟩ => h3 ⟨v, hv.mpr k⟩⟩
    · exact .inr ⟨e, h1, g, (hm g).mp h2, h3, env, fun y w hy => hv.mp (h4 y w hy), h5⟩

theorem initial_mem {sh sh' : Sheet V N} (hm : ∀ g, g ∈ sh.order ↔ g ∈ sh'.order) (given : Env V) :
    sh.initial given = sh'.initial given := by
  have : ∀ x, x ∈ sh.parameters ↔ x ∈ sh'.parameters := by
    intro x
    unfold Sheet.parameters
    simp only [List.mem_map, List.mem_filter]
    exact ⟨fun ⟨g, h1, h2⟩ => ⟨g, ⟨(hm g).mp h1.1, h1.2⟩, h2⟩, fun ⟨g, h1, h2⟩ => ⟨g, ⟨(hm g).mpr h1.1, h1.2⟩, h2⟩⟩
  funext x
  unfold Sheet.initial
  by_cases h : x ∈ sh.parameters
  · rw [if_pos h, if_pos ((this x).mp h)]
  · rw [if_neg h, if_neg fun k => h ((this x).mpr k)]

/-- What holds of a stylesheet that has been used with parameters that are all in `p`. -/
structure Used (refs : Nat → List Name) (p : List Name) (gs : List (Global V N)) (sh : Sheet V N) : Prop where
  names : (sh.order.map (·.name)).Nodup
  mem : ∀ g, g ∈ sh.order ↔ g ∈ gs
  chain : Chain refs sh.compiled p sh.order

theorem Used.run (o : Ops V N) {refs : Nat → List Name} {p : List Name} {gs : List (Global V N)} {sh : Sheet V N}
    (hs : Selects gs) (hf : ∀ g ∈ gs, FitsDef refs g.value) (h : Used refs p gs sh) (given : Env V) (n : N)
    (hp : ∀ x ∈ sh.parameters, given x ≠ none → x ∈ p) : Used refs p gs (sh.prime o given n).2.1 := by
  have := loop_chain o (refs := refs) p 1 (sh.order.length + 1) [] sh.order (sh.start given n) h.names
    (hs.of_mem fun g hg => (h.mem g).mp hg) (fun g hg => hf g ((h.mem g).mp hg)) rfl h.chain (by
      intro x hx
      have hx' : (sh.initial given x).isSome = true := hx
      unfold Sheet.initial at hx'
      split at hx'
      · rename_i hm
        refine .inl (hp x hm ?_)
        intro e; rw [e] at hx'; cases hx'
      · cases hx')
  exact ⟨this.2.1, fun g => (this.2.2 g).trans (h.mem g), this.1⟩

theorem Used.after (o : Ops V N) {refs : Nat → List Name} {p : List Name} {gs : List (Global V N)}
    (hs : Selects gs) (hf : ∀ g ∈ gs, FitsDef refs g.value) :
    ∀ (rs : List (Env V × N)) (sh : Sheet V N), Used refs p gs sh →
      (∀ r ∈ rs, ∀ x ∈ sh.parameters, r.1 x ≠ none → x ∈ p) → Used refs p gs (after o sh rs)
  | [], _, h, _ => h
  | r :: rs, sh, h, hp => by
    have h1 := h.run o hs hf r.1 r.2 (hp r List.mem_cons_self)
    refine Used.after o hs hf rs _ h1 fun r' hr' x hx => hp r' (List.mem_cons_of_mem _ hr') x ?_
    unfold Sheet.parameters at hx ⊢
    simp only [List.mem_map, List.mem_filter] at hx ⊢
    obtain ⟨g, k1, k2⟩ := hx
    exact ⟨g, ⟨(h.mem g).mpr ((h1.mem g).mp k1.1), k1.2⟩, k2⟩

theorem Used.right (o : Ops V N) {refs : Nat → List Name} {p : List Name} {gs : List (Global V N)} {sh : Sheet V N}
    (hs : Selects gs) (hf : ∀ g ∈ gs, FitsDef refs g.value) (h : Used refs p gs sh) {given : Env V} {n : N}
    (hp : ∀ x ∈ p, x ∈ sh.parameters ∧ given x ≠ none) :
    Right o gs given n (sh.prime o given n).1 (sh.prime o given n).2.2 := by
  obtain ⟨r, od, t, c', h1, h2⟩ := loop_same o (refs := refs) sh.compiled p 1 gs hs hf (sh.order.length + 1) [] sh.order
    (sh.start given n) [] h.names (fun g hg => (h.mem g).mp hg) rfl (fun i => ⟨.inl, fun k => k.resolve_right nofun⟩)
    nofun h.chain (by
      intro x hx
      have := hp x hx
      show (sh.initial given x).isSome = true
      unfold Sheet.initial; rw [if_pos this.1]
      cases hg : given x with
      | none => exact absurd hg this.2
      | some v => rfl) nofun
  have hfresh := prime_right (o := o) (refs := refs) (sh := ⟨sh.order, []⟩) (given := given) (n := n) (lead := [])
    (rest := sh.order) (a := []) ⟨h.names, fun g hg => hf g ((h.mem g).mp hg)⟩ rfl rfl nofun trivial (by
      intro g hg
      cases hv : g.value with
      | content c => exact absurd hv (hs.no g ((h.mem g).mp hg) c)
      | select e => trivial
      | empty => trivial)
  have e1 : (sh.prime o given n).1 = r ∧ (sh.prime o given n).2.2 = t := by
    unfold Sheet.prime
    rw [List.nil_append] at h1
    rw [h1]; exact ⟨rfl, rfl⟩
  have e2 : ((⟨sh.order, []⟩ : Sheet V N).prime o given n).1 = r ∧
      ((⟨sh.order, []⟩ : Sheet V N).prime o given n).2.2 = t.fresh c' := by
    unfold Sheet.prime
    rw [List.nil_append] at h2
    have : (⟨sh.order, []⟩ : Sheet V N).start given n = (sh.start given n).fresh [] := rfl
    rw [this, h2]; exact ⟨rfl, rfl⟩
  rw [e2.1, e2.2] at hfresh
  rw [e1.1, e1.2]
  have hr := right_mem h.mem hfresh
  exact ⟨hr.ends, hr.ok, hr.values, hr.context, hr.error⟩

end Verif.Globals
