import Verif.Xslt.Lre.Alias
/-
The table of the aliases, and attribute sets.
-/
namespace Verif.Xslt.Lre
open Verif.Write (UStr)
open Spec
variable {V : Type}

/-- The state of the loop after the declarations `done`, which come in decreasing precedence. -/
structure Loop (done : List AliasDecl) (group : Option Nat) (mapped : List Ns) (al : Aliases) : Prop where
  fresh : ∀ n, al n = none ↔ ∀ d ∈ done, d.ns ≠ n
  high : ∀ n r p, al n = Option.some (r, p) ↔ ∃ d, Highest done d ∧ d.ns = n ∧ d.result = r ∧ d.pfx = p
  mapped : ∀ n, n ∈ mapped ↔ ∃ d, Highest done d ∧ d.ns = n ∧ group = Option.some d.prec
  clear : ¬ Clash done
  least : ∀ k, group = Option.some k → (∃ d ∈ done, d.prec = k) ∧ ∀ d ∈ done, k ≤ d.prec
  some : ∀ d ∈ done, group.isSome

theorem filter_two {α : Type} {q : α → Bool} {l : List α} {a b : α} (ha : a ∈ l) (hq : q a) (hb : q b) : 2 ≤ ((l ++ [b]).filter q).length := by
  rw [List.filter_append, List.length_append]
  have : a ∈ l.filter q := List.mem_filter.2 ⟨ha, hq⟩
  have h1 := List.length_pos_of_mem this
  simp [hb]
  omega

theorem filter_le {α : Type} (q : α → Bool) (l m : List α) : (l.filter q).length ≤ ((l ++ m).filter q).length := by
  rw [List.filter_append, List.length_append]; omega

theorem clash_append {l m : List AliasDecl} (h : Clash l) (hp : ∀ d ∈ m, ∀ d' ∈ l, d.prec ≤ d'.prec) : Clash (l ++ m) := by
  obtain ⟨d, ⟨h1, h2⟩, h3⟩ := h
  refine ⟨d, ⟨List.mem_append_left _ h1, fun d' hd' e => ?_⟩, Nat.le_trans h3 (filter_le _ _ _)⟩
  rcases List.mem_append.1 hd' with h | h
  · exact h2 d' h e
  · exact hp d' h d h1

theorem aliasLoop_spec : ∀ (todo done : List AliasDecl) (group : Option Nat) (mapped : List Ns) (al : Aliases),
    (done ++ todo).Pairwise (fun a b => b.prec ≤ a.prec) → Loop done group mapped al →
    match aliasLoop todo group mapped al with
    | none => Clash (done ++ todo)
    | some al' => ¬ Clash (done ++ todo) ∧ ∀ n r p, al' n = some (r, p) ↔ ∃ d, Highest (done ++ todo) d ∧ d.ns = n ∧ d.result = r ∧ d.pfx = p
  | [], done, group, mapped, al, _, hl => by
    rw [aliasLoop, List.append_nil]
    exact ⟨hl.clear, hl.high⟩
  | d :: todo, done, group, mapped, al, hs, hl => by
    have hdl : ∀ x ∈ done, d.prec ≤ x.prec := fun x hx => (List.pairwise_append.1 hs).2.2 x hx d (.head _)
    have hs' : ((done ++ [d]) ++ todo).Pairwise (fun a b => b.prec ≤ a.prec) := by rw [List.append_assoc]; exact hs
    have happ : done ++ d :: todo = (done ++ [d]) ++ todo := by rw [List.append_assoc]; rfl
    -- the declarations of highest precedence stay so
    have hkeep : ∀ x, Highest done x → Highest (done ++ [d]) x := by
      rintro x ⟨h1, h2⟩
      refine ⟨List.mem_append_left _ h1, fun y hy e => ?_⟩
      rcases List.mem_append.1 hy with h | h
      · exact h2 y h e
      · rw [List.mem_singleton.1 h]; exact hdl x h1
    have hback : ∀ x, Highest (done ++ [d]) x → x ∈ done → Highest done x := fun x h hx => ⟨hx, fun y hy => h.2 y (List.mem_append_left _ hy)⟩
    have hmem : ∀ x, x ∈ done ++ [d] ↔ x ∈ done ∨ x = d := by intro x; simp
    have hmapped' : ∀ n, n ∈ (if group = some d.prec then mapped else []) ↔ ∃ x, Highest done x ∧ x.ns = n ∧ x.prec = d.prec := by
      intro n
      by_cases hg : group = some d.prec
      · rw [if_pos hg, hl.mapped, hg]
        constructor
        · rintro ⟨x, a, b, c⟩; exact ⟨x, a, b, (Option.some.inj c).symm⟩
        · rintro ⟨x, a, b, c⟩; exact ⟨x, a, b, by rw [c]⟩
      · rw [if_neg hg]
        constructor
        · intro h; cases h
        · rintro ⟨x, a, b, c⟩
          have hsome := hl.some x a.1
          cases hgr : group with
          | none => rw [hgr] at hsome; cases hsome
          | some k =>
            obtain ⟨⟨y, hy, hyk⟩, h1⟩ := hl.least k hgr
            have h2 := h1 x a.1
            have h3 := hdl y hy
            exact absurd (by rw [hgr]; congr 1; omega) hg
    rw [aliasLoop]
    rw [happ]
    by_cases hn : (al d.ns).isNone
    · rw [if_pos hn]
      have hfresh := (hl.fresh d.ns).1 (Option.isNone_iff_eq_none.1 hn)
      have hdh : Highest (done ++ [d]) d := ⟨(hmem d).2 (.inr rfl), fun y hy e => by
        rcases (hmem y).1 hy with h | h
        · exact absurd e (hfresh y h)
        · rw [h]; exact Nat.le_refl _⟩
      apply aliasLoop_spec todo (done ++ [d]) _ _ _ hs'
      refine ⟨fun n => ?_, fun n r p => ?_, fun n => ?_, ?_, fun k hk => ?_, fun _ _ => rfl⟩
      · by_cases e : n = d.ns
        · rw [if_pos e]
          constructor
          · intro h; cases h
          · intro h; exact absurd e.symm (h d ((hmem d).2 (.inr rfl)))
        · rw [if_neg e, hl.fresh]
          constructor
          · intro h x hx
            rcases (hmem x).1 hx with h' | h'
            · exact h x h'
            · rw [h']; exact fun h => e h.symm
          · intro h x hx; exact h x ((hmem x).2 (.inl hx))
      · by_cases e : n = d.ns
        · rw [if_pos e]
          constructor
          · intro h; cases h; exact ⟨d, hdh, e.symm, rfl, rfl⟩
          · rintro ⟨x, hx, a, b, c⟩
            rcases (hmem x).1 hx.1 with h | h
            · exact absurd (a.trans e) (hfresh x h)
            · subst h; rw [b, c]
        · rw [if_neg e, hl.high]
          constructor
          · rintro ⟨x, hx, a⟩; exact ⟨x, hkeep x hx, a⟩
          · rintro ⟨x, hx, a, b⟩
            rcases (hmem x).1 hx.1 with h | h
            · exact ⟨x, hback x hx h, a, b⟩
            · subst h; exact absurd a.symm e
      · rw [List.mem_cons, hmapped']
        constructor
        · rintro (h | ⟨x, a, b, c⟩)
          · exact ⟨d, hdh, h.symm, rfl⟩
          · exact ⟨x, hkeep x a, b, by rw [c]⟩
        · rintro ⟨x, a, b, c⟩
          rcases (hmem x).1 a.1 with h | h
          · exact .inr ⟨x, hback x a h, b, (Option.some.inj c).symm⟩
          · subst h; exact .inl b.symm
      · rintro ⟨x, hx, h2⟩
        rcases (hmem x).1 hx.1 with h | h
        · refine hl.clear ⟨x, hback x hx h, ?_⟩
          rw [List.filter_append, List.length_append] at h2
          have : d.ns ≠ x.ns := fun e => hfresh x h e.symm
          simpa [this] using h2
        · subst h
          rw [List.filter_append, List.length_append] at h2
          have : done.filter (fun d' => d'.ns = x.ns ∧ d'.prec = x.prec) = [] := by
            rw [List.filter_eq_nil_iff]
            intro y hy
            simp [hfresh y hy]
          rw [this] at h2
          simp at h2
      · cases hk
        exact ⟨⟨d, (hmem d).2 (.inr rfl), rfl⟩, fun x hx => by
          rcases (hmem x).1 hx with h | h
          · exact hdl x h
          · rw [h]; exact Nat.le_refl _⟩
    · rw [if_neg hn]
      -- there is one already
      obtain ⟨⟨r0, p0⟩, hr0⟩ : ∃ r, al d.ns = some r := by
        cases h : al d.ns with
        | none => rw [h] at hn; exact absurd rfl hn
        | some r => exact ⟨r, rfl⟩
      obtain ⟨z, hz, hzn, _, _⟩ := (hl.high _ _ _).1 hr0
      by_cases hm : d.ns ∈ (if group = some d.prec then mapped else [])
      · rw [if_pos hm]
        obtain ⟨x, a, b, c⟩ := (hmapped' _).1 hm
        refine clash_append (l := done ++ [d]) ⟨x, hkeep x a, filter_two a.1 (by simp) (by simp [b, c])⟩ ?_
        intro y hy w hw
        exact (List.pairwise_append.1 hs').2.2 w hw y hy
      · rw [if_neg hm]
        have hlt : ∀ x, Highest done x → x.ns = d.ns → d.prec < x.prec := by
          intro x hx e
          have := hdl x hx.1
          have h2 : x.prec ≠ d.prec := fun e2 => hm ((hmapped' _).2 ⟨x, hx, e, e2⟩)
          omega
        have hnd : ¬ Highest (done ++ [d]) d := by
          intro h
          have h1 := h.2 z ((hmem z).2 (.inl hz.1)) hzn
          have := hlt z hz hzn
          omega
        have hiff : ∀ x, Highest (done ++ [d]) x ↔ Highest done x := by
          intro x
          refine ⟨fun h => ?_, hkeep x⟩
          rcases (hmem x).1 h.1 with h' | h'
          · exact hback x h h'
          · subst h'; exact absurd h hnd
        apply aliasLoop_spec todo (done ++ [d]) _ _ _ hs'
        refine ⟨fun n => ?_, fun n r p => ?_, fun n => ?_, ?_, fun k hk => ?_, fun _ _ => rfl⟩
        · rw [hl.fresh]
          constructor
          · intro h x hx
            rcases (hmem x).1 hx with h' | h'
            · exact h x h'
            · subst h'; rw [← hzn]; exact h z hz.1
          · intro h x hx; exact h x ((hmem x).2 (.inl hx))
        · simp only [hiff]; exact hl.high n r p
        · rw [hmapped']
          simp only [hiff]
          constructor
          · rintro ⟨x, a, b, c⟩; exact ⟨x, a, b, by rw [c]⟩
          · rintro ⟨x, a, b, c⟩; exact ⟨x, a, b, (Option.some.inj c).symm⟩
        · rintro ⟨x, hx, h2⟩
          rw [hiff] at hx
          refine hl.clear ⟨x, hx, ?_⟩
          rw [List.filter_append, List.length_append] at h2
          have : ¬ (d.ns = x.ns ∧ d.prec = x.prec) := by
            rintro ⟨e1, e2⟩
            have := hlt x hx e1.symm
            omega
          simpa [this] using h2
        · cases hk
          exact ⟨⟨d, (hmem d).2 (.inr rfl), rfl⟩, fun x hx => by
            rcases (hmem x).1 hx with h | h
            · exact hdl x h
            · rw [h]; exact Nat.le_refl _⟩

theorem highest_reverse {ds : List AliasDecl} {d : AliasDecl} : Highest ds.reverse d ↔ Highest ds d := by simp [Highest]

theorem clash_reverse {ds : List AliasDecl} : Clash ds.reverse ↔ Clash ds := by
  simp only [Clash, highest_reverse, List.filter_reverse, List.length_reverse]

theorem aliases_spec {ds : List AliasDecl} (hs : ds.Pairwise (fun a b => a.prec ≤ b.prec)) :
    match aliases ds with
    | none => Clash ds
    | some al => ¬ Clash ds ∧ ∀ n r p, al n = some (r, p) ↔ ∃ d, Highest ds d ∧ d.ns = n ∧ d.result = r ∧ d.pfx = p := by
  have := aliasLoop_spec ds.reverse [] none [] (fun _ => none) (by rw [List.nil_append, List.pairwise_reverse]; exact hs)
    ⟨fun n => by simp, fun n r p => by simp [Highest], fun n => by simp, by rintro ⟨d, h, _⟩; exact (nomatch h.1), nofun, nofun⟩
  rw [List.nil_append] at this
  unfold aliases
  cases h : aliasLoop ds.reverse none [] (fun _ => none) with
  | none => rw [h] at this; exact clash_reverse.1 this
  | some al => rw [h] at this; exact ⟨fun h => this.1 (clash_reverse.2 h), fun n r p => by rw [this.2]; simp only [highest_reverse]⟩

/-! ### Attribute sets -/

/-- No two attribute sets have the same name. -/
def Unique (sets : List (AttrSet V)) : Prop := ∀ s ∈ sets, ∀ s' ∈ sets, s.name = s'.name → s = s'

theorem setNamed_some {sets : List (AttrSet V)} {n : Ns × UStr} {s : AttrSet V} (h : setNamed sets n = some s) : s ∈ sets ∧ s.name = n := by
  unfold setNamed at h
  exact ⟨List.mem_reverse.1 (List.mem_of_find?_eq_some h), by simpa using List.find?_some h⟩

theorem setNamed_unique {sets : List (AttrSet V)} {n : Ns × UStr} {s : AttrSet V} (hm : s ∈ sets) (hn : s.name = n)
    (hu : ∀ s' ∈ sets, s'.name = n → s' = s) : setNamed sets n = some s := by
  cases h : setNamed sets n with
  | none =>
    unfold setNamed at h
    rw [List.find?_eq_none] at h
    exact absurd (by simpa using hn) (h s (List.mem_reverse.2 hm))
  | some s' => rw [hu s' (setNamed_some h).1 (setNamed_some h).2]

theorem setAttrs_adds {sets : List (AttrSet V)} (hu : Unique sets) : ∀ (fuel : Nat) (ns : List (Ns × UStr)) (as : List (Name × V)),
    setAttrs sets fuel ns = .ok as → Adds sets ns as
  | 0, ns, as, h => by rw [setAttrs.eq_def] at h; cases h
  | fuel + 1, [], as, h => by rw [setAttrs] at h; cases h; exact .nil
  | fuel + 1, n :: ns, as, h => by
    rw [setAttrs] at h
    cases hn : setNamed sets n with
    | none => rw [hn] at h; cases h
    | some s =>
      rw [hn] at h; dsimp only at h
      obtain ⟨h1, h2⟩ := setNamed_some hn
      cases ha : setAttrs sets fuel s.uses with
      | undefined => rw [ha] at h; cases h
      | endless => rw [ha] at h; cases h
      | ok xs =>
        rw [ha] at h; dsimp only at h
        cases hb : setAttrs sets fuel ns with
        | undefined => rw [hb] at h; cases h
        | endless => rw [hb] at h; cases h
        | ok ys =>
          rw [hb] at h; cases h
          exact .cons h1 h2 (fun s' h3 h4 => hu s' h3 s h1 (h4.trans h2.symm)) (setAttrs_adds hu fuel _ _ ha) (setAttrs_adds hu fuel _ _ hb)

theorem setAttrs_mono {sets : List (AttrSet V)} : ∀ (fuel more : Nat) (ns : List (Ns × UStr)) (as : List (Name × V)),
    setAttrs sets fuel ns = .ok as → setAttrs sets (fuel + more) ns = .ok as
  | 0, _, ns, as, h => by rw [setAttrs.eq_def] at h; cases h
  | fuel + 1, more, [], as, h => by rw [setAttrs] at h; cases h; rw [Nat.succ_add, setAttrs]
  | fuel + 1, more, n :: ns, as, h => by
    rw [setAttrs] at h
    rw [Nat.succ_add, setAttrs]
    cases hn : setNamed sets n with
    | none => rw [hn] at h; cases h
    | some s =>
      rw [hn] at h; dsimp only at h ⊢
      cases ha : setAttrs sets fuel s.uses with
      | undefined => rw [ha] at h; cases h
      | endless => rw [ha] at h; cases h
      | ok xs =>
        rw [ha] at h; dsimp only at h
        rw [setAttrs_mono fuel more _ _ ha]
        cases hb : setAttrs sets fuel ns with
        | undefined => rw [hb] at h; cases h
        | endless => rw [hb] at h; cases h
        | ok ys =>
          rw [hb] at h; cases h
          rw [setAttrs_mono fuel more _ _ hb]

theorem adds_setAttrs {sets : List (AttrSet V)} {ns : List (Ns × UStr)} {as : List (Name × V)} (h : Adds sets ns as) :
    ∃ fuel, setAttrs sets fuel ns = .ok as := by
  induction h with
  | nil => exact ⟨1, rfl⟩
  | @cons n s ns as bs h1 h2 h3 _ _ ih1 ih2 =>
    obtain ⟨f1, e1⟩ := ih1
    obtain ⟨f2, e2⟩ := ih2
    refine ⟨f1 + f2 + 1, ?_⟩
    rw [setAttrs, setNamed_unique h1 h2 h3]
    dsimp only
    rw [setAttrs_mono f1 f2 _ _ e1]
    dsimp only
    rw [Nat.add_comm f1 f2, setAttrs_mono f2 f1 _ _ e2]

theorem adds_unique {sets : List (AttrSet V)} {ns : List (Ns × UStr)} {as bs : List (Name × V)} (h : Adds sets ns as) (h' : Adds sets ns bs) :
    as = bs := by
  obtain ⟨f, e⟩ := adds_setAttrs h
  obtain ⟨g, e'⟩ := adds_setAttrs h'
  have := setAttrs_mono f g _ _ e
  have h2 := setAttrs_mono g f _ _ e'
  rw [Nat.add_comm] at h2
  rw [this] at h2; cases h2; rfl

theorem valueOf_append : ∀ (a b : List (Name × V)) (k : Ns × UStr), valueOf (a ++ b) k = (valueOf b k).or (valueOf a k)
  | [], b, k => by simp [valueOf]
  | (n, v) :: a, b, k => by
    rw [List.cons_append, valueOf, valueOf_append a b k, valueOf]
    cases valueOf b k with
    | some w => rfl
    | none => cases valueOf a k <;> rfl

theorem valueOf_none : ∀ {a : List (Name × V)} {k : Ns × UStr}, (∀ x ∈ a, (x.1.ns, x.1.loc) ≠ k) → valueOf a k = none
  | [], _, _ => rfl
  | (n, v) :: a, k, h => by
    rw [valueOf, valueOf_none (fun x hx => h x (.tail _ hx)), if_neg (h _ (.head _))]

theorem valueOf_mem : ∀ {a : List (Name × V)} {k : Ns × UStr} {v : V}, valueOf a k = some v → ∃ x ∈ a, (x.1.ns, x.1.loc) = k
  | (n, w) :: a, k, v, h => by
    rw [valueOf] at h
    cases hv : valueOf a k with
    | some w' => obtain ⟨x, hx, e⟩ := valueOf_mem hv; exact ⟨x, .tail _ hx, e⟩
    | none =>
      rw [hv] at h; dsimp only at h
      by_cases e : (n.ns, n.loc) = k
      · exact ⟨_, .head _, e⟩
      · rw [if_neg e] at h; cases h

end Verif.Xslt.Lre
