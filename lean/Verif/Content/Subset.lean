import Verif.Content.Closure
/-
The subset construction.
-/
namespace Verif.Content
open Spec
variable {A : Type} [DecidableEq A]

/-- Same members. -/
def SameSet (s t : List Nat) : Prop := ∀ x, x ∈ s ↔ x ∈ t

structure Sound (m : Nfa A) (t : Tables A) : Prop where
  keys : t.keys = t.olds.map makeKey
  len : t.trans.length = t.olds.length
  distinct : t.keys.Nodup
  good : ∀ s ∈ t.olds, s.Nodup ∧ (∀ x ∈ s, x < m.length) ∧ ∀ x ∈ s, ∀ y, Path (step m) x [] y → y ∈ s

/-- `t'` extends `t`, and differs from it only in new states and in the transitions of state `k`. -/
structure Extends (k : Nat) (t t' : Tables A) : Prop where
  olds : ∃ ex, t'.olds = t.olds ++ ex
  old : ∀ j, j ≠ k → j < t.trans.length → t'.trans[j]? = t.trans[j]?
  fresh : ∀ j, j ≠ k → t.trans.length ≤ j → j < t'.trans.length → t'.trans[j]? = some []

/-- An admissible NFA state set. -/
def GoodSet (m : Nfa A) (s : List Nat) : Prop :=
  s.Nodup ∧ (∀ x ∈ s, x < m.length) ∧ ∀ x ∈ s, ∀ y, Path (step m) x [] y → y ∈ s

theorem idxOf_getElem? {l : List (List Nat)} {k : List Nat} (h : k ∈ l) : l[l.idxOf k]? = some k := by
  have := List.idxOf_lt_length_iff.2 h
  rw [List.getElem?_eq_getElem this, List.getElem_idxOf this]

theorem mapOldToNew_spec {m : Nfa A} {t : Tables A} (h : Sound m t) {s : List Nat} (hs : GoodSet m s) (k : Nat)
    (hk : k < t.trans.length) :
    Sound m (mapOldToNew t s).1 ∧ Extends k t (mapOldToNew t s).1 ∧
      (mapOldToNew t s).1.trans[k]? = t.trans[k]? ∧
      ∃ s', (mapOldToNew t s).1.olds[(mapOldToNew t s).2]? = some s' ∧ SameSet s' s := by
  unfold mapOldToNew
  by_cases hm : makeKey s ∈ t.keys
  · rw [if_pos hm]
    refine ⟨h, ⟨⟨[], by simp⟩, fun _ _ _ => rfl, fun j _ h1 h2 => by simp at h2; omega⟩, rfl, ?_⟩
    have hi := idxOf_getElem? hm
    have hk := h.keys
    rw [hk, List.getElem?_map, ← hk] at hi
    cases ho : t.olds[t.keys.idxOf (makeKey s)]? with
    | none => rw [ho] at hi; cases hi
    | some s' =>
      rw [ho] at hi
      simp only [Option.map_some, Option.some.injEq] at hi
      exact ⟨s', rfl, makeKey_eq hi⟩
  · rw [if_neg hm]
    refine ⟨⟨?_, ?_, ?_, ?_⟩, ⟨⟨[s], rfl⟩, ?_, ?_⟩, ?_, s, ?_, fun _ => Iff.rfl⟩
    · simp [h.keys]
    · simp [h.len]
    · rw [List.nodup_append]
      refine ⟨h.distinct, by simp, ?_⟩
      intro a ha b hb e
      simp at hb
      subst e hb
      exact hm ha
    · intro s' hs'
      rcases List.mem_append.1 hs' with h' | h'
      · exact h.good s' h'
      · simp at h'; subst h'; exact hs
    · intro j _ hj
      simp only
      rw [List.getElem?_append_left hj]
    · intro j _ h1 h2
      simp only [List.length_append, List.length_cons, List.length_nil] at h2
      simp only
      rw [List.getElem?_append_right h1, show j - t.trans.length = 0 by omega]; rfl
    · simp only
      rw [List.getElem?_append_left hk]
    · have : t.keys.length = t.olds.length := by rw [h.keys]; simp
      simp only
      rw [this]; simp

omit [DecidableEq A] in
theorem Extends.trans {k : Nat} {t1 t2 t3 : Tables A} (h12 : Extends k t1 t2) (h23 : Extends k t2 t3)
    (hl : t1.trans.length ≤ t2.trans.length) : Extends k t1 t3 := by
  refine ⟨?_, ?_, ?_⟩
  · obtain ⟨a, ha⟩ := h12.olds
    obtain ⟨b, hb⟩ := h23.olds
    exact ⟨a ++ b, by rw [hb, ha, List.append_assoc]⟩
  · intro j hj h
    rw [h23.old j hj (by omega), h12.old j hj h]
  · intro j hj h1 h2
    by_cases h : j < t2.trans.length
    · rw [h23.old j hj h]; exact h12.fresh j hj h1 h
    · exact h23.fresh j hj (by omega) h2

/-- The dictionary entered for state `k` mirrors the list of event/set pairs. -/
def Mirrors (t : Tables A) (ts : List (A × List Nat)) (d : List (A × Nat)) : Prop :=
  ∀ e, (lookup e ts = none ∧ lookup e d = none) ∨
    ∃ s j s', lookup e ts = some s ∧ lookup e d = some j ∧ t.olds[j]? = some s' ∧ SameSet s' s

theorem enter_spec {m : Nfa A} {k : Nat} : ∀ (ts : List (A × List Nat)) {t : Tables A}, Sound m t →
    k < t.trans.length → (∀ x ∈ ts, GoodSet m x.2) →
    Sound m (enter k t ts) ∧ Extends k t (enter k t ts) ∧ t.trans.length ≤ (enter k t ts).trans.length ∧
      ∀ d0, t.trans[k]? = some d0 → ∃ d, (enter k t ts).trans[k]? = some (d0 ++ d) ∧ Mirrors (enter k t ts) ts d
  | [], t, h, _, _ => by
    refine ⟨h, ⟨⟨[], by simp [enter]⟩, fun _ _ _ => rfl, ?_⟩, Nat.le_refl _, ?_⟩
    · intro j _ h1 h2; simp only [enter, List.foldl_nil] at h2; omega
    · intro d0 hd
      exact ⟨[], by simpa [enter] using hd, fun e => Or.inl ⟨rfl, rfl⟩⟩
  | (e0, s0) :: ts, t, h, hk, hg => by
    obtain ⟨a1, a2, a3, s', a4, a5⟩ := mapOldToNew_spec h (hg (e0, s0) (by simp)) k hk
    obtain ⟨t1, ht1⟩ : ∃ t1, t1 = (mapOldToNew t s0).1 := ⟨_, rfl⟩
    obtain ⟨j0, hj0⟩ : ∃ j, j = (mapOldToNew t s0).2 := ⟨_, rfl⟩
    obtain ⟨t2, ht2⟩ : ∃ t2 : Tables A, t2 = { t1 with trans := t1.trans.modify k (fun d => d ++ [(e0, j0)]) } := ⟨_, rfl⟩
    rw [← ht1] at a1 a2 a3 a4
    rw [← hj0] at a4
    have he : enter k t ((e0, s0) :: ts) = enter k t2 ts := by rw [ht2, ht1, hj0]; rfl
    have l1 : t.trans.length ≤ t1.trans.length := by
      obtain ⟨ex, hex⟩ := a2.olds
      rw [a1.len, h.len, hex]; simp
    have l2 : t2.trans.length = t1.trans.length := by rw [ht2]; simp
    have s2 : Sound m t2 := by
      rw [ht2]
      exact ⟨a1.keys, by simpa using a1.len, a1.distinct, a1.good⟩
    have x2 : Extends k t1 t2 := by
      rw [ht2]
      refine ⟨⟨[], by simp⟩, ?_, ?_⟩
      · intro j hj _
        simp only
        rw [List.getElem?_modify]
        rw [show (fun a => if k = j then (fun d => d ++ [(e0, j0)]) a else a) = id by
          funext a; rw [if_neg (Ne.symm hj)]; rfl]
        simp
      · intro j _ h1 h2; simp at h2; omega
    obtain ⟨b1, b2, b3, b4⟩ := enter_spec (k := k) ts (t := t2) s2 (by omega) (fun x hx => hg x (by simp [hx]))
    rw [he]
    have l12 : t.trans.length ≤ t2.trans.length := by omega
    refine ⟨b1, (a2.trans x2 l1).trans b2 l12, Nat.le_trans l12 b3, ?_⟩
    intro d0 hd0
    have hd2 : t2.trans[k]? = some (d0 ++ [(e0, j0)]) := by
      rw [ht2]
      simp only
      rw [List.getElem?_modify, a3, hd0]
      simp
    obtain ⟨d, c1, c2⟩ := b4 _ hd2
    refine ⟨(e0, j0) :: d, by rw [c1]; simp, ?_⟩
    intro e
    by_cases hee : e0 = e
    · subst hee
      refine Or.inr ⟨s0, j0, s', by simp [lookup], by simp [lookup], ?_, a5⟩
      obtain ⟨ex, hex⟩ := b2.olds
      rw [hex]
      have : t2.olds = t1.olds := by rw [ht2]
      rw [this]
      have hlt : j0 < t1.olds.length := by
        obtain ⟨hlt, _⟩ := List.getElem?_eq_some_iff.1 a4
        exact hlt
      rw [List.getElem?_append_left hlt]
      exact a4
    · simp only [lookup, if_neg hee]
      exact c2 e

/-- State `j` of the DFA has the right transitions. -/
def RightAt (m : Nfa A) (t : Tables A) (j : Nat) : Prop :=
  ∀ s, t.olds[j]? = some s → ∀ e,
    (transit t.trans j e = none ∧ ∀ x, ¬ next m s e x) ∨
    ∃ j' s', transit t.trans j e = some j' ∧ t.olds[j']? = some s' ∧ (∀ x, x ∈ s' ↔ next m s e x) ∧ ∃ x, x ∈ s'

structure Inv (m : Nfa A) (k : Nat) (t : Tables A) : Prop where
  sound : Sound m t
  done : ∀ j, j < k → RightAt m t j
  todo : ∀ j, k ≤ j → j < t.trans.length → t.trans[j]? = some []
  init : t.olds[0]? = some (epsilonClosure m 0)

theorem collect_good {m : Nfa A} (hm : Bounded m) (hg : Good m) {S : List Nat} {e : A} {s : List Nat}
    (h : lookup e (collect m S) = some s) : GoodSet m s ∧ (∀ x, x ∈ s ↔ next m S e x) ∧ ∃ x, x ∈ s := by
  obtain ⟨a, b, c, d⟩ := (collect_spec hm hg S).1 e s h
  have hd : ∀ x, x ∈ s ↔ next m S e x := by
    intro x
    rw [d]
    unfold next
    constructor
    · rintro ⟨r, ⟨q, h1, h2⟩, h3⟩; exact ⟨q, h1, r, h2, h3⟩
    · rintro ⟨q, h1, r, h2, h3⟩; exact ⟨r, ⟨q, h1, h2⟩, h3⟩
  refine ⟨⟨a, b, ?_⟩, hd, c⟩
  intro x hx y hy
  obtain ⟨q, h1, r, h2, h3⟩ := (hd x).1 hx
  exact (hd y).2 ⟨q, h1, r, h2, h3.trans hy⟩

/-- The keys of the collected dictionary are distinct. -/
theorem addTargets_keys (m : Nfa A) (e : A) (ts : List Nat) : ∀ acc : List (A × List Nat),
    ((addTargets m e ts acc).map Prod.fst) = if e ∈ acc.map Prod.fst then acc.map Prod.fst else acc.map Prod.fst ++ [e]
  | [] => by simp [addTargets]
  | (k, s) :: acc => by
    unfold addTargets
    by_cases h : k = e
    · subst h; simp
    · rw [if_neg h, List.map_cons, addTargets_keys m e ts acc]
      by_cases h2 : e ∈ acc.map Prod.fst
      · have : e ∈ (List.map Prod.fst ((k, s) :: acc)) := by simp only [List.map_cons, List.mem_cons]; exact Or.inr h2
        rw [if_pos h2, if_pos this]; rfl
      · have : e ∉ (List.map Prod.fst ((k, s) :: acc)) := by
          simp only [List.map_cons, List.mem_cons]; rintro (h' | h')
          · exact h h'.symm
          · exact h2 h'
        rw [if_neg h2, if_neg this]; rfl

theorem nodup_addTargets {m : Nfa A} {e : A} {ts : List Nat} {acc : List (A × List Nat)} (h : (acc.map Prod.fst).Nodup) :
    ((addTargets m e ts acc).map Prod.fst).Nodup := by
  rw [addTargets_keys]
  split
  · exact h
  · rename_i hn
    rw [List.nodup_append]
    refine ⟨h, by simp, ?_⟩
    intro a ha b hb e'
    simp at hb
    subst e' hb
    exact hn ha

theorem nodup_collectState {m : Nfa A} : ∀ (d : NState A) {acc : List (A × List Nat)}, (acc.map Prod.fst).Nodup →
    ((collectState m acc d).map Prod.fst).Nodup
  | [], _, h => h
  | (none, _) :: d, _, h => nodup_collectState d h
  | (some _, _) :: d, _, h => nodup_collectState d (nodup_addTargets h)

theorem nodup_collect_fold {m : Nfa A} : ∀ (S : List Nat) {acc : List (A × List Nat)}, (acc.map Prod.fst).Nodup →
    ((S.foldl (fun acc q => collectState m acc (m[q]?.getD [])) acc).map Prod.fst).Nodup
  | [], _, h => h
  | _ :: S, _, h => nodup_collect_fold S (nodup_collectState _ h)

theorem nodup_collect (m : Nfa A) (S : List Nat) : ((collect m S).map Prod.fst).Nodup :=
  nodup_collect_fold S (by simp)

theorem inv_step {m : Nfa A} (hm : Bounded m) (hg : Good m) {k : Nat} {t : Tables A} (h : Inv m k t) {S : List Nat}
    (hS : t.olds[k]? = some S) : Inv m (k + 1) (enter k t (collect m S)) := by
  have hk : k < t.olds.length := (List.getElem?_eq_some_iff.1 hS).1
  have hlen := h.sound.len
  obtain ⟨a1, a2, a3, a4⟩ := enter_spec (m := m) (k := k) (collect m S) h.sound (by omega) (by
    rintro ⟨e, s⟩ hx
    exact (collect_good hm hg (lookup_of_mem (nodup_collect m S) hx)).1)
  obtain ⟨ex, hex⟩ := a2.olds
  obtain ⟨d, b1, b2⟩ := a4 [] (h.todo k (Nat.le_refl _) (by omega))
  rw [List.nil_append] at b1
  refine ⟨a1, ?_, ?_, ?_⟩
  · intro j hj s hs e
    by_cases hjk : j = k
    · subst hjk
      have hss : s = S := by
        rw [hex, List.getElem?_append_left hk, hS] at hs
        exact (Option.some.inj hs).symm
      subst hss
      have htr : transit (enter j t (collect m s)).trans j e = lookup e d := by
        unfold transit; rw [b1]
      rw [htr]
      rcases b2 e with ⟨c1, c2⟩ | ⟨s1, j', s', c1, c2, c3, c4⟩
      · refine Or.inl ⟨c2, ?_⟩
        rintro x ⟨q, h1, r, h2, -⟩
        exact (collect_spec hm hg s).2 e c1 r ⟨q, h1, h2⟩
      · obtain ⟨-, g1, x, g2⟩ := collect_good hm hg c1
        exact Or.inr ⟨j', s', c2, c3, fun x => (c4 x).trans (g1 x), x, (c4 x).2 g2⟩
    · have hjk' : j < k := by omega
      rw [hex, List.getElem?_append_left (by omega)] at hs
      have htr : transit (enter k t (collect m S)).trans j e = transit t.trans j e := by
        unfold transit; rw [a2.old j hjk (by omega)]
      rw [htr]
      rcases h.done j hjk' s hs e with c | ⟨j', s', c1, c2, c3⟩
      · exact Or.inl c
      · refine Or.inr ⟨j', s', c1, ?_, c3⟩
        have := (List.getElem?_eq_some_iff.1 c2).1
        rw [hex, List.getElem?_append_left this, c2]
  · intro j hj hl
    by_cases hjl : j < t.trans.length
    · rw [a2.old j (by omega) hjl]; exact h.todo j (by omega) hjl
    · exact a2.fresh j (by omega) (by omega) hl
  · rw [hex, List.getElem?_append_left (by omega), h.init]

theorem inv_bound {m : Nfa A} {k : Nat} {t : Tables A} (h : Inv m k t) : t.olds.length ≤ 2 ^ m.length := by
  have := keys_bound (n := m.length) h.sound.distinct (by
    intro k hk
    rw [h.sound.keys, List.mem_map] at hk
    obtain ⟨s, hs, rfl⟩ := hk
    exact ⟨s, rfl, (h.sound.good s hs).1, (h.sound.good s hs).2.1⟩)
  rw [h.sound.keys, List.length_map] at this
  exact this

theorem compileLoop_spec {m : Nfa A} (hm : Bounded m) (hg : Good m) : ∀ (fuel k : Nat) (t : Tables A),
    Inv m k t → 2 ^ m.length ≤ fuel + k → ∃ t' k', compileLoop m fuel k t = some t' ∧ Inv m k' t' ∧ t'.olds.length ≤ k' := by
  intro fuel
  induction fuel with
  | zero =>
    intro k t h hf
    rw [compileLoop.eq_def]; dsimp only
    have := inv_bound h
    rw [List.getElem?_eq_none (by omega)]
    exact ⟨t, k, rfl, h, by omega⟩
  | succ fuel ih =>
    intro k t h hf
    rw [compileLoop.eq_def]; dsimp only
    cases hS : t.olds[k]? with
    | none => exact ⟨t, k, rfl, h, List.getElem?_eq_none_iff.1 hS⟩
    | some S => exact ih (k + 1) _ (inv_step hm hg h hS) (by omega)

/-- Reading a word. -/
theorem run_spec {m : Nfa A} {t : Tables A} {k : Nat} (h : Inv m k t) (hk : t.olds.length ≤ k) :
    ∀ (w : List A) (j : Nat) (s : List Nat), t.olds[j]? = some s →
      (runDfa t.trans j w = none ∧ ∀ x, ¬ ∃ q ∈ s, Path (step m) q w x) ∨
      ∃ j' s', runDfa t.trans j w = some j' ∧ t.olds[j']? = some s' ∧ (∀ x, x ∈ s' ↔ ∃ q ∈ s, Path (step m) q w x) ∧
        ((∃ x, x ∈ s) → ∃ x, x ∈ s')
  | [], j, s, hs => by
    refine Or.inr ⟨j, s, rfl, hs, fun x => ⟨fun hx => ⟨x, hx, .nil _⟩, ?_⟩, id⟩
    rintro ⟨q, hq, hp⟩
    exact (h.sound.good s (List.mem_of_getElem? hs)).2.2 q hq x hp
  | e :: w, j, s, hs => by
    have hsplit : ∀ {p x : Nat} {u : List A}, Path (step m) p u x → u = e :: w →
        ∃ q, Path (step m) p [] q ∧ ∃ r, step m q (some e) r ∧ Path (step m) r w x := by
      intro p x u hp
      induction hp with
      | nil => intro h; cases h
      | eps h1 _ ih =>
        intro hu
        obtain ⟨q, a, b⟩ := ih hu
        exact ⟨q, .eps h1 a, b⟩
      | ev h1 h2 _ =>
        intro hu
        cases hu
        exact ⟨_, .nil _, _, h1, h2⟩
    have hcl := (h.sound.good s (List.mem_of_getElem? hs)).2.2
    have hj : j < t.olds.length := (List.getElem?_eq_some_iff.1 hs).1
    rcases h.done j (by omega) s hs e with ⟨c1, c2⟩ | ⟨j', s', c1, c2, c3, x0, c4⟩
    · refine Or.inl ⟨by rw [runDfa, c1], ?_⟩
      rintro x ⟨q, hq, hp⟩
      obtain ⟨q', h1, r, h2, h3⟩ := hsplit hp rfl
      exact c2 r ⟨q', hcl q hq q' h1, r, h2, .nil _⟩
    · have hrun : runDfa t.trans j (e :: w) = runDfa t.trans j' w := by rw [runDfa, c1]
      rw [hrun]
      have hiff : ∀ x, (∃ q ∈ s', Path (step m) q w x) ↔ ∃ q ∈ s, Path (step m) q (e :: w) x := by
        intro x
        constructor
        · rintro ⟨q, hq, hp⟩
          obtain ⟨q', h1, r, h2, h3⟩ := (c3 q).1 hq
          exact ⟨q', h1, .ev h2 (h3.trans hp)⟩
        · rintro ⟨q, hq, hp⟩
          obtain ⟨q', h1, r, h2, h3⟩ := hsplit hp rfl
          exact ⟨r, (c3 r).2 ⟨q', hcl q hq q' h1, r, h2, .nil _⟩, h3⟩
      rcases run_spec h hk w j' s' c2 with ⟨d1, d2⟩ | ⟨j2, s2, d1, d2, d3, d4⟩
      · exact Or.inl ⟨d1, fun x hx => d2 x ((hiff x).2 hx)⟩
      · exact Or.inr ⟨j2, s2, d1, d2, fun x => (d3 x).trans (hiff x), fun _ => d4 ⟨x0, c4⟩⟩

/-- The automaton built from an NFA `m` accepts (by not getting stuck) exactly the words that `m` can read. -/
theorem subset_spec {m : Nfa A} (hm : Bounded m) (hg : Good m) (h0 : 0 < m.length) :
    ∃ t, compileLoop m (2 ^ m.length) 0 (mapOldToNew (⟨[], [], []⟩ : Tables A) (epsilonClosure m 0)).1 = some t ∧
      ∀ w, (runDfa t.trans 0 w).isSome ↔ ∃ x, Path (step m) 0 w x := by
  obtain ⟨e1, e2, e3⟩ := epsilonClosure_spec hm h0
  have hinv : Inv m 0 (mapOldToNew (⟨[], [], []⟩ : Tables A) (epsilonClosure m 0)).1 := by
    have heq : (mapOldToNew (⟨[], [], []⟩ : Tables A) (epsilonClosure m 0)).1 =
        ⟨[makeKey (epsilonClosure m 0)], [epsilonClosure m 0], [[]]⟩ := by simp [mapOldToNew]
    rw [heq]
    refine ⟨⟨rfl, rfl, by simp, ?_⟩, by intro j hj; omega, ?_, rfl⟩
    · intro s hs
      simp at hs; subst hs
      refine ⟨e1, e2, ?_⟩
      intro x hx y hy
      exact (e3 y).2 (((e3 x).1 hx).trans hy)
    · intro j _ hj
      simp at hj; subst hj; rfl
  obtain ⟨t, k, h1, h2, h3⟩ := compileLoop_spec hm hg (2 ^ m.length) 0 _ hinv (by omega)
  refine ⟨t, h1, fun w => ?_⟩
  have hiff : ∀ x, (∃ q ∈ epsilonClosure m 0, Path (step m) q w x) ↔ Path (step m) 0 w x := by
    intro x
    constructor
    · rintro ⟨q, hq, hp⟩; exact ((e3 q).1 hq).trans hp
    · intro hp; exact ⟨0, (e3 0).2 (.nil _), hp⟩
  rcases run_spec h2 h3 w 0 _ h2.init with ⟨d1, d2⟩ | ⟨j, s, d1, d2, d3, d4⟩
  · rw [d1]
    simp only [Option.isSome_none, Bool.false_eq_true, false_iff]
    rintro ⟨x, hx⟩
    exact d2 x ((hiff x).2 hx)
  · rw [d1]
    simp only [Option.isSome_some, true_iff]
    obtain ⟨x, hx⟩ := d4 ⟨0, (e3 0).2 (.nil _)⟩
    exact ⟨x, (hiff x).1 ((d3 x).1 hx)⟩

/-! ### the NFAs that are built are proper -/

theorem addToState_keys (l : Label A) (q : Nat) : ∀ d : NState A,
    (addToState l q d).map Prod.fst = if l ∈ d.map Prod.fst then d.map Prod.fst else d.map Prod.fst ++ [l]
  | [] => by simp [addToState]
  | (k, s) :: d => by
    unfold addToState
    by_cases h : k = l
    · subst h; simp
    · rw [if_neg h, List.map_cons, addToState_keys l q d]
      by_cases h2 : l ∈ d.map Prod.fst
      · have : l ∈ (List.map Prod.fst ((k, s) :: d)) := by simp only [List.map_cons, List.mem_cons]; exact Or.inr h2
        rw [if_pos h2, if_pos this]; rfl
      · have : l ∉ (List.map Prod.fst ((k, s) :: d)) := by
          simp only [List.map_cons, List.mem_cons]; rintro (h' | h')
          · exact h h'.symm
          · exact h2 h'
        rw [if_neg h2, if_neg this]; rfl

theorem goodState_add {l : Label A} {q : Nat} {d : NState A} (h : GoodState d) : GoodState (addToState l q d) := by
  constructor
  · rw [addToState_keys]
    split
    · exact h.1
    · rename_i hn
      rw [List.nodup_append]
      refine ⟨h.1, by simp, ?_⟩
      intro a ha b hb e'
      simp at hb
      subst e' hb
      exact hn ha
  · have := h.2
    clear h
    induction d with
    | nil => intro x hx; simp [addToState] at hx; subst hx; simp
    | cons y d ih =>
      obtain ⟨k, ts⟩ := y
      intro x hx
      unfold addToState at hx
      split at hx
      · rcases List.mem_cons.1 hx with rfl | hx
        · simp
        · exact this x (by simp [hx])
      · rcases List.mem_cons.1 hx with rfl | hx
        · exact this _ (by simp)
        · exact ih (fun x hx => this x (by simp [hx])) x hx

theorem good_add {m : Nfa A} {l : Label A} {p q : Nat} (h : Good m) : Good (addTransition m l p q) := by
  intro d hd
  unfold addTransition at hd
  obtain ⟨i, hi⟩ := List.mem_iff_getElem?.1 hd
  rw [List.getElem?_modify] at hi
  cases hm : m[i]? with
  | none => rw [hm] at hi; cases hi
  | some d' =>
    rw [hm] at hi
    have hd' := h d' (List.mem_of_getElem? hm)
    simp only [Option.map_eq_map, Option.map_some, Option.some.injEq] at hi
    subst hi
    split
    · exact goodState_add hd'
    · exact hd'

omit [DecidableEq A] in
theorem good_append {m : Nfa A} {n : Nat} (h : Good m) : Good (m ++ List.replicate n []) := by
  intro d hd
  rcases List.mem_append.1 hd with hd | hd
  · exact h d hd
  · rw [List.mem_replicate] at hd
    rw [hd.2]
    exact ⟨by simp, by simp⟩

theorem good_quant {body : Nat → Nat → Nfa A → Nfa A} (hb : ∀ i f m, Good m → Good (body i f m)) (q : Quant) (i f : Nat)
    {m : Nfa A} (h : Good m) : Good (withQuant q body i f m) := by
  have hp : ∀ m : Nfa A, Good m → Good (addTransition (addTransition (body m.length (m.length + 1)
      (addTransition (m ++ [[], []]) none i m.length)) none (m.length + 1) m.length) none (m.length + 1) f) := by
    intro m h
    exact good_add (good_add (hb _ _ _ (good_add (good_append (n := 2) h))))
  cases q with
  | none => exact hb _ _ _ h
  | opt => exact hb _ _ _ (good_add h)
  | rep => exact hp _ (good_add h)
  | plus => exact hp _ h

mutual
theorem good_content : ∀ (c : Content A) (i f : Nat) (m : Nfa A), Good m → Good (compileContent c i f m)
  | .name e q, i, f, m, h => by rw [compileContent]; exact good_quant (fun _ _ _ h => good_add h) q i f h
  | .seq l q, i, f, m, h => by rw [compileContent]; exact good_quant (good_seq l) q i f h
  | .alt l q, i, f, m, h => by rw [compileContent]; exact good_quant (good_alt l) q i f h
theorem good_seq : ∀ (l : List (Content A)) (i f : Nat) (m : Nfa A), Good m → Good (compileSeq l i f m)
  | [], _, _, m, h => by rw [compileSeq]; exact h
  | [c], i, f, m, h => by rw [compileSeq]; exact good_content c _ _ _ h
  | c :: d :: cs, i, f, m, h => by
    rw [compileSeq]; exact good_seq (d :: cs) _ _ _ (good_content c _ _ _ (good_append (n := 1) h))
theorem good_alt : ∀ (l : List (Content A)) (i f : Nat) (m : Nfa A), Good m → Good (compileAlt l i f m)
  | [], _, _, m, h => by rw [compileAlt]; exact h
  | c :: cs, i, f, m, h => by rw [compileAlt]; exact good_alt cs _ _ _ (good_content c _ _ _ h)
end

end Verif.Content
