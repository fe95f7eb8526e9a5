import Verif.Content.Nfa
/-
ε-closures, and the transitions of a set of states.
-/
namespace Verif.Content
variable {A : Type} [DecidableEq A]

/-- Every edge ends in an existing state. -/
def Bounded (m : Nfa A) : Prop := ∀ p l q, step m p l q → q < m.length

theorem length_le_of_subset {α : Type} [DecidableEq α] : ∀ {l k : List α}, l.Nodup → (∀ x ∈ l, x ∈ k) → l.length ≤ k.length
  | [], _, _, _ => Nat.zero_le _
  | a :: l, k, hn, hs => by
    rw [List.nodup_cons] at hn
    have ha : a ∈ k := hs a (by simp)
    have := length_le_of_subset (l := l) (k := k.erase a) hn.2 (by
      intro x hx
      have hxa : x ≠ a := fun e => hn.1 (e ▸ hx)
      exact (List.mem_erase_of_ne hxa).2 (hs x (by simp [hx])))
    rw [List.length_erase_of_mem ha] at this
    have : 0 < k.length := List.length_pos_of_mem ha
    simp only [List.length_cons]
    omega

theorem length_le_of_bounded {l : List Nat} {n : Nat} (hn : l.Nodup) (hb : ∀ x ∈ l, x < n) : l.length ≤ n := by
  have := length_le_of_subset (k := List.range n) hn (by intro x hx; simpa using hb x hx)
  simpa using this

/-- What one closure computation guarantees. -/
structure Closes (m : Nfa A) (set : List Nat) (from_ : List Nat) (res : List Nat) : Prop where
  sub : ∀ x ∈ set, x ∈ res
  has : ∀ x ∈ from_, x ∈ res
  nodup : res.Nodup
  bound : ∀ x ∈ res, x < m.length
  closed : ∀ x ∈ res, x ∈ set ∨ ∀ y, step m x none y → y ∈ res
  sound : ∀ x ∈ res, x ∈ set ∨ ∃ t ∈ from_, Path (step m) t [] x

theorem closes_nil {m : Nfa A} {set : List Nat} (hn : set.Nodup) (hb : ∀ x ∈ set, x < m.length) :
    Closes m set [] set :=
  ⟨fun _ h => h, by simp, hn, hb, fun _ h => Or.inl h, fun _ h => Or.inl h⟩

theorem closes_cons {m : Nfa A} {set r1 r2 : List Nat} {t : Nat} {ts : List Nat} (h1 : Closes m set [t] r1)
    (h2 : Closes m r1 ts r2) : Closes m set (t :: ts) r2 := by
  refine ⟨fun x h => h2.sub x (h1.sub x h), ?_, h2.nodup, h2.bound, ?_, ?_⟩
  · intro x hx
    rcases List.mem_cons.1 hx with rfl | hx
    · exact h2.sub _ (h1.has _ (by simp))
    · exact h2.has _ hx
  · intro x hx
    rcases h2.closed x hx with h | h
    · rcases h1.closed x h with h | h
      · exact Or.inl h
      · exact Or.inr fun y hy => h2.sub _ (h y hy)
    · exact Or.inr h
  · intro x hx
    rcases h2.sound x hx with h | ⟨t', ht, hp⟩
    · rcases h1.sound x h with h | ⟨t', ht, hp⟩
      · exact Or.inl h
      · exact Or.inr ⟨t', by simp at ht; simp [ht], hp⟩
    · exact Or.inr ⟨t', by simp [ht], hp⟩

theorem addClosure_fold {m : Nfa A} {fuel : Nat}
    (ih : ∀ (set : List Nat) (q : Nat), set.Nodup → (∀ x ∈ set, x < m.length) → q < m.length →
      m.length ≤ fuel + set.length → Closes m set [q] (addClosure m fuel set q)) :
    ∀ (ts set : List Nat), set.Nodup → (∀ x ∈ set, x < m.length) → (∀ t ∈ ts, t < m.length) →
      m.length ≤ fuel + set.length → Closes m set ts (ts.foldl (addClosure m fuel) set)
  | [], _, hn, hb, _, _ => closes_nil hn hb
  | t :: ts, set, hn, hb, ht, hf => by
    have h1 := ih set t hn hb (ht t (by simp)) hf
    have hle : set.length ≤ (addClosure m fuel set t).length := length_le_of_subset hn h1.sub
    exact closes_cons h1 (addClosure_fold ih ts _ h1.nodup h1.bound (fun x hx => ht x (by simp [hx])) (by omega))

theorem addClosure_closes {m : Nfa A} (hm : Bounded m) : ∀ (fuel : Nat) (set : List Nat) (q : Nat), set.Nodup →
    (∀ x ∈ set, x < m.length) → q < m.length → m.length ≤ fuel + set.length →
    Closes m set [q] (addClosure m fuel set q) := by
  intro fuel
  induction fuel with
  | zero =>
    intro set q hn hb hq hf
    rw [addClosure.eq_def]; dsimp only
    by_cases h : q ∈ set
    · rw [if_pos h]
      exact ⟨fun _ h => h, by simpa using h, hn, hb, fun _ h => Or.inl h, fun _ h => Or.inl h⟩
    · exfalso
      have := length_le_of_bounded (n := m.length) (l := q :: set) (List.nodup_cons.2 ⟨h, hn⟩) (by
        intro x hx
        rcases List.mem_cons.1 hx with rfl | hx
        · exact hq
        · exact hb x hx)
      simp only [List.length_cons] at this
      omega
  | succ fuel ih =>
    intro set q hn hb hq hf
    rw [addClosure.eq_def]; dsimp only
    by_cases h : q ∈ set
    · rw [if_pos h]
      exact ⟨fun _ h => h, by simpa using h, hn, hb, fun _ h => Or.inl h, fun _ h => Or.inl h⟩
    · rw [if_neg h]
      have hn' : (set ++ [q]).Nodup := by
        rw [List.nodup_append]
        refine ⟨hn, by simp, ?_⟩
        intro a ha b hb' e
        simp at hb'
        subst e hb'
        exact h ha
      have hb' : ∀ x ∈ set ++ [q], x < m.length := by
        intro x hx
        rcases List.mem_append.1 hx with hx | hx
        · exact hb x hx
        · simp at hx; omega
      have hc := addClosure_fold ih (targets m q none) (set ++ [q]) hn' hb' (fun t ht => hm q none t ht) (by
        simp; omega)
      refine ⟨fun x hx => hc.sub x (by simp [hx]), ?_, hc.nodup, hc.bound, ?_, ?_⟩
      · intro x hx; simp at hx; subst hx; exact hc.sub _ (by simp)
      · intro x hx
        rcases hc.closed x hx with h | h
        · rcases List.mem_append.1 h with h | h
          · exact Or.inl h
          · simp at h; subst h
            exact Or.inr fun y hy => hc.has y hy
        · exact Or.inr h
      · intro x hx
        rcases hc.sound x hx with h | ⟨t, ht, hp⟩
        · rcases List.mem_append.1 h with h | h
          · exact Or.inl h
          · simp at h; subst h
            exact Or.inr ⟨x, by simp, .nil _⟩
        · exact Or.inr ⟨q, by simp, .eps ht hp⟩

theorem closed_path {m : Nfa A} {S : Nat → Prop} (h : ∀ x, S x → ∀ y, step m x none y → S y) {p q : Nat} {w : List A}
    (hp : Path (step m) p w q) (hw : w = []) (hs : S p) : S q := by
  induction hp with
  | nil => exact hs
  | eps h1 _ ih => exact ih hw (h _ hs _ h1)
  | ev _ _ _ => cases hw

/-- The ε-closure is what it should be. -/
theorem epsilonClosure_spec {m : Nfa A} (hm : Bounded m) {q : Nat} (hq : q < m.length) :
    (epsilonClosure m q).Nodup ∧ (∀ x ∈ epsilonClosure m q, x < m.length) ∧
      ∀ x, x ∈ epsilonClosure m q ↔ Path (step m) q [] x := by
  have h := addClosure_closes hm m.length [] q (by simp) (by simp) hq (by simp)
  refine ⟨h.nodup, h.bound, fun x => ⟨fun hx => ?_, fun hp => ?_⟩⟩
  · rcases h.sound x hx with h | ⟨t, ht, hp⟩
    · cases h
    · simp at ht; subst ht; exact hp
  · exact closed_path (S := fun x => x ∈ epsilonClosure m q) (fun x hx y hy => by
      rcases h.closed x hx with h | h
      · cases h
      · exact h y hy) hp rfl (h.has q (by simp))

theorem mem_merge {s t : List Nat} {x : Nat} : x ∈ merge s t ↔ x ∈ s ∨ x ∈ t := by
  simp only [merge, List.mem_append, List.mem_filter, decide_eq_true_eq]
  by_cases h : x ∈ s <;> simp [h]

theorem nodup_merge {s t : List Nat} (hs : s.Nodup) (ht : t.Nodup) : (merge s t).Nodup := by
  rw [merge, List.nodup_append]
  refine ⟨hs, ht.filter _, ?_⟩
  rintro a ha b hb rfl
  simp at hb
  exact hb.2 ha

theorem setClosure_spec {m : Nfa A} (hm : Bounded m) : ∀ {ts set : List Nat}, (∀ t ∈ ts, t < m.length) → set.Nodup →
    (∀ x ∈ set, x < m.length) →
    (setClosure m set ts).Nodup ∧ (∀ x ∈ setClosure m set ts, x < m.length) ∧
      ∀ x, x ∈ setClosure m set ts ↔ x ∈ set ∨ ∃ t ∈ ts, Path (step m) t [] x
  | [], set, _, hn, hb => ⟨hn, hb, by simp [setClosure]⟩
  | t :: ts, set, ht, hn, hb => by
    obtain ⟨e1, e2, e3⟩ := epsilonClosure_spec hm (ht t (by simp))
    have hb' : ∀ x ∈ merge set (epsilonClosure m t), x < m.length := by
      intro x hx
      rcases mem_merge.1 hx with h | h
      · exact hb x h
      · exact e2 x h
    obtain ⟨a, b, c⟩ := setClosure_spec hm (ts := ts) (set := merge set (epsilonClosure m t))
      (fun x hx => ht x (by simp [hx])) (nodup_merge hn e1) hb'
    refine ⟨a, b, fun x => ?_⟩
    show x ∈ setClosure m (merge set (epsilonClosure m t)) ts ↔ _
    rw [c, mem_merge, e3]
    simp only [List.mem_cons, exists_eq_or_imp, or_assoc]

/-! ### keys -/

theorem insertSorted_perm (x : Nat) : ∀ l : List Nat, (insertSorted x l).Perm (x :: l)
  | [] => .refl _
  | y :: r => by
    unfold insertSorted
    split
    · exact .refl _
    · exact ((insertSorted_perm x r).cons y).trans (.swap x y r)

theorem makeKey_perm : ∀ l : List Nat, (makeKey l).Perm l
  | [] => .refl _
  | x :: r => (insertSorted_perm x (makeKey r)).trans ((makeKey_perm r).cons x)

theorem insertSorted_sorted (x : Nat) : ∀ {l : List Nat}, l.Pairwise (· ≤ ·) → (insertSorted x l).Pairwise (· ≤ ·)
  | [], _ => by simp [insertSorted]
  | y :: r, h => by
    rw [List.pairwise_cons] at h
    unfold insertSorted
    split
    · refine List.pairwise_cons.2 ⟨?_, List.pairwise_cons.2 h⟩
      intro z hz
      rcases List.mem_cons.1 hz with rfl | hz
      · assumption
      · have := h.1 z hz; omega
    · refine List.pairwise_cons.2 ⟨?_, insertSorted_sorted x h.2⟩
      intro z hz
      rcases List.mem_cons.1 ((insertSorted_perm x r).mem_iff.1 hz) with rfl | hz
      · omega
      · exact h.1 z hz

theorem makeKey_sorted : ∀ l : List Nat, (makeKey l).Pairwise (· ≤ ·)
  | [] => .nil
  | x :: r => insertSorted_sorted x (makeKey_sorted r)

theorem mem_makeKey {s : List Nat} {x : Nat} : x ∈ makeKey s ↔ x ∈ s := (makeKey_perm s).mem_iff

theorem makeKey_eq {s t : List Nat} (h : makeKey s = makeKey t) (x : Nat) : x ∈ s ↔ x ∈ t := by
  rw [← mem_makeKey, h, mem_makeKey]

/-- All subsequences. -/
def subs : List Nat → List (List Nat)
  | [] => [[]]
  | x :: xs => (subs xs).map (x :: ·) ++ subs xs

theorem length_subs : ∀ l : List Nat, (subs l).length = 2 ^ l.length
  | [] => rfl
  | x :: xs => by
    rw [subs, List.length_append, List.length_map, length_subs xs, List.length_cons, Nat.pow_succ]; omega

theorem mem_subs_nil : ∀ l : List Nat, [] ∈ subs l
  | [] => by simp [subs]
  | x :: xs => by simp [subs, mem_subs_nil xs]

theorem mem_subs : ∀ {n a : Nat} {l : List Nat}, l.Pairwise (· < ·) → (∀ x ∈ l, a ≤ x ∧ x < a + n) →
    l ∈ subs (List.range' a n)
  | 0, a, l, _, hb => by
    cases l with
    | nil => simp [subs]
    | cons x l => have := hb x (by simp); omega
  | n + 1, a, l, hp, hb => by
    rw [List.range'_succ, subs, List.mem_append]
    cases l with
    | nil => exact Or.inr (mem_subs_nil _)
    | cons x l =>
      rw [List.pairwise_cons] at hp
      by_cases hx : x = a
      · subst hx
        refine Or.inl (List.mem_map.2 ⟨l, mem_subs hp.2 ?_, rfl⟩)
        intro y hy
        have := hp.1 y hy
        have := hb y (by simp [hy])
        omega
      · refine Or.inr (mem_subs (List.pairwise_cons.2 hp) ?_)
        intro y hy
        have h1 := hb x (by simp)
        have h2 := hb y hy
        rcases List.mem_cons.1 hy with rfl | hy
        · omega
        · have := hp.1 y hy; omega

theorem makeKey_mem_subs {s : List Nat} {n : Nat} (hn : s.Nodup) (hb : ∀ x ∈ s, x < n) :
    makeKey s ∈ subs (List.range' 0 n) := by
  have hp : (makeKey s).Nodup := (makeKey_perm s).nodup_iff.2 hn
  refine mem_subs ?_ ?_
  · have := (makeKey_sorted s).and hp
    refine this.imp ?_
    intro a b ⟨h1, h2⟩
    omega
  · intro x hx
    have := hb x (mem_makeKey.1 hx)
    omega

theorem keys_bound {keys : List (List Nat)} {n : Nat} (hk : keys.Nodup)
    (h : ∀ k ∈ keys, ∃ s : List Nat, k = makeKey s ∧ s.Nodup ∧ ∀ x ∈ s, x < n) : keys.length ≤ 2 ^ n := by
  have := length_le_of_subset (k := subs (List.range' 0 n)) hk (by
    intro k hk
    obtain ⟨s, rfl, h1, h2⟩ := h k hk
    exact makeKey_mem_subs h1 h2)
  rw [length_subs, List.length_range'] at this
  exact this

/-! ### transitions of a set -/

/-- The dictionaries of an NFA are proper: distinct keys, and no empty target list. -/
def GoodState (d : NState A) : Prop := (d.map Prod.fst).Nodup ∧ ∀ x ∈ d, x.2 ≠ []

def Good (m : Nfa A) : Prop := ∀ d ∈ m, GoodState d

theorem lookup_of_mem {K V : Type} [DecidableEq K] : ∀ {d : List (K × V)}, (d.map Prod.fst).Nodup → ∀ {k v}, (k, v) ∈ d →
    lookup k d = some v
  | [], _, _, _, h => by cases h
  | (k', v') :: d, hn, k, v, h => by
    simp only [List.map_cons, List.nodup_cons] at hn
    rcases List.mem_cons.1 h with h | h
    · cases h; simp [lookup]
    · have : k' ≠ k := by
        rintro rfl
        exact hn.1 (List.mem_map.2 ⟨_, h, rfl⟩)
      rw [lookup, if_neg this]
      exact lookup_of_mem hn.2 h

theorem mem_of_lookup {K V : Type} [DecidableEq K] : ∀ {d : List (K × V)} {k v}, lookup k d = some v → (k, v) ∈ d
  | [], _, _, h => by cases h
  | (k', v') :: d, k, v, h => by
    rw [lookup] at h
    split at h
    · rename_i e; cases h; subst e; simp
    · exact List.mem_cons_of_mem _ (mem_of_lookup h)

/-- What an entry of the collected dictionary says, for a set of "sources" given by `src e r`: the
entry for `e` holds the closures of all `r` with `src e r`; there is no entry if there is no such `r`. -/
def Collected (m : Nfa A) (src : A → Nat → Prop) (acc : List (A × List Nat)) : Prop :=
  (∀ e s, lookup e acc = some s → s.Nodup ∧ (∀ x ∈ s, x < m.length) ∧ (∃ x, x ∈ s) ∧
      ∀ x, x ∈ s ↔ ∃ r, src e r ∧ Path (step m) r [] x) ∧
    (∀ e, lookup e acc = none → ∀ r, ¬ src e r)

theorem lookup_addTargets (m : Nfa A) (e k : A) (ts : List Nat) : ∀ acc : List (A × List Nat),
    lookup k (addTargets m e ts acc) = if k = e then some (setClosure m ((lookup k acc).getD []) ts) else lookup k acc
  | [] => by
    by_cases h : k = e
    · subst h; simp [addTargets, lookup]
    · simp [addTargets, lookup, h, Ne.symm h]
  | (k', s) :: acc => by
    unfold addTargets
    by_cases h1 : k' = e
    · subst h1
      rw [if_pos rfl]
      by_cases h2 : k = k'
      · subst h2; simp [lookup]
      · simp [lookup, h2, Ne.symm h2]
    · rw [if_neg h1]
      by_cases h2 : k' = k
      · subst h2; simp [lookup, h1]
      · simp only [lookup, if_neg h2]; exact lookup_addTargets m e k ts acc

theorem collected_add {m : Nfa A} (hm : Bounded m) {src : A → Nat → Prop} {acc : List (A × List Nat)}
    (h : Collected m src acc) {e : A} {ts : List Nat} (hts : ts ≠ []) (hb : ∀ t ∈ ts, t < m.length) :
    Collected m (fun k r => src k r ∨ (k = e ∧ r ∈ ts)) (addTargets m e ts acc) := by
  constructor
  · intro k s hs
    rw [lookup_addTargets] at hs
    by_cases hk : k = e
    · subst hk
      rw [if_pos rfl] at hs
      cases hs
      have hpre : ((lookup k acc).getD []).Nodup ∧ (∀ x ∈ (lookup k acc).getD [], x < m.length) ∧
          ∀ x, x ∈ (lookup k acc).getD [] ↔ ∃ r, src k r ∧ Path (step m) r [] x := by
        cases hl : lookup k acc with
        | none =>
          refine ⟨by simp, by simp, fun x => ?_⟩
          simp only [Option.getD_none, List.not_mem_nil, false_iff]
          rintro ⟨r, hr, -⟩
          exact h.2 k hl r hr
        | some s =>
          obtain ⟨a, b, _, c⟩ := h.1 k s hl
          exact ⟨a, b, c⟩
      obtain ⟨a, b, c⟩ := setClosure_spec hm hb hpre.1 hpre.2.1
      refine ⟨a, b, ?_, fun x => ?_⟩
      · cases ts with
        | nil => exact absurd rfl hts
        | cons t ts => exact ⟨t, (c t).2 (Or.inr ⟨t, by simp, .nil _⟩)⟩
      · rw [c, hpre.2.2]
        constructor
        · rintro (⟨r, h1, h2⟩ | ⟨t, h1, h2⟩)
          · exact ⟨r, Or.inl h1, h2⟩
          · exact ⟨t, Or.inr ⟨rfl, h1⟩, h2⟩
        · rintro ⟨r, h1 | ⟨-, h1⟩, h2⟩
          · exact Or.inl ⟨r, h1, h2⟩
          · exact Or.inr ⟨r, h1, h2⟩
    · rw [if_neg hk] at hs
      obtain ⟨a, b, d, c⟩ := h.1 k s hs
      refine ⟨a, b, d, fun x => ?_⟩
      rw [c]
      simp only [hk, false_and, or_false]
  · intro k hk r hr
    rw [lookup_addTargets] at hk
    by_cases hke : k = e
    · rw [if_pos hke] at hk; cases hk
    · rw [if_neg hke] at hk
      rcases hr with hr | hr
      · exact h.2 k hk r hr
      · exact hke hr.1

theorem Collected.congr {m : Nfa A} {src src' : A → Nat → Prop} {acc : List (A × List Nat)} (h : Collected m src acc)
    (hs : ∀ e r, src e r ↔ src' e r) : Collected m src' acc := by
  have : src = src' := by funext e r; exact propext (hs e r)
  rw [← this]; exact h

theorem collectState_spec {m : Nfa A} (hm : Bounded m) : ∀ (d : NState A) {src : A → Nat → Prop}
    {acc : List (A × List Nat)}, Collected m src acc → (∀ x ∈ d, x.2 ≠ []) → (∀ x ∈ d, ∀ t ∈ x.2, t < m.length) →
    Collected m (fun e r => src e r ∨ ∃ ts, (some e, ts) ∈ d ∧ r ∈ ts) (collectState m acc d)
  | [], src, acc, h, _, _ => by
    refine h.congr ?_
    simp
  | (none, ts) :: d, src, acc, h, h1, h2 => by
    have := collectState_spec hm d h (fun x hx => h1 x (by simp [hx])) (fun x hx => h2 x (by simp [hx]))
    refine Collected.congr (src := fun e r => src e r ∨ ∃ ts, (some e, ts) ∈ d ∧ r ∈ ts) this ?_
    intro e r
    simp
  | (some k, ts) :: d, src, acc, h, h1, h2 => by
    have h0 := collected_add hm h (e := k) (ts := ts) (h1 _ List.mem_cons_self) (h2 (some k, ts) List.mem_cons_self)
    have := collectState_spec hm d h0 (fun x hx => h1 x (by simp [hx])) (fun x hx => h2 x (by simp [hx]))
    refine Collected.congr this ?_
    intro e r
    constructor
    · rintro ((h | ⟨rfl, h⟩) | ⟨us, h, h'⟩)
      · exact Or.inl h
      · exact Or.inr ⟨ts, by simp, h⟩
      · exact Or.inr ⟨us, by simp [h], h'⟩
    · rintro (h | ⟨us, h, h'⟩)
      · exact Or.inl (Or.inl h)
      · rcases List.mem_cons.1 h with h | h
        · cases h; exact Or.inl (Or.inr ⟨rfl, h'⟩)
        · exact Or.inr ⟨us, h, h'⟩

theorem step_iff_mem {m : Nfa A} (hg : Good m) (p : Nat) (l : Label A) (r : Nat) :
    (∃ ts, (l, ts) ∈ m[p]?.getD [] ∧ r ∈ ts) ↔ step m p l r := by
  unfold step targets
  cases hp : m[p]? with
  | none => simp
  | some d =>
    have hd : GoodState d := hg d (List.mem_of_getElem? hp)
    simp only [Option.getD_some]
    constructor
    · rintro ⟨ts, h1, h2⟩
      rw [lookup_of_mem hd.1 h1]
      exact h2
    · intro h
      cases hl : lookup l d with
      | none => rw [hl] at h; cases h
      | some ts =>
        rw [hl] at h
        exact ⟨ts, mem_of_lookup hl, h⟩

theorem collect_fold {m : Nfa A} (hm : Bounded m) (hg : Good m) : ∀ (set : List Nat) {src : A → Nat → Prop}
    {acc : List (A × List Nat)}, Collected m src acc →
    Collected m (fun e r => src e r ∨ ∃ q ∈ set, step m q (some e) r)
      (set.foldl (fun acc q => collectState m acc (m[q]?.getD [])) acc)
  | [], src, acc, h => h.congr (by simp)
  | q :: set, src, acc, h => by
    have h1 : ∀ x ∈ m[q]?.getD [], x.2 ≠ [] := by
      cases hq : m[q]? with
      | none => simp
      | some d => exact (hg d (List.mem_of_getElem? hq)).2
    have h2 : ∀ x ∈ m[q]?.getD [], ∀ t ∈ x.2, t < m.length := by
      intro x hx t ht
      exact hm q x.1 t ((step_iff_mem hg q x.1 t).1 ⟨x.2, hx, ht⟩)
    have := collect_fold hm hg set (collectState_spec hm _ h h1 h2)
    refine Collected.congr this ?_
    intro e r
    simp only [step_iff_mem hg, List.mem_cons, exists_eq_or_imp, or_assoc]

/-- The states reachable from `S` by reading `e`. -/
def next (m : Nfa A) (S : List Nat) (e : A) (x : Nat) : Prop :=
  ∃ q ∈ S, ∃ r, step m q (some e) r ∧ Path (step m) r [] x

theorem collect_spec {m : Nfa A} (hm : Bounded m) (hg : Good m) (S : List Nat) :
    Collected m (fun e r => ∃ q ∈ S, step m q (some e) r) (collect m S) := by
  have h0 : Collected m (fun (_ : A) (_ : Nat) => False) [] := by
    constructor
    · intro e s h; cases h
    · intro e _ r h; exact h
  refine Collected.congr (collect_fold hm hg S h0) ?_
  simp

end Verif.Content
