import Verif.Xslt.Regexp
/-
C104: the EXSLT regular expression functions.
-/
namespace Verif.Xslt.Regexp

/-! ### Specification -/

/-- Matches are spans of the source: what `re` guarantees. -/
def Within (p : Pattern) (n : Nat) : Prop := ∀ i j, p.endAt i = some j → i ≤ j ∧ j ≤ n

/-- The pattern does not match the empty string anywhere in the source. -/
def NoEmpty (p : Pattern) : Prop := ∀ i j, p.endAt i = some j → i < j

/-- All the matches from the left, without overlap: each span is a non-empty match, they follow one another, and every
other match starts inside one of them. -/
def AllMatches (p : Pattern) (spans : List (Nat × Nat)) : Prop :=
  (∀ s ∈ spans, p.endAt s.1 = some s.2 ∧ s.1 < s.2) ∧ spans.Pairwise (fun a b => a.2 ≤ b.1) ∧
    ∀ k, p.endAt k ≠ none → ∃ s ∈ spans, s.1 ≤ k ∧ k < s.2

/-- The first match. -/
def FirstMatch (p : Pattern) (i j : Nat) : Prop := p.endAt i = some j ∧ ∀ k, k < i → p.endAt k = none

/-- Pieces and matched parts in turn. -/
def interleave : Str → List (Str × Str) → Str
  | first, [] => first
  | first, (m, next) :: r => first ++ (m ++ interleave next r)

/-! ### Lemmas -/

theorem searchFrom_some {p : Pattern} : ∀ {k a i j : Nat}, searchFrom p k a = some (i, j) →
    a ≤ i ∧ p.endAt i = some j ∧ ∀ m, a ≤ m → m < i → p.endAt m = none := by
  intro k
  induction k with
  | zero => intro a i j h; simp [searchFrom] at h
  | succ k ih =>
    intro a i j h
    rw [searchFrom] at h
    split at h
    · rename_i e he
      simp at h; obtain ⟨rfl, rfl⟩ := h
      exact ⟨Nat.le_refl _, he, fun m h1 h2 => by omega⟩
    · rename_i he
      obtain ⟨h1, h2, h3⟩ := ih h
      refine ⟨by omega, h2, fun m m1 m2 => ?_⟩
      by_cases hm : m = a
      · rw [hm]; exact he
      · exact h3 m (by omega) m2

theorem searchFrom_none {p : Pattern} : ∀ {k a : Nat}, searchFrom p k a = none →
    ∀ m, a ≤ m → m < a + k → p.endAt m = none := by
  intro k
  induction k with
  | zero => intro a _ m h1 h2; omega
  | succ k ih =>
    intro a h m h1 h2
    rw [searchFrom] at h
    split at h
    · cases h
    · rename_i he
      by_cases hm : m = a
      · rw [hm]; exact he
      · exact ih h m (by omega) (by omega)

theorem search_none {p : Pattern} {n a : Nat} (hw : Within p n) (h : search p n a = none) :
    ∀ m, a ≤ m → p.endAt m = none := by
  intro m hm
  cases he : p.endAt m with
  | none => rfl
  | some j =>
    have := hw _ _ he
    have := searchFrom_none h m hm (by omega)
    rw [he] at this; cases this

theorem search_at {p : Pattern} {n j : Nat} (hw : Within p n) (h : p.endAt j = some j) : search p n j = some (j, j) := by
  have := hw _ _ h
  unfold search
  have e : n + 1 - j = (n - j) + 1 := by omega
  rw [e, searchFrom, h]

theorem loop_stuck {p : Pattern} {n j : Nat} (hw : Within p n) (h : p.endAt j = some j) :
    ∀ fuel, loop p n fuel (some (j, j)) = none := by
  intro fuel
  induction fuel with
  | zero => rfl
  | succ f ih => rw [loop, search_at hw h, ih]; rfl

theorem loop_sound {p : Pattern} {n : Nat} (hw : Within p n) : ∀ {fuel a : Nat} {spans : List (Nat × Nat)},
    loop p n fuel (search p n a) = some spans →
    (∀ s ∈ spans, a ≤ s.1 ∧ p.endAt s.1 = some s.2 ∧ s.1 < s.2) ∧ spans.Pairwise (fun a b => a.2 ≤ b.1) ∧
      ∀ k, a ≤ k → p.endAt k ≠ none → ∃ s ∈ spans, s.1 ≤ k ∧ k < s.2 := by
  intro fuel
  induction fuel with
  | zero => intro a spans h; simp [loop] at h
  | succ f ih =>
    intro a spans h
    cases hs : search p n a with
    | none =>
      rw [hs, loop] at h
      simp at h; subst h
      exact ⟨by simp, List.Pairwise.nil, fun k h1 h2 => absurd (search_none hw hs k h1) h2⟩
    | some m =>
      obtain ⟨i, j⟩ := m
      rw [hs, loop] at h
      obtain ⟨h1, h2, h3⟩ := searchFrom_some hs
      obtain ⟨hij, hjn⟩ := hw _ _ h2
      cases hl : loop p n f (search p n j) with
      | none => rw [hl] at h; cases h
      | some r =>
        rw [hl] at h
        simp at h; subst h
        have hlt : i < j := by
          rcases Nat.lt_or_eq_of_le hij with h | h
          · exact h
          · subst h
            rw [search_at hw h2, loop_stuck hw h2] at hl; cases hl
        obtain ⟨r1, r2, r3⟩ := ih hl
        refine ⟨?_, ?_, ?_⟩
        · intro s hm
          rcases List.mem_cons.1 hm with rfl | hm
          · exact ⟨h1, h2, hlt⟩
          · obtain ⟨x, y, z⟩ := r1 s hm
            exact ⟨by omega, y, z⟩
        · exact List.pairwise_cons.2 ⟨fun s hm => (r1 s hm).1, r2⟩
        · intro k hk hne
          by_cases h4 : k < i
          · exact absurd (h3 k hk h4) hne
          · by_cases h5 : k < j
            · exact ⟨(i, j), by simp, by omega, h5⟩
            · obtain ⟨s, hm, hx⟩ := r3 k (by omega) hne
              exact ⟨s, by simp [hm], hx⟩

theorem loop_ends {p : Pattern} {n : Nat} (hw : Within p n) (he : NoEmpty p) : ∀ {fuel a : Nat}, a ≤ n →
    n + 2 - a ≤ fuel → ∃ spans, loop p n fuel (search p n a) = some spans := by
  intro fuel
  induction fuel with
  | zero => intro a _ _; omega
  | succ f ih =>
    intro a ha hf
    cases hs : search p n a with
    | none => exact ⟨[], rfl⟩
    | some m =>
      obtain ⟨i, j⟩ := m
      obtain ⟨h1, h2, _⟩ := searchFrom_some hs
      have := he _ _ h2
      have := hw _ _ h2
      obtain ⟨r, hr⟩ := ih (a := j) (by omega) (by omega)
      exact ⟨(i, j) :: r, by rw [loop, hr]; rfl⟩

/-! ### C104 -/

/-- C104. Whatever `regexp:match` with the flag `g` returns is the list of all matches from the left. -/
theorem C104_match_global (src : Str) (compile : Bool → Pattern) (flags : Str) (fuel : Nat) (ms : List Str)
    (hw : Within (compile (flags.contains 'i')) src.length) (hg : 'g' ∈ flags)
    (h : matchFunction src compile flags fuel = some ms) :
    ∃ spans, ms = spans.map (fun s => (src.take s.2).drop s.1) ∧ AllMatches (compile (flags.contains 'i')) spans := by
  unfold matchFunction at h
  have hg' : flags.contains 'g' = true := by simpa using hg
  split at h
  · rename_i hs
    simp at h; subst h
    exact ⟨[], rfl, by simp, List.Pairwise.nil, fun k hk => absurd (search_none hw hs k (Nat.zero_le _)) hk⟩
  · rename_i m hs
    rw [if_pos hg', ← hs] at h
    cases hl : loop (compile (flags.contains 'i')) src.length fuel (search (compile (flags.contains 'i')) src.length 0) with
    | none => rw [hl] at h; cases h
    | some spans =>
      rw [hl] at h
      simp at h
      obtain ⟨r1, r2, r3⟩ := loop_sound hw hl
      exact ⟨spans, h.symm, fun s hs => (r1 s hs).2, r2, fun k hk => r3 k (Nat.zero_le _) hk⟩

/-- C104. It returns if the pattern has no empty match. -/
theorem C104_match_ends_partial (src : Str) (compile : Bool → Pattern) (flags : Str)
    (hw : Within (compile (flags.contains 'i')) src.length) (he : NoEmpty (compile (flags.contains 'i'))) :
    ∀ fuel, src.length + 2 ≤ fuel → ∃ ms, matchFunction src compile flags fuel = some ms := by
  intro fuel hf
  unfold matchFunction
  split
  · exact ⟨_, rfl⟩
  · rename_i m hs
    split
    · obtain ⟨spans, h⟩ := loop_ends hw he (fuel := fuel) (Nat.zero_le _) (by omega)
      rw [hs] at h
      exact ⟨_, by rw [h]; rfl⟩
    · exact ⟨_, rfl⟩

theorem pairwise_apart : ∀ {spans : List (Nat × Nat)}, spans.Pairwise (fun a b => a.2 ≤ b.1) →
    ∀ s ∈ spans, ∀ t ∈ spans, s = t ∨ s.2 ≤ t.1 ∨ t.2 ≤ s.1 := by
  intro spans
  induction spans with
  | nil => simp
  | cons x r ih =>
    intro h s hs t ht
    obtain ⟨h1, h2⟩ := List.pairwise_cons.1 h
    rcases List.mem_cons.1 hs with es | ms <;> rcases List.mem_cons.1 ht with et | mt
    · exact Or.inl (es.trans et.symm)
    · rw [es]; exact Or.inr (Or.inl (h1 t mt))
    · rw [et]; exact Or.inr (Or.inr (h1 s ms))
    · exact ih h2 s ms t mt

theorem loop_ends_all {p : Pattern} {n : Nat} (hw : Within p n) {spans : List (Nat × Nat)} (ha : AllMatches p spans) :
    ∀ {fuel a : Nat}, (∀ s ∈ spans, s.2 ≤ a ∨ a ≤ s.1) → a ≤ n → n + 2 - a ≤ fuel →
    ∃ r, loop p n fuel (search p n a) = some r := by
  obtain ⟨h1, h2, h3⟩ := ha
  intro fuel
  induction fuel with
  | zero => intro a _ _ _; omega
  | succ f ih =>
    intro a hs han hf
    cases hx : search p n a with
    | none => exact ⟨[], rfl⟩
    | some m =>
      obtain ⟨i, j⟩ := m
      obtain ⟨g1, g2, g3⟩ := searchFrom_some hx
      obtain ⟨s, ms, s1, s2⟩ := h3 i (by rw [g2]; simp)
      have hsa : a ≤ s.1 := by rcases hs s ms with h | h <;> omega
      have hsi : s.1 = i := by
        rcases Nat.lt_or_eq_of_le s1 with h | h
        · have := g3 s.1 hsa h
          rw [(h1 s ms).1] at this; cases this
        · exact h
      have hj : s.2 = j := by
        have := (h1 s ms).1
        rw [hsi, g2] at this
        simpa using this.symm
      have := hw _ _ g2
      obtain ⟨r, hr⟩ := ih (a := j) (by
        intro t mt
        rcases pairwise_apart h2 s ms t mt with rfl | h | h
        · left; omega
        · right; omega
        · left; omega) (by omega) (by omega)
      exact ⟨(i, j) :: r, by rw [loop, hr]; rfl⟩

/-- C104. With the flag `g` the function returns exactly when there is a list of non-empty matches that accounts for all
matches, that is when every empty match lies inside another one. -/
theorem C104_match_ends_iff (src : Str) (compile : Bool → Pattern) (flags : Str)
    (hw : Within (compile (flags.contains 'i')) src.length) (hg : 'g' ∈ flags) :
    (∃ fuel ms, matchFunction src compile flags fuel = some ms) ↔
      ∃ spans, AllMatches (compile (flags.contains 'i')) spans := by
  constructor
  · rintro ⟨fuel, ms, h⟩
    obtain ⟨spans, _, h⟩ := C104_match_global src compile flags fuel ms hw hg h
    exact ⟨spans, h⟩
  · rintro ⟨spans, h⟩
    refine ⟨src.length + 2, ?_⟩
    unfold matchFunction
    split
    · exact ⟨_, rfl⟩
    · rename_i m hs
      obtain ⟨r, hr⟩ := loop_ends_all hw h (fuel := src.length + 2) (a := 0) (fun s _ => Or.inr (Nat.zero_le _))
        (Nat.zero_le _) (by omega)
      rw [hs] at hr
      rw [if_pos (by simpa using hg), hr]
      exact ⟨_, rfl⟩

/-- C104 refuted, ending for every pattern: with the flag `g` and a pattern that matches the empty string at the end of
the source, such as `x*`, the function never returns, whatever the source. -/
theorem C104_refuted_endless (src : Str) (compile : Bool → Pattern) (flags : Str)
    (hw : Within (compile (flags.contains 'i')) src.length) (hg : 'g' ∈ flags)
    (he : (compile (flags.contains 'i')).endAt src.length = some src.length) :
    ∀ fuel, matchFunction src compile flags fuel = none := by
  intro fuel
  cases h : matchFunction src compile flags fuel with
  | none => rfl
  | some ms =>
    obtain ⟨spans, _, h1, _, h3⟩ := C104_match_global src compile flags fuel ms hw hg h
    obtain ⟨s, hs, h4, h5⟩ := h3 src.length (by rw [he]; simp)
    have := hw _ _ (h1 s hs).1
    omega

/-- C104. Without the flag `g` the result is the first match and its captured parts. -/
theorem C104_match_first (src : Str) (compile : Bool → Pattern) (flags : Str) (fuel : Nat)
    (hw : Within (compile (flags.contains 'i')) src.length) (hg : 'g' ∉ flags) :
    ((∀ k, (compile (flags.contains 'i')).endAt k = none) ∧ matchFunction src compile flags fuel = some []) ∨
      ∃ i j, FirstMatch (compile (flags.contains 'i')) i j ∧ matchFunction src compile flags fuel =
        some ((src.take j).drop i :: ((compile (flags.contains 'i')).groups i).map (fun g => g.getD [])) := by
  have hg' : ¬ flags.contains 'g' = true := by simpa using hg
  unfold matchFunction
  split
  · rename_i hs
    exact Or.inl ⟨fun k => search_none hw hs k (Nat.zero_le _), rfl⟩
  · rename_i m hs
    obtain ⟨i, j⟩ := m
    obtain ⟨_, h2, h3⟩ := searchFrom_some hs
    refine Or.inr ⟨i, j, ⟨h2, fun k hk => h3 k (Nat.zero_le _) hk⟩, ?_⟩
    rw [if_neg hg']; rfl

/-- C104. `regexp:test` is true if and only if there is a match; the flag `i` chooses the comparison, other flags do
nothing. -/
theorem C104_test (src : Str) (compile : Bool → Pattern) (flags : Str)
    (hw : Within (compile (flags.contains 'i')) src.length) :
    testFunction src compile flags = true ↔ ∃ k, (compile (flags.contains 'i')).endAt k ≠ none := by
  unfold testFunction
  cases hs : search (compile (flags.contains 'i')) src.length 0 with
  | none =>
    constructor
    · intro h; cases h
    · rintro ⟨k, hk⟩; exact absurd (search_none hw hs k (Nat.zero_le _)) hk
  | some m =>
    obtain ⟨i, j⟩ := m
    exact ⟨fun _ => ⟨i, by rw [(searchFrom_some hs).2.1]; simp⟩, fun _ => rfl⟩

theorem take_drop_split (src : Str) {a i j : Nat} (h1 : a ≤ i) (h2 : i ≤ j) :
    src.drop a = slice src (a, i) ++ (slice src (i, j) ++ src.drop j) := by
  have e : ∀ x y : Nat, x ≤ y → src.drop x = slice src (x, y) ++ src.drop y := by
    intro x y h
    have := congrArg (List.drop x) (List.take_append_drop y src)
    unfold slice
    rw [List.drop_append, List.length_take] at this
    rw [← this]
    by_cases hl : y ≤ src.length
    · rw [Nat.min_eq_left hl, Nat.sub_eq_zero_of_le h, List.drop_zero]
    · rw [List.drop_eq_nil_of_le (as := src) (i := y) (by omega)]; simp
  rw [e a i h1, e i j h2]

theorem sub_interleave (src repl : Str) : ∀ (spans : List (Nat × Nat)) (a : Nat),
    (∀ s ∈ spans, a ≤ s.1 ∧ s.1 ≤ s.2) → spans.Pairwise (fun a b => a.2 ≤ b.1) →
    ∃ first rest, rest.map (·.1) = spans.map (slice src) ∧ src.drop a = interleave first rest ∧
      subSpans src repl spans a = interleave first (rest.map (fun r => (repl, r.2))) := by
  intro spans
  induction spans with
  | nil => intro a _ _; exact ⟨src.drop a, [], rfl, rfl, rfl⟩
  | cons s r ih =>
    intro a h1 h2
    obtain ⟨i, j⟩ := s
    obtain ⟨p1, p2⟩ := List.pairwise_cons.1 h2
    obtain ⟨first, rest, e1, e2, e3⟩ := ih j (fun s hs => ⟨p1 s hs, (h1 s (by simp [hs])).2⟩) p2
    obtain ⟨ha, hb⟩ := h1 (i, j) (by simp)
    refine ⟨slice src (a, i), (slice src (i, j), first) :: rest, ?_, ?_, ?_⟩
    · simp [e1]
    · rw [take_drop_split src ha hb, e2]; rfl
    · rw [subSpans, e3]; rfl

/-- C104. `regexp:replace` puts the replacement in place of all matches with the flag `g`, of the first match without it,
and leaves the rest of the source as it is. -/
theorem C104_replace (src : Str) (compile : Bool → Pattern) (flags repl : Str)
    (hw : Within (compile (flags.contains 'i')) src.length) (he : NoEmpty (compile (flags.contains 'i'))) :
    ∃ spans first rest, AllMatches (compile (flags.contains 'i')) spans ∧
      rest.map (·.1) = (if 'g' ∈ flags then spans else spans.take 1).map (fun s => (src.take s.2).drop s.1) ∧
      src = interleave first rest ∧
      replaceFunction src compile flags repl = some (interleave first (rest.map (fun r => (repl, r.2)))) := by
  obtain ⟨spans, hl⟩ := loop_ends hw he (fuel := src.length + 2) (a := 0) (Nat.zero_le _) (by omega)
  obtain ⟨r1, r2, r3⟩ := loop_sound hw hl
  have hc : ∃ c, counted (if flags.contains 'g' then 0 else 1) spans = c ∧ c = (if 'g' ∈ flags then spans else spans.take 1) := by
    refine ⟨_, rfl, ?_⟩
    unfold counted
    by_cases hg : 'g' ∈ flags
    · have hg' : flags.contains 'g' = true := by simpa using hg
      rw [hg', if_pos hg]; rfl
    · have hg' : flags.contains 'g' = false := by simpa using hg
      rw [hg', if_neg hg]; rfl
  obtain ⟨c, hc1, hc2⟩ := hc
  have hsub : c.Sublist spans := by
    rw [hc2]; split
    · exact List.Sublist.refl _
    · exact List.take_sublist _ _
  obtain ⟨first, rest, e1, e2, e3⟩ := sub_interleave src repl c 0
    (fun s hs => ⟨Nat.zero_le _, Nat.le_of_lt (r1 s (hsub.subset hs)).2.2⟩) (r2.sublist hsub)
  refine ⟨spans, first, rest, ⟨fun s hs => (r1 s hs).2, r2, fun k hk => r3 k (Nat.zero_le _) hk⟩, ?_, ?_, ?_⟩
  · rw [e1, hc2]; rfl
  · simpa using e2
  · unfold replaceFunction
    rw [hl, Option.map_some, hc1, e3]

/-- The pattern `a` on the source "banana". -/
def banana : Bool → Pattern := fun _ => ⟨fun i => if i = 1 ∨ i = 3 ∨ i = 5 then some (i + 1) else none, fun _ => []⟩

example : matchFunction (s!! "banana") banana (s!! "g") 9 = some [s!! "a", s!! "a", s!! "a"] ∧
    matchFunction (s!! "banana") banana [] 0 = some [s!! "a"] ∧
    replaceFunction (s!! "banana") banana (s!! "g") (s!! "o") = some (s!! "bonono") ∧
    replaceFunction (s!! "banana") banana [] (s!! "o") = some (s!! "bonana") ∧
    testFunction (s!! "banana") banana [] = true := by decide +kernel

example : Within (banana true) 6 ∧ NoEmpty (banana true) := by
  constructor <;> intro i j h <;> simp only [banana] at h <;> split at h <;> simp at h <;> omega

/-- The pattern `x*` on the source "b". -/
example : Within ⟨fun i => if i ≤ 1 then some i else none, fun _ => []⟩ 1 := by
  intro i j h; simp at h; omega

end Verif.Xslt.Regexp
