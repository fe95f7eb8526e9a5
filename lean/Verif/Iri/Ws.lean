import Verif.Iri.IriToUri
/- Lemmas about white-space condensation. -/
namespace Verif.Iri
open Spec

theorem isPySpace_iff (c : Char) : isPySpace c = true ↔ c ∈ whiteSpace := by
  unfold isPySpace whiteSpace
  rw [decide_eq_true_eq]

theorem mem4 (c : Char) : c ∈ s!! " \t\r\n" ↔ c = ' ' ∨ c ∈ s!! "\t\r\n" := by
  simp

theorem condense_id {s : Str} (h1 : ∀ c ∈ s, c ∉ s!! "\t\r\n") (h2 : ¬ [' ', ' '] <:+: s) (b : Bool)
    (hb : b = true → s.head? ≠ some ' ') : condense b s = s := by
  induction s generalizing b with
  | nil => rfl
  | cons c s ih =>
    have hc := h1 c (by simp)
    have hs : ¬ [' ', ' '] <:+: s := fun h => h2 (h.trans (List.suffix_cons c s).isInfix)
    have h1' : ∀ c ∈ s, c ∉ s!! "\t\r\n" := fun d hd => h1 d (by simp [hd])
    unfold condense
    by_cases hsp : c = ' '
    · subst hsp
      have hb' : b = false := by cases b <;> simp at hb ⊢
      have : s.head? ≠ some ' ' := by
        intro hh
        cases s with
        | nil => simp at hh
        | cons d s => simp at hh; subst hh; exact h2 ⟨[], s, rfl⟩
      rw [if_pos (by simp), hb']
      simp only [Bool.false_eq_true, if_false]
      rw [ih h1' hs true (fun _ => this)]
    · rw [if_neg (by rw [mem4]; simp only [hsp, false_or]; exact hc), ih h1' hs false (by simp)]

theorem condense_props (s : Str) : ∀ b,
    (∀ c ∈ condense b s, c ∉ s!! "\t\r\n") ∧ (¬ [' ', ' '] <:+: condense b s) ∧
    (b = true → (condense b s).head? ≠ some ' ') ∧
    (condense b s).filter (· ∉ whiteSpace) = s.filter (· ∉ whiteSpace) := by
  induction s with
  | nil => intro b; simp [condense, List.infix_nil]
  | cons c s ih =>
    intro b
    unfold condense
    by_cases hc : c ∈ s!! " \t\r\n"
    · have hw : c ∈ whiteSpace := by revert hc; simp [whiteSpace]; grind
      simp only [hc, if_true]
      obtain ⟨i1, i2, i3, i4⟩ := ih true
      cases b with
      | true => simp only [if_true]; exact ⟨i1, i2, fun _ => i3 rfl, by rw [i4, List.filter_cons_of_neg (by simpa using hw)]⟩
      | false =>
        simp only [Bool.false_eq_true, if_false]
        refine ⟨?_, ?_, by simp, ?_⟩
        · intro d hd
          rcases List.mem_cons.1 hd with rfl | hd
          · decide
          · exact i1 d hd
        · intro hh
          rcases List.infix_cons_iff.1 hh with hh | hh
          · rw [List.cons_prefix_cons] at hh
            obtain ⟨t, ht⟩ := hh.2
            exact i3 rfl (by rw [← ht]; rfl)
          · exact i2 hh
        · rw [List.filter_cons_of_neg (by decide), i4, List.filter_cons_of_neg (by simpa using hw)]
    · simp only [hc, if_false]
      obtain ⟨i1, i2, i3, i4⟩ := ih false
      rw [mem4] at hc
      refine ⟨?_, ?_, ?_, ?_⟩
      · intro d hd
        rcases List.mem_cons.1 hd with rfl | hd
        · exact fun h => hc (Or.inr h)
        · exact i1 d hd
      · intro hh
        rcases List.infix_cons_iff.1 hh with hh | hh
        · rw [List.cons_prefix_cons] at hh
          exact hc (Or.inl hh.1.symm)
        · exact i2 hh
      · intro _ hh; simp at hh; exact hc (Or.inl hh)
      · simp only [List.filter_cons, i4]

theorem condense_ends (s : Str) (b : Bool) :
    (∀ c, s.head? = some c → c ∉ whiteSpace → (condense b s).head? = some c) ∧
    (∀ c, s.getLast? = some c → c ∉ whiteSpace → (condense b s).getLast? = some c) := by
  have nm : ∀ c, c ∉ whiteSpace → c ∉ s!! " \t\r\n" := by
    intro c h hc; apply h; revert hc; simp [whiteSpace]; grind
  constructor
  · intro c h hc
    cases s with
    | nil => simp at h
    | cons d s =>
      simp at h; subst h
      unfold condense
      rw [if_neg (nm _ hc)]; rfl
  · intro c h hc
    induction s generalizing b with
    | nil => simp at h
    | cons d s ih =>
      cases s with
      | nil =>
        simp at h; subst h
        unfold condense
        rw [if_neg (nm _ hc)]; rfl
      | cons e s =>
        rw [List.getLast?_cons_cons] at h
        have ih := ih (h := h)
        unfold condense
        have app : ∀ (x : Char) b', (x :: condense b' (e :: s)).getLast? = some c := by
          intro x b'
          have := ih b'
          cases hcd : condense b' (e :: s) with
          | nil => rw [hcd] at this; simp at this
          | cons y t => rw [hcd] at this; rw [List.getLast?_cons_cons]; exact this
        split
        · split
          · exact ih true
          · exact app _ _
        · exact app _ _

theorem dropWhile_filter (s : Str) : (s.dropWhile isPySpace).filter (· ∉ whiteSpace) = s.filter (· ∉ whiteSpace) := by
  induction s with
  | nil => rfl
  | cons c s ih =>
    by_cases h : isPySpace c = true
    · rw [List.dropWhile_cons_of_pos h, ih, List.filter_cons_of_neg]
      simpa using (isPySpace_iff c).1 h
    · rw [List.dropWhile_cons_of_neg h]

theorem strip_filter (s : Str) : (strip s).filter (· ∉ whiteSpace) = s.filter (· ∉ whiteSpace) := by
  unfold strip
  rw [List.filter_reverse, dropWhile_filter, List.filter_reverse, dropWhile_filter, List.reverse_reverse]

theorem strip_ends (s : Str) : (∀ c, (strip s).head? = some c → c ∉ whiteSpace) ∧
    (∀ c, (strip s).getLast? = some c → c ∉ whiteSpace) := by
  unfold strip
  constructor
  · intro c hc
    rw [List.head?_reverse] at hc
    have hl : (s.dropWhile isPySpace).reverse.getLast? = some c := by
      have := List.dropWhile_suffix isPySpace (l := (s.dropWhile isPySpace).reverse)
      obtain ⟨t, ht⟩ := this
      rw [← ht, List.getLast?_append, hc]; rfl
    rw [List.getLast?_reverse] at hl
    have := head_dropWhile hl
    rw [← isPySpace_iff, this]; simp
  · intro c hc
    rw [List.getLast?_reverse] at hc
    have := head_dropWhile hc
    rw [← isPySpace_iff, this]; simp

theorem strip_id {s : Str} (h1 : ∀ c, s.head? = some c → c ∉ whiteSpace)
    (h2 : ∀ c, s.getLast? = some c → c ∉ whiteSpace) : strip s = s := by
  have id1 : ∀ t : Str, (∀ c, t.head? = some c → c ∉ whiteSpace) → t.dropWhile isPySpace = t := by
    intro t ht
    cases t with
    | nil => rfl
    | cons c t =>
      have := ht c rfl
      rw [← isPySpace_iff] at this
      rw [List.dropWhile_cons_of_neg this]
  unfold strip
  rw [id1 s h1, id1 s.reverse (by intro c hc; rw [List.head?_reverse] at hc; exact h2 c hc), List.reverse_reverse]

theorem mem_condense_strip {s : Str} {c : Char} (h : c ∈ condense false (strip s)) : c ∈ s ∨ c = ' ' := by
  have h1 : ∀ b t, c ∈ condense b t → c ∈ t ∨ c = ' ' := by
    intro b t
    induction t generalizing b with
    | nil => simp [condense]
    | cons d t ih =>
      unfold condense
      split
      · split
        · intro h; exact (ih true h).imp (by intro h; simp [h]) id
        · intro h
          rcases List.mem_cons.1 h with h | h
          · exact Or.inr h
          · exact (ih true h).imp (by intro h; simp [h]) id
      · intro h
        rcases List.mem_cons.1 h with h | h
        · simp [h]
        · exact (ih false h).imp (by intro h; simp [h]) id
  rcases h1 _ _ h with h | h
  · left
    unfold strip at h
    rw [List.mem_reverse] at h
    have := (List.dropWhile_suffix isPySpace).subset h
    rw [List.mem_reverse] at this
    exact (List.dropWhile_suffix isPySpace).subset this
  · exact Or.inr h

end Verif.Iri
