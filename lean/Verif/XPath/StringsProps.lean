import Verif.XPath.StringsLemmas

/-
C22 translate(), C23 substring(), C24 substring-before, substring-after, contains, starts-with,
C25 normalize-space().
-/
namespace Verif.XPath
open Verif

/-! ### C22 -/

/-- Every character becomes what its first index in `from` says, independently of the others. -/
theorem C22_translate (s fromchars tochars : Str) :
    translateFn s fromchars tochars = s.flatMap (Spec.translateChar fromchars tochars) := by
  unfold translateFn
  rw [join_nil_eq_flatten, List.flatMap]
  congr 1
  apply List.map_congr_left
  intro c _
  simp only [transMap_lookup, List.lookup]
  unfold Spec.translateChar
  cases fromchars.idxOf? c <;> rfl

example : translateFn (s!! "--abbca--") (s!! "abab-") (s!! "XYZ") = s!! "XYYcX" := by decide

/-! ### C23 -/

theorem dbl_le_nat (q : Int) (p : Nat) : (Dbl.fin q).le (.fin p) = true ↔ q ≤ p := by
  have h1 : ((q : Rat) < (p : Rat)) ↔ q < p := by
    rw [← Rat.intCast_natCast]; exact Rat.intCast_lt_intCast
  have h2 : ((q : Rat) = (p : Rat)) ↔ q = p := by
    rw [← Rat.intCast_natCast]; exact Rat.intCast_inj
  simp [Dbl.le, Dbl.lt, Dbl.eq, Dbl.toRat?, h1, h2]; omega

theorem dbl_nat_lt (q : Int) (p : Nat) : (Dbl.fin p).lt (.fin q) = true ↔ (p : Int) < q := by
  have h1 : ((p : Rat) < (q : Rat)) ↔ (p : Int) < q := by
    rw [← Rat.intCast_natCast]; exact Rat.intCast_lt_intCast
  simp [Dbl.lt, Dbl.toRat?, h1]

/-- The positions kept by `substring()` when both rounded arguments are integers. -/
theorem selected_int (a b : Int) (p : Nat) :
    Spec.selected (.fin a) (some (.fin b)) p ↔ a ≤ p ∧ (p : Int) < a + b := by
  unfold Spec.selected
  rw [dbl_le_nat]
  simp only [Spec.sum]
  rw [← Rat.intCast_add, dbl_nat_lt]

theorem substring_int (s : Str) (a b a' b' : Int)
    (h : ∀ p : Nat, 1 ≤ p → ((a' ≤ p ∧ (p : Int) < a' + b') ↔ (a ≤ p ∧ (p : Int) < a + b))) :
    (if a + b - 1 < (if a < 1 then 0 else a - 1) then ([] : Str)
      else slice s (if a < 1 then 0 else a - 1 : Int).toNat (a + b - 1).toNat) =
    Spec.keep (Spec.selected (.fin a') (some (.fin b'))) 1 s := by
  by_cases hlt : a + b - 1 < (if a < 1 then 0 else a - 1)
  · rw [if_pos hlt]
    symm; apply nil_eq_keep
    intro k hk
    rw [selected_int, h k hk]
    split at hlt <;> omega
  · rw [if_neg hlt, slice_eq_keep s _ _ 1]
    apply keep_congr
    intro k hk _
    rw [selected_int, h k hk]
    split at hlt <;> rename_i h1
    · rw [if_pos h1]; omega
    · rw [if_neg h1]; omega

theorem roundsTo_unique {d r r' : Dbl} (h : Spec.RoundsTo d r) (h' : Spec.RoundsTo d r') : r = r' := by
  cases d <;> simp only [Spec.RoundsTo] at h h' <;> try (rw [h, h'])
  obtain ⟨n, hn, rfl⟩ := h
  obtain ⟨m, hm, rfl⟩ := h'
  rw [isRound_unique hn hm]

/-- A rounded finite number, in terms of its rational value. -/
theorem roundsTo_finite {d r : Dbl} {q : Rat} (hq : d.toRat? = some q) (h : Spec.RoundsTo d r) :
    ∃ n : Int, Spec.IsRound q n ∧ r = .fin n := by
  cases d <;> simp [Dbl.toRat?] at hq
  · subst hq
    simp only [Spec.RoundsTo] at h
    exact ⟨0, ⟨by decide +kernel, by decide +kernel⟩, h⟩
  · subst hq; exact h

/-- What the code returns, for all arguments but those in `C23_refuted`: a start of -Infinity
without a length, and a negative start half way between two integers together with a finite length.
`start'` and `length'` are the rounded arguments. -/
theorem C23_substring_partial (s : Str) (start start' : Dbl) (length length' : Option Dbl)
    (hstart : Spec.RoundsTo start start')
    (hlength : match length, length' with
      | none, none => True
      | some l, some l' => Spec.RoundsTo l l'
      | _, _ => False)
    (h1 : ¬ (start = .ninf ∧ length = none))
    (h2 : ∀ q l : Rat, start = .fin q → length.bind Dbl.toRat? = some l → ¬ NegTie q) :
    substringFn s start length = Spec.keep (Spec.selected start' length') 1 s := by
  unfold substringFn
  cases hst : start.toRat? with
  | none =>
    symm; apply nil_eq_keep
    intro k _
    cases start with
    | nan => simp only [Spec.RoundsTo] at hstart; subst hstart; simp [Spec.selected, Dbl.le, Dbl.lt, Dbl.eq]
    | pinf =>
      simp only [Spec.RoundsTo] at hstart; subst hstart
      simp [Spec.selected, Dbl.le, Dbl.lt, Dbl.eq, Dbl.toRat?]
    | ninf =>
      simp only [Spec.RoundsTo] at hstart; subst hstart
      cases length with
      | none => exact absurd ⟨rfl, rfl⟩ h1
      | some l =>
        cases length' with
        | none => exact hlength.elim
        | some l' =>
          rintro ⟨-, hlt⟩
          cases l' <;> simp [Spec.sum, Dbl.lt] at hlt
    | nzero => simp [Dbl.toRat?] at hst
    | fin q => simp [Dbl.toRat?] at hst
  | some st =>
    obtain ⟨n, hn, rfl⟩ := roundsTo_finite hst hstart
    have hle := pyRound_le_of_isRound hn
    have hpos : ¬ NegTie st → pyRound st = n := fun h => isRound_unique (pyRound_isRound h) hn
    have hneg : NegTie st → n ≤ 0 ∧ pyRound st ≤ 0 := fun h => by
      have := pyRound_tie_nonpos h hn; omega
    have hidx : (if pyRound st < 1 then (0 : Int) else pyRound st - 1) = if n < 1 then 0 else n - 1 := by
      by_cases ht : NegTie st
      · obtain ⟨h3, h4⟩ := hneg ht
        rw [if_pos (by omega), if_pos (by omega)]
      · rw [hpos ht]
    have hdrop : List.drop (if pyRound st < 1 then (0 : Int) else pyRound st - 1).toNat s =
        Spec.keep (fun k => n ≤ (k : Int)) 1 s := by
      rw [hidx, drop_eq_keep s _ 1]
      apply keep_congr
      intro k hk _
      split <;> omega
    cases length with
    | none =>
      cases length' with
      | some l' => exact hlength.elim
      | none =>
        simp only
        rw [hdrop]
        apply keep_congr
        intro k hk _
        simp [Spec.selected, dbl_le_nat]
    | some len =>
      cases length' with
      | none => exact hlength.elim
      | some l' =>
        simp only at hlength
        cases hlen : len.toRat? with
        | none =>
          simp only [hlen]
          cases len with
          | nan =>
            simp only [Spec.RoundsTo] at hlength; subst hlength
            simp only [Dbl.lt, Bool.false_eq_true, if_false]
            rw [nil_eq_keep]; intro k _
            simp [Spec.selected, Spec.sum, Dbl.lt]
          | ninf =>
            simp only [Spec.RoundsTo] at hlength; subst hlength
            simp only [Dbl.lt, Bool.false_eq_true, if_false]
            rw [nil_eq_keep]; intro k _
            simp [Spec.selected, Spec.sum, Dbl.lt]
          | pinf =>
            simp only [Spec.RoundsTo] at hlength; subst hlength
            rw [if_pos (by simp [Dbl.lt]), hdrop]
            apply keep_congr
            intro k hk _
            simp [Spec.selected, Spec.sum, dbl_le_nat, Dbl.lt]
          | nzero => simp [Dbl.toRat?] at hlen
          | fin q => simp [Dbl.toRat?] at hlen
        | some l =>
          simp only [hlen]
          obtain ⟨m, hm, rfl⟩ := roundsTo_finite hlen hlength
          have hnt : ¬ NegTie st := by
            cases start with
            | fin q =>
              simp only [Dbl.toRat?] at hst
              cases hst
              exact h2 _ l rfl (by simpa using hlen)
            | nzero => simp only [Dbl.toRat?] at hst; cases hst; rintro ⟨h, -⟩; exact Rat.lt_irrefl h
            | nan => simp [Dbl.toRat?] at hst
            | pinf => simp [Dbl.toRat?] at hst
            | ninf => simp [Dbl.toRat?] at hst
          rw [hpos hnt]
          apply substring_int
          intro p hp
          by_cases ht : NegTie l
          · have := pyRound_tie_nonpos ht hm
            have := pyRound_le_of_isRound hm
            omega
          · rw [isRound_unique (pyRound_isRound ht) hm]

/-- The hypotheses are met, e.g. by `substring("12345", 1.5, 2.6)`, which gives "234". -/
example : Spec.RoundsTo (.fin (mkRat 3 2)) (.fin ((2 : Int) : Rat)) ∧
    Spec.RoundsTo (.fin (mkRat 26 10)) (.fin ((3 : Int) : Rat)) ∧
    substringFn (s!! "12345") (.fin (mkRat 3 2)) (some (.fin (mkRat 26 10))) = s!! "234" := by
  refine ⟨⟨2, ⟨by decide +kernel, by decide +kernel⟩, rfl⟩, ⟨3, ⟨by decide +kernel, by decide +kernel⟩, rfl⟩, by decide +kernel⟩

/-- The two ways in which `substring()` differs from XPath 1.0: `substring("12345", -0.5, 3)` must
be "12" and `substring("12345", -1 div 0)` must be "12345". -/
theorem C23_refuted :
    (Spec.RoundsTo (.fin (mkRat (-1) 2)) (.fin ((0 : Int) : Rat)) ∧
      Spec.RoundsTo (.fin 3) (.fin ((3 : Int) : Rat)) ∧
      Spec.keep (Spec.selected (.fin ((0 : Int) : Rat)) (some (.fin ((3 : Int) : Rat)))) 1 (s!! "12345") = s!! "12" ∧
      substringFn (s!! "12345") (.fin (mkRat (-1) 2)) (some (.fin 3)) = s!! "1") ∧
    (Spec.keep (Spec.selected .ninf none) 1 (s!! "12345") = s!! "12345" ∧
      substringFn (s!! "12345") .ninf none = []) := by
  refine ⟨⟨⟨0, ⟨by decide +kernel, by decide +kernel⟩, rfl⟩, ⟨3, ⟨by decide +kernel, by decide +kernel⟩, rfl⟩,
    by decide +kernel, by decide +kernel⟩, by decide +kernel, by decide +kernel⟩

/-! ### C24 -/

/-- `contains(s, t)` is true exactly if `t` is a substring of `s`. -/
theorem C24_contains (s t : Str) : containsFn s t = true ↔ Spec.Contains s t := by
  have h := find_spec t s
  unfold containsFn
  cases hf : Py.find t s with
  | none => rw [hf] at h; simp; exact h
  | some i =>
    rw [hf] at h
    obtain ⟨⟨b, hb⟩, -, -⟩ := h
    simp
    exact ⟨_, _, hb⟩

example : containsFn (s!! "abcbc") (s!! "cb") = true ∧ Spec.Contains (s!! "abcbc") (s!! "cb") :=
  ⟨by decide, s!! "ab", s!! "c", rfl⟩

/-- `starts-with(s, t)` is true exactly if `t` is a prefix of `s`. -/
theorem C24_starts_with (s t : Str) : startsWithFn s t = true ↔ ∃ rest, s = t ++ rest := by
  unfold startsWithFn
  cases t with
  | nil => simp
  | cons c cs =>
    simp only [List.isEmpty_cons, Bool.false_or, beq_iff_eq]
    constructor
    · intro h; exact ⟨_, by rw [← h, List.take_append_drop]⟩
    · rintro ⟨r, rfl⟩; exact List.take_left

example : startsWithFn (s!! "abc") (s!! "ab") = true ∧ startsWithFn (s!! "abc") (s!! "ac") = false := by decide

/-- If `s` contains a non-empty `t`, then `substring-before`, `t` and `substring-after` make up `s`,
and `t` does not occur in `s` at any offset before the end of `substring-before(s, t)`.  For the
empty `t` see `C24_refuted`. -/
theorem C24_before_after_partial (s t : Str) (h : Spec.Contains s t) (ht : t ≠ []) :
    s = substringBeforeFn s t ++ t ++ substringAfterFn s t ∧
    ∀ a b, s = a ++ t ++ b → (substringBeforeFn s t).length ≤ a.length := by
  have hs := find_spec t s
  unfold substringBeforeFn substringAfterFn
  have hte : t.isEmpty = false := by cases t; contradiction; rfl
  rw [hte]
  cases hf : Py.find t s with
  | none => rw [hf] at hs; exact absurd h hs
  | some i =>
    rw [hf] at hs
    obtain ⟨⟨b, hb⟩, hi, hmin⟩ := hs
    have hd : s.drop (i + t.length) = b := by
      have hl : (s.take i).length = i := by simp; omega
      conv => lhs; rw [hb]
      rw [List.drop_append_of_le_length (by simp; omega)]
      rw [List.drop_eq_nil_of_le (by simp; omega)]; rfl
    simp only [Bool.false_eq_true, if_false]
    refine ⟨?_, ?_⟩
    · rw [hd]; exact hb
    · intro a b' hab
      by_cases hlt : a.length < i
      · exact absurd ⟨b', by rw [hab]; simp⟩ (hmin a.length hlt)
      · simp; omega

example : Spec.Contains (s!! "1999/04/01") (s!! "/") ∧
    substringBeforeFn (s!! "1999/04/01") (s!! "/") = s!! "1999" ∧
    substringAfterFn (s!! "1999/04/01") (s!! "/") = s!! "04/01" :=
  ⟨⟨s!! "1999", s!! "04/01", rfl⟩, by decide, by decide⟩

/-- If `s` does not contain `t`, both functions return the empty string. -/
theorem C24_before_after_absent (s t : Str) (h : ¬ Spec.Contains s t) :
    substringBeforeFn s t = [] ∧ substringAfterFn s t = [] := by
  have hs := find_spec t s
  unfold substringBeforeFn substringAfterFn
  cases hf : Py.find t s with
  | none => simp
  | some i =>
    rw [hf] at hs
    obtain ⟨⟨b, hb⟩, -⟩ := hs
    exact absurd ⟨_, _, hb⟩ h

example : ¬ Spec.Contains (s!! "ab") (s!! "c") := by
  rw [← C24_contains]; decide

/-- Every string contains the empty string, before its first character: `substring-after(s, "")`
must be `s`, but the code returns the empty string. -/
theorem C24_refuted : Spec.Contains (s!! "abc") [] ∧
    s!! "abc" ≠ substringBeforeFn (s!! "abc") [] ++ [] ++ substringAfterFn (s!! "abc") [] :=
  ⟨⟨[], s!! "abc", rfl⟩, by decide⟩

/-! ### C25 -/

theorem ws_isPySpace {c : Char} (h : Spec.WS c) : isPySpace c = true := by
  rcases h with h | h | h | h <;> subst h <;> decide

theorem separated_congr {P Q : Char → Prop} {s : Str} {l : List Str} (h : Spec.Separated P s l)
    (hpq : ∀ c ∈ s, P c ↔ Q c) : Spec.Separated Q s l := by
  induction h with
  | empty h => exact .empty (fun c hc => (hpq c hc).1 (h c hc))
  | one h1 h2 h3 h4 =>
    exact .one (fun c hc => (hpq c (by simp [hc])).1 (h1 c hc)) h2
      (fun c hc hq => h3 c hc ((hpq c (by simp [hc])).2 hq)) (fun c hc => (hpq c (by simp [hc])).1 (h4 c hc))
  | more h1 h2 h3 h4 h5 h6 h7 ih =>
    exact .more (fun c hc => (hpq c (by simp [hc])).1 (h1 c hc)) h2
      (fun c hc hq => h3 c hc ((hpq c (by simp [hc])).2 hq)) h4
      (fun c hc => (hpq c (by simp [hc])).1 (h5 c hc)) h6
      (ih (fun c hc => hpq c (by simp [hc])))

theorem normalizeSpace_words (s : Str) :
    Spec.Separated (fun c => isPySpace c = true) s (splitWs s) ∧
      normalizeSpaceFn s = Spec.spaced (splitWs s) := by
  obtain ⟨l, hl, hsep, -⟩ := splitWsAux_spec s [] (by simp)
  simp at hsep
  refine ⟨?_, spaced_eq_join _⟩
  unfold splitWs; rw [hl]; exact hsep

/-- `normalize-space(s)` is the words of `s` (its maximal runs of characters other than white
space) separated by single spaces, provided the only white space (in Python's sense) in `s` is XML
white space. -/
theorem C25_words_partial (s : Str) (h : ∀ c ∈ s, isPySpace c = true → Spec.WS c) :
    ∃ words, Spec.Separated Spec.WS s words ∧ normalizeSpaceFn s = Spec.spaced words := by
  obtain ⟨h1, h2⟩ := normalizeSpace_words s
  exact ⟨_, separated_congr h1 (fun c hc => ⟨h c hc, ws_isPySpace⟩), h2⟩

example : normalizeSpaceFn (s!! "  a\n b\t\tc ") = s!! "a b c" ∧
    ∀ c ∈ s!! "  a\n b\t\tc ", isPySpace c = true → Spec.WS c := by decide

theorem spaced_head {ws : Char → Prop} {l : List Str} (hl : ∀ w ∈ l, w ≠ [] ∧ ∀ c ∈ w, ¬ ws c) (c : Char)
    (h : (Spec.spaced l).head? = some c) : ¬ ws c := by
  cases l with
  | nil => simp [Spec.spaced] at h
  | cons w l =>
    obtain ⟨hw, hc⟩ := hl w (by simp)
    cases w with
    | nil => contradiction
    | cons d ds =>
      have : (Spec.spaced ((d :: ds) :: l)).head? = some d := by cases l <;> simp [Spec.spaced]
      rw [this] at h; cases h
      exact hc _ (by simp)

theorem spaced_last {ws : Char → Prop} {l : List Str} (hl : ∀ w ∈ l, w ≠ [] ∧ ∀ c ∈ w, ¬ ws c) (c : Char)
    (h : (Spec.spaced l).getLast? = some c) : ¬ ws c := by
  induction l with
  | nil => simp [Spec.spaced] at h
  | cons w l ih =>
    obtain ⟨hw, hc⟩ := hl w (by simp)
    cases l with
    | nil => simp only [Spec.spaced] at h; exact hc c (List.mem_of_getLast? h)
    | cons v l =>
      have hne : Spec.spaced (v :: l) ≠ [] := by
        have := (hl v (by simp)).1
        cases l <;> simp [Spec.spaced, this]
      apply ih (fun x hx => hl x (by simp [hx]))
      rw [← h]
      simp only [Spec.spaced]
      rw [List.getLast?_append, List.getLast?_cons]
      cases hg : (Spec.spaced (v :: l)).getLast? with
      | none => rw [List.getLast?_eq_none_iff] at hg; contradiction
      | some d => simp

theorem spaced_adjacent {ws : Char → Prop} {l : List Str} (hl : ∀ w ∈ l, w ≠ [] ∧ ∀ c ∈ w, ¬ ws c)
    (a b : Str) (x y : Char) (h : Spec.spaced l = a ++ x :: y :: b) : ¬ (ws x ∧ ws y) := by
  induction l generalizing a with
  | nil => simp [Spec.spaced] at h
  | cons w l ih =>
    obtain ⟨hw, hc⟩ := hl w (by simp)
    rintro ⟨hx, hy⟩
    cases l with
    | nil => simp only [Spec.spaced] at h; exact hc x (by rw [h]; simp) hx
    | cons v l =>
      simp only [Spec.spaced] at h
      have hl' : ∀ u ∈ v :: l, u ≠ [] ∧ ∀ c ∈ u, ¬ ws c := fun u hu => hl u (by simp [hu])
      rcases List.append_eq_append_iff.1 h with ⟨a', ha, hb⟩ | ⟨c', ha, hb⟩
      · cases a' with
        | nil =>
          simp at hb
          have := spaced_head hl' y (by rw [hb.2]; rfl)
          exact this hy
        | cons d ds =>
          simp at hb
          exact ih hl' ds hb.2 ⟨hx, hy⟩
      · cases c' with
        | nil =>
          simp at hb
          have := spaced_head hl' y (by rw [← hb.2]; rfl)
          exact this hy
        | cons d ds =>
          simp at hb
          obtain ⟨rfl, hb⟩ := hb
          exact hc x (by rw [ha]; simp) hx

/-- For every string, with white space in Python's sense (which includes XML white space): the
result starts and ends with no white space, has no two adjacent white-space characters, every white
space in it is a space, and the other characters are those of the argument, in order. -/
theorem C25_shape (s : Str) :
    (∀ c, (normalizeSpaceFn s).head? = some c → isPySpace c = false) ∧
    (∀ c, (normalizeSpaceFn s).getLast? = some c → isPySpace c = false) ∧
    (∀ a x y b, normalizeSpaceFn s = a ++ x :: y :: b → ¬ (isPySpace x = true ∧ isPySpace y = true)) ∧
    (∀ c ∈ normalizeSpaceFn s, isPySpace c = true → c = ' ') ∧
    (normalizeSpaceFn s).filter (fun c => ¬ isPySpace c) = s.filter (fun c => ¬ isPySpace c) := by
  obtain ⟨h1, h2⟩ := normalizeSpace_words s
  have hw := separated_words h1
  rw [h2]
  refine ⟨?_, ?_, ?_, ?_, ?_⟩
  · intro c hc; simpa using spaced_head hw c hc
  · intro c hc; simpa using spaced_last hw c hc
  · intro a x y b h; exact spaced_adjacent hw a b x y h
  · have : ∀ l : List Str, (∀ w ∈ l, w ≠ [] ∧ ∀ c ∈ w, ¬ isPySpace c = true) →
        ∀ c ∈ Spec.spaced l, isPySpace c = true → c = ' ' := by
      intro l
      induction l with
      | nil => simp [Spec.spaced]
      | cons w l ih =>
        intro hl c hc hs
        have hww := hl w (by simp)
        cases l with
        | nil => simp only [Spec.spaced] at hc; exact absurd hs (hww.2 c hc)
        | cons v l =>
          simp only [Spec.spaced, List.mem_append, List.mem_cons] at hc
          rcases hc with hc | hc | hc
          · exact absurd hs (hww.2 c hc)
          · exact hc
          · exact ih (fun u hu => hl u (by simp [hu])) c hc hs
    exact this _ hw
  · rw [separated_filter (ws := fun c => isPySpace c = true) h1,
      separated_filter (ws := fun c => isPySpace c = true)
        (separated_spaced (ws := fun c => isPySpace c = true) (by decide) _ hw)]

/-- XML white space is white space in Python's sense, so `C25_shape` says in particular that the
result has no leading, trailing or adjacent XML white space. -/
example : (∀ c, Spec.WS c → isPySpace c = true) ∧ normalizeSpaceFn (s!! " a  b ") = s!! "a b" :=
  ⟨fun _ => ws_isPySpace, by decide⟩

/-- `normalize-space()` is idempotent. -/
theorem C25_idempotent (s : Str) : normalizeSpaceFn (normalizeSpaceFn s) = normalizeSpaceFn s := by
  obtain ⟨h1, h2⟩ := normalizeSpace_words s
  have h3 : splitWs (normalizeSpaceFn s) = splitWs s := by
    rw [h2]
    exact splitWs_of_separated (separated_spaced (by decide) _ (separated_words h1))
  rw [(normalizeSpace_words (normalizeSpaceFn s)).2, h3, ← h2]

example : normalizeSpaceFn (s!! "x  y") ≠ s!! "x  y" := by decide

/-- A no-break space is not XML white space, but the code removes it. -/
theorem C25_refuted : ¬ Spec.WS '\u00a0' ∧ normalizeSpaceFn ['a', '\u00a0', 'b'] = s!! "a b" := by decide

end Verif.XPath
