import Verif.Xslt.NumbersSpec
import Verif.XPath.FmtLemmas

/-
C37, C38 and C55.
-/
namespace Verif.Xslt
open Verif Verif.Xslt.Spec

/-! C37 -/

theorem labelValue_snoc (alphabet s : Str) (c : Char) : labelValue alphabet (s ++ [c]) =
    labelValue alphabet s * alphabet.length + (alphabet.idxOf c + 1) := by
  unfold labelValue; simp

theorem idxOf_get {alphabet : Str} (hn : alphabet.Nodup) {i : Nat} (hi : i < alphabet.length) :
    alphabet.idxOf alphabet[i] = i := by
  induction alphabet generalizing i with
  | nil => simp at hi
  | cons a as ih =>
    rw [List.nodup_cons] at hn
    cases i with
    | zero => simp
    | succ i =>
      have hi' : i < as.length := by simpa using hi
      have hne : a ≠ as[i] := fun h => hn.1 (h ▸ List.getElem_mem hi')
      have hb : (a == as[i]) = false := by simpa using hne
      simp [List.idxOf_cons, hb, ih hn.2 hi']

theorem alpha_label {alphabet : Str} (hn : alphabet.Nodup) (h1 : alphabet ≠ []) (fuel n : Nat) (hf : n ≤ fuel) (hp : 0 < n) :
    IsLabel alphabet (alphaLoop alphabet fuel n).reverse n := by
  have hl : 0 < alphabet.length := by cases alphabet <;> simp at h1 ⊢
  have hitem : ∀ m, 0 < m → m ≤ alphabet.length → IsLabel alphabet (item alphabet m).reverse m := by
    intro m hm hle
    match m, hm with
    | k + 1, _ =>
      have hk : k < alphabet.length := by omega
      simp only [item, List.getElem?_eq_getElem hk, Option.toList_some, List.reverse_singleton]
      refine ⟨fun c hc => ?_, ?_⟩
      · rw [List.mem_singleton] at hc; subst hc; exact List.getElem_mem hk
      · simp [labelValue, idxOf_get hn hk]
  induction fuel generalizing n with
  | zero => omega
  | succ fuel ih =>
    rw [alphaLoop]
    split
    · rename_i hgt
      have hr : (n - 1) % alphabet.length < alphabet.length := Nat.mod_lt _ hl
      have hq : 0 < (n - 1) / alphabet.length := Nat.div_pos (by omega) hl
      have hq2 : (n - 1) / alphabet.length ≤ fuel := by
        have := Nat.div_le_self (n - 1) alphabet.length
        omega
      obtain ⟨i1, i2⟩ := ih _ hq2 hq
      rw [List.getElem?_eq_getElem hr, Option.toList_some, List.reverse_append, List.reverse_singleton]
      refine ⟨fun c hc => ?_, ?_⟩
      · rcases List.mem_append.1 hc with hc | hc
        · exact i1 c hc
        · rw [List.mem_singleton] at hc; subst hc; exact List.getElem_mem hr
      · rw [labelValue_snoc, i2, idxOf_get hn hr]
        have := Nat.div_add_mod' (n - 1) alphabet.length
        omega
    · exact hitem n hp (by omega)

/-- There is only one label for a number. -/
theorem label_unique {alphabet : Str} {s t : Str} {n : Nat} (hs : IsLabel alphabet s n) (ht : IsLabel alphabet t n) : s = t := by
  obtain ⟨hs1, hs2⟩ := hs
  obtain ⟨ht1, ht2⟩ := ht
  have : ∀ k, ∀ s t : Str, s.length = k → (∀ c ∈ s, c ∈ alphabet) → (∀ c ∈ t, c ∈ alphabet) →
      labelValue alphabet s = labelValue alphabet t → s.reverse = t.reverse := by
    intro k
    induction k with
    | zero =>
      intro s t hk h1 h2 h3
      have : s = [] := List.length_eq_zero_iff.1 hk
      subst this
      rcases List.eq_nil_or_concat t with rfl | ⟨t', c, rfl⟩
      · rfl
      · rw [List.concat_eq_append, labelValue_snoc] at h3; simp [labelValue] at h3
    | succ k ih =>
      intro s t hk h1 h2 h3
      rcases List.eq_nil_or_concat s with rfl | ⟨s', c, rfl⟩
      · simp at hk
      rw [List.concat_eq_append] at h1 h3 hk ⊢
      rcases List.eq_nil_or_concat t with rfl | ⟨t', d, rfl⟩
      · rw [labelValue_snoc] at h3; simp [labelValue] at h3
      rw [List.concat_eq_append] at h2 h3 ⊢
      rw [labelValue_snoc, labelValue_snoc] at h3
      have hc : alphabet.idxOf c < alphabet.length := List.idxOf_lt_length_iff.2 (h1 c (by simp))
      have hd : alphabet.idxOf d < alphabet.length := List.idxOf_lt_length_iff.2 (h2 d (by simp))
      have e1 : labelValue alphabet s' * alphabet.length + alphabet.idxOf c =
          labelValue alphabet t' * alphabet.length + alphabet.idxOf d := by omega
      have e2 := congrArg (· % alphabet.length) e1
      have e3 := congrArg (· / alphabet.length) e1
      simp only [Nat.mul_add_mod_self_right, Nat.mod_eq_of_lt hc, Nat.mod_eq_of_lt hd] at e2
      rw [e2] at e1
      have e4 : labelValue alphabet s' = labelValue alphabet t' := Nat.eq_of_mul_eq_mul_right (by omega) (Nat.add_right_cancel e1)
      have e5 := ih s' t' (by simpa using hk) (fun x hx => h1 x (by simp [hx])) (fun x hx => h2 x (by simp [hx])) e4
      have e6 : c = d := by
        have a := List.getElem_idxOf hc
        have b := List.getElem_idxOf hd
        rw [← a, ← b]
        congr 1
      simp [e5, e6]
  have := this _ s t rfl hs1 ht1 (by rw [hs2, ht2])
  simpa using congrArg List.reverse this

theorem lower_nodup : asciiLower.Nodup ∧ asciiUpper.Nodup := by decide

/-- Missing: the letters are written in the wrong order (least significant first).  What is written for
the number is the label of the number, backwards. -/
theorem C37_backwards_partial {n : Nat} (hn : 0 < n) (up : Bool) :
    ∃ s, format_ n [if up then 'A' else 'a'] (s!! "alphabetic") false false = .ok s ∧
      IsLabel (if up then asciiUpper else asciiLower) s.reverse n := by
  cases up
  · exact ⟨alphaSequence n asciiLower, by simp [format_], alpha_label lower_nodup.1 (by decide) n n (Nat.le_refl _) hn⟩
  · exact ⟨alphaSequence n asciiUpper, by simp [format_], alpha_label lower_nodup.2 (by decide) n n (Nat.le_refl _) hn⟩

/-- So distinct numbers have distinct labels. -/
theorem C37_distinct {n m : Nat} (hn : 0 < n) (hm : 0 < m) (up : Bool) (lv : Str) (a b c d : Bool)
    (h : format_ n [if up then 'A' else 'a'] lv a b = format_ m [if up then 'A' else 'a'] lv c d) : n = m := by
  have key : ∀ alphabet : Str, alphabet.Nodup → alphabet ≠ [] → alphaSequence n alphabet = alphaSequence m alphabet → n = m := by
    intro al h1 h2 h3
    have hx := (alpha_label h1 h2 n n (Nat.le_refl _) hn).2
    have hy := (alpha_label h1 h2 m m (Nat.le_refl _) hm).2
    unfold alphaSequence at h3
    rw [h3] at hx
    exact hx.symm.trans hy
  cases up
  · exact key asciiLower lower_nodup.1 (by decide) (by simpa [format_] using h)
  · exact key asciiUpper lower_nodup.2 (by decide) (by simpa [format_] using h)

/-- Labels of one letter, and others that read the same backwards, are right. -/
theorem C37_palindrome_partial {n : Nat} (hn : 0 < n) {s : Str} (hs : IsLabel asciiLower s n) (hp : s.reverse = s) :
    format_ n ['a'] (s!! "alphabetic") false false = .ok s := by
  obtain ⟨t, h1, h2⟩ := C37_backwards_partial hn false
  have := label_unique hs h2
  rw [← hp] at this
  have ht : t = s := by simpa using (congrArg List.reverse this).symm
  rw [ht] at h1
  exact h1

example : IsLabel asciiLower (s!! "z") 26 ∧ IsLabel asciiLower (s!! "aba") 729 := by unfold IsLabel; decide

/-- The label of 28 is `ab`, but `ba` is written (en.py:33-36). -/
theorem C37_refuted : format_ 28 ['a'] (s!! "traditional") false false = .ok (s!! "ba") ∧
    IsLabel asciiLower (s!! "ab") 28 ∧ ¬ IsLabel asciiLower (s!! "ba") 28 := by
  unfold IsLabel; decide +kernel

/-! C38 -/

/-- Missing: all numbers but these.  The numerals from 2 to 9 are right. -/
theorem C38_roman_partial {n : Nat} (h : 2 ≤ n) (h9 : n ≤ 9) (sep grp : Bool) :
    format_ n ['I'] (s!! "traditional") sep grp = .ok (roman n) := by
  have : n = 2 ∨ n = 3 ∨ n = 4 ∨ n = 5 ∨ n = 6 ∨ n = 7 ∨ n = 8 ∨ n = 9 := by omega
  rcases this with rfl | rfl | rfl | rfl | rfl | rfl | rfl | rfl <;> cases sep <;> cases grp <;> decide +kernel

/-- 1 has no numeral at all (en.py:45 compares with `>`). -/
theorem C38_refuted_one (sep grp : Bool) : format_ 1 ['I'] (s!! "traditional") sep grp = .ok [] ∧ roman 1 = ['I'] := by
  cases sep <;> cases grp <;> decide +kernel

/-- Every number from 10 to 999999 raises IndexError, because the loop begins with the ones
(en.py:44-47). -/
theorem C38_refuted_ten {n : Nat} (h : 10 ≤ n) (hm : n < 1000000) (sep grp : Bool) (lower : Bool) {lv : Str}
    (hl : lv ≠ s!! "alphabetic") : format_ n [if lower then 'i' else 'I'] lv sep grp = .error .indexError := by
  have key : ∀ l, romanLoop (romanTable l) n = .error .indexError := by
    intro l
    unfold romanTable
    simp only [romanLoop]
    rw [if_pos (by omega), Nat.div_one, List.getElem?_eq_none (by simp [romanDigits]; omega)]
  have hr : 0 < n ∧ n < romanMax := ⟨by omega, hm⟩
  cases lower <;> simp [format_, hl, hr, key]

/-- Decimal numbers are written as they should be, padded with zeros to the width of the token. -/
theorem C38_decimal {n : Nat} {zeros : Nat} (lv : Str) :
    ∃ s, format_ n (List.replicate zeros '0' ++ ['1']) lv false false = .ok s ∧ IsPadded (zeros + 1) n s := by
  refine ⟨zeroPad (zeros + 1) n, ?_, ?_⟩
  · have h : ∀ c : Char, c ≠ '1' → List.replicate zeros '0' ++ ['1'] ≠ [c] := by
      intro c hc h
      cases zeros with
      | zero => simp at h; exact hc h.symm
      | succ k => simp [List.replicate_succ] at h
    have a1 := h 'I' (by decide)
    have a2 := h 'i' (by decide)
    have a3 := h 'A' (by decide)
    have a4 := h 'a' (by decide)
    unfold format_
    rw [if_neg (by rintro ⟨h | h, _⟩ <;> contradiction), if_neg (by rintro (h | h) <;> contradiction)]
    simp
  · obtain ⟨h1, h2, h3, h4⟩ := XPath.decimal_spec n
    have h5 : n = 0 → XPath.decimal n = ['0'] := by rintro rfl; decide +kernel
    unfold zeroPad
    generalize XPath.decimal n = d at *
    refine ⟨?_, ?_, ?_, ?_, ?_⟩
    · intro c hc
      rcases List.mem_append.1 hc with hc | hc
      · rw [List.mem_replicate] at hc; rw [hc.2]; unfold XPath.Spec.Digit; decide
      · exact h1 c hc
    · have : ∀ k, XPath.Spec.place (List.replicate k '0' ++ d) = XPath.Spec.place d := by
        intro k
        induction k with
        | zero => rfl
        | succ k ih => rw [List.replicate_succ, List.cons_append, XPath.Spec.place, ih]; simp
      rw [this, h3]
    · simp [h2]
    · simp; omega
    · intro hlt hz
      simp only [List.length_append, List.length_replicate] at hlt
      have : zeros + 1 - d.length = 0 := by omega
      rw [this, List.replicate_zero, List.nil_append] at hz ⊢
      have hn : n = 0 := by
        rcases Nat.eq_zero_or_pos n with h | h
        · exact h
        · exact absurd hz (h4 (by omega))
      exact h5 hn

example : format_ 7 (s!! "001") (s!! "traditional") false false = .ok (s!! "007") := by decide +kernel

/-- With `grouping-separator` and `grouping-size` decimal numbers raise NameError (en.py:63). -/
theorem C38_refuted_grouping (n : Nat) : format_ n ['1'] (s!! "traditional") true true = .error .nameError := by
  simp [format_]

/-- An unsupported token should be treated as `1`, but the number is padded to its length (en.py:58-61). -/
theorem C38_refuted_unsupported : format_ 5 (s!! "xyz") (s!! "traditional") false false = .ok (s!! "005") := by
  decide +kernel

/-! C55 -/

theorem takeWhile_all {p : Char → Bool} {a r : Str} (ha : ∀ c ∈ a, p c = true) (hr : ∀ c, r.head? = some c → p c = false) :
    (a ++ r).takeWhile p = a ∧ (a ++ r).dropWhile p = r := by
  induction a with
  | nil =>
    cases r with
    | nil => simp
    | cons c r => simp [hr c rfl]
  | cons c a ih =>
    have := ih (fun x hx => ha x (by simp [hx]))
    simp [ha c (by simp), this]

theorem splits_head {w : Char → Bool} {r : Str} {ts ss : List Str} {q : Str} (h : Splits w r ts ss q) :
    ∃ c r', r = c :: r' ∧ w c = true := by
  cases h with
  | @last t q ht hw _ => 
    match t, ht with
    | c :: t, _ => exact ⟨c, _, rfl, hw c (by simp)⟩
  | @more t s r q ts ss ht hw _ _ _ => 
    match t, ht with
    | c :: t, _ => exact ⟨c, _, rfl, hw c (by simp)⟩

/-- What the regular expression finds, from the second part on. -/
theorem findall_splits {w : Char → Bool} {r : Str} {ts ss : List Str} {q : Str} (h : Splits w r ts ss q) :
    ∀ fuel, r.length ≤ fuel → ∀ p : Str, (∀ c ∈ p, w c = false) → p.length + r.length ≤ fuel →
    ∃ t s parts, findall w fuel (p ++ r) = (p, t, s) :: parts ∧ ts = t :: (collect s parts).1 ∧
      ss = (collect s parts).2.1 ∧ q = (collect s parts).2.2 := by
  induction h with
  | @last t q ht hw hq =>
    intro fuel hf p hp hl
    have h1 := takeWhile_all (p := fun c => !w c) (a := p) (r := t ++ q) (fun c hc => by simp [hp c hc])
      (fun c hc => by
        match t, ht with
        | d :: t, _ => cases hc; simp [hw _ (List.mem_cons_self ..)])
    have h2 := takeWhile_all (p := w) (a := t) (r := q) hw (fun c hc => hq c (List.mem_of_mem_head? hc))
    have h3 := takeWhile_all (p := fun c => !w c) (a := q) (r := []) (fun c hc => by simp [hq c hc]) (by simp)
    rw [List.append_nil] at h3
    match fuel with
    | 0 => exact absurd hf (by have := List.length_pos_iff.2 ht; rw [List.length_append]; omega)
    | fuel + 1 =>
      simp only [findall, h1.1, h1.2, h2.1, h2.2, h3.1, h3.2, ht, if_false]
      refine ⟨t, q, _, rfl, ?_, ?_, ?_⟩ <;> cases fuel <;> simp [findall, collect]
  | @more t s r q ts ss ht hw hs hws hr ih =>
    intro fuel hf p hp hl
    have h1 := takeWhile_all (p := fun c => !w c) (a := p) (r := t ++ (s ++ r)) (fun c hc => by simp [hp c hc])
      (fun c hc => by
        match t, ht with
        | d :: t, _ => cases hc; simp [hw _ (List.mem_cons_self ..)])
    have h2 := takeWhile_all (p := w) (a := t) (r := s ++ r) hw (fun c hc => by
        match s, hs with
        | d :: s, _ => cases hc; exact hws _ (List.mem_cons_self ..))
    have h3 := takeWhile_all (p := fun c => !w c) (a := s) (r := r) (fun c hc => by simp [hws c hc]) (fun c hc => by
        obtain ⟨d, r', rfl, hd⟩ := splits_head hr
        cases hc; simp [hd])
    match fuel with
    | 0 => exact absurd hf (by have := List.length_pos_iff.2 ht; rw [List.length_append]; omega)
    | fuel + 1 =>
      have hlt : 0 < t.length := List.length_pos_iff.2 ht
      simp only [List.length_append] at hl hf
      obtain ⟨t', s', parts, i1, i2, i3, i4⟩ := ih fuel (by omega) [] (by simp) (by simp; omega)
      rw [List.nil_append] at i1
      simp only [findall, h1.1, h1.2, h2.1, h2.2, h3.1, h3.2, ht, if_false, i1]
      refine ⟨t, s, _, rfl, ?_, ?_, ?_⟩
      · simp [collect, i2]
      · simp [collect, i3]
      · simp [collect, i4]

/-- The fields of a formatter. -/
theorem newFormatter_of {w : Char → Bool} {format p : Str} {toks seps : List Str} {q : Str}
    (h : IsFormat w format p toks seps q) :
    newFormatter w format = ⟨p, toks, if seps = [] then [['.']] else seps, q⟩ := by
  obtain ⟨r, rfl, hp, hs⟩ := h
  obtain ⟨c, r', rfl, hc⟩ := splits_head hs
  obtain ⟨t, s, parts, h1, rfl, rfl, rfl⟩ := findall_splits hs (p ++ c :: r').length (by simp) p hp (by simp)
  unfold newFormatter
  rw [if_neg (by simp)]
  simp only [h1]
  cases parts with
  | nil => simp [collect]
  | cons x parts =>
    obtain ⟨a, b, d⟩ := x
    simp [collect]

theorem advance_drop (l : List Str) (i : Nat) (hi : i < l.length) :
    advance (l.drop (min i (l.length - 1))) = l.drop (min (i + 1) (l.length - 1)) := by
  rw [Nat.min_eq_left (by omega)]
  by_cases h : i + 1 < l.length
  · rw [Nat.min_eq_left (by omega), List.drop_eq_getElem_cons hi, List.drop_eq_getElem_cons h]; rfl
  · rw [Nat.min_eq_right (by omega), List.drop_eq_getElem_cons hi, List.drop_eq_nil_of_le (by omega)]
    have : l.length - 1 = i := by omega
    rw [this, List.drop_eq_getElem_cons hi, List.drop_eq_nil_of_le (by omega)]; rfl

theorem advance_min (l : List Str) (hl : l ≠ []) (i : Nat) :
    advance (l.drop (min i (l.length - 1))) = l.drop (min (i + 1) (l.length - 1)) := by
  have hp := List.length_pos_iff.2 hl
  by_cases h : i < l.length
  · exact advance_drop l i h
  · have := advance_drop l (l.length - 1) (by omega)
    rw [Nat.min_self, show l.length - 1 + 1 = l.length by omega, Nat.min_eq_right (by omega)] at this
    rw [Nat.min_eq_right (by omega), Nat.min_eq_right (by omega)]
    exact this

theorem headD_drop (l : List Str) (i : Nat) (d : Str) (hl : l ≠ []) :
    (l.drop (min i (l.length - 1))).headD [] = (l[min i (l.length - 1)]?).getD d := by
  have hp := List.length_pos_iff.2 hl
  have h : min i (l.length - 1) < l.length := by omega
  rw [List.drop_eq_getElem_cons h, List.getElem?_eq_getElem h]; rfl

theorem pieces_of {toks seps : List Str} (ht : toks ≠ []) {f : Nat → Str → Except Exc Str} {conv : Nat → Str → Str} :
    ∀ (ns : List Nat) (i : Nat), (∀ n ∈ ns, ∀ t ∈ toks, f n t = .ok (conv n t)) →
    piecesLoop f ns (toks.drop (min i (toks.length - 1)))
      ((if seps = [] then [['.']] else seps).drop (min i ((if seps = [] then [['.']] else seps).length - 1))) =
      .ok (joinFrom toks seps conv i ns) := by
  intro ns
  induction ns with
  | nil => intro i _; rfl
  | cons n ns ih =>
    intro i hf
    have hs : (if seps = [] then [['.']] else seps) ≠ [] := by split <;> simp_all
    have hp := List.length_pos_iff.2 ht
    have htok : (toks.drop (min i (toks.length - 1))).headD [] = tokenAt toks i := headD_drop toks i [] ht
    have hmem : tokenAt toks i ∈ toks := by
      unfold tokenAt
      rw [List.getElem?_eq_getElem (by omega)]
      exact List.getElem_mem _
    have hsep : ((if seps = [] then [['.']] else seps).drop (min i ((if seps = [] then [['.']] else seps).length - 1))).headD [] =
        sepAt seps i := by
      rw [headD_drop _ i ['.'] hs]
      unfold sepAt
      split
      · rename_i h; subst h; simp
      · rfl
    have ih' := ih (i + 1) (fun m hm => hf m (by simp [hm]))
    rw [← advance_min _ ht, ← advance_min _ hs] at ih'
    cases ns with
    | nil => simp only [piecesLoop, htok, hf n (by simp) _ hmem, joinFrom]
    | cons m ns =>
      rw [piecesLoop, htok, hf n (by simp) _ hmem]
      dsimp only
      rw [ih', hsep]
      simp [joinFrom]

/-- A list of numbers is formatted as XSLT says: between the prefix and the suffix of the format string,
each number by its token, with the separators between them; the last token and the last separator are
used again for further numbers.  `conv` is how a number is written with a token. -/
theorem C55_formatmany {w : Char → Bool} {format p : Str} {toks seps : List Str} {q : Str}
    (h : IsFormat w format p toks seps q) {f : Nat → Str → Except Exc Str} {conv : Nat → Str → Str} {numbers : List Nat}
    (hne : numbers ≠ []) (hf : ∀ n ∈ numbers, ∀ t ∈ toks, f n t = .ok (conv n t)) :
    formatmany (newFormatter w format) f numbers = .ok (p ++ joinFrom toks seps conv 0 numbers ++ q) := by
  rw [newFormatter_of h]
  have ht : toks ≠ [] := by
    obtain ⟨r, _, _, hs⟩ := h
    cases hs <;> simp
  have := pieces_of (seps := seps) ht numbers 0 hf
  simp only [Nat.zero_min, List.drop_zero] at this
  unfold formatmany
  match numbers, hne with
  | n :: ns, _ => simp only [this]; rfl

/-- A single number, in the same way. -/
theorem C55_format {w : Char → Bool} {format p : Str} {toks seps : List Str} {q : Str}
    (h : IsFormat w format p toks seps q) {f : Nat → Str → Except Exc Str} {conv : Nat → Str → Str} {n : Nat}
    (hf : ∀ t ∈ toks, f n t = .ok (conv n t)) :
    formatOne (newFormatter w format) f n = .ok (p ++ conv n (tokenAt toks 0) ++ q) := by
  rw [newFormatter_of h]
  have ht : toks ≠ [] := by
    obtain ⟨r, _, _, hs⟩ := h
    cases hs <;> simp
  match toks, ht with
  | t :: ts, _ =>
    have := hf t (by simp)
    simp [formatOne, this, Except.map, tokenAt]

/-- Every format string with a word character can be split, and only in one way. -/
theorem C55_split {w : Char → Bool} {format : Str} (h : ∃ c ∈ format, w c = true) :
    ∃ p toks seps q, IsFormat w format p toks seps q ∧
      ∀ p' toks' seps' q', IsFormat w format p' toks' seps' q' → p' = p ∧ toks' = toks ∧ seps' = seps ∧ q' = q := by
  have hex : ∀ k, ∀ r : Str, r.length ≤ k → (∃ c r', r = c :: r' ∧ w c = true) → ∃ toks seps q, Splits w r toks seps q := by
    intro k
    induction k with
    | zero => rintro r hr ⟨c, r', rfl, _⟩; simp at hr
    | succ k ih =>
      rintro r hr ⟨c, r', rfl, hc⟩
      have e1 : c :: r' = (c :: r').takeWhile w ++ (c :: r').dropWhile w := List.takeWhile_append_dropWhile.symm
      have ht : (c :: r').takeWhile w ≠ [] := by simp [hc]
      have hw : ∀ x ∈ (c :: r').takeWhile w, w x = true := fun x hx => List.all_eq_true.1 List.all_takeWhile x hx
      have hlen : ((c :: r').dropWhile w).length ≤ k := by
        simp only [List.dropWhile_cons, hc, if_true]
        have := (List.dropWhile_suffix (l := r') w).length_le
        simp at hr; omega
      generalize (c :: r').takeWhile w = t at *
      have hd : ∀ x, ((c :: r').dropWhile w).head? = some x → w x = false := by
        intro x hx
        have := List.head?_dropWhile_not w (c :: r')
        rw [hx] at this
        simpa using this
      generalize (c :: r').dropWhile w = d at *
      have e2 : d = d.takeWhile (!w ·) ++ d.dropWhile (!w ·) := List.takeWhile_append_dropWhile.symm
      have hw2 : ∀ x ∈ d.takeWhile (!w ·), w x = false := fun x hx => by
        have := List.all_eq_true.1 (List.all_takeWhile (p := (!w ·))) x hx
        simpa using this
      have hd2 : ∀ x, (d.dropWhile (!w ·)).head? = some x → w x = true := by
        intro x hx
        have := List.head?_dropWhile_not (!w ·) d
        rw [hx] at this
        simpa using this
      have hs : d ≠ [] → d.takeWhile (!w ·) ≠ [] := by
        intro h
        match d, h with
        | x :: d, _ => simp [hd x rfl]
      have hlen2 : (d.dropWhile (!w ·)).length ≤ k := Nat.le_trans (List.dropWhile_suffix _).length_le hlen
      generalize d.takeWhile (!w ·) = s at *
      generalize d.dropWhile (!w ·) = r2 at *
      rw [e1]
      cases r2 with
      | nil =>
        rw [List.append_nil] at e2
        subst e2
        exact ⟨_, _, _, .last ht hw hw2⟩
      | cons x r2 =>
        obtain ⟨ts, ss, q, hsp⟩ := ih (x :: r2) hlen2 ⟨x, r2, rfl, hd2 x rfl⟩
        rw [e2]
        exact ⟨_, _, _, .more ht hw (hs (by rw [e2]; simp)) hw2 hsp⟩
  have hfirst : ∃ p r, format = p ++ r ∧ (∀ c ∈ p, w c = false) ∧ ∃ c r', r = c :: r' ∧ w c = true := by
    clear hex
    induction format with
    | nil => simp at h
    | cons x f ih =>
      cases hx : w x with
      | true => exact ⟨[], _, rfl, by simp, x, f, rfl, hx⟩
      | false =>
        obtain ⟨c, hc, hwc⟩ := h
        have : c ∈ f := by
          rcases List.mem_cons.1 hc with rfl | h
          · rw [hx] at hwc; cases hwc
          · exact h
        obtain ⟨p, r, rfl, h2, h3⟩ := ih ⟨c, this, hwc⟩
        exact ⟨x :: p, r, rfl, by simpa [hx] using h2, h3⟩
  obtain ⟨p, r, e, hp, hr⟩ := hfirst
  obtain ⟨toks, seps, q, hs⟩ := hex r.length r (Nat.le_refl _) hr
  have hfmt : IsFormat w format p toks seps q := ⟨r, e, hp, hs⟩
  refine ⟨p, toks, seps, q, hfmt, ?_⟩
  intro p' toks' seps' q' h'
  have a := newFormatter_of hfmt
  have b := newFormatter_of h'
  rw [a] at b
  injection b with b1 b2 b3 b4
  refine ⟨b1.symm, b2.symm, ?_, b4.symm⟩
  have hcount : ∀ {r ts ss q}, Splits w r ts ss q → ts.length = ss.length + 1 := by
    intro r ts ss q h
    induction h with
    | last => rfl
    | more _ _ _ _ _ ih => simp [ih]
  obtain ⟨_, _, _, hs'⟩ := h'
  have c1 := hcount hs
  have c2 := hcount hs'
  rw [b2] at c1
  have hlen : seps.length = seps'.length := by omega
  match seps, seps', hlen with
  | [], [], _ => rfl
  | x :: xs, y :: ys, _ => simpa using b3.symm

/-- The format `(1.a-i)` with five numbers. -/
example : IsFormat Char.isAlphanum (s!! "(1.a-001)") ['('] [['1'], ['a'], s!! "001"] [['.'], ['-']] [')'] ∧
    formatmany (newFormatter Char.isAlphanum (s!! "(1.a-001)")) (fun n t => format_ n t [] false false) [1, 2, 3, 4, 5] =
      .ok (s!! "(1.b-003-004-005)") := by
  refine ⟨⟨s!! "1.a-001)", rfl, by decide, ?_⟩, by decide +kernel⟩
  exact .more (t := ['1']) (s := ['.']) (by decide) (by decide) (by decide) (by decide)
    (.more (t := ['a']) (s := ['-']) (by decide) (by decide) (by decide) (by decide)
      (.last (t := s!! "001") (q := [')']) (by decide) (by decide) (by decide)))

/-- Without any number only the suffix is written, but not the prefix (__init__.py:111, 118). -/
theorem C55_refuted_empty : formatmany (newFormatter Char.isAlphanum (s!! "(1)")) (fun n t => format_ n t [] false false) [] =
    .ok (s!! ")") := by decide +kernel

end Verif.Xslt
