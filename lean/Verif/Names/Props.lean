import Verif.Write.Stream
import Verif.Names.Xmlstring
import Verif.Names.Spec

/-
C44, and C57: the tables are those of the XML recommendation.
-/
namespace Verif.Names
open Verif.Names.Spec

/-! Ranges as bits -/

/-- The number whose bits from `a` to `b` are set. -/
def rangeMask (ab : Nat × Nat) : Nat := (2 ^ (ab.2 + 1 - ab.1) - 1) <<< ab.1

def maskOf (rs : List (Nat × Nat)) : Nat := rs.foldr (fun r m => rangeMask r ||| m) 0

theorem testBit_maskOf (rs : List (Nat × Nat)) (c : Nat) : (maskOf rs).testBit c = true ↔ inClass c rs := by
  unfold inClass
  induction rs with
  | nil => simp [maskOf]
  | cons r rs ih =>
    have e : maskOf (r :: rs) = rangeMask r ||| maskOf rs := rfl
    rw [e, Nat.testBit_or, Bool.or_eq_true, ih]
    have hr : (rangeMask r).testBit c = true ↔ r.1 ≤ c ∧ c ≤ r.2 := by
      rw [rangeMask, Nat.testBit_shiftLeft, Nat.testBit_two_pow_sub_one]
      simp only [Bool.and_eq_true, decide_eq_true_eq]
      omega
    rw [hr]
    simp [or_and_right, exists_or]

/-- The number with the given bytes, the least significant first. -/
def bytesNat : List Nat → Nat
  | [] => 0
  | b :: bs => b + 256 * bytesNat bs

theorem testBit_bytesNat (bs : List Nat) (h : ∀ b ∈ bs, b < 256) (i : Nat) :
    (bytesNat bs).testBit i = (bs.getD (i / 8) 0).testBit (i % 8) := by
  induction bs generalizing i with
  | nil => simp [bytesNat]
  | cons b bs ih =>
    have hb := h b (by simp)
    have e : bytesNat (b :: bs) = 2 ^ 8 * bytesNat bs + b := by rw [bytesNat]; omega
    rw [e, Nat.testBit_two_pow_mul_add _ hb]
    by_cases hi : i < 8
    · rw [if_pos hi]
      have e1 : i / 8 = 0 := by omega
      have e2 : i % 8 = i := by omega
      rw [e1, e2]; rfl
    · rw [if_neg hi, ih (fun b hb => h b (by simp [hb]))]
      obtain ⟨j, rfl⟩ : ∃ j, i = j + 8 := ⟨i - 8, by omega⟩
      have e1 : (j + 8) / 8 = j / 8 + 1 := by omega
      rw [e1, Nat.add_sub_cancel, Nat.add_mod_right]
      simp

/-- The 32 bytes for a page of 256 characters. -/
def page (set : List Nat) (p : Nat) : List Nat := (set.drop (256 + (set.getD p 0) <<< 5)).take 32

/-- A table agrees with a list of ranges, page by page. -/
def agree (set : List Nat) (rs : List (Nat × Nat)) : Bool :=
  set.all (· < 256) &&
  (List.range 256).all fun p => bytesNat (page set p) == (maskOf rs >>> (256 * p)) % 2 ^ 256

theorem agree_test {set : List Nat} {rs : List (Nat × Nat)} (h : agree set rs = true) {c : Nat} (hc : c < 65536) :
    testCharset set c = true ↔ inClass c rs := by
  unfold agree at h
  rw [Bool.and_eq_true, List.all_eq_true, List.all_eq_true] at h
  obtain ⟨h1, h2⟩ := h
  have hp := h2 (c / 256) (List.mem_range.2 (by omega))
  rw [beq_iff_eq] at hp
  rw [← testBit_maskOf]
  have hbit : (maskOf rs).testBit c = (bytesNat (page set (c / 256))).testBit (c % 256) := by
    rw [hp, Nat.testBit_mod_two_pow, Nat.testBit_shiftRight]
    have e1 : decide (c % 256 < 256) = true := by simp; omega
    have e2 : 256 * (c / 256) + c % 256 = c := by omega
    rw [e1, e2]; rfl
  have hall : ∀ b ∈ page set (c / 256), b < 256 := by
    intro b hb
    have := List.mem_of_mem_drop (List.mem_of_mem_take hb)
    simpa using h1 b this
  rw [hbit, testBit_bytesNat _ hall]
  have hget : (page set (c / 256)).getD (c % 256 / 8) 0
      = set.getD (256 + ((set.getD (c >>> 8) 0) <<< 5) + ((c &&& 255) >>> 3)) 0 := by
    have e1 : c >>> 8 = c / 256 := by rw [Nat.shiftRight_eq_div_pow]
    have e2 : (c &&& 255) = c % 256 := Nat.and_two_pow_sub_one_eq_mod c 8
    have e3 : (c % 256) >>> 3 = c % 256 / 8 := by rw [Nat.shiftRight_eq_div_pow]
    rw [e1, e2, e3, page]
    simp only [List.getD_eq_getElem?_getD]
    rw [List.getElem?_take_of_lt (by omega), List.getElem?_drop]
  rw [hget]
  unfold testCharset
  generalize set.getD (256 + ((set.getD (c >>> 8) 0) <<< 5) + ((c &&& 255) >>> 3)) 0 = b
  have e4 : c &&& 7 = c % 8 := Nat.and_two_pow_sub_one_eq_mod c 3
  have e5 : c % 256 % 8 = c % 8 := by omega
  rw [e4, e5, bne_iff_ne, Nat.one_shiftLeft]
  generalize c % 8 = k
  constructor
  · intro hne
    cases hb : b.testBit k with
    | true => rfl
    | false =>
      exfalso
      apply hne
      apply Nat.eq_of_testBit_eq
      intro i
      rw [Nat.testBit_and, Nat.testBit_two_pow, Nat.zero_testBit]
      by_cases hk : k = i
      · subst hk; rw [hb]; rfl
      · simp [hk]
  · intro hb h0
    have := congrArg (Nat.testBit · k) h0
    simp only [Nat.testBit_and, Nat.testBit_two_pow, Nat.zero_testBit, hb] at this
    simp at this

def startRanges : List (Nat × Nat) := BaseChar ++ Ideographic ++ [(0x5F, 0x5F)]
def charRanges : List (Nat × Nat) :=
  BaseChar ++ Ideographic ++ CombiningChar ++ Digit ++ Extender ++ [(0x2D, 0x2E), (0x5F, 0x5F)]

theorem agree_NCNameStart : agree charset_NCNameStart startRanges = true := by decide +kernel
theorem agree_NCNameChar : agree charset_NCNameChar charRanges = true := by decide +kernel
theorem agree_NameStart : agree charset_NameStart ((0x3A, 0x3A) :: startRanges) = true := by decide +kernel
theorem agree_NameChar : agree charset_NameChar ((0x3A, 0x3A) :: charRanges) = true := by decide +kernel

theorem inClass_append (c : Nat) (r s : List (Nat × Nat)) : inClass c (r ++ s) ↔ inClass c r ∨ inClass c s := by
  unfold inClass
  simp only [List.mem_append, or_and_right, exists_or]

theorem inClass_cons (c a b : Nat) (s : List (Nat × Nat)) :
    inClass c ((a, b) :: s) ↔ (a ≤ c ∧ c ≤ b) ∨ inClass c s := by
  unfold inClass
  simp

theorem inClass_nil (c : Nat) : ¬ inClass c [] := by unfold inClass; simp

theorem start_iff (c : Nat) : inClass c startRanges ↔ NCNameStart c := by
  unfold startRanges NCNameStart Letter
  rw [inClass_append, inClass_append, inClass_cons]
  have hu : '_'.toNat = 0x5F := rfl
  rw [hu]
  have := inClass_nil c
  constructor
  · rintro (h | h)
    · exact Or.inl h
    · rcases h with h | h
      · exact Or.inr (by omega)
      · exact absurd h this
  · rintro (h | h)
    · exact Or.inl h
    · exact Or.inr (Or.inl (by omega))

theorem char_iff (c : Nat) : inClass c charRanges ↔ NCNameChar c := by
  unfold charRanges NCNameChar Letter Other
  simp only [inClass_append, inClass_cons]
  have hu : '_'.toNat = 0x5F := rfl
  have hd : '.'.toNat = 0x2E := rfl
  have hm : '-'.toNat = 0x2D := rfl
  rw [hu, hd, hm]
  have hn := inClass_nil c
  have e : ((0x2D ≤ c ∧ c ≤ 0x2E) ∨ (0x5F ≤ c ∧ c ≤ 0x5F) ∨ inClass c [])
      ↔ (c = 0x2E ∨ c = 0x2D ∨ c = 0x5F) := by
    constructor
    · rintro (h | h | h)
      · omega
      · omega
      · exact absurd h hn
    · intro h
      by_cases h1 : c = 0x5F
      · exact Or.inr (Or.inl (by omega))
      · exact Or.inl (by omega)
  rw [e]
  simp only [or_assoc]

theorem name_start_iff (c : Nat) : NameStart c ↔ c = 0x3A ∨ NCNameStart c := by
  unfold NameStart NCNameStart
  have hc : ':'.toNat = 0x3A := rfl
  rw [hc]
  constructor
  · rintro (h | h | h)
    · exact Or.inr (Or.inl h)
    · exact Or.inr (Or.inr h)
    · exact Or.inl h
  · rintro (h | h | h)
    · exact Or.inr (Or.inr h)
    · exact Or.inl h
    · exact Or.inr (Or.inl h)

theorem name_char_iff (c : Nat) : NameChar c ↔ c = 0x3A ∨ NCNameChar c := by
  unfold NameChar NCNameChar
  have hc : ':'.toNat = 0x3A := rfl
  rw [hc]
  constructor
  · rintro (h | h | h | h | h | h)
    · exact Or.inr (Or.inl h)
    · exact Or.inr (Or.inr (Or.inl h))
    · exact Or.inr (Or.inr (Or.inr (Or.inl h)))
    · exact Or.inr (Or.inr (Or.inr (Or.inr (Or.inl h))))
    · exact Or.inr (Or.inr (Or.inr (Or.inr (Or.inr h))))
    · exact Or.inl h
  · rintro (h | h | h | h | h | h)
    · exact Or.inr (Or.inr (Or.inr (Or.inr (Or.inr h))))
    · exact Or.inl h
    · exact Or.inr (Or.inl h)
    · exact Or.inr (Or.inr (Or.inl h))
    · exact Or.inr (Or.inr (Or.inr (Or.inl h)))
    · exact Or.inr (Or.inr (Or.inr (Or.inr (Or.inl h))))

/-- All the classes end below 65536. -/
def below64k (rs : List (Nat × Nat)) : Bool := rs.all fun r => r.2 < 65536

theorem inClass_lt {rs : List (Nat × Nat)} (h : below64k rs = true) {c : Nat} (hc : inClass c rs) : c < 65536 := by
  obtain ⟨r, hr, _, h2⟩ := hc
  have := List.all_eq_true.1 h r hr
  simp only [decide_eq_true_eq] at this
  omega

theorem match_iff {set : List Nat} {rs : List (Nat × Nat)} (h : agree set rs = true) (hb : below64k rs = true)
    (c : Nat) : matchCharset set c = true ↔ inClass c rs := by
  unfold matchCharset
  rw [Bool.and_eq_true, decide_eq_true_eq]
  constructor
  · rintro ⟨h1, h2⟩
    exact (agree_test h h1).1 h2
  · intro hc
    have h1 := inClass_lt hb hc
    exact ⟨h1, (agree_test h h1).2 hc⟩

/-! C57: the character classes -/

/-- C57: the character tables say of every character what the XML 1.0 (Appendix B) and the XML namespaces
recommendations say. -/
theorem C57_tables (c : Nat) :
    (isNCNameStart c = true ↔ NCNameStart c) ∧ (isNCNameChar c = true ↔ NCNameChar c) ∧
    (isNameStart c = true ↔ NameStart c) ∧ (isNameChar c = true ↔ NameChar c) := by
  refine ⟨?_, ?_, ?_, ?_⟩
  · rw [isNCNameStart, match_iff agree_NCNameStart (by decide +kernel), start_iff]
  · rw [isNCNameChar, match_iff agree_NCNameChar (by decide +kernel), char_iff]
  · rw [isNameStart, match_iff agree_NameStart (by decide +kernel), inClass_cons, start_iff, name_start_iff]
    rw [show (0x3A ≤ c ∧ c ≤ 0x3A) ↔ c = 0x3A by omega]
  · rw [isNameChar, match_iff agree_NameChar (by decide +kernel), inClass_cons, char_iff, name_char_iff]
    rw [show (0x3A ≤ c ∧ c ≤ 0x3A) ↔ c = 0x3A by omega]

example : isNameStart 0xAC00 = true ∧ isNameStart 0xD7A4 = false ∧ isNameChar 0xB7 = true
    ∧ isNameStart 0xB7 = false := by decide +kernel

theorem nstart (c : Nat) : isNCNameStart c = true ↔ NCNameStart c := (C57_tables c).1
theorem nchar (c : Nat) : isNCNameChar c = true ↔ NCNameChar c := (C57_tables c).2.1
theorem start (c : Nat) : isNameStart c = true ↔ NameStart c := (C57_tables c).2.2.1
theorem char (c : Nat) : isNameChar c = true ↔ NameChar c := (C57_tables c).2.2.2

/-! Names -/

theorem cstr_eq {s : List Nat} (h : 0 ∉ s) : cstr s = s := by
  unfold cstr
  induction s with
  | nil => rfl
  | cons c cs ih =>
    simp only [List.mem_cons, not_or] at h
    rw [List.takeWhile_cons, if_pos (by simpa using Ne.symm h.1), ih h.2]

theorem all_iff {f : Nat → Bool} {P : Nat → Prop} (h : ∀ c, f c = true ↔ P c) (cs : List Nat) :
    cs.all f = true ↔ ∀ x ∈ cs, P x := by
  rw [List.all_eq_true]
  exact ⟨fun a x hx => (h x).1 (a x hx), fun a x hx => (h x).2 (a x hx)⟩

/-- C57: `isname` accepts the names and no other string (without U+0000). -/
theorem C57_isname (s : List Nat) (h : 0 ∉ s) : isName s = true ↔ Name s := by
  unfold isName Name
  rw [cstr_eq h]
  cases s with
  | nil => simp
  | cons c cs =>
    dsimp only
    cases hc : isNameStart c with
    | false =>
      have : ¬ NameStart c := fun hn => by rw [(start c).2 hn] at hc; cases hc
      simp [this]
    | true =>
      have : NameStart c := (start c).1 hc
      simp only [Bool.not_true, Bool.false_eq_true, if_false]
      rw [all_iff char]
      constructor
      · exact fun hx => ⟨c, cs, rfl, this, hx⟩
      · rintro ⟨_, _, e, _, hx⟩
        injection e with e1 e2
        subst e2; exact hx

/-- C57: `isncname` accepts the names without a colon and no other string (without U+0000). -/
theorem C57_isncname (s : List Nat) (h : 0 ∉ s) : isNCName s = true ↔ NCName s := by
  unfold isNCName NCName
  rw [cstr_eq h]
  cases s with
  | nil => simp
  | cons c cs =>
    dsimp only
    cases hc : isNCNameStart c with
    | false =>
      have : ¬ NCNameStart c := fun hn => by rw [(nstart c).2 hn] at hc; cases hc
      simp [this]
    | true =>
      have : NCNameStart c := (nstart c).1 hc
      simp only [Bool.not_true, Bool.false_eq_true, if_false]
      rw [all_iff nchar]
      constructor
      · exact fun hx => ⟨c, cs, rfl, this, hx⟩
      · rintro ⟨_, _, e, _, hx⟩
        injection e with e1 e2
        subst e2; exact hx

theorem colon_not_nchar : ¬ NCNameChar ':'.toNat := by
  rw [← nchar]; decide +kernel

theorem space_not_char : ¬ NameChar 0x20 := by
  rw [← char]; decide +kernel

theorem start_char {c : Nat} (h : NCNameStart c) : NCNameChar c := by
  rcases h with h | h
  · exact Or.inl h
  · exact Or.inr (Or.inr (Or.inr (Or.inr h)))

theorem qnameLoop_iff (cs : List Nat) : qnameLoop cs = true ↔
    (∀ x ∈ cs, NCNameChar x) ∨ ∃ p l, cs = p ++ ':'.toNat :: l ∧ (∀ x ∈ p, NCNameChar x) ∧ NCName l := by
  induction cs with
  | nil => simp [qnameLoop]
  | cons c cs ih =>
    rw [qnameLoop.eq_def]
    dsimp only
    cases hc : isNCNameChar c with
    | true =>
      have hn : NCNameChar c := (nchar c).1 hc
      simp only [Bool.not_true, Bool.false_eq_true, if_false]
      rw [ih]
      constructor
      · rintro (h | ⟨p, l, e, h1, h2⟩)
        · left; intro x hx; rcases List.mem_cons.1 hx with rfl | hx
          · exact hn
          · exact h x hx
        · right
          refine ⟨c :: p, l, by rw [e]; rfl, ?_, h2⟩
          intro x hx; rcases List.mem_cons.1 hx with rfl | hx
          · exact hn
          · exact h1 x hx
      · rintro (h | ⟨p, l, e, h1, h2⟩)
        · left; exact fun x hx => h x (by simp [hx])
        · right
          cases p with
          | nil =>
            injection e with e1 _
            subst e1
            exact absurd hn colon_not_nchar
          | cons d ds =>
            injection e with e1 e2
            exact ⟨ds, l, e2, fun x hx => h1 x (by simp [hx]), h2⟩
    | false =>
      have hn : ¬ NCNameChar c := fun h => by rw [(nchar c).2 h] at hc; cases hc
      simp only [Bool.not_false, if_true]
      have hl : ¬ ∀ x ∈ c :: cs, NCNameChar x := fun h => hn (h c (by simp))
      by_cases hcol : c = ':'.toNat
      · rw [if_pos hcol]
        have hr : (∃ p l, c :: cs = p ++ ':'.toNat :: l ∧ (∀ x ∈ p, NCNameChar x) ∧ NCName l) ↔ NCName cs := by
          constructor
          · rintro ⟨p, l, e, h1, h2⟩
            cases p with
            | nil => injection e with _ e2; rw [e2]; exact h2
            | cons d ds =>
              injection e with e1 _
              exact absurd (e1 ▸ h1 d (by simp)) hn
          · intro h
            exact ⟨[], cs, by rw [hcol]; rfl, by simp, h⟩
        rw [hr]
        simp only [hl, false_or]
        cases cs with
        | nil => simp [NCName]
        | cons d ds =>
          dsimp only
          unfold NCName
          cases hd : isNCNameStart d with
          | false =>
            have : ¬ NCNameStart d := fun hn => by rw [(nstart d).2 hn] at hd; cases hd
            simp [this]
          | true =>
            have : NCNameStart d := (nstart d).1 hd
            simp only [Bool.not_true, Bool.false_eq_true, if_false]
            rw [all_iff nchar]
            constructor
            · exact fun hx => ⟨d, ds, rfl, this, hx⟩
            · rintro ⟨_, _, e, _, hx⟩
              injection e with e1 e2
              subst e2; exact hx
      · rw [if_neg hcol]
        simp only [hl, false_or, Bool.false_eq_true, false_iff]
        rintro ⟨p, l, e, h1, h2⟩
        cases p with
        | nil => injection e with e1 _; exact hcol e1
        | cons d ds => injection e with e1 _; exact hn (e1 ▸ h1 d (by simp))

/-- C57: `isqname` accepts the qualified names and no other string (without U+0000). -/
theorem C57_isqname (s : List Nat) (h : 0 ∉ s) : isQName s = true ↔ QName s := by
  unfold isQName QName
  rw [cstr_eq h]
  cases s with
  | nil =>
    simp only [Bool.false_eq_true, false_iff]
    rintro (⟨_, _, e, _⟩ | ⟨p, l, e, _⟩)
    · cases e
    · cases p <;> cases e
  | cons c cs =>
    dsimp only
    cases hc : isNCNameStart c with
    | false =>
      have hn : ¬ NCNameStart c := fun hn => by rw [(nstart c).2 hn] at hc; cases hc
      simp only [Bool.not_false, if_true, Bool.false_eq_true, false_iff]
      rintro (⟨_, _, e, h1, _⟩ | ⟨p, l, e, ⟨d, ds, e1, h1, _⟩, _⟩)
      · injection e with e1 _; exact hn (e1 ▸ h1)
      · subst e1; injection e with e1 _; exact hn (e1 ▸ h1)
    | true =>
      have hn : NCNameStart c := (nstart c).1 hc
      simp only [Bool.not_true, Bool.false_eq_true, if_false]
      rw [qnameLoop_iff]
      constructor
      · rintro (h | ⟨p, l, e, h1, h2⟩)
        · exact Or.inl ⟨c, cs, rfl, hn, h⟩
        · exact Or.inr ⟨c :: p, l, by rw [e]; rfl, ⟨c, p, rfl, hn, h1⟩, h2⟩
      · rintro (⟨_, _, e, h1, h2⟩ | ⟨p, l, e, ⟨d, ds, e1, h1, h3⟩, h2⟩)
        · injection e with _ e2; subst e2; exact Or.inl h2
        · subst e1; injection e with _ e2
          exact Or.inr ⟨ds, l, e2, h3, h2⟩

/-! Lists of names -/

theorem Names_iff (s : List Nat) :
    Names s ↔ Name s ∨ ∃ a b, s = a ++ 0x20 :: b ∧ Name a ∧ Names b := by
  constructor
  · intro h
    cases h with
    | one h => exact Or.inl h
    | more h ht => exact Or.inr ⟨_, _, rfl, h, ht⟩
  · rintro (h | ⟨a, b, rfl, h1, h2⟩)
    · exact .one h
    · exact .more h1 h2

theorem Name_cons (c : Nat) (cs : List Nat) : Name (c :: cs) ↔ NameStart c ∧ ∀ x ∈ cs, NameChar x := by
  constructor
  · rintro ⟨_, _, e, h1, h2⟩
    injection e with e1 e2
    subst e1; subst e2; exact ⟨h1, h2⟩
  · rintro ⟨h1, h2⟩; exact ⟨c, cs, rfl, h1, h2⟩

theorem namesLoop_iff (cs : List Nat) :
    (namesLoop true cs = true ↔ Names cs) ∧
    (namesLoop false cs = true ↔ (∀ x ∈ cs, NameChar x) ∨
      ∃ p l, cs = p ++ 0x20 :: l ∧ (∀ x ∈ p, NameChar x) ∧ Names l) := by
  induction cs with
  | nil =>
    constructor
    · simp only [namesLoop, Bool.false_eq_true, false_iff]
      rw [Names_iff]
      rintro (⟨_, _, e, _⟩ | ⟨a, b, e, _⟩)
      · cases e
      · cases a <;> cases e
    · simp [namesLoop]
  | cons c cs ih =>
    obtain ⟨ih1, ih2⟩ := ih
    constructor
    · rw [namesLoop, Names_iff, Name_cons]
      cases hc : isNameStart c with
      | false =>
        have hn : ¬ NameStart c := fun hn => by rw [(start c).2 hn] at hc; cases hc
        simp only [Bool.not_false, if_true, Bool.false_eq_true, false_iff]
        rintro (⟨h, _⟩ | ⟨a, b, e, h1, _⟩)
        · exact hn h
        · cases a with
          | nil => obtain ⟨_, _, e, _⟩ := h1; cases e
          | cons d ds => injection e with e1 _; subst e1; exact hn ((Name_cons _ _).1 h1).1
      | true =>
        have hn : NameStart c := (start c).1 hc
        simp only [Bool.not_true, Bool.false_eq_true, if_false]
        rw [ih2]
        constructor
        · rintro (h | ⟨p, l, e, h1, h2⟩)
          · exact Or.inl ⟨hn, h⟩
          · exact Or.inr ⟨c :: p, l, by rw [e]; rfl, (Name_cons _ _).2 ⟨hn, h1⟩, h2⟩
        · rintro (⟨_, h⟩ | ⟨a, b, e, h1, h2⟩)
          · exact Or.inl h
          · cases a with
            | nil => obtain ⟨_, _, e, _⟩ := h1; cases e
            | cons d ds =>
              injection e with e1 e2; subst e1
              exact Or.inr ⟨ds, b, e2, ((Name_cons _ _).1 h1).2, h2⟩
    · rw [namesLoop]
      by_cases hsp : c = 0x20
      · rw [if_pos hsp, ih1]
        constructor
        · intro h; exact Or.inr ⟨[], cs, by rw [hsp]; rfl, by simp, h⟩
        · rintro (h | ⟨p, l, e, h1, h2⟩)
          · exact absurd (hsp ▸ h c (by simp)) space_not_char
          · cases p with
            | nil => injection e with _ e2; rw [e2]; exact h2
            | cons d ds =>
              injection e with e1 _
              exact absurd (hsp ▸ e1 ▸ h1 d (by simp)) space_not_char
      · rw [if_neg hsp]
        cases hc : isNameChar c with
        | false =>
          have hn : ¬ NameChar c := fun hn => by rw [(char c).2 hn] at hc; cases hc
          simp only [Bool.not_false, if_true, Bool.false_eq_true, false_iff]
          rintro (h | ⟨p, l, e, h1, h2⟩)
          · exact hn (h c (by simp))
          · cases p with
            | nil => injection e with e1 _; exact hsp e1
            | cons d ds => injection e with e1 _; exact hn (e1 ▸ h1 d (by simp))
        | true =>
          have hn : NameChar c := (char c).1 hc
          simp only [Bool.not_true, Bool.false_eq_true, if_false]
          rw [ih2]
          constructor
          · rintro (h | ⟨p, l, e, h1, h2⟩)
            · left; intro x hx; rcases List.mem_cons.1 hx with rfl | hx
              · exact hn
              · exact h x hx
            · refine Or.inr ⟨c :: p, l, by rw [e]; rfl, ?_, h2⟩
              intro x hx; rcases List.mem_cons.1 hx with rfl | hx
              · exact hn
              · exact h1 x hx
          · rintro (h | ⟨p, l, e, h1, h2⟩)
            · left; exact fun x hx => h x (by simp [hx])
            · cases p with
              | nil => injection e with e1 _; exact absurd e1 hsp
              | cons d ds =>
                injection e with e1 e2
                exact Or.inr ⟨ds, l, e2, fun x hx => h1 x (by simp [hx]), h2⟩

/-- C57: the values accepted for an attribute declared as a list of names (IDREFS, ENTITIES) are the names
separated by single spaces, for values without U+0000. -/
theorem C57_isnames (s : List Nat) (h : 0 ∉ s) : isNames s = true ↔ Names s := by
  unfold isNames
  rw [cstr_eq h]
  exact (namesLoop_iff s).1

example : isNames (u!! "ab c:d e") = true ∧ isNames (u!! "ab  c") = false ∧ isNames (u!! "ab ") = false
    ∧ isQName (u!! "a:b-1") = true ∧ isQName (u!! "a:b:c") = false ∧ isQName (u!! "a:") = false
    ∧ isNCName (u!! "a:b") = false ∧ isName (u!! "a:b:") = true := by decide +kernel

/-- C57, part of it: every name token is accepted by `isnmtoken`; and what it accepts is a name token but for its
first character, which is not looked at.  Missing: the converse (see `C57_refuted_nmtoken`). -/
theorem C57_isnmtoken_partial (s : List Nat) (h : 0 ∉ s) :
    (Nmtoken s → isNmtoken s = true) ∧
    (isNmtoken s = true → ∃ c cs, s = c :: cs ∧ ∀ x ∈ cs, NameChar x) := by
  unfold isNmtoken Nmtoken
  rw [cstr_eq h]
  cases s with
  | nil => simp
  | cons c cs =>
    dsimp only
    rw [all_iff char]
    exact ⟨fun hx x hm => hx.2 x (by simp [hm]), fun hx => ⟨c, cs, rfl, hx⟩⟩

/-- C57 fails: `isnmtoken` takes `"<a"` and `" "` for name tokens. -/
theorem C57_refuted_nmtoken :
    isNmtoken (u!! "<a") = true ∧ isNmtoken (u!! " ") = true ∧ ¬ Nmtoken (u!! "<a") ∧ ¬ Nmtoken (u!! " ") := by
  refine ⟨by decide +kernel, by decide +kernel, ?_, ?_⟩
  · rintro ⟨_, h⟩
    have := h 0x3C (by decide)
    rw [← char] at this
    exact absurd this (by decide +kernel)
  · rintro ⟨_, h⟩
    exact space_not_char (h 0x20 (by decide))

/-- C57 fails: the answer for a string with a U+0000 in it is that for the part before. -/
theorem C57_refuted_nul :
    isName [0x61, 0, 0x3C] = true ∧ isNCName [0x61, 0, 0x3C] = true ∧ isQName [0x61, 0, 0x3C] = true
    ∧ ¬ Name [0x61, 0, 0x3C] := by
  refine ⟨by decide +kernel, by decide +kernel, by decide +kernel, ?_⟩
  rw [Name_cons]
  rintro ⟨_, h⟩
  have := h 0 (by decide)
  rw [← char] at this
  exact absurd this (by decide +kernel)

theorem nmtokensLoop_trailing (s : List Nat) (h : ∀ x ∈ s, NameChar x) :
    nmtokensLoop false (s ++ [0x20]) = none := by
  induction s with
  | nil => rfl
  | cons c cs ih =>
    have hc := h c (by simp)
    rw [List.cons_append, nmtokensLoop, if_neg, (char c).2 hc]
    · exact ih fun x hx => h x (by simp [hx])
    · rintro rfl; exact space_not_char hc

/-- C57 fails: for any name token followed by a space, the check of a value of type NMTOKENS reads what is in
memory behind the value. -/
theorem C57_refuted_overrun (s : List Nat) (h : Nmtoken s) (h0 : 0 ∉ s) : isNmtokens (s ++ [0x20]) = none := by
  unfold isNmtokens
  rw [cstr_eq (by simp [h0])]
  cases s with
  | nil => exact absurd rfl h.1
  | cons c cs =>
    show nmtokensLoop true (c :: (cs ++ [0x20])) = none
    rw [nmtokensLoop]
    exact nmtokensLoop_trailing cs fun x hx => h.2 x (by simp [hx])

example : Nmtoken (u!! "a") := by
  refine ⟨by decide, fun x hx => ?_⟩
  have : x = 0x61 := by simpa using hx
  subst this
  rw [← char]; decide +kernel

/-! C44: prefix and local name -/

theorem splitLoop_eq (b q : List Nat) :
    splitLoop b q = if ':'.toNat ∈ q then
        some (b.reverse ++ q.takeWhile (· ≠ ':'.toNat), (q.dropWhile (· ≠ ':'.toNat)).drop 1)
      else none := by
  induction q generalizing b with
  | nil => rfl
  | cons c cs ih =>
    rw [splitLoop]
    by_cases hc : c = ':'.toNat
    · subst hc; simp
    · rw [if_neg hc, ih, List.takeWhile_cons, List.dropWhile_cons]
      have : decide (c ≠ ':'.toNat) = true := by simpa using hc
      rw [this]
      by_cases hm : ':'.toNat ∈ cs
      · rw [if_pos hm, if_pos (List.mem_cons_of_mem _ hm)]
        simp
      · rw [if_neg hm, if_neg (fun h => (List.mem_cons.1 h).elim (fun e => hc e.symm) hm)]

theorem split_colon (p l : List Nat) (h : ':'.toNat ∉ p) : splitQName (p ++ ':'.toNat :: l) = (some p, l) := by
  have hall : ∀ x ∈ p, decide (x ≠ ':'.toNat) = true := by
    intro x hx; simp only [decide_eq_true_eq]; rintro rfl; exact h hx
  unfold splitQName
  rw [splitLoop_eq, if_pos (by simp), List.takeWhile_append_of_pos hall, List.dropWhile_append_of_pos hall]
  simp

theorem split_none (q : List Nat) (h : ':'.toNat ∉ q) : splitQName q = (none, q) := by
  unfold splitQName
  rw [splitLoop_eq, if_neg h]

/-- C44: splitting the name made of a prefix and a local name gives them back; the prefix is not empty and has no
colon. -/
theorem C44_split_make (p l : List Nat) (hp : p ≠ []) (hc : ':'.toNat ∉ p) :
    splitQName (makeQName (some p) l) = (some p, l) := by
  cases p with
  | nil => exact absurd rfl hp
  | cons c cs => exact split_colon _ l hc

/-- C44: and for a local name alone, without a colon. -/
theorem C44_split_make_none (l : List Nat) (hc : ':'.toNat ∉ l) :
    splitQName (makeQName none l) = (none, l) ∧ splitQName (makeQName (some []) l) = (none, l) :=
  ⟨split_none l hc, split_none l hc⟩

theorem split_cases (q : List Nat) :
    (':'.toNat ∉ q ∧ splitQName q = (none, q)) ∨
    ∃ p l, q = p ++ ':'.toNat :: l ∧ ':'.toNat ∉ p ∧ splitQName q = (some p, l) := by
  by_cases h : ':'.toNat ∈ q
  · obtain ⟨p, l, e, hp⟩ := List.eq_append_cons_of_mem h
    exact Or.inr ⟨p, l, e, hp, by rw [e]; exact split_colon p l hp⟩
  · exact Or.inl ⟨h, split_none q h⟩

/-- C44: putting the two parts of a name together gives the name, unless it begins with a colon. -/
theorem C44_make_split (q : List Nat) (h : q.head? ≠ some ':'.toNat) :
    makeQName (splitQName q).1 (splitQName q).2 = q := by
  rcases split_cases q with ⟨_, e⟩ | ⟨p, l, e, _, hs⟩
  · rw [e]; rfl
  · rw [hs]
    cases p with
    | nil => subst e; exact absurd rfl h
    | cons c cs => exact e.symm

/-- C44 fails for a name that begins with a colon: the colon is lost. -/
theorem C44_refuted_colon (l : List Nat) :
    makeQName (splitQName (':'.toNat :: l)).1 (splitQName (':'.toNat :: l)).2 = l := by
  rw [show ':'.toNat :: l = [] ++ ':'.toNat :: l from rfl, split_colon [] l (by simp)]
  rfl

theorem ncname_no_colon {s : List Nat} (h : NCName s) : ':'.toNat ∉ s := by
  obtain ⟨c, cs, rfl, h1, h2⟩ := h
  intro hm
  rcases List.mem_cons.1 hm with e | hm
  · exact colon_not_nchar (e ▸ start_char h1)
  · exact colon_not_nchar (h2 _ hm)

/-- C44: the parts of a qualified name are names without a colon, and it is the name made of them. -/
theorem C44_qname_parts (q : List Nat) (h : QName q) :
    NCName (splitQName q).2 ∧ (∀ p, (splitQName q).1 = some p → NCName p) ∧
    makeQName (splitQName q).1 (splitQName q).2 = q := by
  rcases h with h | ⟨p, l, e, hp, hl⟩
  · rw [split_none q (ncname_no_colon h)]
    exact ⟨h, fun p hp => (by cases hp), rfl⟩
  · subst e
    rw [split_colon p l (ncname_no_colon hp)]
    refine ⟨hl, fun p' hp' => (by cases hp'; exact hp), ?_⟩
    obtain ⟨c, cs, rfl, _⟩ := hp
    rfl

example : QName (u!! "xsl:if") ∧ splitQName (u!! "xsl:if") = (some (u!! "xsl"), u!! "if") := by
  refine ⟨?_, by decide +kernel⟩
  rw [← C57_isqname _ (by decide)]
  decide +kernel

end Verif.Names
