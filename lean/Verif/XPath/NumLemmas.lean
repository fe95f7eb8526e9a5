import Verif.XPath.NumSpec

namespace Verif.XPath
open Verif

/-! ### decimal -/

theorem isDigit_iff {c : Char} : isDigit c = true ↔ Spec.Digit c := by
  unfold isDigit Spec.Digit
  simp only [Bool.and_eq_true, decide_eq_true_eq, Char.le_def, UInt32.le_iff_toNat_le]
  exact Iff.rfl

theorem isWs_iff {c : Char} : isWs c = true ↔ Spec.Space c := by
  unfold isWs Spec.Space; simp; grind

theorem digitsVal_aux (s : Str) (n : Nat) :
    s.foldl (fun n c => 10 * n + (c.toNat - '0'.toNat)) n = n * 10 ^ s.length + Spec.place s := by
  induction s generalizing n with
  | nil => simp [Spec.place]
  | cons c cs ih =>
    simp only [List.foldl_cons, ih, Spec.place, List.length_cons]
    have : '0'.toNat = 48 := rfl
    rw [this, Nat.pow_succ, Nat.add_mul]
    have h : 10 * n * 10 ^ cs.length = n * (10 ^ cs.length * 10) := by
      rw [Nat.mul_comm 10 n, Nat.mul_assoc, Nat.mul_comm 10]
    omega

theorem digitsVal_eq (s : Str) : digitsVal s = Spec.place s := by
  unfold digitsVal; rw [digitsVal_aux]; simp

theorem place_append (a b : Str) : Spec.place (a ++ b) = Spec.place a * 10 ^ b.length + Spec.place b := by
  induction a with
  | nil => simp [Spec.place]
  | cons c cs ih =>
    simp only [List.cons_append, Spec.place, ih, List.length_append]
    rw [Nat.pow_add, Nat.add_mul, Nat.mul_assoc]; omega

theorem digitChar_toNat {n : Nat} (h : n < 10) : (digitChar n).toNat = 48 + n := by
  have : n = 0 ∨ n = 1 ∨ n = 2 ∨ n = 3 ∨ n = 4 ∨ n = 5 ∨ n = 6 ∨ n = 7 ∨ n = 8 ∨ n = 9 := by omega
  rcases this with h|h|h|h|h|h|h|h|h|h <;> subst h <;> decide

theorem decAux_spec (fuel n : Nat) (h : n < fuel) :
    (∀ c ∈ decAux fuel n, Spec.Digit c) ∧ decAux fuel n ≠ [] ∧
      Spec.place (decAux fuel n) = n ∧ (n ≠ 0 → (decAux fuel n).head? ≠ some '0') := by
  induction fuel generalizing n with
  | zero => omega
  | succ fuel ih =>
    unfold decAux
    by_cases hn : n < 10
    · rw [if_pos hn]
      have := digitChar_toNat hn
      refine ⟨?_, by simp, ?_, ?_⟩
      · intro c hc; simp at hc; subst hc; unfold Spec.Digit; omega
      · simp [Spec.place, this]
      · intro h0 h1
        simp at h1
        rw [h1] at this
        have e : '0'.toNat = 48 := rfl
        omega
    · rw [if_neg hn]
      have hd := digitChar_toNat (n := n % 10) (by omega)
      obtain ⟨h1, h2, h3, h4⟩ := ih (n / 10) (by omega)
      refine ⟨?_, by simp, ?_, ?_⟩
      · intro c hc
        simp at hc
        rcases hc with hc | hc
        · exact h1 c hc
        · subst hc; unfold Spec.Digit; omega
      · rw [place_append, h3]
        simp [Spec.place, hd]; omega
      · intro _
        have := h4 (by omega)
        cases hx : decAux fuel (n / 10) with
        | nil => exact absurd hx h2
        | cons a l => rw [hx] at this; simpa using this

theorem decimalInt_isDecimal (n : Int) : Spec.IsDecimal n (decimalInt n) := by
  obtain ⟨h1, h2, h3, h4⟩ := decAux_spec (n.natAbs + 1) n.natAbs (by omega)
  refine ⟨decimal n.natAbs, h1, h2, ?_, h3, rfl⟩
  intro hz
  by_cases h0 : n.natAbs = 0
  · rw [h0]; decide
  · exact absurd hz (h4 h0)

/-! ### parsing -/

theorem dropWhile_append_all {α} (p : α → Bool) (a b : List α) (h : ∀ c ∈ a, p c = true) :
    (a ++ b).dropWhile p = b.dropWhile p := by
  induction a with
  | nil => rfl
  | cons x xs ih => simp [h x (by simp), ih (fun c hc => h c (by simp [hc]))]

theorem takeWhile_append_all {α} (p : α → Bool) (a b : List α) (h : ∀ c ∈ a, p c = true) :
    (a ++ b).takeWhile p = a ++ b.takeWhile p := by
  induction a with
  | nil => rfl
  | cons x xs ih => simp [h x (by simp), ih (fun c hc => h c (by simp [hc]))]

theorem dropWhile_head {α} (p : α → Bool) (b : List α) (h : ∀ c, b.head? = some c → p c = false) :
    b.dropWhile p = b := by
  cases b with
  | nil => rfl
  | cons x xs => simp [h x rfl]

theorem takeWhile_head {α} (p : α → Bool) (b : List α) (h : ∀ c, b.head? = some c → p c = false) :
    b.takeWhile p = [] := by
  cases b with
  | nil => rfl
  | cons x xs => simp [List.takeWhile, h x rfl]

theorem dropWhile_head_false {α} (p : α → Bool) (b : List α) (c : α)
    (h : (b.dropWhile p).head? = some c) : p c = false := by
  induction b with
  | nil => simp at h
  | cons x xs ih =>
    rw [List.dropWhile_cons] at h
    split at h
    · exact ih h
    · simp at h; subst h; simpa using ‹¬ p x = true›

theorem takeWhile_all {α} (p : α → Bool) (b : List α) : ∀ c ∈ b.takeWhile p, p c = true := by
  induction b with
  | nil => simp
  | cons x xs ih =>
    rw [List.takeWhile_cons]
    split
    · intro c hc
      simp at hc
      rcases hc with hc | hc
      · subst hc; assumption
      · exact ih c hc
    · simp

/-- The four parts into which the scanner cuts a string: white space, sign, digits, point and
digits, white space, rest. -/
structure Parts where
  w1 : Str
  neg : Bool
  ip : Str
  dot : Bool
  fp : Str
  w2 : Str
  rest : Str

def Parts.str (p : Parts) : Str :=
  p.w1 ++ ((if p.neg then ['-'] else []) ++ (p.ip ++ ((if p.dot then '.' :: p.fp else []) ++ (p.w2 ++ p.rest))))

structure Parts.OK (p : Parts) : Prop where
  w1 : ∀ c ∈ p.w1, isWs c = true
  ip : ∀ c ∈ p.ip, isDigit c = true
  fp : ∀ c ∈ p.fp, isDigit c = true
  w2 : ∀ c ∈ p.w2, isWs c = true
  nodot : p.dot = false → p.fp = []
  rest : ∀ c, p.rest.head? = some c → isWs c = false
  /-- what follows the (possibly missing) digits -/
  max : p.w2 = [] → ∀ c, p.rest.head? = some c → isDigit c = false ∧ (p.dot = false → c ≠ '.')
  sign : p.w2 = [] → p.ip = [] → p.dot = false → p.neg = false → p.rest.head? ≠ some '-'
  /-- a string of white space only is all in `w1` -/
  blank : p.neg = false → p.ip = [] → p.dot = false → p.w2 = []

theorem ws_not_digit {c : Char} (h : isWs c = true) : isDigit c = false := by
  unfold isWs at h; simp at h; rcases h with ((h | h) | h) | h <;> subst h <;> decide
theorem ws_ne_dot {c : Char} (h : isWs c = true) : c ≠ '.' := by
  intro hc; subst hc; revert h; decide
theorem ws_ne_minus {c : Char} (h : isWs c = true) : c ≠ '-' := by
  intro hc; subst hc; revert h; decide
theorem digit_not_ws {c : Char} (h : isDigit c = true) : isWs c = false := by
  cases hw : isWs c
  · rfl
  · rw [ws_not_digit hw] at h; cases h
theorem digit_ne_dot {c : Char} (h : isDigit c = true) : c ≠ '.' := by
  intro hc; subst hc; revert h; decide
theorem digit_ne_minus {c : Char} (h : isDigit c = true) : c ≠ '-' := by
  intro hc; subst hc; revert h; decide

/-- The steps of the scanner, shared by `scanNumber` and `pyFloat`. -/
theorem scan_parts (p : Parts) (h : p.OK) :
    ∃ a b c d : Str,
      p.str.dropWhile isWs = a ∧
      (a = if p.neg then '-' :: b else b) ∧ (p.neg = false → b.head? ≠ some '-') ∧
      b.takeWhile isDigit = p.ip ∧ b.dropWhile isDigit = c ∧
      (c = if p.dot then '.' :: d else d) ∧ (p.dot = false → c.head? ≠ some '.') ∧
      (p.dot = true → d.takeWhile isDigit = p.fp ∧ d.dropWhile isDigit = p.w2 ++ p.rest) ∧
      (p.dot = false → c = p.w2 ++ p.rest) ∧
      (p.w2 ++ p.rest).dropWhile isWs = p.rest := by
  obtain ⟨w1, neg, ip, dot, fp, w2, rest⟩ := p
  obtain ⟨hw1, hip, hfp, hw2, hnd, hrest, hmax, hsign, hblank⟩ := h
  simp only at *
  -- the head of what follows the point and digits
  have htail : ∀ c, (w2 ++ rest).head? = some c → isDigit c = false ∧ (dot = false → c ≠ '.') := by
    intro c hc
    cases w2 with
    | nil => exact hmax rfl c hc
    | cons x xs =>
      simp at hc; subst hc
      have := hw2 x (by simp)
      exact ⟨ws_not_digit this, fun _ => ws_ne_dot this⟩
  let d : Str := fp ++ (w2 ++ rest)
  let c : Str := if dot then '.' :: d else d
  let b : Str := ip ++ c
  have hc : (if dot then '.' :: fp else []) ++ (w2 ++ rest) = c := by
    cases dot with
    | true => simp [c, d]
    | false => simp [c, d, hnd]
  have hchead : ∀ x, c.head? = some x → isDigit x = false := by
    intro x hx
    cases dot with
    | true => simp [c] at hx; subst hx; decide
    | false =>
      simp only [c, d, hnd, Bool.false_eq_true, if_false, List.nil_append] at hx
      exact (htail x hx).1
  have hbhead : neg = false → b.head? ≠ some '-' := by
    intro hn hh
    cases hip' : ip with
    | cons x xs =>
      simp only [b, hip', List.cons_append, List.head?_cons, Option.some.injEq] at hh
      subst hh
      exact absurd rfl (digit_ne_minus (hip _ (by rw [hip']; simp)))
    | nil =>
      simp only [b, hip', List.nil_append] at hh
      cases dot with
      | true => simp [c] at hh
      | false =>
        simp only [c, d, hnd, Bool.false_eq_true, if_false, List.nil_append] at hh
        have := hblank hn hip' rfl
        subst this
        exact hsign rfl hip' rfl hn (by simpa using hh)
  refine ⟨if neg then '-' :: b else b, b, c, d, ?_, rfl, hbhead, ?_, ?_, rfl, ?_, ?_, ?_, ?_⟩
  · unfold Parts.str
    simp only
    rw [dropWhile_append_all _ _ _ hw1, hc]
    have : (if neg then ['-'] else []) ++ (ip ++ c) = if neg then '-' :: b else b := by
      cases neg <;> simp [b]
    rw [this]
    apply dropWhile_head
    intro x hx
    cases neg with
    | true => simp at hx; subst hx; decide
    | false =>
      simp only [Bool.false_eq_true, if_false] at hx
      cases hip' : ip with
      | cons y ys =>
        simp only [b, hip', List.cons_append, List.head?_cons, Option.some.injEq] at hx
        subst hx
        exact digit_not_ws (hip _ (by rw [hip']; simp))
      | nil =>
        simp only [b, hip', List.nil_append] at hx
        cases dot with
        | true => simp [c] at hx; subst hx; decide
        | false =>
          simp only [c, d, hnd, Bool.false_eq_true, if_false, List.nil_append] at hx
          have := hblank rfl hip' rfl
          subst this
          exact hrest x (by simpa using hx)
  · simp only [b]
    rw [takeWhile_append_all _ _ _ hip, takeWhile_head _ _ hchead, List.append_nil]
  · simp only [b]
    rw [dropWhile_append_all _ _ _ hip, dropWhile_head _ _ hchead]
  · intro hd hh
    subst hd
    simp only [c, d, hnd, Bool.false_eq_true, if_false, List.nil_append] at hh
    exact (htail _ hh).2 rfl rfl
  · intro _
    simp only [d]
    exact ⟨by rw [takeWhile_append_all _ _ _ hfp, takeWhile_head _ _ (fun x hx => (htail x hx).1), List.append_nil],
      by rw [dropWhile_append_all _ _ _ hfp, dropWhile_head _ _ (fun x hx => (htail x hx).1)]⟩
  · intro hd
    subst hd
    simp [c, d, hnd]
  · rw [dropWhile_append_all _ _ _ hw2, dropWhile_head _ _ hrest]

theorem optMinus_eq (b : Str) (neg : Bool) (h : neg = false → b.head? ≠ some '-') :
    optMinus (if neg then '-' :: b else b) = (neg, b) := by
  cases neg with
  | true => rfl
  | false =>
    have := h rfl
    cases b with
    | nil => rfl
    | cons c cs => simp at this; simp [optMinus, this]

theorem optFrac_eq (b : Str) (dot : Bool) (h : dot = false → (if dot then '.' :: b else b : Str).head? ≠ some '.') :
    optFrac (if dot then '.' :: b else b) =
      if dot then (b.takeWhile isDigit, b.dropWhile isDigit) else ([], b) := by
  cases dot with
  | true => rfl
  | false =>
    have := h rfl
    cases b with
    | nil => rfl
    | cons c cs => simp at this; simp [optFrac, this]

theorem scan_frac (p : Parts) (h : p.OK) : ∃ b, optMinus (p.str.dropWhile isWs) = (p.neg, b) ∧
    b.takeWhile isDigit = p.ip ∧ optFrac (b.dropWhile isDigit) = (p.fp, p.w2 ++ p.rest) ∧
    (p.w2 ++ p.rest).dropWhile isWs = p.rest := by
  obtain ⟨a, b, c, d, h1, h2, h3, h4, h5, h6, h7, h8, h9, h10⟩ := scan_parts p h
  refine ⟨b, ?_, h4, ?_, h10⟩
  · rw [h1, h2, optMinus_eq b p.neg h3]
  · rw [h5]
    rw [h6] at h7 h9 ⊢
    rw [optFrac_eq d p.dot h7]
    cases hd : p.dot with
    | true => simp only [if_true]; rw [(h8 hd).1, (h8 hd).2]
    | false =>
      have := h9 hd
      rw [hd] at this
      simp only [Bool.false_eq_true, if_false] at this ⊢
      rw [this, h.nodot hd]

theorem scanNumber_parts (p : Parts) (h : p.OK) : scanNumber p.str = p.rest := by
  obtain ⟨b, h1, -, h3, h4⟩ := scan_frac p h
  unfold scanNumber
  simp only [h1, h3, h4]

theorem pyFloat_parts (R : Rounding) (p : Parts) (h : p.OK) :
    pyFloat R p.str = if p.rest ≠ [] then .error .valueError
      else if p.ip = [] ∧ p.fp = [] then .error .valueError
      else .ok (R.rnd (if p.neg then
          -((digitsVal p.ip : Rat) + mkRat (digitsVal p.fp) (10 ^ p.fp.length))
        else (digitsVal p.ip : Rat) + mkRat (digitsVal p.fp) (10 ^ p.fp.length))) := by
  obtain ⟨b, h1, h2, h3, h4⟩ := scan_frac p h
  unfold pyFloat
  simp only [h1, h2, h3, h4]

/-- The parts of any string. -/
theorem exists_parts (s : Str) : ∃ p : Parts, p.OK ∧ p.str = s := by
  let w1 := s.takeWhile isWs
  let s1 := s.dropWhile isWs
  have hs : s = w1 ++ s1 := (List.takeWhile_append_dropWhile).symm
  have hs1 : ∀ c, s1.head? = some c → isWs c = false := fun c hc => dropWhile_head_false _ _ _ hc
  obtain ⟨neg, s2, hneg, hneg'⟩ : ∃ (neg : Bool) (s2 : Str), s1 = (if neg then ['-'] else []) ++ s2 ∧
      (neg = false → s2.head? ≠ some '-') := by
    match hh : s1 with
    | [] => exact ⟨false, [], rfl, by simp⟩
    | c :: cs =>
      by_cases hc : c = '-'
      · subst hc; exact ⟨true, cs, rfl, by simp⟩
      · exact ⟨false, c :: cs, rfl, by simpa using hc⟩
  let ip := s2.takeWhile isDigit
  let s3 := s2.dropWhile isDigit
  have hs2 : s2 = ip ++ s3 := (List.takeWhile_append_dropWhile).symm
  have hs3 : ∀ c, s3.head? = some c → isDigit c = false := fun c hc => dropWhile_head_false _ _ _ hc
  obtain ⟨dot, fp, s4, hdot, hfp, hnd, hs4, hs4'⟩ : ∃ (dot : Bool) (fp s4 : Str),
      s3 = (if dot then '.' :: fp else []) ++ s4 ∧ (∀ c ∈ fp, isDigit c = true) ∧ (dot = false → fp = []) ∧
      (∀ c, s4.head? = some c → isDigit c = false) ∧ (dot = false → s4.head? ≠ some '.') := by
    match hh : s3 with
    | [] => exact ⟨false, [], [], rfl, by simp, by simp, by simp, by simp⟩
    | c :: cs =>
      by_cases hc : c = '.'
      · subst hc
        exact ⟨true, cs.takeWhile isDigit, cs.dropWhile isDigit,
          by simp [List.takeWhile_append_dropWhile], takeWhile_all _ _, by simp,
          fun c hc => dropWhile_head_false _ _ _ hc, by simp⟩
      · exact ⟨false, [], c :: cs, rfl, by simp, by simp, hs3, by simpa using hc⟩
  refine ⟨⟨w1, neg, ip, dot, fp, s4.takeWhile isWs, s4.dropWhile isWs⟩, ?_, ?_⟩
  · have hsplit : s4 = s4.takeWhile isWs ++ s4.dropWhile isWs := (List.takeWhile_append_dropWhile).symm
    constructor
    · exact takeWhile_all _ _
    · exact takeWhile_all _ _
    · exact hfp
    · exact takeWhile_all _ _
    · exact hnd
    · exact fun c hc => dropWhile_head_false _ _ _ hc
    · intro hw c hc
      simp only at hw hc
      rw [hw, List.nil_append] at hsplit
      rw [← hsplit] at hc
      exact ⟨hs4 c hc, fun hd he => hs4' hd (by rw [hc, he])⟩
    · intro hw hip hd hn
      simp only at hw hip hd hn
      rw [hw, List.nil_append] at hsplit
      simp only
      rw [← hsplit]
      have := hneg' hn
      rw [hs2, hip, List.nil_append, hdot] at this
      simpa [hd] using this
    · intro hn hip hd
      simp only at hn hip hd ⊢
      have : s1 = s4 := by
        rw [hneg, hs2, hip, hdot]; simp [hn, hd]
      rw [this] at hs1
      exact takeWhile_head _ _ hs1
  · unfold Parts.str
    simp only
    rw [List.takeWhile_append_dropWhile, ← hdot, ← hs2, ← hneg, ← hs]

theorem str_length (p : Parts) : (p.rest.length = p.str.length) ↔
    p.w1 = [] ∧ p.neg = false ∧ p.ip = [] ∧ p.dot = false ∧ p.w2 = [] := by
  unfold Parts.str
  simp only [List.length_append]
  constructor
  · intro h
    refine ⟨List.eq_nil_of_length_eq_zero (by omega), ?_, List.eq_nil_of_length_eq_zero (by omega), ?_,
      List.eq_nil_of_length_eq_zero (by omega)⟩
    · cases hn : p.neg with
      | false => rfl
      | true => rw [hn] at h; simp at h; omega
    · cases hn : p.dot with
      | false => rfl
      | true => rw [hn] at h; simp at h; omega
  · rintro ⟨h1, h2, h3, h4, h5⟩
    rw [h1, h2, h3, h4, h5]; simp

end Verif.XPath
