import Verif.Iri.PercentModel
import Verif.Iri.PercentSpec
import Verif.Iri.Abs
/-
Lemmas about percent encoding and decoding.
-/
namespace Verif.Iri

theorem Py_split_cons_ne {c x : Char} (h : x ≠ c) (s : Str) :
    ∃ p ps, Py.split c s = p :: ps ∧ Py.split c (x :: s) = (x :: p) :: ps := by
  cases hs : Py.split c s with
  | nil => exact absurd hs (Py.split_ne_nil c s)
  | cons p ps => exact ⟨p, ps, rfl, by simp [Py.split, h, hs]⟩

@[simp] theorem percentDecode_nil (d : Option Str) : percentDecode d [] = [] := rfl

theorem percentDecode_cons {d : Option Str} {c : Char} (h : c ≠ '%') (s : Str) :
    percentDecode d (c :: s) = c :: percentDecode d s := by
  obtain ⟨p, ps, h1, h2⟩ := Py_split_cons_ne h s
  simp [percentDecode, h1, h2]

theorem percentDecode_pct {d : Option Str} (s : Str) :
    ∃ p ps, Py.split '%' s = p :: ps ∧
      percentDecode d ('%' :: s) = decodeItem d p ++ ps.flatMap (decodeItem d) := by
  cases hs : Py.split '%' s with
  | nil => exact absurd hs (Py.split_ne_nil '%' s)
  | cons p ps =>
    refine ⟨p, ps, rfl, ?_⟩
    simp [percentDecode, Py.split, hs]

/-- What a piece starting with two characters becomes. -/
def decode2 (d : Option Str) (a b : Char) : Option Char :=
  match int16 a b with
  | none => none
  | some n =>
    match d with
    | none => some (Char.ofNat n)
    | some l => if Char.ofNat n ∈ l then some (Char.ofNat n) else none

theorem decodeItem_cons2 (d : Option Str) (a b : Char) (r : Str) :
    decodeItem d (a :: b :: r) =
      match decode2 d a b with | some c => c :: r | none => '%' :: a :: b :: r := by
  simp only [decodeItem, decode2]
  cases hi : int16 a b with
  | none => simp
  | some n =>
    cases d with
    | none => simp
    | some l => by_cases hm : Char.ofNat n ∈ l <;> simp [hm]

theorem int16_pct_left (b : Char) : int16 '%' b = none := by
  unfold int16
  cases h : hexVal b <;> simp [show hexVal '%' = none from by decide, show isPySpace '%' = false from by decide]

theorem int16_pct_right (a : Char) : int16 a '%' = none := by
  unfold int16
  cases h : hexVal a <;> simp [show hexVal '%' = none from by decide, show isPySpace '%' = false from by decide]

theorem decode2_ne {d : Option Str} {a b c : Char} (h : decode2 d a b = some c) : a ≠ '%' ∧ b ≠ '%' := by
  constructor
  · rintro rfl; simp [decode2, int16_pct_left] at h
  · rintro rfl; simp [decode2, int16_pct_right] at h

/-- `percent_decode`, left to right: a decodable triplet. -/
theorem percentDecode_triplet {d : Option Str} {a b c : Char} (h : decode2 d a b = some c) (s : Str) :
    percentDecode d ('%' :: a :: b :: s) = c :: percentDecode d s := by
  obtain ⟨ha, hb⟩ := decode2_ne h
  obtain ⟨p, ps, h1, h2⟩ := Py_split_cons_ne hb s
  obtain ⟨p', ps', h1', h2'⟩ := Py_split_cons_ne ha (b :: s)
  rw [h2] at h1'
  simp only [List.cons.injEq] at h1'
  obtain ⟨rfl, rfl⟩ := h1'
  simp [percentDecode, Py.split, h1, ha, hb, decodeItem_cons2, h]

/-- `percent_decode`, left to right: a percent sign that does not begin a decodable triplet. -/
theorem percentDecode_other {d : Option Str} {s : Str}
    (h : ∀ a b r, s = a :: b :: r → decode2 d a b = none) :
    percentDecode d ('%' :: s) = '%' :: percentDecode d s := by
  obtain ⟨p, ps, h1, h2⟩ := percentDecode_pct (d := d) s
  rw [h2]
  have key : decodeItem d p = '%' :: p := by
    match p, h1 with
    | [], _ => rfl
    | [x], _ => rfl
    | x :: y :: r, h1 =>
      rw [decodeItem_cons2]
      cases hd : decode2 d x y with
      | none => rfl
      | some c =>
        exfalso
        have hs := Py.join_split '%' s
        rw [h1] at hs
        have : ∃ r', s = x :: y :: r' := by
          cases ps with
          | nil => exact ⟨r, by rw [← hs]; rfl⟩
          | cons q qs => exact ⟨r ++ ['%'] ++ Py.join ['%'] (q :: qs), by rw [← hs]; simp [Py.join]⟩
        obtain ⟨r', hr⟩ := this
        rw [h x y r' hr] at hd
        cases hd
  rw [key]
  simp [percentDecode, h1]

theorem int16_hex : ∀ n < 256, int16 (hexDigit (n / 16)) (hexDigit (n % 16)) = some n := by
  decide +kernel

theorem decode2_pct {n : Nat} (h : n < 256) :
    decode2 none (hexDigit (n / 16)) (hexDigit (n % 16)) = some (Char.ofNat n) := by
  simp [decode2, int16_hex n h]

theorem percentDecode_pctTok {n : Nat} (h : n < 256) (s : Str) :
    percentDecode none (pct n ++ s) = Char.ofNat n :: percentDecode none s := by
  simp only [pct, List.cons_append, List.nil_append]
  exact percentDecode_triplet (decode2_pct h) s

theorem ofNat_toNat (c : Char) : Char.ofNat c.toNat = c := by
  simp

theorem unreserved_ne_pct {c : Char} (h : isUnreserved c = true) : c ≠ '%' := by
  rintro rfl; revert h; decide

theorem unreserved_ne_plus {c : Char} (h : isUnreserved c = true) : c ≠ '+' := by
  rintro rfl; revert h; decide

/-- Decoding after encoding one byte (no space-to-plus). -/
theorem percentDecode_encodeByte {o : EncOpts} (hp : o.spaceToPlus = false)
    (hr : o.encodeReserved = true ∨ '%' ∉ o.reservedChars) {c : Char} (hc : c.toNat < 256) (s : Str) :
    percentDecode none (encodeByte o c ++ s) = c :: percentDecode none s := by
  unfold encodeByte
  split
  · rename_i h
    exact percentDecode_cons (unreserved_ne_pct h) s
  · have hpct : percentDecode none (pct c.toNat ++ s) = c :: percentDecode none s := by
      rw [percentDecode_pctTok hc, ofNat_toNat]
    split
    · simp only [hp, Bool.false_and, Bool.false_eq_true, if_false]
      split
      · rename_i hm
        split
        · exact hpct
        · rename_i he
          refine percentDecode_cons ?_ s
          rintro rfl
          rcases hr with h | h
          · exact he h
          · exact h hm
      · exact hpct
    · exact hpct

theorem percentDecode_percentEncode {o : EncOpts} (hp : o.spaceToPlus = false)
    (hr : o.encodeReserved = true ∨ '%' ∉ o.reservedChars) {s : Str} (hs : ∀ c ∈ s, c.toNat < 256)
    (t : Str) :
    percentDecode none (percentEncode o s ++ t) = s ++ percentDecode none t := by
  induction s with
  | nil => rfl
  | cons c s ih =>
    have : percentEncode o (c :: s) ++ t = encodeByte o c ++ (percentEncode o s ++ t) := by
      simp [percentEncode]
    rw [this, percentDecode_encodeByte hp hr (hs c (by simp)), ih (fun d hd => hs d (by simp [hd]))]
    rfl

/-- A character of the encoder's output: unreserved, or part of a triplet of octet `n`. -/
theorem hexDigit_unreserved : ∀ n < 16, isUnreserved (hexDigit n) = true := by decide

theorem replace1_append (c : Char) (r s t : Str) :
    replace1 c r (s ++ t) = replace1 c r s ++ replace1 c r t := by
  simp [replace1]

theorem replace1_id {c : Char} {r s : Str} (h : c ∉ s) : replace1 c r s = s := by
  induction s with
  | nil => rfl
  | cons x s ih =>
    have hx : x ≠ c := fun e => h (by simp [e])
    have hs : c ∉ s := fun e => h (by simp [e])
    simp only [replace1, List.flatMap_cons, hx, if_false] at ih ⊢
    rw [ih hs]; rfl

theorem mem_pct {c : Char} {n : Nat} (hn : n < 256) (h : c ∈ pct n) : c = '%' ∨ isUnreserved c = true := by
  simp only [pct, List.mem_cons, List.not_mem_nil, or_false] at h
  rcases h with h | h | h
  · exact Or.inl h
  · right; rw [h]; exact hexDigit_unreserved _ (by omega)
  · right; rw [h]; exact hexDigit_unreserved _ (by omega)

theorem not_mem_pct {c : Char} {n : Nat} (hn : n < 256) (h1 : c ≠ '%') (h2 : isUnreserved c = false) :
    c ∉ pct n := by
  intro h
  rcases mem_pct hn h with h | h
  · exact h1 h
  · rw [h2] at h; cases h

/-- With everything encoded and space-to-plus, replacing '+' by a space before decoding inverts. -/
theorem percentDecode_encodeByte_plus {o : EncOpts} (hp : o.spaceToPlus = true)
    (he : o.encodeReserved = true) {c : Char} (hc : c.toNat < 256) (s : Str) :
    percentDecode none (replace1 '+' [' '] (encodeByte o c) ++ s) = c :: percentDecode none s := by
  have hpct : percentDecode none (replace1 '+' [' '] (pct c.toNat) ++ s) = c :: percentDecode none s := by
    rw [replace1_id (not_mem_pct hc (by decide) (by decide)), percentDecode_pctTok hc, ofNat_toNat]
  unfold encodeByte
  split
  · rename_i h
    rw [replace1_id (by simpa using Ne.symm (unreserved_ne_plus h))]
    exact percentDecode_cons (unreserved_ne_pct h) s
  · split
    · simp only [hp, Bool.true_and, decide_eq_true_eq]
      split
      · rename_i h; subst h
        exact percentDecode_cons (by decide) s
      · rw [ite_self]; exact hpct
    · exact hpct

theorem percentDecode_percentEncode_plus {o : EncOpts} (hp : o.spaceToPlus = true)
    (he : o.encodeReserved = true) {s : Str} (hs : ∀ c ∈ s, c.toNat < 256) (t : Str) :
    percentDecode none (replace1 '+' [' '] (percentEncode o s) ++ t) = s ++ percentDecode none t := by
  induction s with
  | nil => rfl
  | cons c s ih =>
    have : replace1 '+' [' '] (percentEncode o (c :: s)) ++ t =
        replace1 '+' [' '] (encodeByte o c) ++ (replace1 '+' [' '] (percentEncode o s) ++ t) := by
      simp [percentEncode, replace1_append]
    rw [this, percentDecode_encodeByte_plus hp he (hs c (by simp)),
      ih (fun d hd => hs d (by simp [hd]))]
    rfl

theorem utf8_lt {n : Nat} (h : n < 0x110000) : ∀ b ∈ utf8 n, b < 256 := by
  intro b hb
  unfold utf8 at hb
  split at hb
  · simp at hb; omega
  · split at hb
    · simp at hb; omega
    · split at hb
      · simp at hb; omega
      · simp at hb; omega

theorem percentDecode_flatMap_pct (bs : List Nat) (h : ∀ b ∈ bs, b < 256) (s : Str) :
    percentDecode none (bs.flatMap pct ++ s) = bs.map Char.ofNat ++ percentDecode none s := by
  induction bs with
  | nil => rfl
  | cons b bs ih =>
    have : (b :: bs).flatMap pct ++ s = pct b ++ (bs.flatMap pct ++ s) := by simp
    rw [this, percentDecode_pctTok (h b (by simp)), ih (fun x hx => h x (by simp [hx]))]
    rfl

theorem char_lt (c : Char) : c.toNat < 0x110000 := by
  have := c.valid
  simp only [UInt32.isValidChar, Nat.isValidChar] at this
  change c.val.toNat < _
  omega

/-! ### tokens -/

theorem char_lt_of {c : Char} {P : Char → Prop} [DecidablePred P] (n : Nat) (hc : c.toNat < n)
    (h : ∀ k < n, P (Char.ofNat k)) : P c := by
  have := h c.toNat hc
  rwa [ofNat_toNat] at this

theorem unreserved_iff (c : Char) : isUnreserved c = true ↔ c ∈ Spec.unreserved := by
  by_cases hc : c.toNat < 128
  · exact char_lt_of (P := fun c => isUnreserved c = true ↔ c ∈ Spec.unreserved) 128 hc
      (by decide +kernel)
  · have h1 : c ∉ Spec.unreserved := by
      intro h
      have : ∀ d ∈ Spec.unreserved, d.toNat < 128 := by decide
      exact hc (this c h)
    have h2 : ¬ isUnreserved c = true := by
      simp only [isUnreserved, Bool.or_eq_true, isAlpha_iff, isDigit_iff, decide_eq_true_eq, List.mem_range'_1]
      have e1 : c ≠ '-' := by rintro rfl; exact hc (by decide)
      have e2 : c ≠ '.' := by rintro rfl; exact hc (by decide)
      have e3 : c ≠ '_' := by rintro rfl; exact hc (by decide)
      have e4 : c ≠ '~' := by rintro rfl; exact hc (by decide)
      simp only [e1, e2, e3, e4, or_false]
      omega
    simp [h1, h2]

theorem hexDigit_upper : ∀ n < 16, hexDigit n ∈ Spec.hexUpper := by decide

theorem encodeByte_token (o : EncOpts) (c : Char) (hc : c.toNat < 256) :
    Spec.Token ((if o.encodeReserved then [] else o.reservedChars) ++ (if o.spaceToPlus then ['+'] else []))
      (encodeByte o c) := by
  have ht : ∀ k, Spec.Token k (pct c.toNat) := fun k =>
    .triplet _ _ (hexDigit_upper _ (by omega)) (hexDigit_upper _ (by omega))
  obtain ⟨k, hk⟩ : ∃ k, k = (if o.encodeReserved then [] else o.reservedChars) ++
    (if o.spaceToPlus then ['+'] else []) := ⟨_, rfl⟩
  rw [← hk]
  unfold encodeByte
  split
  · rename_i h; exact .unreserved _ ((unreserved_iff c).1 h)
  · split
    · split
      · rename_i h
        simp only [Bool.and_eq_true] at h
        exact .kept _ (by simp [hk, h.1])
      · split
        · split
          · exact ht _
          · rename_i h1 h2; exact .kept _ (by simp [hk, h1, h2])
        · exact ht _
    · exact ht _

/-! ### hexadecimal digits -/

theorem hexAny_lt : ∀ c ∈ Spec.hexAny, c.toNat < 128 := by decide

theorem hexVal_iff (c : Char) (h : c ∈ Spec.hexAny) : hexVal c = some (Spec.digitValue c) := by
  revert c; decide

theorem hexAny_ne_pct {c : Char} (h : c ∈ Spec.hexAny) : c ≠ '%' := by
  rintro rfl; revert h; decide

theorem int16_hexAny {a b : Char} (ha : a ∈ Spec.hexAny) (hb : b ∈ Spec.hexAny) :
    int16 a b = some (16 * Spec.digitValue a + Spec.digitValue b) := by
  simp [int16, hexVal_iff a ha, hexVal_iff b hb]

theorem percentDecode_decodes {s t : Str} (h : Spec.Decodes s t) : percentDecode none s = t := by
  induction h with
  | nil => rfl
  | char c s t hc _ ih => rw [percentDecode_cons hc, ih]
  | triplet a b s t ha hb _ ih =>
    rw [percentDecode_triplet (c := Char.ofNat (16 * Spec.digitValue a + Spec.digitValue b))
      (by simp [decode2, int16_hexAny ha hb]), ih]

/-! ### normalize_percent_encoding -/

theorem decodableSet (c : Char) : c ∈ (s!! "0123456789" ++ asciiLetters ++ s!! "-._~") ↔ c ∈ Spec.unreserved := by
  constructor
  · revert c; decide
  · revert c; decide

theorem normalize_spec {s : Str} (h : Spec.PctWellFormed s) :
    Spec.NormalizesPct s (normalizePercentEncoding s) := by
  unfold normalizePercentEncoding
  induction h with
  | nil => exact .nil
  | char c s hc _ ih => rw [percentDecode_cons hc]; exact .char _ _ _ hc ih
  | triplet a b s ha hb _ ih =>
    by_cases hu : Char.ofNat (16 * Spec.digitValue a + Spec.digitValue b) ∈ Spec.unreserved
    · rw [percentDecode_triplet (c := Char.ofNat (16 * Spec.digitValue a + Spec.digitValue b))
        (by unfold decode2; rw [int16_hexAny ha hb]; simp only; rw [if_pos ((decodableSet _).2 hu)])]
      exact .decoded _ _ _ _ ha hb hu ih
    · rw [percentDecode_other, percentDecode_cons (hexAny_ne_pct ha), percentDecode_cons (hexAny_ne_pct hb)]
      · exact .kept _ _ _ _ ha hb hu ih
      · intro x y r e
        simp only [List.cons.injEq] at e
        obtain ⟨rfl, rfl, rfl⟩ := e
        unfold decode2; rw [int16_hexAny ha hb]; simp only
        rw [if_neg (fun hh => hu ((decodableSet _).1 hh))]

theorem NormalizesPct.unique {s t t' : Str} (h : Spec.NormalizesPct s t) (h' : Spec.NormalizesPct s t') : t = t' := by
  induction h generalizing t' with
  | nil => cases h'; rfl
  | char c s t hc _ ih =>
    cases h' with
    | char _ _ _ _ h2 => rw [ih h2]
    | decoded => exact absurd rfl hc
    | kept => exact absurd rfl hc
  | decoded a b s t ha hb hu _ ih =>
    cases h' with
    | char _ _ _ h1 => exact absurd rfl h1
    | decoded _ _ _ _ _ _ _ h2 => rw [ih h2]
    | kept _ _ _ _ _ _ h1 => exact absurd hu h1
  | kept a b s t ha hb hu _ ih =>
    cases h' with
    | char _ _ _ h1 => exact absurd rfl h1
    | decoded _ _ _ _ _ _ h1 => exact absurd h1 hu
    | kept _ _ _ _ _ _ _ h2 => rw [ih h2]

/-- A normalised string is well formed and normalises to itself. -/
theorem NormalizesPct.fix {s t : Str} (h : Spec.NormalizesPct s t) :
    Spec.PctWellFormed t ∧ Spec.NormalizesPct t t := by
  induction h with
  | nil => exact ⟨.nil, .nil⟩
  | char c s t hc _ ih => exact ⟨.char _ _ hc ih.1, .char _ _ _ hc ih.2⟩
  | decoded a b s t ha hb hu _ ih =>
    have : Char.ofNat (16 * Spec.digitValue a + Spec.digitValue b) ≠ '%' := by
      intro e; rw [e] at hu; revert hu; decide
    exact ⟨.char _ _ this ih.1, .char _ _ _ this ih.2⟩
  | kept a b s t ha hb hu _ ih => exact ⟨.triplet _ _ _ ha hb ih.1, .kept _ _ _ _ ha hb hu ih.2⟩

/-! ### UTF-8 -/

theorem utf8_spec {n : Nat} (h : n < 0x110000) : Spec.Utf8 n (utf8 n) := by
  unfold utf8
  split
  · exact .one n (by assumption)
  · split
    · have := Spec.Utf8.two (n / 64) (n % 64) (by omega) (by omega) (by omega)
      rwa [show 64 * (n / 64) + n % 64 = n by omega] at this
    · split
      · have := Spec.Utf8.three (n / 4096) (n / 64 % 64) (n % 64) (by omega) (by omega) (by omega) (by omega)
        rwa [show 4096 * (n / 4096) + 64 * (n / 64 % 64) + n % 64 = n by omega] at this
      · have := Spec.Utf8.four (n / 262144) (n / 4096 % 64) (n / 64 % 64) (n % 64) (by omega) (by omega)
          (by omega) (by omega) (by omega)
        rwa [show 262144 * (n / 262144) + 4096 * (n / 4096 % 64) + 64 * (n / 64 % 64) + n % 64 = n by omega]
          at this

theorem utf8_ascii {n : Nat} (h : n < 0x80) : utf8 n = [n] := by simp [utf8, h]

theorem percentDecode_encodeU {o : EncOpts} (hp : o.spaceToPlus = false)
    (hr : o.encodeReserved = true ∨ '%' ∉ o.reservedChars) (s : Str) :
    percentDecode none (percentEncodeU o s) = (s.flatMap (fun c => utf8 c.toNat)).map Char.ofNat := by
  induction s with
  | nil => rfl
  | cons c s ih =>
    have e : percentEncodeU o (c :: s) = encodeUChar o c ++ percentEncodeU o s := by simp [percentEncodeU]
    rw [e]
    unfold encodeUChar
    split
    · rename_i hc
      rw [percentDecode_encodeByte hp hr (by omega), ih]
      simp [utf8_ascii hc]
    · rw [percentDecode_flatMap_pct _ (utf8_lt (char_lt c)), ih]
      simp

theorem utf8Seq_flatMap (l : List Nat) (h : ∀ n ∈ l, n < 0x110000) : Spec.Utf8Seq l (l.flatMap utf8) := by
  induction l with
  | nil => exact .nil
  | cons n l ih =>
    rw [List.flatMap_cons]
    exact .cons _ _ _ _ (utf8_spec (h n (by simp))) (ih (fun m hm => h m (by simp [hm])))

end Verif.Iri
