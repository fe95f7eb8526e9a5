import Verif.Write.Spec

/-
Decoders: how a reader turns bytes into characters (RFC 3629, RFC 2781), and the proof that they read
what the codecs of Verif.Write.Stream write.
-/
namespace Verif.Write.Spec
open Verif

/-- US-ASCII. -/
def decodeAscii (b : Bytes) : Option UStr := if b.all (· < 128) then some b else none

/-- ISO 8859-1. -/
def decodeLatin1 (b : Bytes) : Option UStr := if b.all (· < 256) then some b else none

/-- A continuation byte of UTF-8: its six bits. -/
def tailBits (b : Nat) : Option Nat := if 0x80 ≤ b ∧ b ≤ 0xBF then some (b - 0x80) else none

/-- UTF-8 (RFC 3629, 3 and 4). -/
def decodeUtf8 : Bytes → Option UStr
  | [] => some []
  | a :: s =>
    if a < 0x80 then (decodeUtf8 s).map (a :: ·)
    else if 0xC2 ≤ a ∧ a ≤ 0xDF then match s with
      | b :: s => match tailBits b with
        | some b => (decodeUtf8 s).map (((a - 0xC0) * 64 + b) :: ·)
        | none => none
      | [] => none
    else if 0xE0 ≤ a ∧ a ≤ 0xEF then match s with
      | b :: c :: s => match tailBits b, tailBits c with
        | some b, some c =>
          if 0x800 ≤ (a - 0xE0) * 4096 + b * 64 + c ∧
              ¬ (0xD800 ≤ (a - 0xE0) * 4096 + b * 64 + c ∧ (a - 0xE0) * 4096 + b * 64 + c ≤ 0xDFFF)
          then (decodeUtf8 s).map (((a - 0xE0) * 4096 + b * 64 + c) :: ·) else none
        | _, _ => none
      | _ => none
    else if 0xF0 ≤ a ∧ a ≤ 0xF4 then match s with
      | b :: c :: d :: s => match tailBits b, tailBits c, tailBits d with
        | some b, some c, some d =>
          if 0x10000 ≤ (a - 0xF0) * 262144 + b * 4096 + c * 64 + d ∧
              (a - 0xF0) * 262144 + b * 4096 + c * 64 + d ≤ 0x10FFFF
          then (decodeUtf8 s).map (((a - 0xF0) * 262144 + b * 4096 + c * 64 + d) :: ·) else none
        | _, _, _ => none
      | _ => none
    else none

/-- The 16-bit units in a sequence of bytes. -/
def units (littleEndian : Bool) : Bytes → Option (List Nat)
  | [] => some []
  | a :: b :: s => (units littleEndian s).map ((if littleEndian then a + 256 * b else 256 * a + b) :: ·)
  | [_] => none

/-- The characters in a sequence of units (RFC 2781, 2.2). -/
def fromUnits : List Nat → Option UStr
  | [] => some []
  | u :: s =>
    if 0xD800 ≤ u ∧ u ≤ 0xDBFF then match s with
      | v :: s => if 0xDC00 ≤ v ∧ v ≤ 0xDFFF then
          (fromUnits s).map ((0x10000 + (u - 0xD800) * 0x400 + (v - 0xDC00)) :: ·) else none
      | [] => none
    else if 0xDC00 ≤ u ∧ u ≤ 0xDFFF then none
    else (fromUnits s).map (u :: ·)

/-- UTF-16 in a known byte order. -/
def decodeUtf16 (littleEndian : Bool) (b : Bytes) : Option UStr := (units littleEndian b).bind fromUnits

/-- A document in UTF-16 begins with a byte order mark (XML 1.0, 4.3.3), which tells the byte order and is
not part of the text (RFC 2781, 3.2). -/
def readUtf16 : Bytes → Option UStr
  | 0xFE :: 0xFF :: b => decodeUtf16 false b
  | 0xFF :: 0xFE :: b => decodeUtf16 true b
  | _ => none

end Verif.Write.Spec

namespace Verif.Write
open Verif Verif.Write.Spec

theorem charwise_filter (n : Nat) : Charwise fun s => if s.all (· < n) then some s else none where
  nil := rfl
  cons c s := by
    by_cases h1 : c < n
    · by_cases h2 : s.all (fun x => decide (x < n)) = true
      · simp [h1, h2]
      · simp [h1, h2]
    · simp [h1]

theorem charwise_flatMap (f : Nat → Bytes) : Charwise fun s => some (s.flatMap f) where
  nil := rfl
  cons c s := by simp

theorem usable_ascii : Usable asciiCodec :=
  ⟨charwise_filter 128, Or.inl fun c hc => by simp [asciiCodec, hc]⟩
theorem usable_latin1 : Usable latin1Codec :=
  ⟨charwise_filter 256, Or.inl fun c hc => by simp [latin1Codec]; omega⟩
theorem usable_utf8 : Usable utf8Codec :=
  ⟨charwise_flatMap utf8Char, Or.inl fun c hc => by simp [utf8Codec, utf8Char, hc]⟩

theorem utf16Char_length (le : Bool) {c : Nat} (h : c < 0x10000) : (utf16Char le c).length = 2 := by
  unfold utf16Char unitBytes
  rw [if_pos h]
  cases le <;> rfl

theorem usable_utf16 (le : Bool) : Usable (utf16Codec le) := by
  refine ⟨charwise_flatMap (utf16Char le), Or.inr ⟨fun c => by simp [utf16Codec], fun b hb => ?_⟩⟩
  simp only [utf16Codec, Option.some.injEq] at hb
  subst hb
  have : ∀ l : List Nat, (∀ c ∈ l, c < 0x10000) → (l.flatMap (utf16Char le)).length = 2 * l.length := by
    intro l
    induction l with
    | nil => intro _; rfl
    | cons c l ih =>
      intro h
      rw [List.flatMap_cons, List.length_append, ih (fun x hx => h x (by simp [hx])), utf16Char_length le (h c (by simp))]
      simp; omega
  rw [this _ (fun c hc => by have := List.mem_range.1 hc; omega)]
  simp

theorem inverse_ascii : Inverse decodeAscii asciiCodec := by
  intro s b _ h
  unfold asciiCodec at h
  split at h
  · cases h; unfold decodeAscii; rw [if_pos (by assumption)]
  · cases h

theorem inverse_latin1 : Inverse decodeLatin1 latin1Codec := by
  intro s b _ h
  unfold latin1Codec at h
  split at h
  · cases h; unfold decodeLatin1; rw [if_pos (by assumption)]
  · cases h

theorem tailBits_of {x : Nat} (h : x < 64) : tailBits (0x80 + x) = some x := by
  unfold tailBits
  rw [if_pos (by omega), Nat.add_sub_cancel_left]

theorem decodeUtf8_char {c : Nat} (h : Legal c) (s : Bytes) :
    decodeUtf8 (utf8Char c ++ s) = (decodeUtf8 s).map (c :: ·) := by
  unfold utf8Char
  split
  · rename_i h1
    rw [List.cons_append, List.nil_append, decodeUtf8.eq_def]
    dsimp only
    rw [if_pos h1]
  · split
    · rw [List.cons_append, List.cons_append, List.nil_append, decodeUtf8.eq_def]
      dsimp only
      rw [if_neg (by omega), if_pos (by omega), tailBits_of (by omega)]
      dsimp only
      congr 1; funext l; congr 1; omega
    · split
      · rename_i h1 h2 h3
        rw [List.cons_append, List.cons_append, List.cons_append, List.nil_append, decodeUtf8.eq_def]
        dsimp only
        rw [if_neg (by omega), if_neg (by omega), if_pos (by omega), tailBits_of (by omega), tailBits_of (by omega)]
        dsimp only
        have hv : (0xE0 + c / 4096 - 0xE0) * 4096 + c / 64 % 64 * 64 + c % 64 = c := by omega
        rw [hv, if_pos (by unfold Legal at h; omega)]
      · rename_i h1 h2 h3
        have hc : c ≤ 0x10FFFF := by unfold Legal at h; omega
        rw [List.cons_append, List.cons_append, List.cons_append, List.cons_append, List.nil_append, decodeUtf8.eq_def]
        dsimp only
        rw [if_neg (by omega), if_neg (by omega), if_neg (by omega), if_pos (by omega), tailBits_of (by omega),
          tailBits_of (by omega), tailBits_of (by omega)]
        dsimp only
        have hv : (0xF0 + c / 262144 - 0xF0) * 262144 + c / 4096 % 64 * 4096 + c / 64 % 64 * 64 + c % 64 = c := by omega
        rw [hv, if_pos (by omega)]

theorem inverse_utf8 : Inverse decodeUtf8 utf8Codec := by
  intro s b hs h
  simp only [utf8Codec, Option.some.injEq] at h
  subst h
  induction s with
  | nil => rfl
  | cons c s ih =>
    rw [List.flatMap_cons, decodeUtf8_char (hs c (by simp)), ih (fun x hx => hs x (by simp [hx]))]
    rfl

theorem units_unit (le : Bool) (u : Nat) (s : Bytes) :
    units le (unitBytes le u ++ s) = (units le s).map (u :: ·) := by
  unfold unitBytes
  cases le with
  | true =>
    simp only [if_true, List.cons_append, List.nil_append, units]
    congr 1; funext l; congr 1; omega
  | false =>
    simp only [Bool.false_eq_true, if_false, List.cons_append, List.nil_append, units]
    congr 1; funext l; congr 1; omega

theorem fromUnits_one {u : Nat} (h : u < 0xD800 ∨ 0xDFFF < u) (s : List Nat) :
    fromUnits (u :: s) = (fromUnits s).map (u :: ·) := by
  rw [fromUnits.eq_def]
  dsimp only
  rw [if_neg (by omega), if_neg (by omega)]

theorem fromUnits_pair {u v c : Nat} (h1 : 0xD800 ≤ u ∧ u ≤ 0xDBFF) (h2 : 0xDC00 ≤ v ∧ v ≤ 0xDFFF)
    (hv : 0x10000 + (u - 0xD800) * 0x400 + (v - 0xDC00) = c) (s : List Nat) :
    fromUnits (u :: v :: s) = (fromUnits s).map (c :: ·) := by
  rw [fromUnits.eq_def]
  dsimp only
  rw [if_pos h1, if_pos h2, hv]

theorem surrogates (c : Nat) (h1 : 0x10000 ≤ c) (h2 : c ≤ 0x10FFFF) :
    (0xD800 ≤ 0xD800 + (c - 0x10000) / 0x400 ∧ 0xD800 + (c - 0x10000) / 0x400 ≤ 0xDBFF) ∧
    (0xDC00 ≤ 0xDC00 + (c - 0x10000) % 0x400 ∧ 0xDC00 + (c - 0x10000) % 0x400 ≤ 0xDFFF) ∧
    0x10000 + (0xD800 + (c - 0x10000) / 0x400 - 0xD800) * 0x400 +
      (0xDC00 + (c - 0x10000) % 0x400 - 0xDC00) = c := by
  omega

theorem utf16Char_cases (le : Bool) {c : Nat} (h : Legal c) :
    (utf16Char le c = unitBytes le c ∧ (c < 0xD800 ∨ 0xDFFF < c)) ∨
    ∃ u v, utf16Char le c = unitBytes le u ++ unitBytes le v ∧ (0xD800 ≤ u ∧ u ≤ 0xDBFF) ∧
      (0xDC00 ≤ v ∧ v ≤ 0xDFFF) ∧ 0x10000 + (u - 0xD800) * 0x400 + (v - 0xDC00) = c := by
  rcases Nat.lt_or_ge c 0x10000 with hc | hc
  · refine Or.inl ⟨if_pos hc, ?_⟩
    unfold Legal at h; omega
  · refine Or.inr ⟨_, _, if_neg (Nat.not_lt.2 hc), surrogates c hc ?_⟩
    unfold Legal at h; omega

theorem decodeUtf16_char (le : Bool) {c : Nat} (h : Legal c) (s : Bytes) :
    decodeUtf16 le (utf16Char le c ++ s) = (decodeUtf16 le s).map (c :: ·) := by
  unfold decodeUtf16
  rcases utf16Char_cases le h with ⟨h1, h2⟩ | ⟨u, v, h1, hu, hv, hc⟩
  · rw [h1, units_unit le]
    cases units le s with
    | none => rfl
    | some us => exact fromUnits_one h2 us
  · rw [h1, List.append_assoc, units_unit le, units_unit le]
    cases units le s with
    | none => rfl
    | some us => exact fromUnits_pair hu hv hc us

theorem inverse_utf16 (le : Bool) : Inverse (decodeUtf16 le) (utf16Codec le) := by
  intro s b hs h
  simp only [utf16Codec, Option.some.injEq] at h
  subst h
  induction s with
  | nil => rfl
  | cons c s ih =>
    rw [List.flatMap_cons, decodeUtf16_char le (hs c (by simp)), ih (fun x hx => hs x (by simp [hx]))]
    rfl

end Verif.Write
