import Verif.Write.StreamLemmas

/-
Reading back the pieces that the printer writes.
-/
namespace Verif.Write
open Verif Verif.Write.Spec

/-! `upTo` -/

theorem upTo_append {t : UStr} (ht : t ≠ []) (a rest : UStr)
    (h : ∀ x y, a = x ++ y → y ≠ [] → Py.startsWith (y ++ (t ++ rest)) t = false) :
    upTo t (a ++ (t ++ rest)) = some (a, rest) := by
  induction a with
  | nil =>
    have hs : Py.startsWith (t ++ rest) t = true := Py.startsWith_iff.2 ⟨rest, rfl⟩
    cases hc : t ++ rest with
    | nil => simp at hc; exact absurd hc.1 ht
    | cons c s =>
      rw [List.nil_append, upTo, ← hc, if_pos hs]; simp
  | cons c a ih =>
    rw [List.cons_append, upTo, if_neg]
    · rw [ih (fun x y hxy hy => h (c :: x) y (by simp [hxy]) hy)]; rfl
    · have := h [] (c :: a) rfl (by simp)
      rw [← List.cons_append, this]; simp

/-- If `t` does not begin inside of `a ++ t`. -/
theorem upTo_of_notOccurs {t : UStr} (ht : t ≠ []) {a : UStr} (rest : UStr)
    (h : ∀ x y, a = x ++ y → y ≠ [] → ∀ z, y ++ t ≠ t ++ z) :
    upTo t (a ++ (t ++ rest)) = some (a, rest) := by
  refine upTo_append ht a rest fun x y hxy hy => ?_
  cases hs : Py.startsWith (y ++ (t ++ rest)) t with
  | false => rfl
  | true =>
    obtain ⟨r, hr⟩ := Py.startsWith_iff.1 hs
    exfalso
    rw [← List.append_assoc] at hr
    obtain ⟨hl, hr⟩ | ⟨z, h1, _⟩ : (∃ z, t = (y ++ t) ++ z ∧ z ++ r = rest) ∨ ∃ z, y ++ t = t ++ z ∧ r = z ++ rest := by
      rcases List.append_eq_append_iff.1 hr with ⟨z, h1, h2⟩ | ⟨z, h1, h2⟩
      · exact Or.inl ⟨z, h1, h2.symm⟩
      · exact Or.inr ⟨z, h1, h2⟩
    · have : t.length = (y ++ t ++ hl).length := congrArg _ hr.1
      simp at this
      exact hy (List.length_eq_zero_iff.1 (by omega))
    · exact h x y hxy hy z h1

theorem upTo_char {q : Nat} {a : UStr} (rest : UStr) (h : q ∉ a) : upTo [q] (a ++ q :: rest) = some (a, rest) := by
  refine upTo_of_notOccurs (t := [q]) (by simp) rest fun x y hxy hy z hz => ?_
  cases y with
  | nil => exact hy rfl
  | cons b y =>
    simp at hz
    exact h (by rw [hxy]; simp [hz.1])

/-! Names -/

theorem takeWhile_append {p : Nat → Bool} {a : UStr} {c : Nat} {rest : UStr} (ha : ∀ x ∈ a, p x = true)
    (hc : p c = false) :
    (a ++ c :: rest).takeWhile p = a ∧ (a ++ c :: rest).dropWhile p = c :: rest := by
  constructor
  · rw [List.takeWhile_append_of_pos ha]; simp [hc]
  · rw [List.dropWhile_append_of_pos ha]; simp [hc]

theorem nameStart_nameChar {c : Nat} (h : nameStart c = true) : nameChar c = true := by
  simp [nameChar, h]

theorem isName_all {n : UStr} (h : isName n = true) : ∀ x ∈ n, nameChar x = true := by
  cases n with
  | nil => simp
  | cons c s =>
    simp [isName] at h
    intro x hx
    rcases List.mem_cons.1 hx with hx | hx
    · rw [hx]; exact nameStart_nameChar h.1
    · exact h.2 x hx

theorem isName_ne {n : UStr} (h : isName n = true) : n ≠ [] := by
  rintro rfl; simp [isName] at h

theorem readName_append {n : UStr} (h : isName n = true) {c : Nat} (hc : nameChar c = false) (rest : UStr) :
    readName (n ++ c :: rest) = some (n, c :: rest) := by
  unfold readName
  obtain ⟨h1, h2⟩ := takeWhile_append (rest := rest) (isName_all h) hc
  rw [h1, h2, if_pos h]

/-- Characters of names are not those of markup. -/
theorem nameStart_ne {c : Nat} (h : nameStart c = true) :
    c ≠ 60 ∧ c ≠ 62 ∧ c ≠ 38 ∧ c ≠ 33 ∧ c ≠ 63 ∧ c ≠ 47 ∧ c ≠ 61 ∧ c ≠ 34 ∧ c ≠ 39 ∧ c ≠ 13 ∧ space c = false := by
  refine ⟨?_, ?_, ?_, ?_, ?_, ?_, ?_, ?_, ?_, ?_, ?_⟩
  · rintro rfl; revert h; decide
  · rintro rfl; revert h; decide
  · rintro rfl; revert h; decide
  · rintro rfl; revert h; decide
  · rintro rfl; revert h; decide
  · rintro rfl; revert h; decide
  · rintro rfl; revert h; decide
  · rintro rfl; revert h; decide
  · rintro rfl; revert h; decide
  · rintro rfl; revert h; decide
  · cases hs : space c with
    | false => rfl
    | true =>
      simp [space] at hs
      rcases hs with ((rfl | rfl) | rfl) | rfl <;> revert h <;> decide

theorem nameChar_ne13 {c : Nat} (h : nameChar c = true) : c ≠ 13 := by
  rintro rfl; revert h; decide

theorem name_cons {n : UStr} (h : isName n = true) : ∃ c s, n = c :: s ∧ nameStart c = true := by
  cases n with
  | nil => simp [isName] at h
  | cons c s => simp [isName] at h; exact ⟨c, s, rfl, h.1⟩

theorem skipSpace_of {c : Nat} {s : UStr} (h : space c = false) : skipSpace (c :: s) = c :: s := by
  simp [skipSpace, h]

theorem skipSpace_name {n : UStr} (h : isName n = true) (rest : UStr) : skipSpace (n ++ rest) = n ++ rest := by
  obtain ⟨c, s, rfl, hc⟩ := name_cons h
  exact skipSpace_of (nameStart_ne hc).2.2.2.2.2.2.2.2.2.2

/-! References -/

/-- After `&`, `w` is a reference to `c`. -/
def RefTo (c : Nat) (w : UStr) : Prop := ∀ rest, readRef (w ++ rest) = some (c, rest)

theorem digit_dec {d : Nat} (h : d < 10) : digit 10 (48 + d) = some d := by
  have h1 : 48 ≤ 48 + d ∧ 48 + d ≤ 57 := by omega
  unfold digit
  rw [if_pos h1]
  simp [h]

theorem digits_append (b : Nat) (s t : UStr) : ∀ acc, digits b acc (s ++ t) = (digits b acc s).bind fun a => digits b a t := by
  induction s with
  | nil => intro acc; rfl
  | cons c s ih =>
    intro acc
    rw [List.cons_append, digits, digits]
    cases digit b c with
    | none => rfl
    | some d => exact ih _

theorem digits_decimal (n : Nat) : digits 10 0 (decimal n) = some n := by
  induction n using Nat.strongRecOn with
  | _ n ih =>
    unfold decimal
    split
    · rename_i h
      simp [digits, digit_dec h]
    · rw [digits_append, ih (n / 10) (by omega)]
      have : n % 10 < 10 := by omega
      simp only [Option.bind_some, digits, digit_dec this]
      congr 1; omega

theorem decimal_ne (n : Nat) : ∃ c s, decimal n = c :: s := by
  unfold decimal
  split
  · exact ⟨_, _, rfl⟩
  · cases h : decimal (n / 10) with
    | nil => exact ⟨_, _, rfl⟩
    | cons c s => exact ⟨_, _, rfl⟩

theorem refTo_charref {c : Nat} (h : Legal c) : RefTo c (u!! "#" ++ decimal c ++ u!! ";") := by
  intro rest
  have hd := decimal_digits c
  have hn : (59 : Nat) ∉ u!! "#" ++ decimal c := by
    intro hm
    rcases List.mem_append.1 hm with hm | hm
    · simp at hm
    · have := hd 59 hm; omega
  have hv : refValue (u!! "#" ++ decimal c) = some c := by
    obtain ⟨x, s, hx⟩ := decimal_ne c
    have h1 := digits_decimal c
    have h2 := hd x (by rw [hx]; simp)
    rw [hx] at h1 ⊢
    simp only [List.cons_append, List.nil_append]
    unfold refValue
    simp only [List.cons.injEq]
    have : x ≠ 120 := by omega
    split
    · omega
    split
    · omega
    split
    · omega
    split
    · omega
    split
    · omega
    split
    · rename_i heq; cases heq; exact absurd rfl this
    · rename_i heq; cases heq; exact h1
    · rename_i h3; exact absurd rfl (h3 x s)
  unfold readRef
  have hu := upTo_char rest hn
  rw [show u!! "#" ++ decimal c ++ u!! ";" ++ rest = u!! "#" ++ decimal c ++ 59 :: rest by simp, hu]
  simp only [hv, if_pos h]

theorem charref_eq (c : Nat) : charref c = 38 :: (u!! "#" ++ decimal c ++ u!! ";") := by
  simp [charref]

/-- Characters of references. -/
def Plain (x : Nat) : Prop := Legal x ∧ x ≠ 13 ∧ x ≠ 60 ∧ x ≠ 62 ∧ x ≠ 34 ∧ x ≠ 39

instance (x : Nat) : Decidable (Plain x) := by unfold Plain; infer_instance

/-- What is known about an entity map: it replaces characters by references to them. -/
def RefMap (m : EntityMap) : Prop := ∀ c r, m.lookup c = some r → ∃ w, r = 38 :: w ∧ RefTo c w ∧ ∀ x ∈ w, Plain x

theorem refMap_of_mem {m : EntityMap} (h : ∀ p ∈ m, ∃ w, p.2 = 38 :: w ∧ RefTo p.1 w ∧ ∀ x ∈ w, Plain x) : RefMap m :=
  fun _ _ hl => h _ (lookup_mem hl)

theorem refTo_of {c : Nat} (w : UStr) (h1 : (59 : Nat) ∉ w) (h2 : refValue w = some c) (h3 : Legal c) :
    RefTo c (w ++ [59]) := by
  intro rest
  unfold readRef
  rw [show w ++ [59] ++ rest = w ++ 59 :: rest by simp, upTo_char rest h1]
  simp only [h2, if_pos h3]

theorem refTo_lt : RefTo 60 (u!! "lt;") := refTo_of (u!! "lt") (by decide) (by decide) (by decide)
theorem refTo_gt : RefTo 62 (u!! "gt;") := refTo_of (u!! "gt") (by decide) (by decide) (by decide)
theorem refTo_amp : RefTo 38 (u!! "amp;") := refTo_of (u!! "amp") (by decide) (by decide) (by decide)
theorem refTo_quot : RefTo 34 (u!! "quot;") := refTo_of (u!! "quot") (by decide) (by decide) (by decide)
theorem refTo_apos : RefTo 39 (u!! "apos;") := refTo_of (u!! "apos") (by decide) (by decide) (by decide)
theorem refTo_9 : RefTo 9 (u!! "#9;") := refTo_of (u!! "#9") (by decide) (by decide) (by decide)
theorem refTo_10 : RefTo 10 (u!! "#10;") := refTo_of (u!! "#10") (by decide) (by decide) (by decide)
theorem refTo_13 : RefTo 13 (u!! "#13;") := refTo_of (u!! "#13") (by decide) (by decide) (by decide)

theorem refMap_text : RefMap textEntities := by
  refine refMap_of_mem fun p hp => ?_
  simp only [textEntities, List.mem_cons, List.not_mem_nil, or_false] at hp
  rcases hp with rfl | rfl | rfl | rfl
  · exact ⟨_, rfl, refTo_lt, by decide⟩
  · exact ⟨_, rfl, refTo_gt, by decide⟩
  · exact ⟨_, rfl, refTo_amp, by decide⟩
  · exact ⟨_, rfl, refTo_13, by decide⟩

theorem refMap_quot : RefMap attrEntitiesQuot := by
  refine refMap_of_mem fun p hp => ?_
  simp only [attrEntitiesQuot, List.mem_cons, List.not_mem_nil, or_false] at hp
  rcases hp with rfl | rfl | rfl | rfl | rfl | rfl
  · exact ⟨_, rfl, refTo_lt, by decide⟩
  · exact ⟨_, rfl, refTo_amp, by decide⟩
  · exact ⟨_, rfl, refTo_9, by decide⟩
  · exact ⟨_, rfl, refTo_10, by decide⟩
  · exact ⟨_, rfl, refTo_13, by decide⟩
  · exact ⟨_, rfl, refTo_quot, by decide⟩

theorem refMap_apos : RefMap attrEntitiesApos := by
  refine refMap_of_mem fun p hp => ?_
  simp only [attrEntitiesApos, List.mem_cons, List.not_mem_nil, or_false] at hp
  rcases hp with rfl | rfl | rfl | rfl | rfl | rfl
  · exact ⟨_, rfl, refTo_lt, by decide⟩
  · exact ⟨_, rfl, refTo_amp, by decide⟩
  · exact ⟨_, rfl, refTo_9, by decide⟩
  · exact ⟨_, rfl, refTo_10, by decide⟩
  · exact ⟨_, rfl, refTo_13, by decide⟩
  · exact ⟨_, rfl, refTo_apos, by decide⟩

theorem asciiMap_text : AsciiMap textEntities := by unfold AsciiMap Ascii; decide
theorem asciiMap_quot : AsciiMap attrEntitiesQuot := by unfold AsciiMap Ascii; decide
theorem asciiMap_apos : AsciiMap attrEntitiesApos := by unfold AsciiMap Ascii; decide

theorem lookup_none {m : EntityMap} {c : Nat} (h : m.lookup c = none) : ∀ p ∈ m, p.1 ≠ c := by
  induction m with
  | nil => simp
  | cons p m ih =>
    obtain ⟨k, v⟩ := p
    rw [List.lookup_cons] at h
    cases hk : c == k with
    | true => rw [hk] at h; cases h
    | false =>
      rw [hk] at h
      intro q hq
      rcases List.mem_cons.1 hq with rfl | hq
      · simp at hk; exact fun e => hk e.symm
      · exact ih h q hq

/-- What is written for a character: itself, or a reference to it. -/
theorem escChar_cases (enc : Codec) {m : EntityMap} (hm : RefMap m) {c : Nat} (hc : Legal c) :
    (escChar enc m c = [c] ∧ m.lookup c = none) ∨
    ∃ w, escChar enc m c = 38 :: w ∧ RefTo c w ∧ ∀ x ∈ w, Plain x := by
  unfold escChar
  cases hl : m.lookup c with
  | some r => exact Or.inr (hm c r hl)
  | none =>
    dsimp only
    split
    · right
      refine ⟨_, charref_eq c, refTo_charref hc, fun x hx => ?_⟩
      simp only [List.mem_append, List.mem_cons, List.not_mem_nil, or_false] at hx
      rcases hx with (hx | hx) | hx
      · subst hx; decide
      · have := decimal_digits c x hx; unfold Plain Legal; omega
      · subst hx; decide
    · exact Or.inl ⟨rfl, rfl⟩

/-! Text -/

/-- What one piece does to the state of the reader, in content or in a document. -/
def step (content : Bool) (ph : Phase) (o : List UStr) (e : List Ev) : Option (Phase × List UStr) :=
  if content then (nest o e).map fun o' => (ph, o') else advance ph o e

/-- The rest of the input can be read piece by piece. -/
inductive Reads (content : Bool) : Phase → List UStr → UStr → List Ev → Prop
  | nil {ph : Phase} : (content = false → ph = .root) → Reads content ph [] [] []
  | ws {ph : Phase} {c : Nat} {s : UStr} {es : List Ev} : content = false → space c = true →
      Reads content ph [] s es → Reads content ph [] (c :: s) es
  | cons {ph ph' : Phase} {o o' : List UStr} {s r : UStr} {e es : List Ev} : lex s = some (e, r) →
      r.length < s.length → step content ph o e = some (ph', o') → Reads content ph' o' r es →
      Reads content ph o s (e ++ es)

theorem nest_append (a b : List Ev) : ∀ o, nest o (a ++ b) = (nest o a).bind fun o' => nest o' b := by
  induction a with
  | nil => intro o; cases o <;> rfl
  | cons e a ih =>
    intro o
    cases e with
    | start n as => rw [List.cons_append, nest, nest, ih]
    | stop n =>
      cases o with
      | nil => rfl
      | cons m o =>
        rw [List.cons_append, nest, nest]
        split
        · rw [ih]
        · rfl
    | char c => cases o <;> rw [List.cons_append, nest, nest, ih] <;> simp
    | comment c => cases o <;> rw [List.cons_append, nest, nest, ih] <;> simp
    | pi t d => cases o <;> rw [List.cons_append, nest, nest, ih] <;> simp
    | doctype n p s => cases o <;> rw [List.cons_append, nest, nest] <;> simp

theorem reads_content {ph : Phase} {o : List UStr} {s : UStr} {es : List Ev} (h : Reads true ph o s es) :
    (∀ n, s.length ≤ n → lexAll n s = some es) ∧ nest o es = some [] := by
  induction h with
  | nil _ => exact ⟨fun n _ => by cases n <;> rfl, rfl⟩
  | ws h => cases h
  | @cons ph ph' o o' s r e es h hl hst _ ih =>
    constructor
    · intro n hn
      cases s with
      | nil => simp at hl
      | cons c t =>
        cases n with
        | zero => simp at hn
        | succ n =>
          rw [lexAll, h]
          · dsimp only
            rw [ih.1 n (by simp at hl hn; omega)]; rfl
          · simp
    · rw [nest_append]
      simp only [step, if_true] at hst
      cases hn : nest o e with
      | none => rw [hn] at hst; cases hst
      | some o'' =>
        rw [hn] at hst
        cases hst
        exact ih.2

theorem readParts_skip (n : Nat) (ph : Phase) {s t : UStr} (h : skipSpace s = skipSpace t) :
    readParts n ph [] s = readParts n ph [] t := by
  cases n with
  | zero => rfl
  | succ n => simp only [readParts, if_true, h]

/-- Outside the document element there is only markup. -/
theorem lex_top {ph : Phase} {s r : UStr} {e : List Ev} {x : Phase × List UStr} (h : lex s = some (e, r))
    (ha : advance ph [] e = some x) : ∃ t, s = 60 :: t := by
  cases s with
  | nil => cases h
  | cons c t =>
    unfold lex at h
    dsimp only at h
    split at h
    · rename_i hc; exact ⟨t, by rw [hc]⟩
    · split at h
      · cases hr : readRef t with
        | none => rw [hr] at h; cases h
        | some p => rw [hr] at h; cases h; cases ha
      · split at h
        · cases h
        · cases h; cases ha

theorem reads_document {ph : Phase} {o : List UStr} {s : UStr} {es : List Ev} (h : Reads false ph o s es) :
    ∀ n, s.length < n → readParts n ph o s = some es := by
  induction h with
  | nil h =>
    intro n hn
    cases n with
    | zero => omega
    | succ n => simp [readParts, h rfl, skipSpace]
  | @ws ph c s es _ hc _ ih =>
    intro n hn
    rw [readParts_skip n ph (t := s) (by unfold skipSpace; rw [List.dropWhile_cons_of_pos hc])]
    exact ih n (by simp at hn; omega)
  | @cons ph ph' o o' s r e es h hl hst _ ih =>
    intro n hn
    cases n with
    | zero => omega
    | succ n =>
      have hst' : advance ph o e = some (ph', o') := by simpa [step] using hst
      have hsk : (if o = [] then skipSpace s else s) = s := by
        split
        · rename_i ho
          subst ho
          obtain ⟨t, rfl⟩ := lex_top h hst'
          exact skipSpace_of (by decide)
        · rfl
      have hne : s ≠ [] := by rintro rfl; cases h
      rw [readParts]
      rw [hsk, if_neg hne, h]
      dsimp only
      rw [hst']
      dsimp only
      rw [ih n (by omega)]
      rfl

/-- Where character data is allowed. -/
def InContent (content : Bool) (ph : Phase) (o : List UStr) : Prop := content = true ∨ (o ≠ [] ∧ ph = .root)

theorem step_in {content : Bool} {ph : Phase} {o o' : List UStr} {e : List Ev} (h : InContent content ph o)
    (hn : nest o e = some o') : step content ph o e = some (ph, o') := by
  unfold step
  rcases h with h | ⟨h1, h2⟩
  · rw [if_pos h, hn]; rfl
  · split
    · rw [hn]; rfl
    · cases o with
      | nil => exact absurd rfl h1
      | cons x o => rw [advance, hn, h2]; rfl

theorem nest_chars (o : List UStr) (s : UStr) : nest o (s.map .char) = some o := by
  induction s with
  | nil => cases o <;> rfl
  | cons c s ih => cases o <;> rw [List.map_cons, nest, ih] <;> simp

/-- The rest does not complete `]]>`. -/
def Safe (s : UStr) : Prop := (∀ t, s ≠ 62 :: t) ∧ ∀ t, s ≠ 93 :: 62 :: t

theorem safe_nil : Safe [] := ⟨by simp, by simp⟩
theorem safe_lt (s : UStr) : Safe (60 :: s) := ⟨by simp, by simp⟩

theorem lex_char {c : Nat} {t : UStr} (hc : Legal c) (h1 : c ≠ 60) (h2 : c ≠ 38) (hs : Safe t) :
    lex (c :: t) = some ([.char c], t) := by
  unfold lex
  dsimp only
  rw [if_neg h1, if_neg h2, if_neg]
  rintro (h | h)
  · obtain ⟨r, hr⟩ := Py.startsWith_iff.1 h
    simp at hr
    exact hs.2 r hr.2
  · exact h hc

theorem lex_ref {c : Nat} {w t : UStr} (h : RefTo c w) : lex (38 :: w ++ t) = some ([.char c], t) := by
  unfold lex
  simp [h t]

theorem safe_cons {c : Nat} {t : UStr} (h1 : c ≠ 62) (h2 : ∀ r, t ≠ 62 :: r) : Safe (c :: t) :=
  ⟨fun r h => by cases h; exact h1 rfl, fun r h => by cases h; exact h2 r rfl⟩

theorem safe_append {a t : UStr} (ha : (62 : Nat) ∉ a) (ht : Safe t) : Safe (a ++ t) := by
  cases a with
  | nil => exact ht
  | cons c a =>
    refine safe_cons (fun h => ha (by simp [h])) fun r hr => ?_
    cases a with
    | nil => exact ht.1 r hr
    | cons d a => simp at hr; exact ha (by simp [hr.1])

/-- The text that is written for a string. -/
def escText (enc : Codec) (m : EntityMap) (s : UStr) : UStr := s.flatMap (escChar enc m)

theorem textEntities_none {c : Nat} (h : textEntities.lookup c = none) : c ≠ 60 ∧ c ≠ 62 ∧ c ≠ 38 ∧ c ≠ 13 := by
  have := lookup_none h
  simp [textEntities] at this
  omega

theorem escText_no (enc : Codec) {s : UStr} (hs : ∀ c ∈ s, Legal c) :
    ∀ x ∈ escText enc textEntities s, x ≠ 60 ∧ x ≠ 62 ∧ x ≠ 13 := by
  intro x hx
  obtain ⟨c, hc, hx⟩ := List.mem_flatMap.1 hx
  rcases escChar_cases enc refMap_text (hs c hc) with ⟨h1, h2⟩ | ⟨w, h1, _, h3⟩
  · rw [h1] at hx; simp at hx; subst hx
    have := textEntities_none h2; omega
  · rw [h1] at hx
    rcases List.mem_cons.1 hx with rfl | hx
    · omega
    · have := h3 x hx; unfold Plain at this; omega

theorem reads_text (enc : Codec) {content : Bool} {ph : Phase} {o : List UStr} (hin : InContent content ph o)
    (s : UStr) (hs : ∀ c ∈ s, Legal c) {rest : UStr} {es : List Ev}
    (hr : Reads content ph o rest es) (hsafe : Safe rest) :
    Reads content ph o (escText enc textEntities s ++ rest) (s.map .char ++ es) := by
  induction s with
  | nil => exact hr
  | cons c s ih =>
    have ih := ih (fun x hx => hs x (by simp [hx]))
    have hno : (62 : Nat) ∉ escText enc textEntities s := fun h =>
      (escText_no enc (fun x hx => hs x (by simp [hx])) 62 h).2.1 rfl
    have hc := hs c (by simp)
    have hsf := safe_append hno hsafe
    have hst := step_in hin (nest_chars o [c])
    show Reads content ph o (escChar enc textEntities c ++ escText enc textEntities s ++ rest)
      ([.char c] ++ (s.map .char ++ es))
    rw [List.append_assoc]
    rcases escChar_cases enc refMap_text hc with ⟨h1, h2⟩ | ⟨w, h1, h2, _⟩
    · rw [h1]
      have := textEntities_none h2
      exact .cons (lex_char hc this.1 this.2.2.1 hsf) (by simp) hst ih
    · rw [h1]
      exact .cons (lex_ref h2) (by simp; omega) hst ih

/-! Attribute values -/

/-- The entity map protects the quote `q` and white space. -/
def Protects (m : EntityMap) (q : Nat) (s : UStr) : Prop :=
  ∀ c ∈ s, m.lookup c = none → c ≠ q ∧ c ≠ 38 ∧ c ≠ 60 ∧ (space c = true → c = 32)

theorem readValue_escText (enc : Codec) {m : EntityMap} (hm : RefMap m) {q : Nat} (hq : q ≠ 38) (s : UStr)
    (hs : ∀ c ∈ s, Legal c) (hp : Protects m q s) (rest : UStr) :
    ∀ n, (escText enc m s).length < n → readValue q n (escText enc m s ++ q :: rest) = some (s, rest) := by
  induction s with
  | nil =>
    intro n hn
    cases n with
    | zero => omega
    | succ n => simp [escText, readValue]
  | cons c s ih =>
    intro n hn
    have ih := ih (fun x hx => hs x (by simp [hx])) (fun x hx => hp x (by simp [hx]))
    have he : escText enc m (c :: s) = escChar enc m c ++ escText enc m s := rfl
    rw [he] at hn ⊢
    rw [List.append_assoc]
    rcases escChar_cases enc hm (hs c (by simp)) with ⟨h1, h2⟩ | ⟨w, h1, h2, _⟩
    · rw [h1] at hn ⊢
      cases n with
      | zero => omega
      | succ n =>
        obtain ⟨p1, p2, p3, p4⟩ := hp c (by simp) h2
        rw [List.cons_append, readValue, if_neg p1, if_neg p2, if_neg, List.nil_append, ih n (by simp at hn; omega)]
        · simp only [Option.map_some]
          congr 2
          split
          · rename_i h; rw [p4 h]
          · rfl
        · rintro (h | h)
          · exact p3 h
          · exact h (hs c (by simp))
    · rw [h1] at hn ⊢
      cases n with
      | zero => omega
      | succ n =>
        rw [List.cons_append, readValue, if_neg (fun h => hq h.symm), if_pos rfl, h2]
        dsimp only
        rw [ih n (by simp at hn; omega)]; rfl

theorem quot_none {c : Nat} (h : attrEntitiesQuot.lookup c = none) : c ≠ 60 ∧ c ≠ 38 ∧ c ≠ 9 ∧ c ≠ 10 ∧ c ≠ 13 ∧ c ≠ 34 := by
  have := lookup_none h
  simp [attrEntitiesQuot] at this
  omega

theorem apos_none {c : Nat} (h : attrEntitiesApos.lookup c = none) : c ≠ 60 ∧ c ≠ 38 ∧ c ≠ 9 ∧ c ≠ 10 ∧ c ≠ 13 ∧ c ≠ 39 := by
  have := lookup_none h
  simp [attrEntitiesApos] at this
  omega

theorem space_cases {c : Nat} (h : space c = true) : c = 32 ∨ c = 9 ∨ c = 13 ∨ c = 10 := by
  simp [space] at h; omega

/-- The quotes that are chosen for a value. -/
theorem quoting_cases (canonical : Bool) (v : UStr) : ∃ q m, quoting canonical v = (m, [q]) ∧ RefMap m ∧ AsciiMap m ∧
    (q = 34 ∨ q = 39) ∧ Protects m q v := by
  unfold quoting
  split
  · refine ⟨39, _, rfl, refMap_apos, asciiMap_apos, Or.inr rfl, fun c _ h => ?_⟩
    have := apos_none h
    exact ⟨this.2.2.2.2.2, this.2.1, this.1, fun hs => by have := space_cases hs; omega⟩
  · refine ⟨34, _, rfl, refMap_quot, asciiMap_quot, Or.inl rfl, fun c _ h => ?_⟩
    have := quot_none h
    exact ⟨this.2.2.2.2.2, this.2.1, this.1, fun hs => by have := space_cases hs; omega⟩

end Verif.Write
