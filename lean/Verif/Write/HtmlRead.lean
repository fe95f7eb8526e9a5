import Verif.Write.HtmlStream

/-
Reading back the text and the attribute values that the HTML printer writes.
-/
namespace Verif.Write.Html
open Verif Verif.Write Verif.Write.Html.Spec
open Verif.Write.Spec (Legal space skipSpace upTo eol needSpace Phase Raw Occurs LegalText Encodable)

/-- After a `&`, `w` is a reference to the character. -/
def AmpTo (c : Nat) (w : UStr) : Prop := ∀ rest, readAmp (w ++ rest) = some (c, rest)

theorem refNext_append {w : UStr} (h : refNext w = true) (rest : UStr) : refNext (w ++ rest) = true := by
  cases w with
  | nil => cases h
  | cons c w => exact h

theorem ampTo_of {c : Nat} (w : UStr) (h1 : (59 : Nat) ∉ w) (h2 : Spec.refValue w = some c) (h3 : Legal c)
    (h4 : refNext w = true) : AmpTo c (w ++ [59]) := by
  intro rest
  unfold readAmp
  rw [show w ++ [59] ++ rest = w ++ 59 :: rest by simp, refNext_append h4, if_pos rfl]
  unfold Spec.readRef
  rw [upTo_char rest h1]
  simp only [h2, if_pos h3]

theorem ampTo_charref {c : Nat} (h : Legal c) : AmpTo c (u!! "#" ++ decimal c ++ u!! ";") := by
  refine ampTo_of (u!! "#" ++ decimal c) ?_ ?_ h rfl
  · intro hm
    rcases List.mem_append.1 hm with hm | hm
    · simp at hm
    · have := decimal_digits c _ hm; omega
  · obtain ⟨d, ds, hd⟩ := decimal_ne c
    have h1 := decimal_digits c d (by rw [hd]; simp)
    have h2 := digits_decimal c
    rw [hd] at h2 ⊢
    show Spec.refValue (35 :: d :: ds) = _
    have h3 : d ≠ 120 := by omega
    unfold Spec.refValue
    split
    · rename_i heq; injection heq with _ heq; injection heq with heq _; exact absurd heq h3
    · rename_i heq; injection heq with _ heq; injection heq with e1 e2; subst e1; subst e2; exact h2
    · rename_i hh1 hh2; exact (hh2 _ _ rfl).elim

/-! The entity tables -/

def plainB (x : Nat) : Bool := decide (Plain x)

/-- An entry is a reference to its character. -/
def entryOk (p : Nat × UStr) : Bool :=
  decide (128 ≤ p.1 ∧ Legal p.1) && p.2.all (· < 128) &&
  match p.2 with
  | 38 :: w => p.1 = 0x2DC || (w = w.dropLast ++ [59] && !w.dropLast.contains 59 && Spec.refValue w.dropLast = some p.1 &&
      refNext w.dropLast && w.all plainB)
  | _ => false

theorem entities32_ok : (entities32.all fun p => entryOk p && p.1 ≠ 0x2DC) = true := by decide +kernel
theorem entities40_ok : entities40.all entryOk = true := by decide +kernel

theorem entryOk_spec {p : Nat × UStr} (h : entryOk p = true) :
    128 ≤ p.1 ∧ Ascii p.2 ∧ (p.1 ≠ 0x2DC → ∃ w, p.2 = 38 :: w ∧ AmpTo p.1 w ∧ ∀ x ∈ w, Plain x) := by
  obtain ⟨c, r⟩ := p
  simp only [entryOk, Bool.and_eq_true, decide_eq_true_eq] at h
  obtain ⟨⟨h1, h2⟩, h3⟩ := h
  refine ⟨h1.1, fun x hx => by simpa using List.all_eq_true.1 h2 x hx, fun hc => ?_⟩
  dsimp only at hc h3
  split at h3
  · rename_i w
    simp only [Bool.or_eq_true, decide_eq_true_eq, Bool.and_eq_true] at h3
    rcases h3 with h3 | ⟨⟨⟨⟨h4, h5⟩, h6⟩, h7⟩, h8⟩
    · exact absurd h3 hc
    · refine ⟨w, rfl, ?_, fun x hx => by simpa [plainB] using List.all_eq_true.1 h8 x hx⟩
      rw [h4]
      exact ampTo_of _ (by simpa using h5) h6 h1.2 h7
  · cases h3

theorem named_ok {version : UStr} {c : Nat} {r : UStr} (h : (c, r) ∈ named version) :
    128 ≤ c ∧ Ascii r ∧ (Good version c → ∃ w, r = 38 :: w ∧ AmpTo c w ∧ ∀ x ∈ w, Plain x) := by
  have h32 : (c, r) ∈ entities32 → (128 ≤ c ∧ Ascii r ∧
      (c ≠ 0x2DC → ∃ w, r = 38 :: w ∧ AmpTo c w ∧ ∀ x ∈ w, Plain x)) ∧ c ≠ 0x2DC := fun hm => by
    have := List.all_eq_true.1 entities32_ok _ hm
    simp only [Bool.and_eq_true, decide_eq_true_eq] at this
    exact ⟨entryOk_spec this.1, this.2⟩
  unfold named at h
  split at h
  · obtain ⟨⟨a, b, d⟩, e⟩ := h32 h
    exact ⟨a, b, fun _ => d e⟩
  · rename_i hv
    rcases List.mem_append.1 h with h | h
    · obtain ⟨a, b, d⟩ := entryOk_spec (List.all_eq_true.1 entities40_ok _ h)
      exact ⟨a, b, fun hg => d fun hc => hv (hg hc)⟩
    · obtain ⟨⟨a, b, d⟩, e⟩ := h32 h
      exact ⟨a, b, fun _ => d e⟩

theorem ampTo_lit {c : Nat} (w : UStr) (h : ((59 : Nat) ∉ w ∧ Spec.refValue w = some c ∧ Legal c ∧ refNext w = true)) :
    AmpTo c (w ++ [59]) := ampTo_of w h.1 h.2.1 h.2.2.1 h.2.2.2

theorem ampTo_lt : AmpTo 60 (u!! "lt;") := ampTo_lit (u!! "lt") (by decide)
theorem ampTo_gt : AmpTo 62 (u!! "gt;") := ampTo_lit (u!! "gt") (by decide)
theorem ampTo_amp : AmpTo 38 (u!! "amp;") := ampTo_lit (u!! "amp") (by decide)
theorem ampTo_quot : AmpTo 34 (u!! "quot;") := ampTo_lit (u!! "quot") (by decide)
theorem ampTo_9 : AmpTo 9 (u!! "#9;") := ampTo_lit (u!! "#9") (by decide)
theorem ampTo_10 : AmpTo 10 (u!! "#10;") := ampTo_lit (u!! "#10") (by decide)
theorem ampTo_13 : AmpTo 13 (u!! "#13;") := ampTo_lit (u!! "#13") (by decide)
theorem ampTo_39 : AmpTo 39 (u!! "#39;") := ampTo_lit (u!! "#39") (by decide)

/-! Text -/

theorem textMap_ascii (version : UStr) : AsciiMap (textMap (named version)) := by
  intro p hp
  rcases List.mem_append.1 hp with hp' | hp
  · have : ∀ p ∈ [(60, u!! "&lt;"), (62, u!! "&gt;"), (38, u!! "&amp;"), (13, u!! "&#13;")], Ascii p.2 := by
      unfold Ascii; decide
    exact this p hp'
  · exact (named_ok (c := p.1) (r := p.2) hp).2.1

theorem textMap_none {nm : EntityMap} {c : Nat} (h : (textMap nm).lookup c = none) :
    c ≠ 60 ∧ c ≠ 62 ∧ c ≠ 38 ∧ c ≠ 13 := by
  have := lookup_none h
  simp [textMap] at this
  omega

/-- What is written for a character of the text. -/
theorem text_cases (enc : Codec) {version : UStr} {c : Nat} (hc : Legal c) (hg : Good version c) :
    (escChar enc (textMap (named version)) c = [c] ∧ c ≠ 60 ∧ c ≠ 62 ∧ c ≠ 38 ∧ c ≠ 13) ∨
    ∃ w, escChar enc (textMap (named version)) c = 38 :: w ∧ AmpTo c w ∧ ∀ x ∈ w, Plain x := by
  unfold escChar
  cases hl : (textMap (named version)).lookup c with
  | some r =>
    right
    dsimp only
    rcases List.mem_append.1 (lookup_mem hl) with h | h
    · simp only [List.mem_cons, Prod.mk.injEq, List.not_mem_nil, or_false] at h
      rcases h with ⟨rfl, rfl⟩ | ⟨rfl, rfl⟩ | ⟨rfl, rfl⟩ | ⟨rfl, rfl⟩
      · exact ⟨_, rfl, ampTo_lt, by decide⟩
      · exact ⟨_, rfl, ampTo_gt, by decide⟩
      · exact ⟨_, rfl, ampTo_amp, by decide⟩
      · exact ⟨_, rfl, ampTo_13, by decide⟩
    · exact (named_ok h).2.2 hg
  | none =>
    dsimp only
    split
    · right
      refine ⟨_, charref_eq c, ampTo_charref hc, fun x hx => ?_⟩
      simp only [List.mem_append, List.mem_cons, List.not_mem_nil, or_false] at hx
      rcases hx with (hx | hx) | hx
      · subst hx; decide
      · have := decimal_digits c x hx; unfold Plain Legal; omega
      · subst hx; decide
    · exact Or.inl ⟨rfl, textMap_none hl⟩

/-! Attribute values -/

/-- What is known about the entity maps for attribute values: `q` is the quote. -/
structure AttrMap (version : UStr) (q : Nat) (m : HMap) : Prop where
  amp : m.lookup 38 = some .amp
  brace : m.lookup 123 = none
  str : ∀ c r, m.lookup c = some r → c ≠ 38 → ∃ s, r = .str s ∧ Ascii s ∧
    (Good version c → ∃ w, s = 38 :: w ∧ AmpTo c w ∧ ∀ x ∈ w, Plain x)
  rest : ∀ c, m.lookup c = none → c ≠ q ∧ c ≠ 38 ∧ c ≠ 9 ∧ c ≠ 10 ∧ c ≠ 13

theorem hlookup_mem {m : HMap} {c : Nat} {r : Repl} (h : m.lookup c = some r) : (c, r) ∈ m := by
  induction m with
  | nil => cases h
  | cons p m ih =>
    obtain ⟨k, v⟩ := p
    rw [List.lookup_cons] at h
    cases hk : c == k with
    | true =>
      rw [hk] at h; cases h
      simp at hk; subst hk; simp
    | false =>
      rw [hk] at h
      exact List.mem_cons_of_mem _ (ih h)

theorem hlookup_none {m : HMap} {c : Nat} (h : m.lookup c = none) : ∀ p ∈ m, p.1 ≠ c := by
  induction m with
  | nil => simp
  | cons p m ih =>
    obtain ⟨k, v⟩ := p
    rw [List.lookup_cons] at h
    cases hk : c == k with
    | true => rw [hk] at h; cases h
    | false =>
      rw [hk] at h
      intro q hq
      rcases List.mem_cons.1 hq with rfl | hq
      · simp at hk; exact fun e => hk e.symm
      · exact ih h q hq

theorem attrMap_of {version : UStr} {q : Nat} {l : EntityMap}
    (hl : ∀ p ∈ l, p.1 ≠ 123 ∧ Ascii p.2 ∧ ∃ w, p.2 = 38 :: w ∧ AmpTo p.1 w ∧ ∀ x ∈ w, Plain x)
    (hq : ∀ c ∈ [q, 9, 10, 13], c ∈ l.map (·.1)) :
    AttrMap version q ((38, .amp) :: strs (l ++ named version)) := by
  have hmem : ∀ {c : Nat} {r : Repl}, (c, r) ∈ strs (l ++ named version) →
      ∃ s, r = .str s ∧ c ≠ 123 ∧ Ascii s ∧ (Good version c → ∃ w, s = 38 :: w ∧ AmpTo c w ∧ ∀ x ∈ w, Plain x) := by
    intro c r h
    obtain ⟨p, hp, he⟩ := List.mem_map.1 h
    cases he
    rcases List.mem_append.1 hp with hp | hp
    · obtain ⟨h1, h2, h3⟩ := hl p hp
      exact ⟨p.2, rfl, h1, h2, fun _ => h3⟩
    · obtain ⟨h1, h2, h3⟩ := named_ok (c := p.1) (r := p.2) hp
      exact ⟨p.2, rfl, by omega, h2, h3⟩
  refine ⟨rfl, ?_, ?_, ?_⟩
  · cases h : List.lookup 123 ((38, .amp) :: strs (l ++ named version)) with
    | none => rfl
    | some r =>
      rcases List.mem_cons.1 (hlookup_mem h) with h | h
      · cases h
      · obtain ⟨_, _, h, _⟩ := hmem h
        exact absurd rfl h
  · intro c r h hc
    rcases List.mem_cons.1 (hlookup_mem h) with h | h
    · cases h; exact absurd rfl hc
    · obtain ⟨s, h1, _, h2⟩ := hmem h
      exact ⟨s, h1, h2⟩
  · intro c h
    have h1 := hlookup_none h
    have h2 : ∀ x ∈ [q, 9, 10, 13], c ≠ x := by
      rintro x hx rfl
      obtain ⟨p, hp, hpc⟩ := List.mem_map.1 (hq c hx)
      exact h1 (p.1, .str p.2) (List.mem_cons_of_mem _ (List.mem_map.2 ⟨p, List.mem_append.2 (Or.inl hp), rfl⟩)) hpc
    exact ⟨h2 q (by simp), fun h => h1 (38, .amp) (by simp) h.symm, h2 9 (by simp), h2 10 (by simp), h2 13 (by simp)⟩

theorem attrMap_quot (version : UStr) : AttrMap version 34 (quotMap (named version)) := by
  refine attrMap_of (fun p hp => ?_) (by decide)
  simp only [List.mem_cons, List.not_mem_nil, or_false] at hp
  rcases hp with rfl | rfl | rfl | rfl
  · exact ⟨by decide, ascii_lit (by decide), _, rfl, ampTo_9, by decide⟩
  · exact ⟨by decide, ascii_lit (by decide), _, rfl, ampTo_10, by decide⟩
  · exact ⟨by decide, ascii_lit (by decide), _, rfl, ampTo_13, by decide⟩
  · exact ⟨by decide, ascii_lit (by decide), _, rfl, ampTo_quot, by decide⟩

theorem attrMap_apos (version : UStr) : AttrMap version 39 (aposMap (named version)) := by
  refine attrMap_of (fun p hp => ?_) (by decide)
  simp only [List.mem_cons, List.not_mem_nil, or_false] at hp
  rcases hp with rfl | rfl | rfl | rfl
  · exact ⟨by decide, ascii_lit (by decide), _, rfl, ampTo_9, by decide⟩
  · exact ⟨by decide, ascii_lit (by decide), _, rfl, ampTo_10, by decide⟩
  · exact ⟨by decide, ascii_lit (by decide), _, rfl, ampTo_13, by decide⟩
  · exact ⟨by decide, ascii_lit (by decide), _, rfl, ampTo_39, by decide⟩

theorem attrMap_ascii {version : UStr} {q : Nat} {m : HMap} (h : AttrMap version q m) : AsciiHMap m := by
  intro c r hl
  by_cases hc : c = 38
  · subst hc; rw [h.amp] at hl; cases hl
  · obtain ⟨s, h1, h2, _⟩ := h.str c _ hl hc
    cases h1; exact h2

/-- What is written for the first character of a value, and what is read there. -/
theorem attr_cases {enc : Codec} (hb : enc [123] ≠ none) {version : UStr} {q : Nat} {m : HMap} (hm : AttrMap version q m)
    {c : Nat} (s : UStr) (hc : Legal c) (hg : Good version c) :
    (escAttr enc m (c :: s) = c :: escAttr enc m s ∧ c ≠ q ∧ c ≠ 38 ∧ c ≠ 9 ∧ c ≠ 10 ∧ c ≠ 13) ∨
    (∃ w, escAttr enc m (c :: s) = 38 :: (w ++ escAttr enc m s) ∧ AmpTo c w ∧ ∀ x ∈ w, Plain x) ∨
    (c = 38 ∧ ∃ t, escAttr enc m (c :: s) = 38 :: escAttr enc m s ∧ escAttr enc m s = 123 :: t) := by
  by_cases h38 : c = 38
  · subst h38
    right
    have he : escAttr enc m (38 :: s) = ampEscape (38 :: s) ++ escAttr enc m s := by
      rw [escAttr, hm.amp]; rfl
    rw [he]
    unfold ampEscape
    split
    · rename_i hsw
      right
      obtain ⟨t, ht⟩ := Py.startsWith_iff.1 hsw
      simp at ht
      subst ht
      refine ⟨rfl, escAttr enc m t, rfl, ?_⟩
      rw [escAttr, hm.brace]
      simp [orRef, hb]
    · exact Or.inl ⟨u!! "amp;", rfl, ampTo_amp, by decide⟩
  · rw [escAttr]
    cases hl : m.lookup c with
    | some r =>
      obtain ⟨x, rfl, _, h2⟩ := hm.str c r hl h38
      obtain ⟨w, rfl, h3, h4⟩ := h2 hg
      exact Or.inr (Or.inl ⟨w, rfl, h3, h4⟩)
    | none =>
      dsimp only
      unfold orRef
      split
      · right; left
        refine ⟨_, ?_, ampTo_charref hc, fun x hx => ?_⟩
        · rw [charref_eq]; rfl
        · simp only [List.mem_append, List.mem_cons, List.not_mem_nil, or_false] at hx
          rcases hx with (hx | hx) | hx
          · subst hx; decide
          · have := decimal_digits c x hx; unfold Plain Legal; omega
          · subst hx; decide
      · have := hm.rest c hl
        exact Or.inl ⟨rfl, this⟩

theorem readValue_escAttr {enc : Codec} (hb : enc [123] ≠ none) {version : UStr} {q : Nat} {m : HMap}
    (hm : AttrMap version q m) (hq : q ≠ 38) (s : UStr)
    (hs : ∀ c ∈ s, Legal c ∧ Good version c) (rest : UStr) :
    ∀ n, (escAttr enc m s).length < n → Spec.readValue q n (escAttr enc m s ++ q :: rest) = some (s, rest) := by
  induction s with
  | nil =>
    intro n hn
    cases n with
    | zero => omega
    | succ n => simp [escAttr, Spec.readValue]
  | cons c s ih =>
    intro n hn
    have ih := ih (fun x hx => hs x (by simp [hx]))
    have hc := hs c (by simp)
    cases n with
    | zero => omega
    | succ n =>
      rcases attr_cases hb hm s hc.1 hc.2 with ⟨h1, p1, p2, p3, p4, p5⟩ | ⟨w, h1, h2, _⟩ | ⟨rfl, t, h1, h2⟩
      · rw [h1] at hn ⊢
        rw [List.cons_append, Spec.readValue, if_neg p1, if_neg p2, if_neg (by simpa using hc.1),
          ih n (by simp at hn; omega)]
        simp only [Option.map_some]
        congr 2
        split
        · rename_i h; rcases space_cases h with h | h | h | h
          · exact congrArg (· :: s) h.symm
          · exact absurd h p3
          · exact absurd h p5
          · exact absurd h p4
        · rfl
      · rw [h1] at hn ⊢
        rw [List.cons_append, Spec.readValue, if_neg (fun h => hq h.symm), if_pos rfl, List.append_assoc, h2]
        dsimp only
        rw [ih n (by simp at hn; omega)]; rfl
      · rw [h1] at hn ⊢
        rw [List.cons_append, Spec.readValue, if_neg (fun h => hq h.symm), if_pos rfl]
        have : readAmp (escAttr enc m s ++ q :: rest) = some (38, escAttr enc m s ++ q :: rest) := by
          rw [h2]; rfl
        rw [this]
        dsimp only
        rw [ih n (by simp at hn; omega)]; rfl

/-- The characters of a value as it is written. -/
theorem escAttr_raw {enc : Codec} (hb : enc [123] ≠ none) {version : UStr} {q : Nat} {m : HMap}
    (hm : AttrMap version q m) (s : UStr) (hs : ∀ c ∈ s, Legal c ∧ Good version c) : Raw (escAttr enc m s) := by
  induction s with
  | nil => intro c hc; cases hc
  | cons c s ih =>
    have ih := ih (fun x hx => hs x (by simp [hx]))
    have hc := hs c (by simp)
    rcases attr_cases hb hm s hc.1 hc.2 with ⟨h1, p1, p2, p3, p4, p5⟩ | ⟨w, h1, h2, h3⟩ | ⟨rfl, t, h1, h2⟩
    · rw [h1]
      intro x hx
      rcases List.mem_cons.1 hx with rfl | hx
      · exact ⟨hc.1, p5⟩
      · exact ih x hx
    · rw [h1]
      intro x hx
      rcases List.mem_cons.1 hx with rfl | hx
      · exact ⟨by decide, by decide⟩
      · rcases List.mem_append.1 hx with hx | hx
        · exact ⟨(h3 x hx).1, (h3 x hx).2.1⟩
        · exact ih x hx
    · rw [h1]
      intro x hx
      rcases List.mem_cons.1 hx with rfl | hx
      · exact ⟨by decide, by decide⟩
      · exact ih x hx

end Verif.Write.Html
