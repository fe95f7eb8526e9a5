import Verif.Write.HtmlRead

/-
Reading back tags, comments, processing instructions and document type declarations.
-/
namespace Verif.Write.Html
open Verif Verif.Write Verif.Write.Html.Spec
open Verif.Write.Spec (Legal space skipSpace upTo eol needSpace Phase Raw Occurs LegalText Encodable)

/-! Names -/

theorem nameChar_facts {c : Nat} (h : Spec.nameChar c = true) :
    c < 128 ∧ c ≠ 13 ∧ Legal c ∧ c ≠ 62 ∧ c ≠ 34 ∧ c ≠ 32 := by
  simp only [Spec.nameChar, letter, Bool.or_eq_true, Bool.and_eq_true, decide_eq_true_eq] at h
  unfold Legal
  omega

theorem letter_facts {c : Nat} (h : letter c = true) :
    space c = false ∧ c ≠ 62 ∧ c ≠ 61 ∧ c ≠ 33 ∧ c ≠ 63 ∧ c ≠ 47 ∧ Spec.nameChar c = true ∧ c ≠ 60 ∧ c ≠ 34 := by
  refine ⟨?_, ?_⟩
  · cases hs : space c with
    | false => rfl
    | true =>
      have := space_cases hs
      simp only [letter, Bool.or_eq_true, Bool.and_eq_true, decide_eq_true_eq] at h
      omega
  · refine ⟨?_, ?_, ?_, ?_, ?_, by simp [Spec.nameChar, h], ?_, ?_⟩ <;>
      (simp only [letter, Bool.or_eq_true, Bool.and_eq_true, decide_eq_true_eq] at h; omega)

theorem hname_cons {n : UStr} (h : Spec.isName n = true) : ∃ c s, n = c :: s ∧ letter c = true := by
  cases n with
  | nil => cases h
  | cons c s =>
    simp only [Spec.isName, Bool.and_eq_true] at h
    exact ⟨c, s, rfl, h.1⟩

theorem hname_all {n : UStr} (h : Spec.isName n = true) : ∀ x ∈ n, Spec.nameChar x = true := by
  cases n with
  | nil => intro x hx; cases hx
  | cons c s =>
    simp only [Spec.isName, Bool.and_eq_true] at h
    intro x hx
    rcases List.mem_cons.1 hx with rfl | hx
    · exact (letter_facts h.1).2.2.2.2.2.2.1
    · exact List.all_eq_true.1 h.2 x hx

theorem hname_raw {n : UStr} (h : Spec.isName n = true) : Raw n := fun c hc =>
  have := nameChar_facts (hname_all h c hc)
  ⟨this.2.2.1, this.2.1⟩

theorem hname_ascii {n : UStr} (h : Spec.isName n = true) : Ascii n := fun c hc =>
  (nameChar_facts (hname_all h c hc)).1

theorem hreadName {n : UStr} (h : Spec.isName n = true) {c : Nat} (hc : Spec.nameChar c = false) (rest : UStr) :
    Spec.readName (n ++ c :: rest) = some (n, c :: rest) := by
  obtain ⟨h1, h2⟩ := takeWhile_append (hname_all h) hc (rest := rest)
  unfold Spec.readName
  rw [h1, h2, if_pos h]

theorem skipSpace_32 {c : Nat} {s : UStr} (h : space c = false) : skipSpace (32 :: c :: s) = c :: s := by
  have h1 := skipSpace_of (s := s) h
  unfold skipSpace at h1 ⊢
  rw [List.dropWhile_cons_of_pos (by rfl), h1]

/-! Attributes -/

/-- The value of an attribute as it is written, with the equals sign. -/
def valText (enc : Codec) (nm : EntityMap) : Option UStr → UStr
  | none => []
  | some v =>
    if v.contains 34 && !v.contains 39 then 61 :: 39 :: (escAttr enc (aposMap nm) v ++ [39])
    else 61 :: 34 :: (escAttr enc (quotMap nm) v ++ [34])

/-- An attribute as it is written. -/
def hattrText (enc : Codec) (nm : EntityMap) (b : UStr × Option UStr) : UStr := 32 :: (b.1 ++ valText enc nm b.2)

/-- An attribute that can be written. -/
def AttrOk (wide : Bool) (version element : UStr) (b : UStr × Option UStr) : Prop :=
  Spec.isName b.1 = true ∧ (b.2 = none → isBool element b.1 = true) ∧
    ∀ v, b.2 = some v → LegalText wide v ∧ ∀ c ∈ v, Good version c

/-- What can follow a name or value in a start tag. -/
def TagTail (s : UStr) : Prop := (∃ r, s = 62 :: r) ∨ ∃ c r, s = 32 :: c :: r ∧ letter c = true

theorem tail_opt {element name tail : UStr} (hb : isBool element name = true) (ht : TagTail tail) :
    readOptValue element name tail = some (none, tail) := by
  unfold readOptValue
  rcases ht with ⟨r, rfl⟩ | ⟨c, r, rfl, hc⟩
  · rw [skipSpace_of (by decide)]
    simp [hb]
  · have hf := letter_facts hc
    rw [skipSpace_32 hf.1]
    split
    · rename_i heq; injection heq with heq _; exact absurd heq hf.2.2.1
    · rw [if_pos hb]

theorem val_read {enc : Codec} (hbr : enc [123] ≠ none) {wide : Bool} {version element : UStr}
    {b : UStr × Option UStr} (h : AttrOk wide version element b) {tail : UStr} (ht : TagTail tail) :
    readOptValue element b.1 (valText enc (named version) b.2 ++ tail) = some (b.2, tail) := by
  obtain ⟨name, v⟩ := b
  obtain ⟨h1, h2, h3⟩ := h
  cases v with
  | none => exact tail_opt (h2 rfl) ht
  | some v =>
    have hv := h3 v rfl
    have hs : ∀ c ∈ v, Legal c ∧ Good version c := fun c hc => ⟨(hv.1 c hc).1, hv.2 c hc⟩
    have key : ∀ (q : Nat) (m : HMap), (q = 34 ∨ q = 39) → AttrMap version q m →
        readOptValue element name (61 :: q :: (escAttr enc m v ++ q :: tail)) = some (some v, tail) := by
      intro q m hq hm
      have hsq : space q = false := by rcases hq with rfl | rfl <;> rfl
      unfold readOptValue
      rw [skipSpace_of (by decide)]
      show (match skipSpace (q :: (escAttr enc m v ++ q :: tail)) with
        | q :: s => if q = 34 ∨ q = 39 then
            (Spec.readValue q (s.length + 1) s).map fun (p : UStr × UStr) => (some p.1, p.2) else none
        | [] => none) = _
      rw [skipSpace_of hsq]
      dsimp only
      rw [if_pos hq, readValue_escAttr hbr hm (by omega) v hs tail _ (by simp; omega)]
      rfl
    show readOptValue element name (valText enc (named version) (some v) ++ tail) = _
    rw [valText]
    split
    · simpa using key 39 _ (Or.inr rfl) (attrMap_apos version)
    · simpa using key 34 _ (Or.inl rfl) (attrMap_quot version)

theorem hattrs_tail {enc : Codec} {wide : Bool} {version element : UStr} {bs : List (UStr × Option UStr)}
    (h : ∀ b ∈ bs, AttrOk wide version element b) (rest : UStr) :
    TagTail (bs.flatMap (hattrText enc (named version)) ++ 62 :: rest) := by
  cases bs with
  | nil => exact Or.inl ⟨rest, rfl⟩
  | cons b bs =>
    obtain ⟨c, s, hc, hl⟩ := hname_cons (h b (by simp)).1
    refine Or.inr ⟨c, s ++ valText enc (named version) b.2 ++ bs.flatMap (hattrText enc (named version)) ++ 62 :: rest,
      ?_, hl⟩
    simp [hattrText, hc]

theorem valText_head (enc : Codec) (nm : EntityMap) (v : Option UStr) {tail : UStr} (ht : TagTail tail) :
    ∃ c r, valText enc nm v ++ tail = c :: r ∧ Spec.nameChar c = false := by
  cases v with
  | none =>
    rcases ht with ⟨r, rfl⟩ | ⟨c, r, rfl, _⟩
    · exact ⟨62, r, rfl, rfl⟩
    · exact ⟨32, c :: r, rfl, rfl⟩
  | some v =>
    rw [valText]
    split
    · exact ⟨61, _, rfl, rfl⟩
    · exact ⟨61, _, rfl, rfl⟩

theorem hattrs_read {enc : Codec} (hbr : enc [123] ≠ none) {wide : Bool} {version element : UStr}
    (bs : List (UStr × Option UStr)) (h : ∀ b ∈ bs, AttrOk wide version element b) (rest : UStr) :
    ∀ n, bs.length < n →
      Spec.readAttrs element n (bs.flatMap (hattrText enc (named version)) ++ 62 :: rest) = some (bs, rest) := by
  induction bs with
  | nil =>
    intro n hn
    cases n with
    | zero => omega
    | succ n =>
      rw [List.flatMap_nil, List.nil_append, Spec.readAttrs, skipSpace_of (by decide)]
      rfl
  | cons b bs ih =>
    intro n hn
    have hb := h b (by simp)
    have ih := ih (fun x hx => h x (by simp [hx]))
    have ht := hattrs_tail (enc := enc) (fun x hx => h x (by simp [hx])) rest (bs := bs)
    cases n with
    | zero => omega
    | succ n =>
      have ih := ih n (by simp at hn; omega)
      rw [List.flatMap_cons, List.append_assoc]
      generalize bs.flatMap (hattrText enc (named version)) ++ 62 :: rest = tail at ih ht
      have hval := val_read hbr hb ht
      obtain ⟨d, r, hd, hdn⟩ := valText_head enc (named version) b.2 ht
      have htext : hattrText enc (named version) b ++ tail = 32 :: (b.1 ++ (valText enc (named version) b.2 ++ tail)) := by
        simp [hattrText]
      rw [htext]
      rw [hd] at hval ⊢
      have hrn := hreadName hb.1 hdn r
      obtain ⟨c, s, hc, hl⟩ := hname_cons hb.1
      have hf := letter_facts hl
      have hsk : skipSpace (32 :: (b.1 ++ d :: r)) = b.1 ++ d :: r := by
        rw [hc]; exact skipSpace_32 hf.1
      rw [Spec.readAttrs, hsk]
      split
      · rename_i heq
        rw [hc] at heq
        injection heq with heq _
        exact absurd heq hf.2.1
      · rw [if_neg (fun he => by have := congrArg List.length he; simp at this), hrn]
        dsimp only
        rw [hval]
        dsimp only
        rw [ih]
        rfl

/-! Tags -/

/-- A start tag. -/
theorem lex_start {enc : Codec} (hbr : enc [123] ≠ none) {wide : Bool} {version name : UStr}
    (hname : Spec.isName name = true) {bs : List (UStr × Option UStr)} (h : ∀ b ∈ bs, AttrOk wide version name b)
    {o : List UStr} (ho : inCdata o = false) (rest : UStr) :
    Spec.lex o (60 :: (name ++ (bs.flatMap (hattrText enc (named version)) ++ 62 :: rest))) =
      if isVoid name then some ([.start name bs, .stop name], o, rest) else some ([.start name bs], name :: o, rest) := by
  obtain ⟨c, s, hc, hl⟩ := hname_cons hname
  have hf := letter_facts hl
  have ht := hattrs_tail (enc := enc) h rest
  have hr := hattrs_read hbr bs h rest
  have hlen : bs.length ≤ (bs.flatMap (hattrText enc (named version))).length := by
    clear h hr ht
    induction bs with
    | nil => simp
    | cons b bs ih => rw [List.flatMap_cons, List.length_append]; simp [hattrText] at ih ⊢; omega
  have hr := hr ((bs.flatMap (hattrText enc (named version)) ++ 62 :: rest).length + 1) (by simp at hlen ⊢; omega)
  generalize bs.flatMap (hattrText enc (named version)) ++ 62 :: rest = tail at ht hr
  obtain ⟨d, r, hd, hdn⟩ := valText_head enc (named version) none ht
  have hd : tail = d :: r := hd
  have hrn := hreadName hname hdn r
  rw [← hd] at hrn
  unfold Spec.lex
  dsimp only
  rw [ho]
  simp only [Bool.false_and, Bool.false_eq_true, if_false, if_true]
  have h1 : ∀ d u, c ≠ d → Py.startsWith (name ++ tail) (d :: u) = false := by
    intro d u h; rw [hc]; exact sw_false h
  rw [h1 _ _ hf.2.2.2.1, h1 _ _ hf.2.2.2.1, h1 _ _ hf.2.2.2.2.1, h1 _ _ hf.2.2.2.2.2.1]
  simp only [Bool.false_eq_true, if_false]
  unfold Spec.readTag
  rw [hrn]
  dsimp only
  rw [hr]

/-- An end tag. -/
theorem lex_stop {name : UStr} (hname : Spec.isName name = true) (o : List UStr) (rest : UStr) :
    Spec.lex (name :: o) (60 :: 47 :: (name ++ 62 :: rest)) = some ([.stop name], o, rest) := by
  have hsw : Py.startsWith (60 :: 47 :: (name ++ 62 :: rest)) (u!! "</") = true := Py.startsWith_iff.2 ⟨_, rfl⟩
  unfold Spec.lex
  dsimp only
  rw [hsw]
  simp only [Bool.not_true, Bool.and_false, Bool.false_eq_true, if_false, if_true]
  have h1 : ∀ d u, 47 ≠ d → Py.startsWith (47 :: (name ++ 62 :: rest)) (d :: u) = false := by
    intro d u h; exact sw_false h
  rw [h1 _ _ (by decide), h1 _ _ (by decide), h1 _ _ (by decide)]
  simp only [Bool.false_eq_true, if_false]
  have : Py.startsWith (47 :: (name ++ 62 :: rest)) (u!! "/") = true := by
    cases name <;> simp [Py.startsWith]
  rw [if_pos this]
  show Spec.readEndTag (name :: o) (name ++ 62 :: rest) = _
  unfold Spec.readEndTag
  rw [hreadName hname (by decide)]
  dsimp only
  rw [skipSpace_of (by decide)]
  show (if low name = low name then some ([Ev.stop name], o, rest) else none) = _
  rw [if_pos rfl]

/-! Comments, processing instructions -/

theorem lex_hcomment {o : List UStr} (ho' : inCdata o = false) {s : UStr} (hs : Raw s)
    (ho : ¬ Occurs (u!! "--") (s ++ u!! "-")) (rest : UStr) :
    Spec.lex o (u!! "<!--" ++ (s ++ (u!! "-->" ++ rest))) = some ([.comment s], o, rest) := by
  have hu : upTo (u!! "--") (s ++ (u!! "--" ++ 62 :: rest)) = some (s, 62 :: rest) := by
    refine upTo_of_notOccurs (by simp) _ fun x y hxy hy z hz => ?_
    match y, hy, hxy, hz with
    | [a], _, hxy, hz =>
      simp at hz
      exact ho ⟨x, [], by simp [hxy, hz.1]⟩
    | a :: b :: y, _, hxy, hz =>
      simp at hz
      exact ho ⟨x, y ++ [45], by simp [hxy, hz.1, hz.2.1]⟩
  have hl : s.all (fun c => decide (Legal c)) = true := by
    rw [List.all_eq_true]; intro c hc; simp [(hs c hc).1]
  have : Spec.readComment (s ++ (u!! "-->" ++ rest)) = some (.comment s, rest) := by
    unfold Spec.readComment
    rw [show s ++ (u!! "-->" ++ rest) = s ++ (u!! "--" ++ 62 :: rest) by simp, hu]
    simp only [hl, if_true]
  unfold Spec.lex
  simp [Py.startsWith, Spec.one, ho'] at this ⊢
  simp [this]

theorem lex_hpi {o : List UStr} (ho : inCdata o = false) {data : UStr} (hd : Raw data) (hg : 62 ∉ data) (rest : UStr) :
    Spec.lex o (u!! "<?" ++ (data ++ 62 :: rest)) = some ([.pi data], o, rest) := by
  have hl : data.all (fun c => decide (Legal c)) = true := by
    rw [List.all_eq_true]; intro c hc; simp [(hd c hc).1]
  have : Spec.readPi (data ++ 62 :: rest) = some (.pi data, rest) := by
    unfold Spec.readPi
    rw [upTo_char rest hg]
    simp only [hl, if_true]
  unfold Spec.lex
  simp [Py.startsWith, Spec.one, ho] at this ⊢
  simp [this]

/-! Document type declarations -/

theorem readLit_append {s : UStr} (h : (34 : Nat) ∉ s) (rest : UStr) :
    readLit (32 :: 34 :: (s ++ 34 :: rest)) = some (s, rest) := by
  unfold readLit
  rw [needSpace_32 (by decide)]
  exact upTo_char rest h

/-- The identifiers as they are written, with the `>`. -/
def idsText : Option UStr → Option UStr → UStr
  | some p, some s => u!! "PUBLIC \"" ++ (p ++ (u!! "\" \"" ++ (s ++ u!! "\">")))
  | some p, none => u!! "PUBLIC \"" ++ (p ++ u!! "\">")
  | none, some s => u!! "SYSTEM \"" ++ (s ++ u!! "\">")
  | none, none => []

theorem readIds_text {p s : Option UStr} (hne : ¬ (p = none ∧ s = none)) (hp : ∀ x, p = some x → 34 ∉ x)
    (hs : ∀ x, s = some x → 34 ∉ x) (rest : UStr) : readIds (idsText p s ++ rest) = some (p, s, rest) := by
  cases p with
  | some p =>
    cases s with
    | some s =>
      have e1 : idsText (some p) (some s) ++ rest =
          u!! "PUBLIC" ++ (32 :: 34 :: (p ++ 34 :: 32 :: 34 :: (s ++ 34 :: 62 :: rest))) := by simp [idsText]
      rw [e1]
      unfold readIds
      rw [show Py.startsWith (u!! "PUBLIC" ++ (32 :: 34 :: (p ++ 34 :: 32 :: 34 :: (s ++ 34 :: 62 :: rest))))
        (u!! "SYSTEM") = false from sw_false (by decide), if_neg (by simp), if_pos (Py.startsWith_iff.2 ⟨_, rfl⟩)]
      rw [show List.drop 6 (u!! "PUBLIC" ++ (32 :: 34 :: (p ++ 34 :: 32 :: 34 :: (s ++ 34 :: 62 :: rest)))) =
        32 :: 34 :: (p ++ 34 :: 32 :: 34 :: (s ++ 34 :: 62 :: rest)) from rfl, readLit_append (hp p rfl)]
      show (match readLit (32 :: 34 :: (s ++ 34 :: 62 :: rest)) with
        | some (sys, 62 :: r) => some (some p, some sys, r)
        | _ => none) = _
      rw [readLit_append (hs s rfl)]
      rfl
    | none =>
      have e1 : idsText (some p) none ++ rest = u!! "PUBLIC" ++ (32 :: 34 :: (p ++ 34 :: 62 :: rest)) := by
        simp [idsText]
      rw [e1]
      unfold readIds
      rw [show Py.startsWith (u!! "PUBLIC" ++ (32 :: 34 :: (p ++ 34 :: 62 :: rest)))
        (u!! "SYSTEM") = false from sw_false (by decide), if_neg (by simp), if_pos (Py.startsWith_iff.2 ⟨_, rfl⟩)]
      rw [show List.drop 6 (u!! "PUBLIC" ++ (32 :: 34 :: (p ++ 34 :: 62 :: rest))) =
        32 :: 34 :: (p ++ 34 :: 62 :: rest) from rfl, readLit_append (hp p rfl)]
      rfl
  | none =>
    cases s with
    | some s =>
      have e1 : idsText none (some s) ++ rest = u!! "SYSTEM" ++ (32 :: 34 :: (s ++ 34 :: 62 :: rest)) := by
        simp [idsText]
      rw [e1]
      unfold readIds
      rw [if_pos (Py.startsWith_iff.2 ⟨_, rfl⟩)]
      rw [show List.drop 6 (u!! "SYSTEM" ++ (32 :: 34 :: (s ++ 34 :: 62 :: rest))) =
        32 :: 34 :: (s ++ 34 :: 62 :: rest) from rfl, readLit_append (hs s rfl)]
      rfl
    | none => exact absurd ⟨rfl, rfl⟩ hne

theorem lex_hdoctype {o : List UStr} (ho : inCdata o = false) {name : UStr} (hn : Spec.isName name = true)
    {p s : Option UStr} (hne : ¬ (p = none ∧ s = none)) (hp : ∀ x, p = some x → 34 ∉ x)
    (hs : ∀ x, s = some x → 34 ∉ x) (rest : UStr) :
    Spec.lex o (u!! "<!DOCTYPE " ++ (name ++ 32 :: (idsText p s ++ rest))) = some ([.doctype name p s], o, rest) := by
  have h1 := readIds_text hne hp hs rest
  obtain ⟨c, x, hc, hl⟩ := hname_cons hn
  obtain ⟨d, y, hd, hsp⟩ : ∃ d y, idsText p s ++ rest = d :: y ∧ space d = false := by
    cases p with
    | some p => cases s with
      | some s => exact ⟨80, _, rfl, rfl⟩
      | none => exact ⟨80, _, rfl, rfl⟩
    | none => cases s with
      | some s => exact ⟨83, _, rfl, rfl⟩
      | none => exact absurd ⟨rfl, rfl⟩ hne
  have h2 : Spec.readDoctype (32 :: (name ++ 32 :: (idsText p s ++ rest))) = some (.doctype name p s, rest) := by
    unfold Spec.readDoctype
    have e : needSpace (32 :: (name ++ 32 :: (idsText p s ++ rest))) = some (name ++ 32 :: (idsText p s ++ rest)) := by
      rw [hc]; exact needSpace_32 (letter_facts hl).1
    rw [e]
    dsimp only
    rw [hreadName hn (by decide)]
    dsimp only
    have e : needSpace (32 :: (idsText p s ++ rest)) = some (idsText p s ++ rest) := by
      rw [hd]; exact needSpace_32 hsp
    rw [e]
    dsimp only
    rw [h1]
  unfold Spec.lex
  simp [Py.startsWith, Spec.one, ho] at h2 ⊢
  simp [h2]

end Verif.Write.Html
