import Verif.Write.PrinterLemmas

/-
The operations of a printer: what they write has no carriage returns, and when they succeed.
-/
namespace Verif.Write
open Verif Verif.Write.Spec

/-- An operation that writes markup or escaped text. -/
def OpFine (wide : Bool) (enc : Codec) (op : Op) : Prop := OpOk op ∧ Raw (opText wide enc op)

theorem ascii_lit {s : UStr} (h : s.all (· < 128) = true) : Ascii s := by
  intro c hc
  simpa using List.all_eq_true.1 h c hc

theorem fine_ascii (wide : Bool) (enc : Codec) {s : UStr} (h : s.all (· < 128) = true) (h13 : s.all (fun c => decide (Legal c ∧ c ≠ 13)) = true) :
    OpFine wide enc (.ascii s) :=
  ⟨ascii_lit h, fun c hc => by simpa using List.all_eq_true.1 h13 c hc⟩

theorem fine_encode (wide : Bool) (enc : Codec) {s : UStr} (h : Raw s) : OpFine wide enc (.encode s) :=
  ⟨trivial, h⟩

theorem nameChar_legal {c : Nat} (h : nameChar c = true) : Legal c := by
  simp only [nameChar, nameStart, Bool.or_eq_true, Bool.and_eq_true, decide_eq_true_eq] at h
  unfold Legal
  omega

theorem name_raw {n : UStr} (h : isName n = true) : Raw n := fun c hc =>
  ⟨nameChar_legal (isName_all h c hc), nameChar_ne13 (isName_all h c hc)⟩

theorem pubid_legal {c : Nat} (h : pubidChar c = true) : Legal c := by
  simp [pubidChar] at h
  unfold Legal
  omega

theorem fine_escape (wide : Bool) (enc : Codec) {s : UStr} {m : EntityMap} (hs : LegalText wide s) (hm : RefMap m)
    (ha : AsciiMap m) (h13 : m.lookup 13 ≠ none) : OpFine wide enc (.escape s m) := by
  refine ⟨ha, fun x hx => ?_⟩
  simp only [opText, sanitize_of hs] at hx
  obtain ⟨c, hc, hx⟩ := List.mem_flatMap.1 hx
  rcases escChar_cases enc hm (legal_of hs c hc) with ⟨h1, h2⟩ | ⟨w, h1, _, h3⟩
  · rw [h1] at hx; simp at hx; subst hx
    exact ⟨legal_of hs _ hc, fun h => h13 (h ▸ h2)⟩
  · rw [h1] at hx
    rcases List.mem_cons.1 hx with h | h
    · subst h; exact ⟨by decide, by decide⟩
    · exact ⟨(h3 x h).1, (h3 x h).2.1⟩

theorem fine_escape_attr (wide : Bool) (enc : Codec) (canonical : Bool) {s : UStr} (hs : LegalText wide s) :
    OpFine wide enc (.escape s (quoting canonical s).1) := by
  unfold quoting
  split
  · exact fine_escape wide enc hs refMap_apos asciiMap_apos (by decide)
  · exact fine_escape wide enc hs refMap_quot asciiMap_quot (by decide)

theorem fine_quote (wide : Bool) (enc : Codec) (canonical : Bool) (s : UStr) :
    OpFine wide enc (.ascii (quoting canonical s).2) := by
  unfold quoting
  split
  · exact fine_ascii wide enc (by decide) (by decide)
  · exact fine_ascii wide enc (by decide) (by decide)

theorem fine_attr (wide : Bool) (enc : Codec) (canonical : Bool) {a : UStr × UStr} (hn : isName a.1 = true)
    (hs : LegalText wide a.2) : ∀ op ∈ attrOps canonical a, OpFine wide enc op := by
  intro op hop
  simp only [attrOps, List.mem_cons, List.not_mem_nil, or_false] at hop
  rcases hop with rfl | rfl | rfl | rfl | rfl | rfl
  · exact fine_ascii wide enc (by decide) (by decide)
  · exact fine_encode wide enc (name_raw hn)
  · exact fine_ascii wide enc (by decide) (by decide)
  · exact fine_quote wide enc canonical a.2
  · exact fine_escape_attr wide enc canonical hs
  · exact fine_quote wide enc canonical a.2

theorem splitCdata_mem {s p : UStr} (h : p ∈ splitCdata [] s) : ∀ c ∈ p, c ∈ s := by
  obtain ⟨q, qs, h1, h2, _⟩ := splitCdata_spec s [] (by simp)
  intro c hc
  rw [h1] at h
  have h2 : q ++ qs.flatMap (u!! "]]>" ++ ·) = s := h2
  rw [← h2]
  rcases List.mem_cons.1 h with rfl | h
  · exact List.mem_append_left _ hc
  · exact List.mem_append_right _ (List.mem_flatMap.2 ⟨p, h, List.mem_append_right _ hc⟩)

theorem cdataRest_mem {ps : List UStr} {op : Op} (h : op ∈ cdataRest ps) :
    op = .ascii (u!! "]]]]><![CDATA[>") ∨ ∃ p ∈ ps, op = .encode p := by
  induction ps with
  | nil => cases h
  | cons p ps ih =>
    rw [cdataRest] at h
    rcases List.mem_cons.1 h with rfl | h
    · exact Or.inl rfl
    · rcases List.mem_cons.1 h with rfl | h
      · exact Or.inr ⟨p, by simp, rfl⟩
      · rcases ih h with h | ⟨q, hq, h⟩
        · exact Or.inl h
        · exact Or.inr ⟨q, by simp [hq], h⟩

theorem cdataOps_mem {s : UStr} {op : Op} (h : op ∈ cdataOps false s) :
    op = .ascii (u!! "]]]]><![CDATA[>") ∨ op = .ascii (u!! "<![CDATA[") ∨ op = .ascii (u!! "]]>") ∨
    ∃ p, (∀ c ∈ p, c ∈ s) ∧ op = .encode p := by
  obtain ⟨q, qs, h1, _⟩ := splitCdata_spec s [] (by simp)
  have hm := @splitCdata_mem s
  unfold cdataOps at h
  rw [if_neg (by simp), h1] at h
  rw [h1] at hm
  simp only [List.cons_append, List.mem_cons, List.mem_append, List.not_mem_nil, or_false] at h
  rcases h with h | h | h | h
  · exact Or.inr (Or.inl h)
  · exact Or.inr (Or.inr (Or.inr ⟨q, hm (by simp), h⟩))
  · rcases cdataRest_mem h with h | ⟨p, hp, h⟩
    · exact Or.inl h
    · exact Or.inr (Or.inr (Or.inr ⟨p, hm (by simp [hp]), h⟩))
  · exact Or.inr (Or.inr (Or.inl h))

theorem closeTag_mem {p : Printer} {op : Op} (h : op ∈ (closeTag p).1) : op = .ascii (u!! ">") := by
  unfold closeTag at h
  split at h
  · simpa using h
  · cases h

/-- What the printer remembers. -/
theorem call_name (p : Printer) (c : Call) :
    (p.call c).2.canonical = p.canonical ∧ ((p.call c).2.elementName = none ∨
      (p.call c).2.elementName = p.elementName ∨ ∃ n ns as, c = .startElement n ns as ∧ (p.call c).2.elementName = some n) := by
  have hct : (closeTag p).2.canonical = p.canonical ∧ ((closeTag p).2.elementName = none ∨ (closeTag p).2.elementName = p.elementName) := by
    unfold closeTag
    split
    · exact ⟨rfl, Or.inl rfl⟩
    · exact ⟨rfl, Or.inr rfl⟩
  have hct' : (closeTag p).2.canonical = p.canonical ∧ ((closeTag p).2.elementName = none ∨
      (closeTag p).2.elementName = p.elementName ∨ ∃ n ns as, c = .startElement n ns as ∧ (closeTag p).2.elementName = some n) :=
    ⟨hct.1, hct.2.elim Or.inl (fun h => Or.inr (Or.inl h))⟩
  cases c with
  | startDocument sa => unfold Printer.call; dsimp only; split <;> exact ⟨rfl, Or.inr (Or.inl rfl)⟩
  | endDocument =>
    unfold Printer.call; dsimp only; split
    · exact ⟨rfl, Or.inl rfl⟩
    · exact ⟨rfl, Or.inr (Or.inl rfl)⟩
  | doctype a b d =>
    unfold Printer.call; dsimp only; split
    · exact ⟨rfl, Or.inr (Or.inl rfl)⟩
    · exact hct'
  | startElement n ns as => exact ⟨rfl, Or.inr (Or.inr ⟨n, ns, as, rfl, rfl⟩)⟩
  | endElement m =>
    unfold Printer.call; dsimp only; split
    · exact ⟨rfl, Or.inl rfl⟩
    · exact ⟨rfl, Or.inr (Or.inl rfl)⟩
  | text s => exact hct'
  | rawText s => exact hct'
  | cdata s => exact hct'
  | pi t d => exact hct'
  | comment s => exact hct'

/-- An end-tag or a start-tag left open has a name that XML allows. -/
theorem fine_call (wide : Bool) (enc : Codec) {p : Printer} {c : Call} (hc : Part wide p.canonical c)
    (hp : ∀ n, p.elementName = some n → isName n = true) (hend : ∀ n, c = .endElement n → isName n = true) :
    ∀ op ∈ (p.call c).1, OpFine wide enc op := by
  have lit : ∀ {s : UStr}, s.all (· < 128) = true → s.all (fun c => decide (Legal c ∧ c ≠ 13)) = true → OpFine wide enc (.ascii s) :=
    fun h1 h2 => fine_ascii wide enc h1 h2
  have gt : ∀ op ∈ (closeTag p).1, OpFine wide enc op := by
    intro op hop
    rw [closeTag_mem hop]
    exact lit (by decide) (by decide)
  have app : ∀ {ops : List Op}, (∀ op ∈ ops, OpFine wide enc op) → ∀ op ∈ (closeTag p).1 ++ ops, OpFine wide enc op := by
    intro ops h op hop
    rcases List.mem_append.1 hop with h1 | h1
    · exact gt op h1
    · exact h op h1
  obtain ⟨hc, hcan⟩ := hc
  cases c with
  | startDocument sa => rcases hc with h | h | h <;> cases h
  | rawText sa => rcases hc with h | h | h <;> cases h
  | endDocument =>
    intro op hop
    unfold Printer.call at hop
    dsimp only at hop
    split at hop
    · rename_i ht
      cases hn : p.elementName with
      | none => rw [hn] at ht; cases ht
      | some n =>
        split at hop
        · rw [hn] at hop
          simp only [Option.getD_some, List.mem_cons, List.not_mem_nil, or_false] at hop
          rcases hop with rfl | rfl | rfl
          · exact lit (by decide) (by decide)
          · exact fine_encode wide enc (name_raw (hp n hn))
          · exact lit (by decide) (by decide)
        · simp only [List.mem_cons, List.not_mem_nil, or_false] at hop
          subst hop
          exact lit (by decide) (by decide)
    · cases hop
  | doctype name pub sys =>
    have hl : LegalDoctype (.doctype name pub sys) := by
      rcases hc with h | h | h
      · cases h
      · exact h
      · cases h
    obtain ⟨h1, h2, s, rfl, _, h3, _⟩ := hl
    intro op hop
    unfold Printer.call at hop
    dsimp only at hop
    split at hop
    · cases hop
    · refine app (fun op hop => ?_) op hop
      unfold doctypeOps at hop
      have hpub : Raw (pub.getD []) := by
        cases pub with
        | none => intro c hc; cases hc
        | some p =>
          intro c hc
          exact ⟨pubid_legal (List.all_eq_true.1 (h2 p rfl).1 c hc), fun h => (h2 p rfl).2 (h ▸ hc)⟩
      split at hop
      · simp only [Option.getD_some, List.mem_cons, List.not_mem_nil, or_false] at hop
        rcases hop with rfl | rfl | rfl | rfl | rfl | rfl | rfl
        · exact lit (by decide) (by decide)
        · exact fine_encode wide enc (name_raw h1)
        · exact lit (by decide) (by decide)
        · exact fine_encode wide enc hpub
        · exact lit (by decide) (by decide)
        · exact fine_encode wide enc h3
        · exact lit (by decide) (by decide)
      · split at hop
        · simp only [Option.getD_some, List.mem_cons, List.not_mem_nil, or_false] at hop
          rcases hop with rfl | rfl | rfl | rfl | rfl
          · exact lit (by decide) (by decide)
          · exact fine_encode wide enc (name_raw h1)
          · exact lit (by decide) (by decide)
          · exact fine_encode wide enc h3
          · exact lit (by decide) (by decide)
        · cases hop
  | startElement name ns as =>
    have hl : LegalCall wide (.startElement name ns as) := by
      rcases hc with h | h | h
      · exact h
      · cases h
      · cases h
    obtain ⟨hta, _⟩ := tagAttrs_ok (canonical := p.canonical) hl
    intro op hop
    simp only [Printer.call, List.mem_append, List.mem_cons, List.not_mem_nil, or_false] at hop
    rcases hop with (h | rfl | rfl) | h
    · split at h
      · simp only [List.mem_cons, List.not_mem_nil, or_false] at h
        subst h
        exact lit (by decide) (by decide)
      · cases h
    · exact lit (by decide) (by decide)
    · exact fine_encode wide enc (name_raw hl.1)
    · obtain ⟨a, ha, h⟩ := List.mem_flatMap.1 h
      exact fine_attr wide enc p.canonical (hta a ha).1 (hta a ha).2 op h
  | endElement m =>
    have hm := hend m rfl
    intro op hop
    unfold Printer.call at hop
    dsimp only at hop
    split at hop
    · split at hop
      · simp only [List.mem_cons, List.not_mem_nil, or_false] at hop
        rcases hop with rfl | rfl | rfl | rfl
        · exact lit (by decide) (by decide)
        · exact lit (by decide) (by decide)
        · exact fine_encode wide enc (name_raw hm)
        · exact lit (by decide) (by decide)
      · simp only [List.mem_cons, List.not_mem_nil, or_false] at hop
        subst hop
        exact lit (by decide) (by decide)
    · simp only [List.mem_cons, List.not_mem_nil, or_false] at hop
      rcases hop with rfl | rfl | rfl
      · exact lit (by decide) (by decide)
      · exact fine_encode wide enc (name_raw hm)
      · exact lit (by decide) (by decide)
  | text s =>
    have hl : LegalText wide s := by
      rcases hc with h | h | h
      · exact h
      · cases h
      · cases h
    refine app fun op hop => ?_
    simp only [List.mem_cons, List.not_mem_nil, or_false] at hop
    subst hop
    exact fine_escape wide enc hl refMap_text asciiMap_text (by decide)
  | cdata s =>
    have hl : Raw s := by
      rcases hc with h | h | h
      · exact h
      · cases h
      · cases h
    have hcan : p.canonical = false := by
      cases h : p.canonical with
      | false => rfl
      | true => exact absurd (hcan h) (by simp [CanonicalCall])
    refine app fun op hop => ?_
    rw [hcan] at hop
    rcases cdataOps_mem hop with rfl | rfl | rfl | ⟨q, hq, rfl⟩
    · exact lit (by decide) (by decide)
    · exact lit (by decide) (by decide)
    · exact lit (by decide) (by decide)
    · exact fine_encode wide enc fun c hc => hl c (hq c hc)
  | pi t d =>
    have hl : LegalCall wide (.pi t d) := by
      rcases hc with h | h | h
      · exact h
      · cases h
      · cases h
    obtain ⟨h1, _, h3, _⟩ := hl
    refine app fun op hop => ?_
    simp only [piOps, List.mem_append, List.mem_cons, List.not_mem_nil, or_false] at hop
    rcases hop with ((rfl | rfl) | h) | rfl
    · exact lit (by decide) (by decide)
    · exact fine_encode wide enc (name_raw h1)
    · split at h
      · cases h
      · simp only [List.mem_cons, List.not_mem_nil, or_false] at h
        rcases h with rfl | rfl
        · exact lit (by decide) (by decide)
        · exact fine_encode wide enc h3
    · exact lit (by decide) (by decide)
  | comment s =>
    have hl : Raw s ∧ ¬ Occurs (u!! "--") (s ++ u!! "-") := by
      rcases hc with h | h | h
      · exact h
      · cases h
      · cases h
    refine app fun op hop => ?_
    simp only [List.mem_cons, List.not_mem_nil, or_false] at hop
    rcases hop with rfl | rfl | rfl
    · exact lit (by decide) (by decide)
    · exact fine_encode wide enc (hl.1)
    · exact lit (by decide) (by decide)

theorem encodable_sub {enc : Codec} {s t : UStr} (h : Encodable enc s) (hs : ∀ c ∈ t, c ∈ s) : Encodable enc t :=
  fun c hc => h c (hs c hc)

/-- If all names and raw data can be encoded, nothing fails. -/
theorem encodable_call {enc : Codec} {p : Printer} {c : Call} (hc : Writable enc c)
    (hcan : p.canonical = true → CanonicalCall c) (hp : ∀ n, p.elementName = some n → Encodable enc n) :
    ∀ op ∈ (p.call c).1, OpEncodable enc op := by
  have gt : ∀ op ∈ (closeTag p).1, OpEncodable enc op := by
    intro op hop
    rw [closeTag_mem hop]
    trivial
  have app : ∀ {ops : List Op}, (∀ op ∈ ops, OpEncodable enc op) → ∀ op ∈ (closeTag p).1 ++ ops, OpEncodable enc op := by
    intro ops h op hop
    rcases List.mem_append.1 hop with h1 | h1
    · exact gt op h1
    · exact h op h1
  cases c with
  | startDocument sa =>
    intro op hop
    unfold Printer.call at hop
    dsimp only at hop
    split at hop
    · cases hop
    · simp only [List.cons_append, List.mem_cons, List.mem_append, List.not_mem_nil, or_false] at hop
      rcases hop with rfl | h | rfl
      · trivial
      · cases sa <;> simp [standaloneOps] at h
        subst h; trivial
      · trivial
  | rawText s =>
    refine app fun op hop => ?_
    simp only [List.mem_cons, List.not_mem_nil, or_false] at hop
    subst hop; exact hc
  | endDocument =>
    intro op hop
    unfold Printer.call at hop
    dsimp only at hop
    split at hop
    · rename_i ht
      cases hn : p.elementName with
      | none => rw [hn] at ht; cases ht
      | some n =>
        split at hop
        · rw [hn] at hop
          simp only [Option.getD_some, List.mem_cons, List.not_mem_nil, or_false] at hop
          rcases hop with rfl | rfl | rfl
          · trivial
          · exact hp n hn
          · trivial
        · simp only [List.mem_cons, List.not_mem_nil, or_false] at hop
          subst hop
          trivial
    · cases hop
  | doctype name pub sys =>
    obtain ⟨h1, h2, h3⟩ := hc
    intro op hop
    unfold Printer.call at hop
    dsimp only at hop
    split at hop
    · cases hop
    · refine app (fun op hop => ?_) op hop
      unfold doctypeOps at hop
      split at hop
      · simp only [List.mem_cons, List.not_mem_nil, or_false] at hop
        rcases hop with rfl | rfl | rfl | rfl | rfl | rfl | rfl <;> first | trivial | assumption
      · split at hop
        · simp only [List.mem_cons, List.not_mem_nil, or_false] at hop
          rcases hop with rfl | rfl | rfl | rfl | rfl <;> first | trivial | assumption
        · cases hop
  | startElement name ns as =>
    obtain ⟨h1, h2, h3⟩ := hc
    intro op hop
    simp only [Printer.call, List.mem_append, List.mem_cons, List.not_mem_nil, or_false] at hop
    rcases hop with (h | rfl | rfl) | h
    · split at h
      · simp only [List.mem_cons, List.not_mem_nil, or_false] at h
        subst h
        trivial
      · cases h
    · trivial
    · exact h1
    · obtain ⟨a, ha, h⟩ := List.mem_flatMap.1 h
      have hae : Encodable enc a.1 := by
        rcases List.mem_append.1 ((tagAttrs_perm _ _ _).mem_iff.1 ha) with ha | ha
        · obtain ⟨d, hd, rfl⟩ := List.mem_map.1 ha
          exact h2 d hd
        · exact h3 a ha
      simp only [attrOps, List.mem_cons, List.not_mem_nil, or_false] at h
      rcases h with rfl | rfl | rfl | rfl | rfl | rfl <;> first | trivial | exact hae
  | endElement m =>
    intro op hop
    unfold Printer.call at hop
    dsimp only at hop
    split at hop
    · split at hop
      · simp only [List.mem_cons, List.not_mem_nil, or_false] at hop
        rcases hop with rfl | rfl | rfl | rfl <;> first | trivial | exact hc
      · simp only [List.mem_cons, List.not_mem_nil, or_false] at hop
        subst hop
        trivial
    · simp only [List.mem_cons, List.not_mem_nil, or_false] at hop
      rcases hop with rfl | rfl | rfl <;> first | trivial | exact hc
  | text s =>
    refine app fun op hop => ?_
    simp only [List.mem_cons, List.not_mem_nil, or_false] at hop
    subst hop
    trivial
  | cdata s =>
    have hcan : p.canonical = false := by
      cases h : p.canonical with
      | false => rfl
      | true => exact absurd (hcan h) (by simp [CanonicalCall])
    refine app fun op hop => ?_
    rw [hcan] at hop
    rcases cdataOps_mem hop with rfl | rfl | rfl | ⟨q, hq, rfl⟩
    · trivial
    · trivial
    · trivial
    · exact encodable_sub hc hq
  | pi t d =>
    refine app fun op hop => ?_
    simp only [piOps, List.mem_append, List.mem_cons, List.not_mem_nil, or_false] at hop
    rcases hop with ((rfl | rfl) | h) | rfl
    · trivial
    · exact hc.1
    · split at h
      · cases h
      · simp only [List.mem_cons, List.not_mem_nil, or_false] at h
        rcases h with rfl | rfl
        · trivial
        · exact hc.2
    · trivial
  | comment s =>
    refine app fun op hop => ?_
    simp only [List.mem_cons, List.not_mem_nil, or_false] at hop
    rcases hop with rfl | rfl | rfl <;> first | trivial | exact hc

/-! Sequences of calls -/

/-- All end-tags have the names of open elements. -/
theorem shape_end {content : Bool} : ∀ (cs : List Call) {ph : Phase} {o : List UStr}, Shape content ph o cs →
    (∀ x ∈ o, isName x = true) → (∀ c ∈ cs, ∀ n ns as, c = .startElement n ns as → isName n = true) →
    ∀ c ∈ cs, ∀ n, c = .endElement n → isName n = true := by
  intro cs
  induction cs with
  | nil => intro ph o _ _ _ c hc; cases hc
  | cons c cs ih =>
    intro ph o hsh ho hst
    have hst' : ∀ c ∈ cs, ∀ n ns as, c = .startElement n ns as → isName n = true :=
      fun x hx => hst x (by simp [hx])
    suffices h : (∀ n, c = .endElement n → isName n = true) ∧ ∀ x ∈ cs, ∀ n, x = .endElement n → isName n = true by
      intro x hx
      rcases List.mem_cons.1 hx with rfl | hx
      · exact h.1
      · exact h.2 x hx
    cases c with
    | startDocument sa => cases hsh
    | rawText s => cases hsh
    | endDocument => obtain ⟨_, _, rfl⟩ := hsh; exact ⟨by simp, by simp⟩
    | doctype a b d => obtain ⟨_, _, _, h⟩ := hsh; exact ⟨by simp, ih h (by simp) hst'⟩
    | startElement n ns as =>
      have hn := hst _ (by simp) n ns as rfl
      exact ⟨by simp, ih hsh.2 (fun x hx => by
        rcases List.mem_cons.1 hx with rfl | hx
        · exact hn
        · exact ho x hx) hst'⟩
    | endElement m =>
      obtain ⟨o', rfl, h⟩ := hsh
      refine ⟨fun n hn => ?_, ih h (fun x hx => ho x (by simp [hx])) hst'⟩
      cases hn
      exact ho _ (by simp)
    | text s => exact ⟨by simp, ih hsh.2 ho hst'⟩
    | cdata s => exact ⟨by simp, ih hsh.2 ho hst'⟩
    | pi t d => exact ⟨by simp, ih hsh ho hst'⟩
    | comment s => exact ⟨by simp, ih hsh ho hst'⟩

theorem fine_calls (wide : Bool) (enc : Codec) : ∀ (cs : List Call) {p : Printer},
    (∀ c ∈ cs, Part wide p.canonical c) → (∀ c ∈ cs, ∀ n, c = .endElement n → isName n = true) →
    (∀ n, p.elementName = some n → isName n = true) → ∀ op ∈ p.calls cs, OpFine wide enc op := by
  intro cs
  induction cs with
  | nil => intro p _ _ _ op hop; cases hop
  | cons c cs ih =>
    intro p hcs hend hp op hop
    rw [Printer.calls] at hop
    obtain ⟨hn1, hn2⟩ := call_name p c
    have hpc := hcs c (by simp)
    rcases List.mem_append.1 hop with h | h
    · exact fine_call wide enc hpc hp (hend c (by simp)) op h
    · refine ih (fun x hx => by rw [hn1]; exact hcs x (by simp [hx])) (fun x hx => hend x (by simp [hx])) ?_ op h
      intro n hn
      rcases hn2 with h1 | h1 | ⟨m, ns, as, rfl, h1⟩
      · rw [h1] at hn; cases hn
      · exact hp n (h1 ▸ hn)
      · rw [h1] at hn; cases hn
        rcases hpc.1 with h | h | h
        · exact h.1
        · cases h
        · cases h

theorem encodable_calls {enc : Codec} : ∀ (cs : List Call) {p : Printer},
    (∀ c ∈ cs, Writable enc c) → (p.canonical = true → ∀ c ∈ cs, CanonicalCall c) →
    (∀ n, p.elementName = some n → Encodable enc n) → ∀ op ∈ p.calls cs, OpEncodable enc op := by
  intro cs
  induction cs with
  | nil => intro p _ _ _ op hop; cases hop
  | cons c cs ih =>
    intro p hcs hcan hp op hop
    rw [Printer.calls] at hop
    obtain ⟨hn1, hn2⟩ := call_name p c
    have hpc := hcs c (by simp)
    rcases List.mem_append.1 hop with h | h
    · exact encodable_call hpc (fun h => hcan h c (by simp)) hp op h
    · refine ih (fun x hx => hcs x (by simp [hx])) (fun h x hx => hcan (hn1 ▸ h) x (by simp [hx])) ?_ op h
      intro n hn
      rcases hn2 with h1 | h1 | ⟨m, ns, as, rfl, h1⟩
      · rw [h1] at hn; cases hn
      · exact hp n (h1 ▸ hn)
      · rw [h1] at hn; cases hn
        exact hpc.1

theorem eol_id {s : UStr} (h : (13 : Nat) ∉ s) : eol s = s := by
  induction s with
  | nil => rfl
  | cons c s ih =>
    unfold eol
    rw [if_neg (fun h' => h (by simp [h'])), ih (fun h' => h (by simp [h']))]

theorem opsText_raw {wide : Bool} {enc : Codec} {ops : List Op} (h : ∀ op ∈ ops, OpFine wide enc op) :
    Raw (opsText wide enc ops) := by
  intro c hm
  obtain ⟨op, hop, hx⟩ := List.mem_flatMap.1 hm
  exact (h op hop).2 c hx

theorem eol_raw {s : UStr} (h : Raw s) : eol s = s := eol_id fun hm => (h 13 hm).2 rfl

/-- The events, up to the order of attributes. -/
theorem written_same (canonical : Bool) (cs : List Call) :
    SameEvs (cs.flatMap (written canonical)) (events cs) := by
  have refl : ∀ l : List Ev, SameEvs l l := by
    intro l
    induction l with
    | nil => exact .nil
    | cons e l ih => exact .cons (.refl e) ih
  have app : ∀ {a b c d : List Ev}, SameEvs a b → SameEvs c d → SameEvs (a ++ c) (b ++ d) := by
    intro a b c d h1 h2
    induction h1 with
    | nil => exact h2
    | cons h _ ih => exact .cons h ih
  induction cs with
  | nil => exact .nil
  | cons c cs ih =>
    rw [List.flatMap_cons]
    refine app ?_ ih
    cases c with
    | startElement n ns as => exact .cons (.start n _ _ (tagAttrs_perm canonical ns as)) .nil
    | _ => exact refl _

end Verif.Write
