import Verif.Write.CallLemmas

/-
Streams, XML declarations and whole documents.
-/
namespace Verif.Write
open Verif Verif.Write.Spec

theorem newStream_sound {le : Bool} {lookup : UStr → Option Codec} {encoding : UStr} {st : Stream}
    (h : newStream le lookup encoding = some st) (hu : Usable st.enc) : Sound st := by
  have hsafe : st.asciiSafe = (match st.enc asciiString with | some b => decide (b.length = 128) | none => false) := by
    unfold newStream at h
    dsimp only at h
    split at h
    · split at h
      · cases hl : lookup (u!! "utf-16le") with
        | none => rw [hl] at h; cases h
        | some e => rw [hl] at h; cases h; rfl
      · cases hl : lookup (u!! "utf-16be") with
        | none => rw [hl] at h; cases h
        | some e => rw [hl] at h; cases h; rfl
    · cases hl : lookup encoding with
      | none => rw [hl] at h; cases h
      | some e => rw [hl] at h; cases h; rfl
  obtain ⟨hc, ha | hw⟩ := hu
  · have h1 : st.asciiSafe = true := by
      rw [hsafe, charwise_ascii hc ha (s := asciiString) (by intro c hc; exact List.mem_range.1 hc)]
      simp [asciiString]
    exact ⟨hc, by rw [h1]; exact ha⟩
  · have h1 : st.asciiSafe = false := by
      rw [hsafe]
      cases he : st.enc asciiString with
      | none => rfl
      | some b => simpa using hw.2 b he
    exact ⟨hc, by rw [h1]; exact hw.1⟩

theorem newStream_out {le : Bool} {lookup : UStr → Option Codec} {encoding : UStr} {st : Stream}
    (h : newStream le lookup encoding = some st) : st.out = [] := by
  unfold newStream at h
  dsimp only at h
  split at h
  · split at h
    · cases hl : lookup (u!! "utf-16le") with
      | none => rw [hl] at h; cases h
      | some e => rw [hl] at h; cases h; rfl
    · cases hl : lookup (u!! "utf-16be") with
      | none => rw [hl] at h; cases h
      | some e => rw [hl] at h; cases h; rfl
  · cases hl : lookup encoding with
    | none => rw [hl] at h; cases h
    | some e => rw [hl] at h; cases h; rfl

/-- The byte order mark is written before the first operation. -/
theorem runOps_flush (wide : Bool) (st : Stream) (op : Op) (ops : List Op) :
    runOps wide st (op :: ops) = runOps wide st.flushBom (op :: ops) := by
  have h : st.flushBom.flushBom = st.flushBom := flushBom_none (flushBom_bom st)
  cases op <;> simp only [runOps, Op.run, Stream.writeAscii, Stream.writeEncode, Stream.writeEscape, h]

/-- The bytes that announce the byte order. -/
def bomBytes (st : Stream) : Bytes :=
  match st.bom with
  | none => []
  | some true => [0xFF, 0xFE]
  | some false => [0xFE, 0xFF]

theorem flushBom_out (st : Stream) : st.flushBom.out = st.out ++ bomBytes st := by
  unfold Stream.flushBom bomBytes
  cases st.bom with
  | none => simp
  | some b => cases b <;> rfl

/-- Operations on a new stream. -/
theorem runOps_new (wide : Bool) {st : Stream} (hs : Sound st) {ops : List Op} (hne : ops ≠ [] ∨ st.bom = none)
    (hok : ∀ op ∈ ops, OpOk op) :
    ((∀ op ∈ ops, OpEncodable st.enc op) → ∃ st', runOps wide st ops = .ok st') ∧
    ∀ st', runOps wide st ops = .ok st' →
      ∃ b, st.enc (opsText wide st.enc ops) = some b ∧ st'.out = st.out ++ bomBytes st ++ b := by
  have key : runOps wide st ops = runOps wide st.flushBom ops := by
    cases ops with
    | nil =>
      rcases hne with h | h
      · exact absurd rfl h
      · rw [flushBom_none h]
    | cons op ops => exact runOps_flush wide st op ops
  obtain ⟨h1, h2⟩ := runOps_adds wide ops (flushBom_sound hs) (flushBom_bom st) hok
  rw [flushBom_enc] at h1 h2
  rw [key]
  refine ⟨h1, fun st' h => ?_⟩
  obtain ⟨b, hb, ho, _⟩ := h2 st' h
  rw [flushBom_enc] at hb
  rw [flushBom_out] at ho
  exact ⟨b, hb, ho⟩

/-! Sequences in content -/

theorem shape_of_nest {wide : Bool} : ∀ (cs : List Call) {ph : Phase} {o : List UStr}, (∀ c ∈ cs, LegalCall wide c) →
    nest o (events cs) = some [] → Shape true ph o cs := by
  intro cs
  induction cs with
  | nil =>
    intro ph o _ h
    cases o with
    | nil => exact ⟨by simp, rfl⟩
    | cons x o => cases h
  | cons c cs ih =>
    intro ph o hcs h
    have hcs' : ∀ c ∈ cs, LegalCall wide c := fun x hx => hcs x (by simp [hx])
    have hc := hcs c (by simp)
    have hev : events (c :: cs) = expected c ++ events cs := List.flatMap_cons ..
    rw [hev, nest_append] at h
    cases c with
    | startDocument sa => cases hc
    | rawText s => cases hc
    | endDocument => cases hc
    | doctype a b d => cases hc
    | startElement n ns as =>
      refine ⟨by simp, ih hcs' ?_⟩
      simpa [expected, nest] using h
    | endElement m =>
      cases o with
      | nil => cases h
      | cons x o =>
        simp only [expected, nest] at h
        split at h
        · rename_i hx
          subst hx
          exact ⟨o, rfl, ih hcs' h⟩
        · cases h
    | text s =>
      rw [show expected (.text s) = s.map .char from rfl, nest_chars] at h
      exact ⟨by simp, ih hcs' h⟩
    | cdata s =>
      rw [show expected (.cdata s) = s.map .char from rfl, nest_chars] at h
      exact ⟨by simp, ih hcs' h⟩
    | pi t d =>
      refine ih hcs' ?_
      cases o <;> simpa [expected, nest] using h
    | comment s =>
      refine ih hcs' ?_
      cases o <;> simpa [expected, nest] using h

theorem shape_of_doc : ∀ (cs : List Call) {ph : Phase} {o : List UStr}, DocCalls ph o cs → Shape false ph o cs := by
  intro cs
  induction cs with
  | nil => intro ph o h; exact ⟨fun _ => h.1, h.2⟩
  | cons c cs ih =>
    intro ph o h
    cases c with
    | startDocument sa => cases h
    | rawText s => cases h
    | endDocument => exact ⟨fun _ => h.1, h.2⟩
    | doctype a b d => exact ⟨rfl, h.1, h.2.1, ih h.2.2⟩
    | startElement n ns as => exact ⟨fun _ => h.1, ih h.2⟩
    | endElement m => obtain ⟨o', h1, h2⟩ := h; exact ⟨o', h1, ih h2⟩
    | text s => exact ⟨fun _ => h.1, ih h.2⟩
    | cdata s => exact ⟨fun _ => h.1, ih h.2⟩
    | pi t d => exact ih h
    | comment s => exact ih h

theorem part_start {wide can : Bool} {cs : List Call} (h : ∀ c ∈ cs, Part wide can c) :
    ∀ c ∈ cs, ∀ n ns as, c = .startElement n ns as → isName n = true := by
  rintro c hc n ns as rfl
  rcases (h _ hc).1 with h | h | h
  · exact h.1
  · cases h
  · cases h

/-! The XML declaration -/

theorem readPseudo_text {name v : UStr} (hn : ∃ c s, name = c :: s ∧ space c = false) (hv : (34 : Nat) ∉ v) (rest : UStr) :
    readPseudo name (32 :: (name ++ (61 :: 34 :: (v ++ 34 :: rest)))) = some (v, rest) := by
  unfold readPseudo
  have h1 : needSpace (32 :: (name ++ (61 :: 34 :: (v ++ 34 :: rest)))) =
      some (name ++ (61 :: 34 :: (v ++ 34 :: rest))) := by
    obtain ⟨c, s, rfl, hc⟩ := hn
    exact needSpace_32 hc
  rw [h1]
  dsimp only
  rw [if_pos (Py.startsWith_iff.2 ⟨_, rfl⟩), List.drop_left, skipSpace_of (by decide)]
  show readLiteral (skipSpace (34 :: (v ++ 34 :: rest))) = _
  rw [skipSpace_of (by decide), readLiteral_append hv]

/-- What is written for `standalone`. -/
def standaloneText : Option UStr → UStr
  | none => []
  | some v => u!! " standalone=\"" ++ v ++ u!! "\""

theorem encName_chars {e : UStr} (h : isEncName e = true) : ∀ c ∈ e, 45 ≤ c ∧ c ≤ 122 := by
  cases e with
  | nil => simp
  | cons c e =>
    simp only [isEncName, Bool.and_eq_true, Bool.or_eq_true, decide_eq_true_eq] at h
    intro x hx
    rcases List.mem_cons.1 hx with rfl | hx
    · omega
    · have := List.all_eq_true.1 h.2 x hx
      simp only [Bool.and_eq_true, Bool.or_eq_true, decide_eq_true_eq] at this
      omega

theorem readDecl_text {encoding : UStr} (he : isEncName encoding = true) {sa : Option UStr}
    (hsa : sa = none ∨ sa = some (u!! "yes") ∨ sa = some (u!! "no")) (rest : UStr) :
    readDecl (u!! " version=\"1.0\" encoding=\"" ++ (encoding ++ (34 :: (standaloneText sa ++ (u!! "?>" ++ rest))))) =
      some (⟨u!! "1.0", some encoding, sa⟩, rest) := by
  have he34 : (34 : Nat) ∉ encoding := fun h => by have := encName_chars he 34 h; omega
  unfold readDecl
  have h1 := readPseudo_text (name := u!! "version") (v := u!! "1.0") ⟨_, _, rfl, by decide⟩ (by decide)
    (u!! " encoding=\"" ++ (encoding ++ (34 :: (standaloneText sa ++ (u!! "?>" ++ rest)))))
  have h2 : optPseudo (u!! "encoding") (u!! " encoding=\"" ++ (encoding ++ (34 :: (standaloneText sa ++ (u!! "?>" ++ rest))))) =
      (some encoding, standaloneText sa ++ (u!! "?>" ++ rest)) := by
    have := readPseudo_text (name := u!! "encoding") (v := encoding) ⟨_, _, rfl, by decide⟩ he34
      (standaloneText sa ++ (u!! "?>" ++ rest))
    unfold optPseudo
    simp only [List.cons_append, List.nil_append] at this ⊢
    rw [this]
  have h3 : optPseudo (u!! "standalone") (standaloneText sa ++ (u!! "?>" ++ rest)) = (sa, u!! "?>" ++ rest) := by
    unfold optPseudo
    cases sa with
    | none =>
      have : readPseudo (u!! "standalone") (u!! "?>" ++ rest) = none := by
        unfold readPseudo needSpace
        rw [List.cons_append, skipSpace_of (by decide), if_pos rfl]
      simp only [standaloneText, List.nil_append] at this ⊢
      rw [this]
    | some v =>
      have hv : (34 : Nat) ∉ v := by
        rcases hsa with h | h | h
        · cases h
        · cases h; decide
        · cases h; decide
      have := readPseudo_text (name := u!! "standalone") (v := v) ⟨_, _, rfl, by decide⟩ hv (u!! "?>" ++ rest)
      simp only [standaloneText, List.cons_append, List.nil_append, List.append_assoc] at this ⊢
      rw [this]
  simp only [List.cons_append, List.nil_append] at h1 h2 h3 ⊢
  rw [h1]
  simp only
  rw [h2]
  simp only
  rw [h3]
  simp only
  rw [skipSpace_of (by decide), if_pos]
  · rfl
  · refine ⟨trivial, ?_, ?_, by cases rest <;> simp [Py.startsWith]⟩
    · simp [he]
    · rcases hsa with rfl | rfl | rfl
      · rfl
      · decide
      · decide

/-- A document without XML declaration does not look as if it had one. -/
theorem reads_noDecl {ph : Phase} {o : List UStr} {s : UStr} {es : List Ev} (h : Reads false ph o s es) :
    ¬ (Py.startsWith s (u!! "<?xml") = true ∧ (s.drop 5).head?.all (fun c => !nameChar c) = true) := by
  rintro ⟨h1, h2⟩
  obtain ⟨t, rfl⟩ := Py.startsWith_iff.1 h1
  have h3 : t.head?.all (fun c => !nameChar c) = true := by simpa using h2
  have hlex : lex (u!! "<?xml" ++ t) = none := by
    have htw : t.takeWhile nameChar = [] := by
      cases t with
      | nil => rfl
      | cons c t =>
        simp at h3
        simp [h3]
    have hrn : readName (u!! "xml" ++ t) = some (u!! "xml", t.dropWhile nameChar) := by
      unfold readName
      have ha : ∀ c ∈ u!! "xml", nameChar c = true := by decide
      rw [List.takeWhile_append_of_pos ha, List.dropWhile_append_of_pos ha, htw]
      rw [if_pos (by decide)]; simp
    have hpi : readPi (u!! "xml" ++ t) = none := by
      unfold readPi
      rw [hrn]
      simp only
      rw [if_pos (by decide)]
    unfold lex
    simp [Py.startsWith, one] at hpi ⊢
    simp [hpi]
  cases h with
  | ws _ h _ => revert h; decide
  | cons h _ _ _ => rw [hlex] at h; cases h

/-- The text of `start_document`. -/
theorem opsText_startDocument (wide : Bool) (enc : Codec) {p : Printer} (h : p.omitDeclaration = false) (sa : Option UStr) :
    opsText wide enc (p.call (.startDocument sa)).1 = u!! "<?xml" ++ (u!! " version=\"1.0\" encoding=\"" ++
      (p.encoding ++ (34 :: (standaloneText sa ++ (u!! "?>" ++ [10]))))) ∧ (p.call (.startDocument sa)).2 = p := by
  unfold Printer.call
  dsimp only
  rw [h]
  cases sa <;> simp [opsText, opText, standaloneOps, standaloneText]

theorem fine_startDocument (wide : Bool) (enc : Codec) {p : Printer} (he : isEncName p.encoding = true) {sa : Option UStr}
    (hsa : sa = none ∨ sa = some (u!! "yes") ∨ sa = some (u!! "no")) :
    ∀ op ∈ (p.call (.startDocument sa)).1, OpFine wide enc op := by
  have hch := encName_chars he
  intro op hop
  unfold Printer.call at hop
  dsimp only at hop
  split at hop
  · cases hop
  · simp only [List.cons_append, List.mem_cons, List.mem_append, List.not_mem_nil, or_false] at hop
    rcases hop with rfl | h | rfl
    · refine fine_ascii wide enc ?_ ?_
      · rw [List.all_eq_true]
        intro c hc
        simp only [List.mem_append, List.mem_cons, List.not_mem_nil, or_false] at hc
        simp only [decide_eq_true_eq]
        by_cases hm : c ∈ p.encoding
        · have := hch c hm; omega
        · simp only [hm, or_false, false_or] at hc; omega
      · rw [List.all_eq_true]
        intro c hc
        simp only [List.mem_append, List.mem_cons, List.not_mem_nil, or_false] at hc
        simp only [decide_eq_true_eq]
        unfold Legal
        by_cases hm : c ∈ p.encoding
        · have := hch c hm; omega
        · simp only [hm, or_false, false_or] at hc; omega
    · rcases hsa with rfl | rfl | rfl
      · cases h
      · simp only [standaloneOps, List.mem_cons, List.not_mem_nil, or_false] at h
        subst h
        exact fine_ascii wide enc (by decide) (by decide)
      · simp only [standaloneOps, List.mem_cons, List.not_mem_nil, or_false] at h
        subst h
        exact fine_ascii wide enc (by decide) (by decide)
    · exact fine_ascii wide enc (by decide) (by decide)

end Verif.Write
