import Verif.Write.DocLemmas
import Verif.Write.Decode

/-
C31 to C35: what the printers write can be read back.  The reader is the one of Verif.Write.XmlSpec, the
decoders are those of Verif.Write.Decode.

Encodings: `Usable` codecs work character by character and either agree with ASCII or have all
characters and more than one byte for each ASCII character.  All others (EBCDIC, stateful encodings such
as ISO-2022-JP, UTF-7) are outside these theorems; see the refutations in Verif.Write.Refute.
-/
namespace Verif.Write
open Verif Verif.Write.Spec

/-! C31 -/

/-- Text in content.  `text()` never fails; what it adds to the output is the encoding of a text that
contains no `<` and no `>` (so no `]]>`), and that reads back as the string. -/
theorem C31_text_read_back (wide : Bool) {le : Bool} {lookup : UStr → Option Codec} {encoding : UStr} {st : Stream}
    (hnew : newStream le lookup encoding = some st) (hbom : st.bom = none) (hu : Usable st.enc)
    {dec : Bytes → Option UStr} (hdec : Inverse dec st.enc) (canonical : Bool)
    {s : UStr} (hs : LegalText wide s) :
    ∃ st' T, printCalls wide st canonical encoding [.text s] = .ok st' ∧ dec st'.out = some T ∧
      readContent T = some (s.map .char) ∧ 60 ∉ T ∧ 62 ∉ T := by
  have hso := newStream_sound hnew hu
  have hp : Part wide canonical (.text s) := ⟨Or.inl hs, fun _ => trivial⟩
  have hcan : (newPrinter canonical encoding).canonical = canonical := rfl
  have hfine : ∀ op ∈ (newPrinter canonical encoding).calls [.text s], OpFine wide st.enc op :=
    fine_calls wide st.enc [.text s] (by simpa [hcan] using hp) (by simp) (fun n h => by cases h)
  obtain ⟨h1, h2⟩ := runOps_new wide hso (Or.inr hbom) (fun op h => (hfine op h).1)
  obtain ⟨st', hst'⟩ := h1 (encodable_calls [.text s] (by simp [Writable]) (by simp [CanonicalCall]) (fun n h => by cases h))
  obtain ⟨b, hb, ho⟩ := h2 st' hst'
  obtain ⟨hrd, _⟩ := reads_calls wide st.enc true 1 [.text s] (by simp) (newPrinter canonical encoding) .root []
    rfl (by simpa [hcan] using hp) ⟨by simp, by simp, rfl⟩ (by simp) (by simp)
  have htext : opsText wide st.enc ((newPrinter canonical encoding).calls [.text s]) = escText st.enc textEntities s := by
    simp [Printer.calls, Printer.call, closeTag_none (p := newPrinter canonical encoding) rfl, opsText, opText,
      sanitize_of hs, escText]
  have hraw := opsText_raw hfine
  rw [htext] at hb hrd hraw
  refine ⟨st', escText st.enc textEntities s, hst', ?_, ?_, ?_, ?_⟩
  · rw [ho, newStream_out hnew, bomBytes, hbom]
    exact hdec _ _ (fun c hc => (hraw c hc).1) hb
  · obtain ⟨h3, h4⟩ := reads_content hrd
    unfold readContent
    rw [eol_raw hraw, h3 _ (Nat.le_refl _)]
    simp only [List.flatMap_cons, List.flatMap_nil, List.append_nil] at h4 ⊢
    rw [if_pos h4]
    rfl
  · intro h; exact (escText_no st.enc (legal_of hs) 60 h).1 rfl
  · intro h; exact (escText_no st.enc (legal_of hs) 62 h).2.1 rfl

/-- Characters that the encoding does not have are written as references: in ASCII, every legal text can
be written. -/
example : ∃ st, newStream true (fun n => if n = u!! "us-ascii" then some asciiCodec else none) (u!! "us-ascii") = some st ∧
    st.bom = none ∧ Usable st.enc ∧ Inverse decodeAscii st.enc ∧
    LegalText true (u!! "a<b]]>\r\n& ω" ++ [0x1F600]) ∧
    (printCalls true st false (u!! "us-ascii") [.text (u!! "a<b]]>\r\n& ω" ++ [0x1F600])]).toOption.map (·.out) =
      some (u!! "a&lt;b]]&gt;&#13;\n&amp; &#969;&#128512;") :=
  ⟨_, rfl, rfl, usable_ascii, inverse_ascii, by unfold LegalText; decide, by decide +kernel⟩

/-! C32 -/

/-- The attributes of a start-tag: each is written as ` name=`, a quote, a text that contains neither that
quote nor `<`, and the quote again; a reader finds the value in it.  The texts of all attributes, in some
order, are what is between the element's name and the end of the tag. -/
theorem C32_attributes (wide : Bool) (enc : Codec) (canonical : Bool) (a : UStr × UStr) (hv : LegalText wide a.2) :
    ∃ q body, (q = 34 ∨ q = 39) ∧ q ∉ body ∧ 60 ∉ body ∧
      opsText wide enc (attrOps canonical a) = u!! " " ++ a.1 ++ u!! "=" ++ [q] ++ body ++ [q] ∧
      ∀ rest, readEqValue (u!! "=" ++ [q] ++ body ++ [q] ++ rest) = some (a.2, rest) := by
  obtain ⟨q, m, hq, hm, _, hq2, hp⟩ := quoting_cases canonical a.2
  have hno : ∀ x ∈ escText enc m a.2, x ≠ q ∧ x ≠ 60 := by
    intro x hx
    obtain ⟨c, hc, hx⟩ := List.mem_flatMap.1 hx
    rcases escChar_cases enc hm (legal_of hv c hc) with ⟨h1, h2⟩ | ⟨w, h1, _, h3⟩
    · rw [h1] at hx; simp at hx; subst hx
      have := hp _ hc h2
      exact ⟨this.1, this.2.2.1⟩
    · rw [h1] at hx
      rcases List.mem_cons.1 hx with rfl | hx
      · omega
      · have := h3 x hx
        unfold Plain at this
        omega
  refine ⟨q, escText enc m a.2, hq2, fun h => (hno q h).1 rfl, fun h => (hno 60 h).2 rfl, ?_, ?_⟩
  · rw [opsText_attr wide enc canonical hv, attrText, hq]
    simp
  · obtain ⟨w, hw, hr⟩ := attrText_read enc canonical a (legal_of hv)
    rw [attrText, hq] at hw
    simp only [List.cons.injEq, true_and, List.append_cancel_left_eq] at hw
    intro rest
    rw [← hr rest, ← hw]
    simp

/-- A whole start-tag on a stream: it is written if the names can be encoded, and then a reader finds the
element with its namespace declarations and attributes. -/
theorem C32_start_tag_read_back (wide : Bool) {le : Bool} {lookup : UStr → Option Codec} {encoding : UStr} {st : Stream}
    (hnew : newStream le lookup encoding = some st) (hbom : st.bom = none) (hu : Usable st.enc)
    {dec : Bytes → Option UStr} (hdec : Inverse dec st.enc) (canonical : Bool)
    {name : UStr} {nsdecls : List (Option UStr × UStr)} {attrs : List (UStr × UStr)}
    (hc : LegalCall wide (.startElement name nsdecls attrs)) :
    (Writable st.enc (.startElement name nsdecls attrs) →
      ∃ st', printCalls wide st canonical encoding [.startElement name nsdecls attrs] = .ok st') ∧
    ∀ st', printCalls wide st canonical encoding [.startElement name nsdecls attrs] = .ok st' →
      ∃ T as, dec st'.out = some T ∧ lex (T ++ u!! ">") = some ([.start name as], []) ∧
        as.Perm (nsdecls.map (fun d => (declName d.1, d.2)) ++ attrs) := by
  have hso := newStream_sound hnew hu
  have hp : Part wide canonical (.startElement name nsdecls attrs) := ⟨Or.inl hc, fun _ => trivial⟩
  have hcan : (newPrinter canonical encoding).canonical = canonical := rfl
  have hfine : ∀ op ∈ (newPrinter canonical encoding).calls [.startElement name nsdecls attrs], OpFine wide st.enc op :=
    fine_calls wide st.enc [.startElement name nsdecls attrs] (by simpa [hcan] using hp) (by simp) (fun n h => by cases h)
  obtain ⟨h1, h2⟩ := runOps_new wide hso (Or.inr hbom) (fun op h => (hfine op h).1)
  refine ⟨fun hw => h1 (encodable_calls _ (by simpa using hw) (by simp [CanonicalCall]) (fun n h => by cases h)), ?_⟩
  intro st' hst'
  obtain ⟨b, hb, ho⟩ := h2 st' hst'
  obtain ⟨hta, htd⟩ := tagAttrs_ok (canonical := canonical) hc
  have htext : opsText wide st.enc ((newPrinter canonical encoding).calls [.startElement name nsdecls attrs]) =
      60 :: (name ++ (tagAttrs canonical nsdecls attrs).flatMap (attrText st.enc canonical)) := by
    rw [Printer.calls]
    simp only [Printer.call, newPrinter, Printer.calls, List.append_nil, truthy, Bool.false_eq_true, if_false]
    rw [opsText_append, opsText_attrs wide st.enc canonical (fun a ha => (hta a ha).2)]
    simp [opsText, opText]
  have hraw := opsText_raw hfine
  rw [htext] at hb hraw
  refine ⟨60 :: (name ++ (tagAttrs canonical nsdecls attrs).flatMap (attrText st.enc canonical)),
    tagAttrs canonical nsdecls attrs, ?_, ?_, tagAttrs_perm canonical nsdecls attrs⟩
  · rw [ho, newStream_out hnew, bomBytes, hbom]
    exact hdec _ _ (fun c hc => (hraw c hc).1) hb
  · have := lex_tag st.enc canonical hc.1 _ (fun a ha => ⟨(hta a ha).1, legal_of (hta a ha).2⟩) htd false []
    simpa using this

example : LegalCall true (.startElement (u!! "a") [(none, u!! "urn:x"), (some (u!! "p"), u!! "urn:y")]
    [(u!! "x", u!! "\"<'&\t\r\n"), (u!! "p:y", u!! "say \"ω\"")]) := by
  unfold LegalCall LegalText; decide
example : (printCalls true (⟨latin1Codec, true, none, []⟩ : Stream) false (u!! "iso-8859-1")
    [.startElement (u!! "a") [] [(u!! "x", u!! "\"<'&\t\r\n"), (u!! "y", u!! "say \"ω\"")]]).toOption.map (·.out) =
    some (u!! "<a x=\"&quot;&lt;'&amp;&#9;&#13;&#10;\" y='say \"&#969;\"'") := by decide +kernel

/-! C33 -/

/-- CDATA sections with the given contents. -/
def Spec.cdataSections (pieces : List UStr) : UStr := pieces.flatMap fun p => u!! "<![CDATA[" ++ p ++ u!! "]]>"

theorem cdataTail_sections (ps : List UStr) : ∀ p, ∃ q qs, u!! "<![CDATA[" ++ (p ++ cdataTail ps) = cdataSections (q :: qs) ∧
    (q :: qs).flatten = p ++ ps.flatMap (u!! "]]>" ++ ·) ∧
    ((∀ x ∈ p :: ps, ¬ Occurs (u!! "]]>") x) → ∀ x ∈ q :: qs, ¬ Occurs (u!! "]]>") x) := by
  induction ps with
  | nil => intro p; exact ⟨p, [], by simp [cdataTail, cdataSections], by simp, fun h => h⟩
  | cons x ps ih =>
    intro p
    obtain ⟨q, qs, h1, h2, h3⟩ := ih (62 :: x)
    refine ⟨p ++ u!! "]]", q :: qs, ?_, ?_, ?_⟩
    · rw [cdataSections, List.flatMap_cons]
      rw [cdataSections] at h1
      rw [← h1]
      simp [cdataTail]
    · rw [List.flatten_cons, h2]
      simp
    · intro h y hy
      rcases List.mem_cons.1 hy with rfl | hy
      · exact occurs_append_brackets (h p (by simp))
      · refine h3 ?_ y hy
        intro z hz
        rcases List.mem_cons.1 hz with rfl | hz
        · exact occurs_gt (h x (by simp))
        · exact h z (by simp [hz])

/-- Every string, whatever it contains, is written as CDATA sections whose contents, taken together, are
the string, and none of which contains `]]>`; it is written if it can be encoded. -/
theorem C33_sections (wide : Bool) {le : Bool} {lookup : UStr → Option Codec} {encoding : UStr} {st : Stream}
    (hnew : newStream le lookup encoding = some st) (hbom : st.bom = none) (hu : Usable st.enc) (s : UStr) :
    (Encodable st.enc s → ∃ st', printCalls wide st false encoding [.cdata s] = .ok st') ∧
    ∀ st', printCalls wide st false encoding [.cdata s] = .ok st' →
      ∃ pieces, st.enc (cdataSections pieces) = some st'.out ∧ pieces.flatten = s ∧
        ∀ x ∈ pieces, ¬ Occurs (u!! "]]>") x := by
  have hso := newStream_sound hnew hu
  have hops : (newPrinter false encoding).calls [.cdata s] = cdataOps false s := by
    simp [Printer.calls, Printer.call, newPrinter, closeTag, truthy]
  have hok : ∀ op ∈ cdataOps false s, OpOk op := by
    intro op hop
    rcases cdataOps_mem hop with rfl | rfl | rfl | ⟨q, _, rfl⟩
    · exact ascii_lit (by decide)
    · exact ascii_lit (by decide)
    · exact ascii_lit (by decide)
    · trivial
  unfold printCalls
  rw [hops]
  obtain ⟨h1, h2⟩ := runOps_new wide hso (Or.inr hbom) hok
  refine ⟨fun he => h1 ?_, ?_⟩
  · intro op hop
    rcases cdataOps_mem hop with rfl | rfl | rfl | ⟨q, hq, rfl⟩
    · trivial
    · trivial
    · trivial
    · exact encodable_sub he hq
  · intro st' hst'
    obtain ⟨b, hb, ho⟩ := h2 st' hst'
    obtain ⟨p, ps, _, hp2, hp3, hp4⟩ := opsText_cdata wide st.enc s
    obtain ⟨q, qs, hq1, hq2, hq3⟩ := cdataTail_sections ps p
    refine ⟨q :: qs, ?_, by rw [hq2, hp2], hq3 hp3⟩
    rw [ho, newStream_out hnew, bomBytes, hbom, ← hq1, ← hp4]
    exact hb

/-- A string of legal characters without carriage returns reads back. -/
theorem C33_cdata_read_back (wide : Bool) {le : Bool} {lookup : UStr → Option Codec} {encoding : UStr} {st : Stream}
    (hnew : newStream le lookup encoding = some st) (hbom : st.bom = none) (hu : Usable st.enc)
    {dec : Bytes → Option UStr} (hdec : Inverse dec st.enc) {s : UStr} (hs : Raw s) {st' : Stream}
    (hrun : printCalls wide st false encoding [.cdata s] = .ok st') :
    ∃ T, dec st'.out = some T ∧ readContent T = some (s.map .char) := by
  have hso := newStream_sound hnew hu
  have hp : Part wide false (.cdata s) := ⟨Or.inl hs, fun h => by cases h⟩
  have hfine : ∀ op ∈ (newPrinter false encoding).calls [.cdata s], OpFine wide st.enc op :=
    fine_calls wide st.enc [.cdata s] (by simpa using (show Part wide (newPrinter false encoding).canonical _ from hp)) (by simp) (fun n h => by cases h)
  obtain ⟨h1, h2⟩ := runOps_new wide hso (Or.inr hbom) (fun op h => (hfine op h).1)
  obtain ⟨b, hb, ho⟩ := h2 st' hrun
  obtain ⟨hrd, _⟩ := reads_calls wide st.enc true 1 [.cdata s] (by simp) (newPrinter false encoding) .root []
    rfl (by simpa using (show Part wide (newPrinter false encoding).canonical _ from hp)) ⟨by simp, by simp, rfl⟩ (by simp) (by simp)
  have hraw := opsText_raw hfine
  refine ⟨opsText wide st.enc ((newPrinter false encoding).calls [.cdata s]), ?_, ?_⟩
  · rw [ho, newStream_out hnew, bomBytes, hbom]
    exact hdec _ _ (fun c hc => (hraw c hc).1) hb
  · obtain ⟨h3, h4⟩ := reads_content hrd
    unfold readContent
    rw [eol_raw hraw, h3 _ (Nat.le_refl _)]
    simp only [List.flatMap_cons, List.flatMap_nil, List.append_nil] at h4 ⊢
    rw [if_pos h4]
    rfl

example : Raw (u!! "a]]>b]]]>]>&<") := by unfold Raw; decide
example : (printCalls true (⟨utf8Codec, true, none, []⟩ : Stream) false (u!! "utf-8")
    [.cdata (u!! "a]]>b]]]>]>")]).toOption.map (·.out) =
    some (u!! "<![CDATA[a]]]]><![CDATA[>b]]]]]><![CDATA[>]>]]>") := by decide +kernel

/-! C34 -/

/-- A sequence of calls for well-formed content is written, if the names and the data that cannot be
escaped have an encoding, by the plain printer and by the canonical one. -/
theorem C34_content_written (wide : Bool) {le : Bool} {lookup : UStr → Option Codec} {encoding : UStr} {st : Stream}
    (hnew : newStream le lookup encoding = some st) (hbom : st.bom = none) (hu : Usable st.enc) (canonical : Bool)
    {cs : List Call} (hcs : ∀ c ∈ cs, LegalCall wide c) (hcan : canonical = true → ∀ c ∈ cs, CanonicalCall c)
    (hnest : nest [] (events cs) = some []) (hw : ∀ c ∈ cs, Writable st.enc c) :
    ∃ st', printCalls wide st canonical encoding cs = .ok st' := by
  have hp : ∀ c ∈ cs, Part wide canonical c := fun c hc => ⟨Or.inl (hcs c hc), fun h => hcan h c hc⟩
  have hsh := shape_of_nest (ph := .root) cs hcs hnest
  have hfine : ∀ op ∈ (newPrinter canonical encoding).calls cs, OpFine wide st.enc op :=
    fine_calls wide st.enc cs hp (shape_end cs hsh (by simp) (part_start hp)) (fun n h => by cases h)
  exact (runOps_new wide (newStream_sound hnew hu) (Or.inr hbom) (fun op h => (hfine op h).1)).1
    (encodable_calls cs hw hcan (fun n h => by cases h))

/-- And what is written reads back as the same sequence of events; only the attributes of an element may
be in another order. -/
theorem C34_content_read_back (wide : Bool) {le : Bool} {lookup : UStr → Option Codec} {encoding : UStr} {st : Stream}
    (hnew : newStream le lookup encoding = some st) (hbom : st.bom = none) (hu : Usable st.enc)
    {dec : Bytes → Option UStr} (hdec : Inverse dec st.enc) (canonical : Bool)
    {cs : List Call} (hcs : ∀ c ∈ cs, LegalCall wide c) (hcan : canonical = true → ∀ c ∈ cs, CanonicalCall c)
    (hnest : nest [] (events cs) = some []) {st' : Stream}
    (hrun : printCalls wide st canonical encoding cs = .ok st') :
    ∃ T evs, dec st'.out = some T ∧ readContent T = some evs ∧ SameEvs evs (events cs) := by
  have hp : ∀ c ∈ cs, Part wide canonical c := fun c hc => ⟨Or.inl (hcs c hc), fun h => hcan h c hc⟩
  have hsh := shape_of_nest (ph := .root) cs hcs hnest
  have hfine : ∀ op ∈ (newPrinter canonical encoding).calls cs, OpFine wide st.enc op :=
    fine_calls wide st.enc cs hp (shape_end cs hsh (by simp) (part_start hp)) (fun n h => by cases h)
  obtain ⟨b, hb, ho⟩ := (runOps_new wide (newStream_sound hnew hu) (Or.inr hbom)
    (fun op h => (hfine op h).1)).2 st' hrun
  obtain ⟨hrd, _⟩ := reads_calls wide st.enc true cs.length cs (Nat.le_refl _) (newPrinter canonical encoding) .root []
    rfl hp hsh (by simp) (by simp)
  have hraw := opsText_raw hfine
  refine ⟨opsText wide st.enc ((newPrinter canonical encoding).calls cs), cs.flatMap (written canonical), ?_, ?_,
    written_same canonical cs⟩
  · rw [ho, newStream_out hnew, bomBytes, hbom]
    exact hdec _ _ (fun c hc => (hraw c hc).1) hb
  · obtain ⟨h3, h4⟩ := reads_content hrd
    unfold readContent
    rw [eol_raw hraw, h3 _ (Nat.le_refl _)]
    exact if_pos h4

/-- A document is written, if it can be encoded, with or without a byte order mark. -/
theorem C34_document_written (wide : Bool) {le : Bool} {lookup : UStr → Option Codec} {encoding : UStr} {st : Stream}
    (hnew : newStream le lookup encoding = some st) (hu : Usable st.enc) (he : isEncName encoding = true)
    {sa : Option UStr} (hsa : sa = none ∨ sa = some (u!! "yes") ∨ sa = some (u!! "no"))
    {cs : List Call} (hcs : ∀ c ∈ cs, LegalCall wide c ∨ LegalDoctype c ∨ c = .endDocument)
    (hdoc : DocCalls .prolog [] cs) (hw : ∀ c ∈ cs, Writable st.enc c) :
    ∃ st', printCalls wide st false encoding (.startDocument sa :: cs) = .ok st' := by
  have hp : ∀ c ∈ cs, Part wide false c := fun c hc => ⟨hcs c hc, fun h => by cases h⟩
  have hsh := shape_of_doc cs hdoc
  have hcalls : (newPrinter false encoding).calls (.startDocument sa :: cs) =
      ((newPrinter false encoding).call (.startDocument sa)).1 ++ (newPrinter false encoding).calls cs := by
    rw [Printer.calls, (opsText_startDocument wide st.enc rfl sa).2]
  have hfine : ∀ op ∈ (newPrinter false encoding).calls (.startDocument sa :: cs), OpFine wide st.enc op := by
    rw [hcalls]
    intro op hop
    rcases List.mem_append.1 hop with h | h
    · exact fine_startDocument wide st.enc he hsa op h
    · exact fine_calls wide st.enc cs hp (shape_end cs hsh (by simp) (part_start hp)) (fun n h => by cases h) op h
  refine (runOps_new wide (newStream_sound hnew hu) (Or.inl ?_) (fun op h => (hfine op h).1)).1
    (encodable_calls _ (by simpa [Writable] using hw) (fun h => by cases h) (fun n h => by cases h))
  rw [hcalls]
  simp [Printer.call, newPrinter]

/-- What is written for a document, after the byte order mark if there is one, reads back as an XML
declaration that names the encoding, and the same sequence of events. -/
theorem C34_document_read_back (wide : Bool) {le : Bool} {lookup : UStr → Option Codec} {encoding : UStr} {st : Stream}
    (hnew : newStream le lookup encoding = some st) (hu : Usable st.enc)
    {dec : Bytes → Option UStr} (hdec : Inverse dec st.enc) (he : isEncName encoding = true)
    {sa : Option UStr} (hsa : sa = none ∨ sa = some (u!! "yes") ∨ sa = some (u!! "no"))
    {cs : List Call} (hcs : ∀ c ∈ cs, LegalCall wide c ∨ LegalDoctype c ∨ c = .endDocument)
    (hdoc : DocCalls .prolog [] cs) {st' : Stream}
    (hrun : printCalls wide st false encoding (.startDocument sa :: cs) = .ok st') :
    ∃ b T evs, st'.out = bomBytes st ++ b ∧ dec b = some T ∧
      readDocument T = some (some ⟨u!! "1.0", some encoding, sa⟩, evs) ∧ SameEvs evs (events cs) := by
  have hp : ∀ c ∈ cs, Part wide false c := fun c hc => ⟨hcs c hc, fun h => by cases h⟩
  have hsh := shape_of_doc cs hdoc
  have hcalls : (newPrinter false encoding).calls (.startDocument sa :: cs) =
      ((newPrinter false encoding).call (.startDocument sa)).1 ++ (newPrinter false encoding).calls cs := by
    rw [Printer.calls, (opsText_startDocument wide st.enc rfl sa).2]
  have hfine : ∀ op ∈ (newPrinter false encoding).calls (.startDocument sa :: cs), OpFine wide st.enc op := by
    rw [hcalls]
    intro op hop
    rcases List.mem_append.1 hop with h | h
    · exact fine_startDocument wide st.enc he hsa op h
    · exact fine_calls wide st.enc cs hp (shape_end cs hsh (by simp) (part_start hp)) (fun n h => by cases h) op h
  obtain ⟨b, hb, ho⟩ := (runOps_new wide (newStream_sound hnew hu) (Or.inl (by
    rw [hcalls]; simp [Printer.call, newPrinter])) (fun op h => (hfine op h).1)).2 st' hrun
  obtain ⟨hrd, _⟩ := reads_calls wide st.enc false cs.length cs (Nat.le_refl _) (newPrinter false encoding) .prolog []
    rfl hp hsh (by simp) (by simp)
  have hraw := opsText_raw hfine
  have htext := (opsText_startDocument wide st.enc (p := newPrinter false encoding) rfl sa).1
  have hT : opsText wide st.enc ((newPrinter false encoding).calls (.startDocument sa :: cs)) =
      u!! "<?xml" ++ (u!! " version=\"1.0\" encoding=\"" ++ (encoding ++ (34 :: (standaloneText sa ++ (u!! "?>" ++
        (10 :: opsText wide st.enc ((newPrinter false encoding).calls cs))))))) := by
    rw [hcalls, opsText_append, htext]
    simp [newPrinter]
  refine ⟨b, _, cs.flatMap (written false), ?_, hdec _ _ (fun c hc => (hraw c hc).1) hb, ?_, written_same false cs⟩
  · rw [ho, newStream_out hnew, List.nil_append]
  · have hparts := reads_document (.ws rfl (c := 10) (by decide) hrd)
    have hdecl := readDecl_text he hsa (10 :: opsText wide st.enc ((newPrinter false encoding).calls cs))
    have hdrop : ∀ x, List.drop 5 (u!! "<?xml" ++ x) = x := fun _ => rfl
    unfold readDocument
    dsimp only
    rw [eol_raw hraw, hT, if_pos]
    · rw [hdrop, hdecl]
      dsimp only
      rw [hparts _ (Nat.lt_succ_self _)]
      rfl
    · refine ⟨Py.startsWith_iff.2 ⟨_, rfl⟩, ?_⟩
      rw [hdrop]
      simp [nameChar, nameStart]

/-- The canonical printer, which writes no XML declaration. -/
theorem C34_canonical_document_read_back (wide : Bool) {le : Bool} {lookup : UStr → Option Codec} {encoding : UStr}
    {st : Stream} (hnew : newStream le lookup encoding = some st) (hbom : st.bom = none) (hu : Usable st.enc)
    {dec : Bytes → Option UStr} (hdec : Inverse dec st.enc) {sa : Option UStr}
    {cs : List Call} (hcs : ∀ c ∈ cs, LegalCall wide c ∨ c = .endDocument) (hcan : ∀ c ∈ cs, CanonicalCall c)
    (hdoc : DocCalls .prolog [] cs) {st' : Stream}
    (hrun : printCalls wide st true encoding (.startDocument sa :: cs) = .ok st') :
    ∃ T evs, dec st'.out = some T ∧ readDocument T = some (none, evs) ∧ SameEvs evs (events cs) := by
  have hp : ∀ c ∈ cs, Part wide true c := fun c hc =>
    ⟨(hcs c hc).elim Or.inl (fun h => Or.inr (Or.inr h)), fun _ => hcan c hc⟩
  have hsh := shape_of_doc cs hdoc
  have hcalls : (newPrinter true encoding).calls (.startDocument sa :: cs) = (newPrinter true encoding).calls cs := by
    rw [Printer.calls]; rfl
  have hfine : ∀ op ∈ (newPrinter true encoding).calls cs, OpFine wide st.enc op :=
    fine_calls wide st.enc cs hp (shape_end cs hsh (by simp) (part_start hp)) (fun n h => by cases h)
  unfold printCalls at hrun
  rw [hcalls] at hrun
  obtain ⟨b, hb, ho⟩ := (runOps_new wide (newStream_sound hnew hu) (Or.inr hbom)
    (fun op h => (hfine op h).1)).2 st' hrun
  obtain ⟨hrd, _⟩ := reads_calls wide st.enc false cs.length cs (Nat.le_refl _) (newPrinter true encoding) .prolog []
    rfl hp hsh (by simp) (by simp)
  have hraw := opsText_raw hfine
  refine ⟨opsText wide st.enc ((newPrinter true encoding).calls cs), cs.flatMap (written true), ?_, ?_,
    written_same true cs⟩
  · rw [ho, newStream_out hnew, bomBytes, hbom]
    exact hdec _ _ (fun c hc => (hraw c hc).1) hb
  · unfold readDocument
    dsimp only
    rw [eol_raw hraw, if_neg (reads_noDecl hrd), reads_document hrd _ (Nat.lt_succ_self _)]
    rfl

/-- The hypotheses can be met: a document in UTF-8. -/
def sampleCalls : List Call :=
  [.comment (u!! " c "), .doctype (u!! "p:a") (some (u!! "-//X//Y")) (some (u!! "x.dtd")),
   .startElement (u!! "p:a") [(some (u!! "p"), u!! "urn:x")] [(u!! "y", u!! "1\n2"), (u!! "b", u!! "ω\"")],
   .text (u!! "x < y ]]> z\r"), .startElement (u!! "ω") [] [], .endElement (u!! "ω"), .cdata (u!! "]]>"),
   .pi (u!! "t") (u!! "d"), .endElement (u!! "p:a"), .pi (u!! "u") [], .endDocument]

theorem sampleCalls_legal : (∀ c ∈ sampleCalls, LegalCall true c ∨ LegalDoctype c ∨ c = .endDocument) ∧
    DocCalls .prolog [] sampleCalls ∧ ∀ enc, (∀ c, enc [c] ≠ none) → ∀ c ∈ sampleCalls, Writable enc c := by
  refine ⟨?_, ?_, ?_⟩
  · intro c hc
    simp only [sampleCalls, List.mem_cons, List.not_mem_nil, or_false] at hc
    rcases hc with rfl | rfl | rfl | rfl | rfl | rfl | rfl | rfl | rfl | rfl | rfl
    · refine Or.inl ⟨by unfold Raw; decide, ?_⟩
      rintro ⟨a, b, h⟩
      match a, h with
      | [], h => simp at h
      | [_], h => simp at h
      | [_, _], h => simp at h
      | [_, _, _], h => simp at h
      | _ :: _ :: _ :: _ :: a, h => simp at h
    · exact Or.inr (Or.inl ⟨by decide, fun p hp => by cases hp; decide, _, rfl, by decide, by unfold Raw; decide, by decide⟩)
    · exact Or.inl (by unfold LegalCall LegalText; decide)
    · exact Or.inl (by unfold LegalCall LegalText; decide)
    · exact Or.inl (by unfold LegalCall LegalText; decide)
    · exact Or.inl trivial
    · exact Or.inl (by unfold LegalCall Raw; decide)
    · refine Or.inl ⟨by decide, by decide, by unfold Raw; decide, ?_, by simp; decide⟩
      rintro ⟨a, b, h⟩
      match a, h with
      | [], h => simp at h
      | _ :: a, h => simp at h
    · exact Or.inl trivial
    · refine Or.inl ⟨by decide, by decide, by unfold Raw; decide, ?_, by simp⟩
      rintro ⟨a, b, h⟩
      simp at h
    · exact Or.inr (Or.inr rfl)
  · simp [sampleCalls, DocCalls]
  · intro enc he c hc
    have h : ∀ s, Encodable enc s := fun s c _ => he c
    simp only [sampleCalls, List.mem_cons, List.not_mem_nil, or_false] at hc
    rcases hc with rfl | rfl | rfl | rfl | rfl | rfl | rfl | rfl | rfl | rfl | rfl <;> simp [Writable, h]

/-- So in UTF-8 the sample is written and reads back. -/
example : ∃ st st' T evs, newStream true (fun _ => some utf8Codec) (u!! "utf-8") = some st ∧
    printCalls true st false (u!! "utf-8") (.startDocument none :: sampleCalls) = .ok st' ∧
    decodeUtf8 st'.out = some T ∧ readDocument T = some (some ⟨u!! "1.0", some (u!! "utf-8"), none⟩, evs) ∧
    SameEvs evs (events sampleCalls) := by
  have hnew : ∃ st, newStream true (fun _ => some utf8Codec) (u!! "utf-8") = some st ∧ st.enc = utf8Codec ∧ st.bom = none := by
    unfold newStream
    rw [if_neg (by decide)]
    exact ⟨_, rfl, rfl, rfl⟩
  obtain ⟨st, hnew, henc, hbom⟩ := hnew
  have hb : bomBytes st = [] := by rw [bomBytes, hbom]
  have hu : Usable st.enc := henc ▸ usable_utf8
  obtain ⟨h1, h2, h3⟩ := sampleCalls_legal
  obtain ⟨st', hst'⟩ := C34_document_written true hnew hu (by decide) (Or.inl rfl) h1 h2
    (h3 st.enc (by rw [henc]; simp [utf8Codec]))
  obtain ⟨b, T, evs, h4, h5, h6, h7⟩ := C34_document_read_back true hnew hu (henc ▸ inverse_utf8) (by decide) (Or.inl rfl)
    h1 h2 hst'
  rw [hb] at h4
  exact ⟨st, st', T, evs, hnew, hst', by rw [h4]; exact h5, h6, h7⟩

/-! C35 -/

/-- On a big-endian machine a document in UTF-16 begins with the byte order mark for big-endian, and a
reader that goes by it reads the document back. -/
theorem C35_big_endian (wide : Bool) {lookup : UStr → Option Codec} {encoding : UStr}
    (hname : encoding.map lower = u!! "utf-16") (hlookup : lookup (u!! "utf-16be") = some (utf16Codec false))
    {sa : Option UStr} (hsa : sa = none ∨ sa = some (u!! "yes") ∨ sa = some (u!! "no"))
    {cs : List Call} (hcs : ∀ c ∈ cs, LegalCall wide c ∨ LegalDoctype c ∨ c = .endDocument)
    (hdoc : DocCalls .prolog [] cs) :
    ∃ st st' T evs, newStream false lookup encoding = some st ∧
      printCalls wide st false encoding (.startDocument sa :: cs) = .ok st' ∧
      readUtf16 st'.out = some T ∧ readDocument T = some (some ⟨u!! "1.0", some encoding, sa⟩, evs) ∧
      SameEvs evs (events cs) := by
  have hnew : ∃ st, newStream false lookup encoding = some st ∧ st.enc = utf16Codec false ∧ st.bom = some false := by
    unfold newStream
    rw [if_pos hname, if_neg (by simp), hlookup]
    exact ⟨_, rfl, rfl, rfl⟩
  obtain ⟨st, hnew, henc, hbom⟩ := hnew
  have hu : Usable st.enc := henc ▸ usable_utf16 false
  have he : isEncName encoding = true := by
    have lower_letter : ∀ c x, lower c = x → c = x ∨ (65 ≤ c ∧ c ≤ 90) := by
      intro c x h
      unfold lower at h
      split at h
      · rename_i hc; exact Or.inr hc
      · exact Or.inl h
    have hlen : encoding.length = 6 := by simpa using congrArg List.length hname
    match encoding, hlen, hname with
    | [a, b, c, d, e, f], _, hname =>
      simp only [List.map_cons, List.map_nil, List.cons.injEq, and_true] at hname
      obtain ⟨h1, h2, h3, h4, h5, h6⟩ := hname
      have h1 := lower_letter _ _ h1
      have h2 := lower_letter _ _ h2
      have h3 := lower_letter _ _ h3
      have h4 := lower_letter _ _ h4
      have h5 := lower_letter _ _ h5
      have h6 := lower_letter _ _ h6
      simp only [isEncName, List.all_cons, List.all_nil, Bool.and_true, Bool.and_eq_true, Bool.or_eq_true, decide_eq_true_eq]
      omega
  have hall : ∀ c, st.enc [c] ≠ none := by rw [henc]; simp [utf16Codec]
  have hw : ∀ c ∈ cs, Writable st.enc c := by
    have h : ∀ s, Encodable st.enc s := fun s c _ => hall c
    intro c _
    cases c <;> simp [Writable, h]
  obtain ⟨st', hst'⟩ := C34_document_written wide hnew hu he hsa hcs hdoc hw
  obtain ⟨b, T, evs, h1, h2, h3, h4⟩ := C34_document_read_back wide hnew hu (henc ▸ inverse_utf16 false) he hsa hcs hdoc hst'
  refine ⟨st, st', T, evs, hnew, hst', ?_, h3, h4⟩
  rw [h1, bomBytes, hbom]
  exact h2

example : (u!! "UTF-16").map lower = u!! "utf-16" := by decide

end Verif.Write
