import Verif.Write.HtmlFine
import Verif.Write.Props

/-
C80: what the HTML printer writes is read by an HTML reader as what the printer was given.
-/
namespace Verif.Write.Html
open Verif Verif.Write Verif.Write.Html.Spec
open Verif.Write.Spec (Usable Inverse AsciiSuperset Wide Encodable Raw LegalText Phase Occurs eol Legal
  decodeUtf8)

theorem ascii_encodable {enc : Codec} (hu : Usable enc) : ∀ c < 128, enc [c] ≠ none := by
  intro c hc
  rcases hu.2 with h | h
  · rw [h c hc]; simp
  · exact h.1 c

theorem calls_start (raze : Bool) (version : UStr) (cs : List HCall) :
    ∃ p : HPrinter, (HPrinter.new raze).calls (.startDocument version :: cs) = p.calls cs ∧ p.named = named version ∧
      p.elementName = none :=
  ⟨_, rfl, rfl, rfl⟩

theorem calls_ne {wide : Bool} {enc : Codec} (ha : ∀ c < 128, enc [c] ≠ none) {version : UStr} {cs : List HCall} {p : HPrinter}
    (h1 : p.named = named version) (h2 : p.elementName = none) (hcs : ∀ c ∈ cs, LegalCall wide c ∧ GoodCall version c)
    (hd : DocCalls .prolog [] cs) : p.calls cs ≠ [] := by
  intro hne
  have key : ∀ (cs : List HCall) (ph : Phase) (q : HPrinter), q.named = named version → q.elementName = none →
      (∀ c ∈ cs, LegalCall wide c ∧ GoodCall version c) → ph ≠ .root → DocCalls ph [] cs → q.calls cs = [] → False := by
    intro cs
    induction cs with
    | nil => intro ph q _ _ _ hph hd _; exact hph hd.1
    | cons c cs ih =>
      intro ph q k1 k2 hcs hph hd he
      have hclose : closeTag q = ([], q) := by unfold closeTag; rw [k2]; rfl
      rw [HPrinter.calls, List.append_eq_nil_iff] at he
      cases c with
      | startDocument v => exact hd
      | rawText s => exact hd
      | endDocument => exact hph hd.1
      | startElement ns n nsdecls as =>
        have : ns = none := (hcs _ (List.mem_cons_self ..)).1.1
        subst this
        have := he.1
        simp [HPrinter.call, htmlStart] at this
      | endElement ns n => obtain ⟨o', h, _⟩ := hd; cases h
      | text s => exact hd.1 rfl
      | comment s =>
        have := he.1
        simp [HPrinter.call, bases] at this
      | pi t d =>
        have := he.1
        simp [HPrinter.call, bases, piOps] at this
      | doctype n a b =>
        obtain ⟨h3, h4, h5⟩ := fine_hcall wide ha version k1 k2 (hcs _ (List.mem_cons_self ..)).1 (hcs _ (List.mem_cons_self ..)).2
          (fun _ _ h => by cases h)
        exact ih .afterDoctype _ h4 h5 (fun c hc => hcs c (by simp [hc])) (by decide) hd.2.2 he.2
  exact key cs .prolog p h1 h2 hcs (by decide) hd hne

/-! C80 -/

/-- A document is written if the strings that must appear literally can be encoded. -/
theorem C80_written (wide : Bool) {le : Bool} {lookup : UStr → Option Codec} {encoding : UStr} {st : Stream}
    (hnew : newStream le lookup encoding = some st) (hu : Usable st.enc) (raze : Bool) {version : UStr} {cs : List HCall}
    (hcs : ∀ c ∈ cs, LegalCall wide c ∧ GoodCall version c) (hd : DocCalls .prolog [] cs)
    (hw : ∀ c ∈ cs, Writable st.enc c) :
    ∃ st', printHtml wide st raze (.startDocument version :: cs) = .ok st' := by
  have ha := ascii_encodable hu
  obtain ⟨p, hp, h1, h2⟩ := calls_start raze version cs
  unfold printHtml
  rw [hp]
  have hfine := fine_hcalls wide ha version cs p .prolog [] h1 h2 hcs hd (nofun)
  exact (runHOps_new wide (newStream_sound hnew hu) (calls_ne ha h1 h2 hcs hd) (fun op h => (hfine op h).1.1)).1
    (fun op h => (hfine op h).2 hw)

/-- What is written for a document reads back as what the printer was given, in any encoding, for any version
of HTML: empty elements have no end tags, boolean attributes are minimized, URIs are percent-escaped, and
everything else is unchanged. -/
theorem C80_document_partial (wide : Bool) {le : Bool} {lookup : UStr → Option Codec} {encoding : UStr} {st : Stream}
    (hnew : newStream le lookup encoding = some st) (hu : Usable st.enc)
    {dec : Bytes → Option UStr} (hdec : Inverse dec st.enc) (raze : Bool) {version : UStr} {cs : List HCall}
    (hcs : ∀ c ∈ cs, LegalCall wide c ∧ GoodCall version c) (hd : DocCalls .prolog [] cs) (hpl : PlainCdata [] cs)
    {st' : Stream} (hrun : printHtml wide st raze (.startDocument version :: cs) = .ok st') :
    ∃ b T es, st'.out = bomBytes st ++ b ∧ dec b = some T ∧ readHtml T = some es ∧ Wanted cs es := by
  have ha := ascii_encodable hu
  obtain ⟨p, hp, h1, h2⟩ := calls_start raze version cs
  unfold printHtml at hrun
  rw [hp] at hrun
  have hfine := fine_hcalls wide ha version cs p .prolog [] h1 h2 hcs hd (nofun)
  obtain ⟨b, hb, ho⟩ := (runHOps_new wide (newStream_sound hnew hu) (calls_ne ha h1 h2 hcs hd)
    (fun op h => (hfine op h).1.1)).2 st' hrun
  obtain ⟨es, hr, hw⟩ := reads_hcalls wide ha version cs p .prolog [] h1 h2 hcs hd hpl (by simp) (nofun) (nofun)
  have hraw : Raw (hopsText wide st.enc (p.calls cs)) := by
    intro c hm
    obtain ⟨op, hop, hx⟩ := List.mem_flatMap.1 hm
    exact (hfine op hop).1.2 c hx
  refine ⟨b, _, es, by rw [ho, newStream_out hnew, List.nil_append], hdec _ _ (fun c hc => (hraw c hc).1) hb, ?_, hw⟩
  unfold readHtml
  rw [eol_raw hraw]
  exact reads_html hr _ (Nat.lt_succ_self _)

/-! A document with an empty element, boolean attributes, URIs, quotes, references, script and text that the
encoding does not have -/

def sampleHtml : List HCall :=
  [.comment (u!! "c"), .doctype (u!! "html") (some (u!! "-//W3C//DTD HTML 4.01//EN")) none,
   .startElement none (u!! "HTML") [] [], .startElement none (u!! "script") [] [(u!! "src", [97, 233])],
   .text (u!! "f(1)"), .endElement none (u!! "script"),
   .startElement none (u!! "input") [] [(u!! "checked", u!! "Checked"), (u!! "value", u!! "a\"&{b}&<é")],
   .endElement none (u!! "input"), .text ([233, 13, 0x4E00] ++ u!! "<&>"), .pi (u!! "php") (u!! "x"),
   .endElement none (u!! "HTML"), .endDocument]

theorem sampleHtml_legal : (∀ c ∈ sampleHtml, LegalCall true c ∧ GoodCall (u!! "4.01") c) ∧ DocCalls .prolog [] sampleHtml ∧
    PlainCdata [] sampleHtml ∧ ∀ c ∈ sampleHtml, Writable utf8Codec c := by
  refine ⟨?_, ?_, ?_, ?_⟩
  · intro c hc
    simp only [sampleHtml, List.mem_cons, List.not_mem_nil, or_false] at hc
    rcases hc with rfl | rfl | rfl | rfl | rfl | rfl | rfl | rfl | rfl | rfl | rfl | rfl
    · refine ⟨⟨by unfold Raw; decide, ?_⟩, trivial⟩
      rintro ⟨a, b, h⟩
      match a, h with
      | [], h => simp at h
      | [_], h => simp at h
      | _ :: _ :: a, h => simp at h
    · exact ⟨⟨by decide, fun x hx => by cases hx; exact ⟨by unfold Raw; decide, by decide⟩, nofun⟩, trivial⟩
    · exact ⟨⟨rfl, rfl, by decide, nofun⟩, nofun⟩
    · exact ⟨⟨rfl, rfl, by decide, by unfold LegalText; decide⟩, by unfold GoodCall Good LiCompact; decide⟩
    · exact ⟨by unfold LegalCall LegalText; decide, by unfold GoodCall Good; decide⟩
    · exact ⟨rfl, trivial⟩
    · exact ⟨⟨rfl, rfl, by decide, by unfold LegalText; decide⟩, by unfold GoodCall Good LiCompact; decide⟩
    · exact ⟨rfl, trivial⟩
    · exact ⟨by unfold LegalCall LegalText; decide, by unfold GoodCall Good; decide⟩
    · exact ⟨⟨by unfold Raw; decide, by unfold Raw; decide, by decide, by decide⟩, trivial⟩
    · exact ⟨rfl, trivial⟩
    · exact ⟨trivial, trivial⟩
  · refine ⟨by decide, by decide, rfl, rfl, by decide, by decide, by decide, by decide, by decide, by decide, by decide, by decide,
      _, rfl, by decide, by decide, by decide, _, rfl, by decide, by decide, by decide, by decide, _, rfl, rfl, rfl, rfl⟩
  · unfold sampleHtml
    refine ⟨by decide, ?_, trivial⟩
    intro h; revert h; decide
  · have h : ∀ s, Encodable utf8Codec s := fun s c _ => by simp [utf8Codec]
    intro c hc
    simp only [sampleHtml, List.mem_cons, List.not_mem_nil, or_false] at hc
    rcases hc with rfl | rfl | rfl | rfl | rfl | rfl | rfl | rfl | rfl | rfl | rfl | rfl <;> simp [Writable, h]

/-- What is read back when a document is written in UTF-8. -/
def readBack (version : UStr) (cs : List HCall) : Option (List Ev) :=
  match newStream true (fun _ => some utf8Codec) (u!! "utf-8") with
  | none => none
  | some st =>
    match printHtml true st false (.startDocument version :: cs) with
    | .ok st' => (decodeUtf8 st'.out).bind readHtml
    | .error _ => none

/-- The sample is written and reads back. -/
example : readBack (u!! "4.01") sampleHtml = some
    [.comment (u!! "c"), .doctype (u!! "html") (some (u!! "-//W3C//DTD HTML 4.01//EN")) none, .start (u!! "HTML") [],
     .start (u!! "script") [(u!! "src", some (u!! "a%C3%A9"))], .char 102, .char 40, .char 49, .char 41,
     .stop (u!! "script"), .start (u!! "input") [(u!! "checked", none), (u!! "value", some (u!! "a\"&{b}&<é"))],
     .stop (u!! "input"), .char 233, .char 13, .char 0x4E00, .char 60, .char 38, .char 62, .pi (u!! "php x"),
     .stop (u!! "HTML")] := by decide +kernel

/-! Where it fails -/

def scriptHtml : List HCall :=
  [.startElement none (u!! "script") [] [], .text (u!! "a<b"), .endElement none (u!! "script")]

/-- Text in a script is escaped, although nothing in it is a reference for a reader: `a<b` is read as `a&lt;b`. -/
theorem C80_refuted_script : (∀ c ∈ scriptHtml, LegalCall true c ∧ GoodCall (u!! "4.01") c) ∧ DocCalls .prolog [] scriptHtml ∧
    ∃ es, readBack (u!! "4.01") scriptHtml = some es ∧ ¬ Wanted scriptHtml es := by
  refine ⟨?_, ?_, ([.start (u!! "script") []] ++ (u!! "a&lt;b").map .char ++ [.stop (u!! "script")]), by decide +kernel, ?_⟩
  · intro c hc
    simp only [scriptHtml, List.mem_cons, List.not_mem_nil, or_false] at hc
    rcases hc with rfl | rfl | rfl
    · exact ⟨⟨rfl, rfl, by decide, nofun⟩, nofun⟩
    · exact ⟨by unfold LegalCall LegalText; decide, by unfold GoodCall Good; decide⟩
    · exact ⟨rfl, trivial⟩
  · exact ⟨by decide, by decide, by decide, by decide, by decide, _, rfl, rfl, rfl⟩
  · rintro ⟨bs, rest, h1, _, h2⟩
    simp only [List.cons_append, List.nil_append, List.cons.injEq] at h1
    obtain ⟨rest', h3, _⟩ := h2
    rw [h3] at h1
    simp at h1

def tildeHtml : List HCall := [.startElement none (u!! "p") [] [], .text [0x2DC], .endElement none (u!! "p")]

/-- U+02DC is written as a reference to an entity that HTML does not have. -/
theorem C80_refuted_tilde : (∀ c ∈ tildeHtml, LegalCall true c) ∧ DocCalls .prolog [] tildeHtml ∧ PlainCdata [] tildeHtml ∧
    ¬ ∃ es, readBack (u!! "4.01") tildeHtml = some es ∧ Wanted tildeHtml es := by
  refine ⟨?_, ?_, ?_, ?_⟩
  · intro c hc
    simp only [tildeHtml, List.mem_cons, List.not_mem_nil, or_false] at hc
    rcases hc with rfl | rfl | rfl
    · exact ⟨rfl, rfl, by decide, nofun⟩
    · unfold LegalCall LegalText; decide
    · exact rfl
  · exact ⟨by decide, by decide, by decide, by decide, by decide, _, rfl, rfl, rfl⟩
  · exact ⟨by decide, trivial⟩
  · rintro ⟨es, h1, _⟩
    have h : readBack (u!! "4.01") tildeHtml = none := by decide +kernel
    rw [h] at h1; cases h1

def liHtml : List HCall := [.startElement none (u!! "li") [] [(u!! "compact", u!! "compact")], .endElement none (u!! "li")]

/-- An attribute `compact` of `li` is written without its value, although it is not a boolean attribute. -/
theorem C80_refuted_li : (∀ c ∈ liHtml, LegalCall true c) ∧ DocCalls .prolog [] liHtml ∧ PlainCdata [] liHtml ∧
    ¬ ∃ es, readBack (u!! "4.01") liHtml = some es ∧ Wanted liHtml es := by
  refine ⟨?_, ?_, trivial, ?_⟩
  · intro c hc
    simp only [liHtml, List.mem_cons, List.not_mem_nil, or_false] at hc
    rcases hc with rfl | rfl
    · exact ⟨rfl, rfl, by decide, by unfold LegalText; decide⟩
    · exact rfl
  · exact ⟨by decide, by decide, by decide, _, rfl, rfl, rfl⟩
  · rintro ⟨es, h1, _⟩
    have h : readBack (u!! "4.01") liHtml = none := by decide +kernel
    rw [h] at h1; cases h1

end Verif.Write.Html
