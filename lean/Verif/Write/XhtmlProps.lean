import Verif.Write.XhtmlLemmas
/-
C95: what is written as XHTML is read by an XML reader as what was written, with end tags for all
elements but those that have no content, and with escaped URIs.
-/
namespace Verif.Write.Xhtml
open Verif Verif.Write Verif.Write.Spec Verif.Write.Xhtml.Spec

theorem legalStart {wide : Bool} {cs : List XCall}
    (hcs : ∀ c ∈ cs, LegalCall wide (plain c) ∨ LegalDoctype (plain c) ∨ plain c = .endDocument) :
    ∀ c ∈ cs, LegalStart wide c := by
  intro c hc
  have := hcs c hc
  cases c with
  | start ns n ds as =>
    rcases this with h | h | h
    · exact ⟨isName_ne h.1, fun a ha => (h.2.2.1 a ha).2⟩
    · exact absurd h (by simp [plain, LegalDoctype])
    · cases h
  | startDocument sa =>
    rcases this with h | h | h
    · exact h
    · exact absurd h (by simp [plain, LegalDoctype])
    · cases h
  | _ => trivial

theorem print_same (wide : Bool) (st : Stream) (encoding : UStr) {sa : Option UStr} {cs : List XCall}
    (hdoc : DocCalls .prolog [] (cs.map plain))
    (hcs : ∀ c ∈ cs, LegalCall wide (plain c) ∨ LegalDoctype (plain c) ∨ plain c = .endDocument)
    (hg : ∀ c ∈ cs, GoodCall c) (hv : NoVoid cs) :
    printXhtml wide st encoding (.startDocument sa :: cs) =
      printCalls wide st false encoding (.startDocument sa :: cs.flatMap asXml) := by
  unfold printXhtml printCalls
  rw [xcalls, Printer.calls]
  have e : xcall (newPrinter false encoding) (.startDocument sa) =
    (newPrinter false encoding).call (.startDocument sa) := rfl
  rw [e]
  have hn : truthy ((newPrinter false encoding).call (.startDocument sa)).2.elementName = false := rfl
  exact (SameOps.refl wide _).append (calls_same wide cs _ rfl
    (fun c hc => ⟨hg c hc, legalStart hcs c hc⟩) hv (ready_closed hn cs)) st

/-- **C95**, what is written for a document reads back with an XML reader as what the printer was given, in any
encoding: names, declarations, attributes, texts and the rest, where in the URIs of XHTML elements non-ASCII
characters are escaped.  Missing: characters that XHTML has names for (the reader would have to read the DTD,
`C95_refuted_names`), `<` in attributes (`C95_refuted_less`), and the elements without content model, as `br`, when
they have no content (`C95_refuted_break`, `C95_refuted_last`). -/
theorem C95_read_back_partial (wide : Bool) {le : Bool} {lookup : UStr → Option Codec} {encoding : UStr} {st : Stream}
    (hnew : newStream le lookup encoding = some st) (hu : Usable st.enc)
    {dec : Bytes → Option UStr} (hdec : Inverse dec st.enc) (he : isEncName encoding = true)
    {sa : Option UStr} (hsa : sa = none ∨ sa = some (u!! "yes") ∨ sa = some (u!! "no"))
    {cs : List XCall}
    (hcs : ∀ c ∈ cs, LegalCall wide (plain c) ∨ LegalDoctype (plain c) ∨ plain c = .endDocument)
    (hdoc : DocCalls .prolog [] (cs.map plain)) (hg : ∀ c ∈ cs, GoodCall c) (hv : NoVoid cs) {st' : Stream}
    (hrun : printXhtml wide st encoding (.startDocument sa :: cs) = .ok st') :
    ∃ b T evs es, st'.out = bomBytes st ++ b ∧ dec b = some T ∧
      readDocument T = some (some ⟨u!! "1.0", some encoding, sa⟩, evs) ∧ SameEvs evs es ∧ Wanted cs es := by
  rw [print_same wide st encoding hdoc hcs hg hv] at hrun
  have hl : ∀ c ∈ cs.flatMap asXml, LegalCall wide c ∨ LegalDoctype c ∨ c = .endDocument := by
    intro c hc
    obtain ⟨x, hx, hc⟩ := List.mem_flatMap.mp hc
    exact legal_asXml (hcs x hx) c hc
  obtain ⟨b, T, evs, h1, h2, h3, h4⟩ := C34_document_read_back wide hnew hu hdec he hsa hl (doc_asXml cs _ _ hdoc) hrun
  exact ⟨b, T, evs, _, h1, h2, h3, h4, wanted_asXml (legalStart hcs)⟩

/-- **C95**, such a document is always written if its names, comments and the like can be encoded. -/
theorem C95_written (wide : Bool) {le : Bool} {lookup : UStr → Option Codec} {encoding : UStr} {st : Stream}
    (hnew : newStream le lookup encoding = some st) (hu : Usable st.enc) (he : isEncName encoding = true)
    {sa : Option UStr} (hsa : sa = none ∨ sa = some (u!! "yes") ∨ sa = some (u!! "no"))
    {cs : List XCall}
    (hcs : ∀ c ∈ cs, LegalCall wide (plain c) ∨ LegalDoctype (plain c) ∨ plain c = .endDocument)
    (hdoc : DocCalls .prolog [] (cs.map plain)) (hg : ∀ c ∈ cs, GoodCall c) (hv : NoVoid cs)
    (hw : ∀ c ∈ cs, Writable st.enc (plain c)) :
    ∃ st', printXhtml wide st encoding (.startDocument sa :: cs) = .ok st' := by
  rw [print_same wide st encoding hdoc hcs hg hv]
  refine C34_document_written wide hnew hu he hsa ?_ (doc_asXml cs _ _ hdoc) ?_
  · intro c hc
    obtain ⟨x, hx, hc⟩ := List.mem_flatMap.mp hc
    exact legal_asXml (hcs x hx) c hc
  · intro c hc
    obtain ⟨x, hx, hc⟩ := List.mem_flatMap.mp hc
    exact writable_asXml (hw x hx) c hc

/-- **C95**, an XHTML element without content is written with a start-tag and an end-tag, as HTML browsers need it, and
not as `<p/>`, wherever it stands, unless it is one of those that never have content. -/
theorem C95_end_tags (p : Printer) (n : UStr) (ds : List (Option UStr × UStr)) (as : List (UStr × UStr))
    (h : isVoid n = false) :
    ∃ ops, xcalls p [.start (some xhtmlNs) n ds as, .stop (some xhtmlNs) n] =
      ops ++ [.ascii (u!! ">"), .ascii (u!! "</"), .encode n, .ascii (u!! ">")] := by
  rw [← isVoid_eq] at h
  refine ⟨startOps p n ds (as.map (translate n)), ?_⟩
  have e1 : xcall p (.start (some xhtmlNs) n ds as) =
      (startOps p n ds (as.map (translate n)) ++ [.ascii (u!! ">")], { p with elementName := none }) := by
    simp only [xcall, h, if_true, Bool.false_eq_true, if_false]
  rw [xcalls, xcalls, xcalls, e1]
  simp [xcall, truthy, Printer.call]

/-- **C95**, and one of those is written as `<br />`, with the space that HTML browsers need. -/
theorem C95_minimized (p : Printer) (n : UStr) (ds : List (Option UStr × UStr)) (as : List (UStr × UStr))
    (h : isVoid n = true) :
    ∃ ops, xcalls p [.start (some xhtmlNs) n ds as, .stop (some xhtmlNs) n] =
      startOps p n ds ops ++ [.ascii (u!! " />")] := by
  rw [← isVoid_eq] at h
  refine ⟨as.map (translate n), ?_⟩
  have e1 : xcall p (.start (some xhtmlNs) n ds as) =
      (startOps p n ds (as.map (translate n)), { p with elementName := some n }) := by
    simp only [xcall, h, if_true]
  have hn : n ≠ [] := by rintro rfl; revert h; decide
  have ht : truthy (some n) = true := by cases n with | nil => exact absurd rfl hn | cons a b => rfl
  have hm : n ∈ emptyElements := by simpa using h
  rw [xcalls, xcalls, xcalls, e1]
  simp [xcall, ht, hm]

example : isVoid (u!! "p") = false ∧ isVoid (u!! "br") = true := by decide

/-! ### A document -/

/-- The text of a document in UTF-8. -/
def xhtmlText (cs : List XCall) : Option UStr :=
  match newStream true (fun _ => some utf8Codec) (u!! "utf-8") with
  | none => none
  | some st =>
    match printXhtml true st (u!! "utf-8") (.startDocument none :: cs) with
    | .ok st' => decodeUtf8 st'.out
    | .error _ => none

def sampleXhtml : List XCall :=
  [.start (some xhtmlNs) (u!! "div") [(none, xhtmlNs)] [(u!! "title", u!! "a\"b")],
   .start (some xhtmlNs) (u!! "a") [] [(u!! "href", [120, 233])], .stop (some xhtmlNs) (u!! "a"),
   .start none (u!! "e") [] [], .stop none (u!! "e"), .text (u!! "1<2"), .stop (some xhtmlNs) (u!! "div")]

theorem sampleXhtml_ok : (∀ c ∈ sampleXhtml, LegalCall true (plain c)) ∧ DocCalls .prolog [] (sampleXhtml.map plain) ∧
    (∀ c ∈ sampleXhtml, GoodCall c) ∧ NoVoid sampleXhtml := by
  refine ⟨?_, ?_, ?_, ?_⟩
  · intro c hc
    simp only [sampleXhtml, List.mem_cons, List.not_mem_nil, or_false] at hc
    rcases hc with rfl | rfl | rfl | rfl | rfl | rfl | rfl <;> unfold plain LegalCall <;> (try unfold LegalText) <;> (try unfold xhtmlNs) <;> decide +kernel
  · simp [sampleXhtml, DocCalls, plain]
  · intro c hc
    simp only [sampleXhtml, List.mem_cons, List.not_mem_nil, or_false] at hc
    rcases hc with rfl | rfl | rfl | rfl | rfl | rfl | rfl <;> unfold GoodCall <;> (try unfold GoodValue) <;> (try unfold xhtmlNs) <;> decide +kernel
  · unfold sampleXhtml; simp only [NoVoid]; decide +kernel

example : xhtmlText sampleXhtml = some (u!! "<?xml version=\"1.0\" encoding=\"utf-8\"?>\n<div xmlns=\"http://www.w3.org/1999/xhtml\" title='a\"b'><a href=\"x%C3%A9\"></a><e/>1&lt;2</div>") := by
  decide +kernel

/-- The hypotheses of `C95_read_back_partial` are met by the sample. -/
example {st st' : Stream} (hnew : newStream true (fun _ => some utf8Codec) (u!! "utf-8") = some st)
    (hu : Usable st.enc) (hdec : Inverse decodeUtf8 st.enc)
    (hrun : printXhtml true st (u!! "utf-8") (.startDocument none :: sampleXhtml) = .ok st') :
    ∃ b T evs es, st'.out = bomBytes st ++ b ∧ decodeUtf8 b = some T ∧
      readDocument T = some (some ⟨u!! "1.0", some (u!! "utf-8"), none⟩, evs) ∧ SameEvs evs es ∧
      Wanted sampleXhtml es :=
  C95_read_back_partial true hnew hu hdec (by decide) (Or.inl rfl) (fun c hc => Or.inl (sampleXhtml_ok.1 c hc))
    sampleXhtml_ok.2.1 sampleXhtml_ok.2.2.1 sampleXhtml_ok.2.2.2 hrun

/-! ### Where the code disagrees -/

/-- **C95**, refuted for `br` followed by text: `<p>a<br/>b</p>` in XHTML is written with a `>` after the `br`, which
the reader takes for text. -/
theorem C95_refuted_break :
    xhtmlText [.start (some xhtmlNs) (u!! "p") [] [], .text (u!! "a"), .start (some xhtmlNs) (u!! "br") [] [],
      .stop (some xhtmlNs) (u!! "br"), .text (u!! "b"), .stop (some xhtmlNs) (u!! "p")] =
      some (u!! "<?xml version=\"1.0\" encoding=\"utf-8\"?>\n<p>a<br />>b</p>") ∧
    (readDocument (u!! "<?xml version=\"1.0\" encoding=\"utf-8\"?>\n<p>a<br />>b</p>")).map (·.2) =
      some [.start (u!! "p") [], .char 97, .start (u!! "br") [], .stop (u!! "br"), .char 62, .char 98,
        .stop (u!! "p")] := by
  constructor <;> decide +kernel

/-- **C95**, refuted for `br` at the end of an element: the end tag of the element is not written, and the output
is not well-formed. -/
theorem C95_refuted_last :
    xhtmlText [.start (some xhtmlNs) (u!! "p") [] [], .start (some xhtmlNs) (u!! "br") [] [],
      .stop (some xhtmlNs) (u!! "br"), .stop (some xhtmlNs) (u!! "p")] =
      some (u!! "<?xml version=\"1.0\" encoding=\"utf-8\"?>\n<p><br />/>") ∧
    readDocument (u!! "<?xml version=\"1.0\" encoding=\"utf-8\"?>\n<p><br />/>") = none := by
  constructor <;> decide +kernel

/-- **C95**, refuted for `<` in attributes: it is not escaped, and the output is not well-formed. -/
theorem C95_refuted_less :
    xhtmlText [.start (some xhtmlNs) (u!! "p") [] [(u!! "title", u!! "a<b")], .stop (some xhtmlNs) (u!! "p")] =
      some (u!! "<?xml version=\"1.0\" encoding=\"utf-8\"?>\n<p title=\"a<b\"></p>") ∧
    readDocument (u!! "<?xml version=\"1.0\" encoding=\"utf-8\"?>\n<p title=\"a<b\"></p>") = none := by
  constructor <;> decide +kernel

/-- **C95**, refuted for characters with names: the name is written also when there is no document type declaration,
so that a reader cannot know it. -/
theorem C95_refuted_names :
    xhtmlText [.start (some xhtmlNs) (u!! "p") [] [], .text [233], .stop (some xhtmlNs) (u!! "p")] =
      some (u!! "<?xml version=\"1.0\" encoding=\"utf-8\"?>\n<p>&eacute;</p>") ∧
    readDocument (u!! "<?xml version=\"1.0\" encoding=\"utf-8\"?>\n<p>&eacute;</p>") = none := by
  constructor <;> decide +kernel

end Verif.Write.Xhtml
