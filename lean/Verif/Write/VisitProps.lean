import Verif.Write.VisitTree
import Verif.Write.Refute

/-
C34 and C54 for trees: what `xml_write()` writes for a tree reads back as that tree.
-/
namespace Verif.Write
open Verif Verif.Write.Spec

theorem legalExternal_call {pub sys : Option UStr} (hx : LegalExternal pub sys) (ht : truthy sys = true) {n : UStr}
    (hn : isName n = true) : LegalDoctype (.doctype n pub sys) := by
  obtain ⟨h1, h2⟩ := hx ht
  match sys, ht with
  | some (c :: s), _ => exact ⟨hn, h1, _, rfl, by simp, h2 _ rfl⟩

theorem legalTree_qname {wide : Bool} {chain : List (List (Option UStr × UStr))} {ns pfx : Option UStr} {loc : UStr}
    {decls : List (Option UStr × UStr)} {attrs : List Attr} {children : List Tree} (hc : LegalChain wide chain)
    {o : Orders} (ho : GoodOrders o) (ht : LegalTree wide chain (.element ns pfx loc decls attrs children)) :
    isName (qname pfx loc) = true :=
  (element_facts ho (inv_initial chain) hc ht).legal.1

/-- The calls for a document. -/
theorem document_calls {wide : Bool} {o : Orders} (ho : GoodOrders o) {pub sys : Option UStr} {ts : List Tree}
    (hts : LegalTrees wide [] ts) (hdoc : DocumentChildren ts) (hx : LegalExternal pub sys) :
    (∀ c ∈ doctypeCalls pub sys ts ++ (visitAll o initialNs [] ts ++ [.endDocument]),
      LegalCall wide c ∨ LegalDoctype c ∨ c = .endDocument) ∧
    DocCalls .prolog [] (doctypeCalls pub sys ts ++ (visitAll o initialNs [] ts ++ [.endDocument])) := by
  have hc : LegalChain wide [] := by intro ds h; cases h
  obtain ⟨a, e, b, rfl, ha, he, hb⟩ := hdoc
  match e, he with
  | .element ns pfx loc decls attrs children, _ =>
    have hq := legalTree_qname hc ho (legalTrees_append.1 hts).2.1
    have hfe : firstElement (a ++ .element ns pfx loc decls attrs children :: b) = some (qname pfx loc) := by
      rw [firstElement_misc ha]; rfl
    have hbody : ∀ ph, ph ≠ .root → DocCalls ph []
        (visitAll o initialNs [] (a ++ .element ns pfx loc decls attrs children :: b) ++ [.endDocument]) := by
      intro ph hph
      rw [visitAll_append, List.append_assoc, doc_misc o initialNs [] ha, visitAll, visit]
      simp only [List.cons_append, List.append_assoc, DocCalls, List.nil_append]
      refine ⟨fun _ => hph, ?_⟩
      have hf := element_facts ho (inv_initial []) hc (legalTrees_append.1 hts).2.1
      have g3 := (calls_visitAll ho children (legalTrees_append.1 hts).2.1.2.2.2.2.2 hf.legalChain
        (hf.read _ (List.Perm.refl _)).2.2.2).2.2
      rw [g3 _ _ (by simp)]
      simp only [DocCalls]
      exact ⟨[], rfl, (doc_misc o initialNs [] hb .root [] _).2 ⟨rfl, rfl, rfl⟩⟩
    refine ⟨?_, ?_⟩
    · intro c hcm
      rcases List.mem_append.1 hcm with hcm | hcm
      · unfold doctypeCalls at hcm
        split at hcm
        · rename_i htr
          rw [hfe] at hcm
          simp only [List.mem_singleton] at hcm
          subst hcm
          exact Or.inr (Or.inl (legalExternal_call hx htr hq))
        · cases hcm
      · rcases List.mem_append.1 hcm with hcm | hcm
        · exact Or.inl ((calls_visitAll ho _ hts hc (inv_initial [])).1 c hcm).1
        · exact Or.inr (Or.inr (by simpa using hcm))
    · unfold doctypeCalls
      split
      · rw [hfe]
        exact ⟨rfl, rfl, hbody _ (by simp)⟩
      · exact hbody _ (by simp)

theorem doctype_events {pub sys : Option UStr} (ts : List Tree) :
    events (doctypeCalls pub sys ts) = [] ∧ externalEvents pub sys ts = [] ∨
    ∃ n p s, events (doctypeCalls pub sys ts) = [.doctype n p s] ∧ externalEvents pub sys ts = [.doctype n p s] := by
  unfold doctypeCalls externalEvents
  match sys with
  | none => exact Or.inl ⟨rfl, rfl⟩
  | some [] => exact Or.inl ⟨rfl, rfl⟩
  | some (c :: s) =>
    simp only [truthy, List.isEmpty_cons, Bool.not_false, if_true]
    cases firstElement ts with
    | none => exact Or.inl ⟨rfl, rfl⟩
    | some n =>
      refine Or.inr ⟨n, orNone pub, some (c :: s), ?_, rfl⟩
      match pub with
      | none => rfl
      | some [] => rfl
      | some (d :: p) => rfl

/-! C54 -/

/-- A document that is written reads back, with a namespace-aware reader, as the same elements and
attributes: the same expanded names and values, whatever the order in which Python iterates over its
dictionaries. -/
theorem C54_document_read_back (wide : Bool) {le : Bool} {lookup : UStr → Option Codec} {encoding : UStr} {st : Stream}
    (hnew : newStream le lookup encoding = some st) (hu : Usable st.enc)
    {dec : Bytes → Option UStr} (hdec : Inverse dec st.enc) (he : isEncName encoding = true)
    {o : Orders} (ho : GoodOrders o) {pub sys : Option UStr} {ts : List Tree}
    (hts : LegalTrees wide [] ts) (hdoc : DocumentChildren ts) (hx : LegalExternal pub sys) {st' : Stream}
    (hrun : printCalls wide st false encoding (visitDocument o pub sys ts) = .ok st') :
    ∃ b T evs xs, st'.out = bomBytes st ++ b ∧ dec b = some T ∧
      readDocument T = some (some ⟨u!! "1.0", some encoding, none⟩, evs) ∧
      resolve [] evs = some xs ∧ SameXEvs xs (externalEvents pub sys ts ++ treesEvents ts) := by
  have hc : LegalChain wide [] := by intro ds h; cases h
  obtain ⟨h1, h2⟩ := document_calls ho hts hdoc hx
  obtain ⟨b, T, evs, h3, h4, h5, h6⟩ := C34_document_read_back wide hnew hu hdec he (Or.inl rfl) h1 h2 hrun
  rw [events_append] at h6
  obtain ⟨x, y, rfl, h7, h8⟩ := sameEvs_append h6
  rw [events_append, show events [Call.endDocument] = [] from rfl, List.append_nil] at h8
  obtain ⟨xs, h9, h10⟩ := resolve_visitAll ho ts (stack := []) hts hc (inv_initial []) h8
  have hy : resolve [] y = some xs := by
    have := h10 []
    simpa [resolve] using this
  rcases doctype_events (pub := pub) (sys := sys) ts with ⟨k1, k2⟩ | ⟨n, p, s, k1, k2⟩
  · rw [k1] at h7; cases h7
    exact ⟨b, T, _, xs, h3, h4, h5, hy, by rw [k2]; exact h9⟩
  · rw [k1] at h7
    cases h7 with
    | cons h11 h12 =>
      cases h11; cases h12
      refine ⟨b, T, _, .doctype n p s :: xs, h3, h4, h5, ?_, ?_⟩
      · simp only [List.cons_append, List.nil_append, resolve, hy]; rfl
      · rw [k2]; exact .cons (.refl _) h9

/-- And an encoding that has all characters can write every such document. -/
theorem C54_document_written (wide : Bool) {le : Bool} {lookup : UStr → Option Codec} {encoding : UStr} {st : Stream}
    (hnew : newStream le lookup encoding = some st) (hu : Usable st.enc) (hall : ∀ c, st.enc [c] ≠ none)
    (he : isEncName encoding = true) {o : Orders} (ho : GoodOrders o) {pub sys : Option UStr} {ts : List Tree}
    (hts : LegalTrees wide [] ts) (hdoc : DocumentChildren ts) (hx : LegalExternal pub sys) :
    ∃ st', printCalls wide st false encoding (visitDocument o pub sys ts) = .ok st' := by
  obtain ⟨h1, h2⟩ := document_calls ho hts hdoc hx
  refine C34_document_written wide hnew hu he (Or.inl rfl) h1 h2 ?_
  have h : ∀ s, Encodable st.enc s := fun s c _ => hall c
  intro c _
  cases c <;> simp [Writable, h]

/-- The same for `xml_write` of an element (or any list of nodes), plain or canonical. -/
theorem C54_element_read_back (wide : Bool) {le : Bool} {lookup : UStr → Option Codec} {encoding : UStr} {st : Stream}
    (hnew : newStream le lookup encoding = some st) (hbom : st.bom = none) (hu : Usable st.enc)
    {dec : Bytes → Option UStr} (hdec : Inverse dec st.enc) (canonical : Bool)
    {o : Orders} (ho : GoodOrders o) {chain : List (List (Option UStr × UStr))} {t : Tree}
    (hc : ∀ ds ∈ chain, LegalDecls wide ds) (ht : LegalTree wide chain t) {st' : Stream}
    (hrun : printCalls wide st canonical encoding (visit o initialNs chain t) = .ok st') :
    ∃ T evs xs, dec st'.out = some T ∧ readContent T = some evs ∧ resolve [] evs = some xs ∧
      SameXEvs xs (treeEvents t) := by
  obtain ⟨h1, h2, _⟩ := calls_visit ho t ht hc (inv_initial chain)
  have hn : nest [] (events (visit o initialNs chain t)) = some [] := by
    have := h2 [] []
    simpa [nest] using this
  obtain ⟨T, evs, h3, h4, h5⟩ := C34_content_read_back wide hnew hbom hu hdec canonical (fun c hcm => (h1 c hcm).1)
    (fun _ c hcm => (h1 c hcm).2) hn hrun
  obtain ⟨xs, h6, h7⟩ := resolve_visit ho t (stack := []) ht hc (inv_initial chain) h5
  have := h7 []
  exact ⟨T, evs, xs, h3, h4, by simpa [resolve] using this, h6⟩

/-- And an encoding that has all characters can write every such tree. -/
theorem C54_element_written (wide : Bool) {le : Bool} {lookup : UStr → Option Codec} {encoding : UStr} {st : Stream}
    (hnew : newStream le lookup encoding = some st) (hbom : st.bom = none) (hu : Usable st.enc)
    (hall : ∀ c, st.enc [c] ≠ none) (canonical : Bool)
    {o : Orders} (ho : GoodOrders o) {chain : List (List (Option UStr × UStr))} {t : Tree}
    (hc : ∀ ds ∈ chain, LegalDecls wide ds) (ht : LegalTree wide chain t) :
    ∃ st', printCalls wide st canonical encoding (visit o initialNs chain t) = .ok st' := by
  obtain ⟨h1, h2, _⟩ := calls_visit ho t ht hc (inv_initial chain)
  have hn : nest [] (events (visit o initialNs chain t)) = some [] := by
    have := h2 [] []
    simpa [nest] using this
  refine C34_content_written wide hnew hbom hu canonical (fun c hcm => (h1 c hcm).1)
    (fun _ c hcm => (h1 c hcm).2) hn ?_
  have h : ∀ s, Encodable st.enc s := fun s c _ => hall c
  intro c _
  cases c <;> simp [Writable, h]

/-! C34 -/

/-- A reader that knows no namespaces finds the names as they are in the tree, and nothing besides the
tree but namespace declarations. -/
theorem C34_tree_read_back (wide : Bool) {le : Bool} {lookup : UStr → Option Codec} {encoding : UStr} {st : Stream}
    (hnew : newStream le lookup encoding = some st) (hu : Usable st.enc)
    {dec : Bytes → Option UStr} (hdec : Inverse dec st.enc) (he : isEncName encoding = true)
    {o : Orders} (ho : GoodOrders o) {ts : List Tree}
    (hts : LegalTrees wide [] ts) (hdoc : DocumentChildren ts) {st' : Stream}
    (hrun : printCalls wide st false encoding (visitDocument o none none ts) = .ok st') :
    ∃ b T evs, st'.out = bomBytes st ++ b ∧ dec b = some T ∧
      readDocument T = some (some ⟨u!! "1.0", some encoding, none⟩, evs) ∧
      SameEvs (evs.map dropDecls) (plainsEvents ts) := by
  have hc : LegalChain wide [] := by intro ds h; cases h
  obtain ⟨h1, h2⟩ := document_calls (pub := none) (sys := none) ho hts hdoc (fun h => by cases h)
  obtain ⟨b, T, evs, h3, h4, h5, h6⟩ := C34_document_read_back wide hnew hu hdec he (Or.inl rfl) h1 h2 hrun
  refine ⟨b, T, evs, h3, h4, h5, ?_⟩
  rw [events_append, events_append, show events [Call.endDocument] = [] from rfl, List.append_nil] at h6
  exact plain_visitAll ho ts hts hc (inv_initial []) h6

/-! A document that meets the hypotheses -/

/-- `<a xmlns="urn:x" xmlns:p="urn:y" p:b="1" b="&lt;"><p:c xmlns:p="urn:z">t</p:c><d xmlns=""/></a>`,
where the declaration for `d` is left to the writer. -/
def sampleTrees : List Tree :=
  [.pi (u!! "t") (u!! "d"),
   .element (some (u!! "urn:x")) none (u!! "a") [(none, u!! "urn:x"), (some (u!! "p"), u!! "urn:y")]
     [⟨some (u!! "urn:y"), some (u!! "p"), u!! "b", u!! "1"⟩, ⟨none, none, u!! "b", u!! "<"⟩]
     [.element (some (u!! "urn:z")) (some (u!! "p")) (u!! "c") [(some (u!! "p"), u!! "urn:z")]
        [⟨some xmlNs, some (u!! "xml"), u!! "lang", u!! "en"⟩] [.text (u!! "t")],
      .element none none (u!! "d") [] [] []]]

theorem sampleTrees_legal : LegalTrees true [] sampleTrees ∧ DocumentChildren sampleTrees ∧
    LegalExternal (some (u!! "-//X")) (some (u!! "x.dtd")) := by
  refine ⟨?_, ⟨[_], _, [], rfl, rfl, rfl, rfl⟩, fun _ => ⟨fun p hp => by cases hp; decide, fun s hs => by
    cases hs; exact ⟨by unfold Raw; decide, by decide⟩⟩⟩
  refine ⟨⟨by decide, by decide, by unfold Raw; decide, ?_, by simp; decide⟩, ?_, trivial⟩
  · rintro ⟨a, b, h⟩
    match a, h with
    | [], h => simp at h
    | _ :: a, h => simp at h
  · refine ⟨by unfold LegalDecls LegalText; decide, by decide, ⟨by decide, Or.inl (by decide)⟩, ?_, by decide, ?_⟩
    · intro a ha
      simp only [List.mem_cons, List.not_mem_nil, or_false] at ha
      rcases ha with rfl | rfl
      · exact ⟨by decide, by unfold LegalText; decide, _, rfl, Or.inl (by decide)⟩
      · exact ⟨by decide, by unfold LegalText; decide, rfl, by decide⟩
    · refine ⟨⟨by unfold LegalDecls LegalText; decide, by decide, ⟨by decide, Or.inl (by decide)⟩, ?_, by decide, ?_⟩, ?_, trivial⟩
      · intro a ha
        simp only [List.mem_cons, List.not_mem_nil, or_false] at ha
        subst ha
        exact ⟨by decide, by unfold LegalText; decide, _, rfl, Or.inr ⟨rfl, rfl⟩⟩
      · exact ⟨by unfold LegalTree LegalText; decide, trivial⟩
      · exact ⟨by unfold LegalDecls; simp, by decide, rfl, by simp, by simp, trivial⟩

/-- So it is written in UTF-8 and reads back. -/
example : ∃ st st' T evs xs, newStream true (fun _ => some utf8Codec) (u!! "utf-8") = some st ∧
    printCalls true st false (u!! "utf-8") (visitDocument ⟨id, id⟩ (some (u!! "-//X")) (some (u!! "x.dtd")) sampleTrees) = .ok st' ∧
    decodeUtf8 st'.out = some T ∧ readDocument T = some (some ⟨u!! "1.0", some (u!! "utf-8"), none⟩, evs) ∧
    resolve [] evs = some xs ∧ SameXEvs xs (.doctype (u!! "a") (some (u!! "-//X")) (some (u!! "x.dtd")) :: treesEvents sampleTrees) := by
  have hnew : ∃ st, newStream true (fun _ => some utf8Codec) (u!! "utf-8") = some st ∧ st.enc = utf8Codec ∧ st.bom = none := by
    unfold newStream
    rw [if_neg (by decide)]
    exact ⟨_, rfl, rfl, rfl⟩
  obtain ⟨st, hnew, henc, hbom⟩ := hnew
  have hb : bomBytes st = [] := by rw [bomBytes, hbom]
  have hu : Usable st.enc := henc ▸ usable_utf8
  have ho : GoodOrders ⟨id, id⟩ := ⟨fun d => List.Perm.refl d, fun d => List.Perm.refl d⟩
  obtain ⟨h1, h2, h3⟩ := sampleTrees_legal
  obtain ⟨st', hst'⟩ := C54_document_written true hnew hu (by rw [henc]; simp [utf8Codec]) (by decide) ho h1 h2 h3
  obtain ⟨b, T, evs, xs, h4, h5, h6, h7, h8⟩ := C54_document_read_back true hnew hu (henc ▸ inverse_utf8) (by decide) ho
    h1 h2 h3 hst'
  rw [hb] at h4
  exact ⟨st, st', T, evs, xs, hnew, hst', by rw [h4]; exact h5, h6, h7, h8⟩

/-! Where C54 is false of the code -/

/-- What a namespace-aware reader finds in what is written for an element. -/
def readAgain (t : Tree) : Option (List XEv) :=
  (((outputOf true true utf8Codec false (u!! "utf-8") (visit ⟨id, id⟩ initialNs [] t)).bind decodeUtf8).bind
    readContent).bind (resolve [])

/-- An element without a namespace in an element whose namespace is not declared by a namespace node (both
made with `tree.element`): the parent is written with `xmlns="u"`, but its child without `xmlns=""`
(node.py:122-125), so it reads back in the namespace of its parent. -/
theorem C54_refuted_undeclared_default :
    let t : Tree := .element (some (u!! "u")) none (u!! "a") [] [] [.element none none (u!! "b") [] [] []]
    readAgain t = some [.start (some (u!! "u"), u!! "a") [], .start (some (u!! "u"), u!! "b") [],
      .stop (some (u!! "u"), u!! "b"), .stop (some (u!! "u"), u!! "a")] ∧
    treeEvents t = [.start (some (u!! "u"), u!! "a") [], .start (none, u!! "b") [],
      .stop (none, u!! "b"), .stop (some (u!! "u"), u!! "a")] := by decide +kernel

/-- The prefix of an attribute that is not declared by a namespace node (as after
`xml_attributes.setnode(tree.attribute(u'u', u'p:b', u'1'))`, or when the element was moved away from the
ancestor with the declaration) is not declared in the output (node.py:107-120), which no namespace-aware
reader accepts. -/
theorem C54_refuted_attribute_prefix :
    readAgain (.element none none (u!! "a") [] [⟨some (u!! "u"), some (u!! "p"), u!! "b", u!! "1"⟩] []) = none := by
  decide +kernel

end Verif.Write
