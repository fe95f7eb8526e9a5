import Verif.Write.StructLemmas
import Verif.Write.VisitProps

/-
C74: what `structwriter` writes for a structure reads back as what the structure stands for.
-/
namespace Verif.Write
open Verif Verif.Write.Spec

theorem filter_single {a b : List Top} (h : (a ++ b).filter (· ≠ .misc) = [.element]) :
    a.filter (· ≠ .misc) = [.element] ∧ b.filter (· ≠ .misc) = [] ∨
    a.filter (· ≠ .misc) = [] ∧ b.filter (· ≠ .misc) = [.element] := by
  rw [List.filter_append] at h
  cases ha : a.filter (· ≠ .misc) with
  | nil => rw [ha] at h; exact Or.inr ⟨rfl, h⟩
  | cons t ts =>
    rw [ha] at h
    simp only [List.cons_append, List.cons.injEq, List.append_eq_nil_iff] at h
    obtain ⟨h1, h2, h3⟩ := h
    exact Or.inl ⟨by rw [h1, h2], h3⟩

theorem filter_none {a b : List Top} (h : (a ++ b).filter (· ≠ .misc) = []) :
    a.filter (· ≠ .misc) = [] ∧ b.filter (· ≠ .misc) = [] := by
  rw [List.filter_append] at h
  exact List.append_eq_nil_iff.1 h

/-- The calls for the nodes of a `RAW` at the top of a document. -/
theorem doc_trees {wide : Bool} {o : Orders} (ho : GoodOrders o) {R : List (Option UStr × UStr)}
    (hi : Inv initialNs [] R) : ∀ (ts : List Tree), LegalTrees wide [] ts → ∀ (ph : Phase) (rest : List Call),
    (((ts.map treeTop).filter (· ≠ .misc) = [] → DocCalls ph [] rest → DocCalls ph [] (visitAll o initialNs [] ts ++ rest)) ∧
    ((ts.map treeTop).filter (· ≠ .misc) = [.element] → ph ≠ .root → DocCalls .root [] rest →
      DocCalls ph [] (visitAll o initialNs [] ts ++ rest)))
  | [], _, ph, rest => ⟨fun _ h => h, fun h => by cases h⟩
  | t :: ts, ht, ph, rest => by
    obtain ⟨ih1, ih2⟩ := doc_trees ho hi ts ht.2 ph rest
    obtain ⟨ih3, _⟩ := doc_trees ho hi ts ht.2 .root rest
    have hc : LegalChain wide [] := fun ds h => by cases h
    cases t with
    | text s => exact ⟨fun h => by simp [treeTop] at h, fun h => by simp [treeTop] at h⟩
    | comment s =>
      simp only [List.map_cons, treeTop, List.filter_cons, visitAll, visit, List.cons_append, List.nil_append, DocCalls]
      exact ⟨ih1, ih2⟩
    | pi t d =>
      simp only [List.map_cons, treeTop, List.filter_cons, visitAll, visit, List.cons_append, List.nil_append, DocCalls]
      exact ⟨ih1, ih2⟩
    | element ns pfx loc decls attrs children =>
      refine ⟨fun h => by simp [treeTop] at h, fun h hph hr => ?_⟩
      have hf := element_facts ho hi hc ht.1
      obtain ⟨_, _, g3⟩ := calls_visitAll ho children ht.1.2.2.2.2.2 hf.legalChain (hf.read _ (List.Perm.refl _)).2.2.2
      simp only [visitAll, visit, List.cons_append, List.append_assoc, List.nil_append, DocCalls]
      refine ⟨fun _ => hph, ?_⟩
      rw [g3 _ _ (by simp)]
      simp only [DocCalls]
      refine ⟨[], rfl, ih3 ?_ hr⟩
      simpa [treeTop] using h

section
variable {wide : Bool} {o : Orders} (ho : GoodOrders o)
include ho

mutual
/-- The calls for an object at the top of a document. -/
theorem doc_feed : ∀ (x : Obj) {P outer R : List (Option UStr × UStr)},
    LegalObj wide outer x → (∀ k, dget P k = nearest outer k) →
    (∀ p, nearest R p = nearest (outer.map plainDecl) p) → (∀ e ∈ R, legalBinding e = true) →
    ∀ (ph : Phase) (rest : List Call),
    (((tops x).filter (· ≠ .misc) = [] → DocCalls ph [] rest → DocCalls ph [] (feed o P x ++ rest)) ∧
    ((tops x).filter (· ≠ .misc) = [.element] → ph ≠ .root → DocCalls .root [] rest → DocCalls ph [] (feed o P x ++ rest)))
  | .elem ns q attrs content, P, outer, R, hx, hP, hR, hL, ph, rest => by
    have hf := struct_facts hP hR hL hx
    obtain ⟨_, _, _, _, _, _, _, h8⟩ := hx
    obtain ⟨_, _, _, f6, f7⟩ := hf.read _ (List.Perm.refl _)
    obtain ⟨_, _, g3⟩ := calls_feedAll ho content h8 hf.prefixes f6 f7
    refine ⟨fun h => by simp [tops] at h, fun _ hph hr => ?_⟩
    simp only [feed, List.cons_append, List.append_assoc, DocCalls, List.nil_append]
    refine ⟨fun _ => hph, ?_⟩
    split
    · rw [g3 _ _ (by simp)]
      simp only [DocCalls]
      exact ⟨[], rfl, hr⟩
    · simp only [List.nil_append, DocCalls]
      exact ⟨[], rfl, hr⟩
  | .ns p u, P, outer, R, hx, hP, hR, hL, ph, rest => by simp [feed, tops]
  | .raw trees, P, outer, R, hx, hP, hR, hL, ph, rest => by
    rw [feed, tops]
    exact doc_trees ho (inv_raw hR hL hx.2) trees hx.1 ph rest
  | .text s, P, outer, R, hx, hP, hR, hL, ph, rest => by simp [tops]
  | .value s t, P, outer, R, hx, hP, hR, hL, ph, rest => by simp [tops]
  | .iter items t, P, outer, R, hx, hP, hR, hL, ph, rest => by
    rw [feed, tops]; exact doc_feedAll items hx.2 hP hR hL ph rest
  | .call r, P, outer, R, hx, hP, hR, hL, ph, rest => by
    rw [feed, tops]; exact doc_feed r hx.2 hP hR hL ph rest
  | .root content, P, outer, R, hx, hP, hR, hL, ph, rest => by cases hx

theorem doc_feedAll : ∀ (xs : List Obj) {P outer R : List (Option UStr × UStr)},
    LegalObjs wide outer xs → (∀ k, dget P k = nearest outer k) →
    (∀ p, nearest R p = nearest (outer.map plainDecl) p) → (∀ e ∈ R, legalBinding e = true) →
    ∀ (ph : Phase) (rest : List Call),
    (((topsAll xs).filter (· ≠ .misc) = [] → DocCalls ph [] rest → DocCalls ph [] (feedAll o P xs ++ rest)) ∧
    ((topsAll xs).filter (· ≠ .misc) = [.element] → ph ≠ .root → DocCalls .root [] rest →
      DocCalls ph [] (feedAll o P xs ++ rest)))
  | [], P, outer, R, hx, hP, hR, hL, ph, rest => ⟨fun _ h => h, fun h => by cases h⟩
  | x :: xs, P, outer, R, hx, hP, hR, hL, ph, rest => by
    have h1 := doc_feed x hx.1 hP hR hL
    have h2 := doc_feedAll xs hx.2 hP hR hL
    rw [topsAll, feedAll, List.append_assoc]
    refine ⟨fun h hr => ?_, fun h hph hr => ?_⟩
    · obtain ⟨ha, hb⟩ := filter_none h
      exact (h1 ph _).1 ha ((h2 ph _).1 hb hr)
    · rcases filter_single h with ⟨ha, hb⟩ | ⟨ha, hb⟩
      · exact (h1 ph _).2 ha hph ((h2 .root _).1 hb hr)
      · exact (h1 ph _).1 ha ((h2 ph _).2 hb hph hr)
end
end

theorem root_calls {wide : Bool} {o : Orders} (ho : GoodOrders o) {content : List Obj}
    (hc : LegalObjs wide [] content) (h1 : OneElement content) :
    (∀ c ∈ feedAll o [] content ++ [.endDocument], LegalCall wide c ∨ LegalDoctype c ∨ c = .endDocument) ∧
    DocCalls .prolog [] (feedAll o [] content ++ [.endDocument]) := by
  have hP : ∀ k, dget ([] : List (Option UStr × UStr)) k = nearest [] k := fun _ => rfl
  have hR : ∀ p, nearest [] p = nearest (([] : List (Option UStr × UStr)).map plainDecl) p := fun _ => rfl
  have hL : ∀ e ∈ ([] : List (Option UStr × UStr)), legalBinding e = true := fun e h => by cases h
  refine ⟨?_, (doc_feedAll ho content hc hP hR hL .prolog _).2 h1 (by simp) ⟨rfl, rfl, rfl⟩⟩
  intro c hcm
  rcases List.mem_append.1 hcm with hcm | hcm
  · exact Or.inl ((calls_feedAll ho content hc hP hR hL).1 c hcm)
  · exact Or.inr (Or.inr (by simpa using hcm))

/-! C74 -/

/-- What is written for a `ROOT` reads back, with a namespace-aware reader, as what the structure stands
for: the same expanded names, attributes and text in the same order. -/
theorem C74_document_partial (wide : Bool) {le : Bool} {lookup : UStr → Option Codec} {encoding : UStr} {st : Stream}
    (hnew : newStream le lookup encoding = some st) (hu : Usable st.enc)
    {dec : Bytes → Option UStr} (hdec : Inverse dec st.enc) (he : isEncName encoding = true)
    {o : Orders} (ho : GoodOrders o) {content : List Obj}
    (hc : LegalObjs wide [] content) (h1 : OneElement content) {st' : Stream}
    (hrun : printCalls wide st false encoding (feed o [] (.root content)) = .ok st') :
    ∃ b T evs xs, st'.out = bomBytes st ++ b ∧ dec b = some T ∧
      readDocument T = some (some ⟨u!! "1.0", some encoding, none⟩, evs) ∧
      resolve [] evs = some xs ∧ SameXEvs xs (described [] (.root content)) := by
  obtain ⟨g1, g2⟩ := root_calls ho hc h1
  rw [feed] at hrun
  obtain ⟨b, T, evs, h3, h4, h5, h6⟩ := C34_document_read_back wide hnew hu hdec he (Or.inl rfl) g1 g2 hrun
  rw [events_append, show events [Call.endDocument] = [] from rfl, List.append_nil] at h6
  obtain ⟨xs, h7, h8⟩ := resolve_feedAll ho content (stack := []) hc (fun _ => rfl) (fun _ => rfl)
    (fun e h => by cases h) h6
  have hy : resolve [] evs = some xs := by
    have := h8 []
    simpa [resolve] using this
  exact ⟨b, T, evs, xs, h3, h4, h5, hy, by rw [described]; exact h7⟩

/-- And an encoding that has all characters can write every such structure. -/
theorem C74_document_written (wide : Bool) {le : Bool} {lookup : UStr → Option Codec} {encoding : UStr} {st : Stream}
    (hnew : newStream le lookup encoding = some st) (hu : Usable st.enc) (hall : ∀ c, st.enc [c] ≠ none)
    (he : isEncName encoding = true) {o : Orders} (ho : GoodOrders o) {content : List Obj}
    (hc : LegalObjs wide [] content) (h1 : OneElement content) :
    ∃ st', printCalls wide st false encoding (feed o [] (.root content)) = .ok st' := by
  obtain ⟨g1, g2⟩ := root_calls ho hc h1
  rw [feed]
  refine C34_document_written wide hnew hu he (Or.inl rfl) g1 g2 ?_
  have h : ∀ s, Encodable st.enc s := fun s c _ => hall c
  intro c _
  cases c <;> simp [Writable, h]

/-- The same for an object that is fed without a `ROOT`. -/
theorem C74_object_partial (wide : Bool) {le : Bool} {lookup : UStr → Option Codec} {encoding : UStr} {st : Stream}
    (hnew : newStream le lookup encoding = some st) (hbom : st.bom = none) (hu : Usable st.enc)
    {dec : Bytes → Option UStr} (hdec : Inverse dec st.enc)
    {o : Orders} (ho : GoodOrders o) {x : Obj} (hx : LegalObj wide [] x) {st' : Stream}
    (hrun : printCalls wide st false encoding (feed o [] x) = .ok st') :
    ∃ T evs xs, dec st'.out = some T ∧ readContent T = some evs ∧ resolve [] evs = some xs ∧
      SameXEvs xs (described [] x) := by
  obtain ⟨h1, h2, _⟩ := calls_feed ho x hx (P := []) (fun _ => rfl) (R := []) (fun _ => rfl) (fun e h => by cases h)
  have hn : nest [] (events (feed o [] x)) = some [] := by
    have := h2 [] []
    simpa [nest] using this
  obtain ⟨T, evs, h3, h4, h5⟩ := C34_content_read_back wide hnew hbom hu hdec false h1 (fun h => by cases h) hn hrun
  obtain ⟨xs, h6, h7⟩ := resolve_feed ho x (stack := []) hx (fun _ => rfl) (fun _ => rfl) (fun e h => by cases h) h5
  have := h7 []
  exact ⟨T, evs, xs, h3, h4, by simpa [resolve] using this, h6⟩

/-! A structure that meets the hypotheses -/

/-- `E((u'urn:x', u'a'), {u'b': u'1', (u'urn:y', u'p:c'): u'2', u'd': None}, NS(u'p', u'urn:y'),
(E(u'p:e', i) for i in [7]), E((u'', u'f'), RAW('<g>t</g>')))`. -/
def sampleStruct : List Obj :=
  [.elem (some (u!! "urn:x")) (u!! "a")
    [((none, u!! "b"), some (u!! "1")), ((some (u!! "urn:y"), u!! "p:c"), some (u!! "2")), ((none, u!! "d"), none)]
    [.ns (some (u!! "p")) (u!! "urn:y"),
     .iter [.elem none (u!! "p:e") [] [.value (u!! "7") true]] true,
     .elem (some []) (u!! "f") [] [.raw [.element none none (u!! "g") [] [] [.text (u!! "t")]]]]]

theorem sampleStruct_legal : LegalObjs true [] sampleStruct ∧ OneElement sampleStruct := by
  refine ⟨⟨⟨⟨by decide +kernel, by decide +kernel⟩, ?_, by unfold LegalDecls LegalText; decide +kernel, ?_, by decide +kernel, by decide,
    Or.inl (by decide), trivial, ⟨by decide, ?_, trivial⟩, ?_, trivial⟩, trivial⟩, by unfold OneElement; decide⟩
  · intro u hu; cases hu; unfold InForce; decide +kernel
  · intro a ha v hv
    simp only [List.mem_cons, List.not_mem_nil, or_false] at ha
    rcases ha with rfl | rfl | rfl
    · cases hv; unfold LegalStructAttr LegalText; exact ⟨by decide, by decide, by decide, trivial⟩
    · cases hv; unfold LegalStructAttr LegalText; exact ⟨by decide +kernel, by decide, by decide, by decide, by decide +kernel⟩
    · cases hv
  · exact ⟨⟨by decide +kernel, by decide +kernel⟩, nofun, by unfold LegalDecls LegalText; decide +kernel, nofun, by decide,
      by decide, Or.inl (by decide), by unfold LegalObj LegalText; decide, trivial⟩
  · refine ⟨⟨by decide +kernel, by decide +kernel⟩, ?_, by unfold LegalDecls LegalText; decide +kernel, nofun, by decide,
      by decide, Or.inl (by decide), ⟨⟨?_, trivial⟩, Or.inr (by decide +kernel)⟩, trivial⟩
    · intro u hu; cases hu; unfold InForce; decide +kernel
    · exact ⟨by unfold LegalDecls; simp, by decide, rfl, nofun, by simp, by unfold LegalTree LegalText; decide, trivial⟩

/-- What it stands for. -/
theorem sampleStruct_described : described [] (.root sampleStruct) =
    [.start (some (u!! "urn:x"), u!! "a") [((none, u!! "b"), u!! "1"), ((some (u!! "urn:y"), u!! "c"), u!! "2")],
     .start (some (u!! "urn:y"), u!! "e") [], .char 55, .stop (some (u!! "urn:y"), u!! "e"),
     .start (none, u!! "f") [], .start (none, u!! "g") [], .char 116, .stop (none, u!! "g"), .stop (none, u!! "f"),
     .stop (some (u!! "urn:x"), u!! "a")] := by decide +kernel

/-- So it is written in UTF-8 and reads back. -/
example : ∃ st st' T evs xs, newStream true (fun _ => some utf8Codec) (u!! "utf-8") = some st ∧
    printCalls true st false (u!! "utf-8") (feed ⟨id, id⟩ [] (.root sampleStruct)) = .ok st' ∧
    decodeUtf8 st'.out = some T ∧ readDocument T = some (some ⟨u!! "1.0", some (u!! "utf-8"), none⟩, evs) ∧
    resolve [] evs = some xs ∧ SameXEvs xs (described [] (.root sampleStruct)) := by
  have hnew : ∃ st, newStream true (fun _ => some utf8Codec) (u!! "utf-8") = some st ∧ st.enc = utf8Codec ∧ st.bom = none := by
    unfold newStream
    rw [if_neg (by decide)]
    exact ⟨_, rfl, rfl, rfl⟩
  obtain ⟨st, hnew, henc, hbom⟩ := hnew
  have hb : bomBytes st = [] := by rw [bomBytes, hbom]
  have hu : Usable st.enc := henc ▸ usable_utf8
  have ho : GoodOrders ⟨id, id⟩ := ⟨fun d => List.Perm.refl d, fun d => List.Perm.refl d⟩
  obtain ⟨h1, h2⟩ := sampleStruct_legal
  obtain ⟨st', hst'⟩ := C74_document_written true hnew hu (by rw [henc]; simp [utf8Codec]) (by decide) ho h1 h2
  obtain ⟨b, T, evs, xs, h4, h5, h6, h7, h8⟩ := C74_document_partial true hnew hu (henc ▸ inverse_utf8) (by decide) ho
    h1 h2 hst'
  rw [hb] at h4
  exact ⟨st, st', T, evs, xs, hnew, hst', by rw [h4]; exact h5, h6, h7, h8⟩

/-! Where C74 is false of the code -/

/-- What a namespace-aware reader finds in what is written for an object in a given scope. -/
def structAgain (x : Obj) : Option (List XEv) :=
  (((outputOf true true utf8Codec false (u!! "utf-8") (feed ⟨id, id⟩ [] x)).bind decodeUtf8).bind
    readContent).bind (resolve [])

/-- All content is lost if the first object is false: `E(u'n', 0)` and `E(u'a', u'', E(u'b'))`
(struct.py:163). -/
theorem C74_refuted_false :
    structAgain (.elem none (u!! "n") [] [.value (u!! "0") false]) =
      some [.start (none, u!! "n") [], .stop (none, u!! "n")] ∧
    described [] (.elem none (u!! "n") [] [.value (u!! "0") false]) =
      [.start (none, u!! "n") [], .char 48, .stop (none, u!! "n")] ∧
    structAgain (.elem none (u!! "a") [] [.text [], .elem none (u!! "b") [] []]) =
      some [.start (none, u!! "a") [], .stop (none, u!! "a")] := by decide +kernel

/-- A prefix is declared twice for `E((u'u', u'x:a'), NS(u'x', u'u'))`, which no reader accepts
(struct.py:156-157). -/
theorem C74_refuted_twice :
    structAgain (.elem (some (u!! "u")) (u!! "x:a") [] [.ns (some (u!! "x")) (u!! "u")]) = none := by decide +kernel

/-- The namespace of an attribute is not declared (struct.py:158): `E(u'a', {(u'u', u'x:b'): u'1'})` cannot be
read, and the attribute of `E(u'a', {(u'u', u'b'): u'1'})` reads back without a namespace. -/
theorem C74_refuted_attribute :
    structAgain (.elem none (u!! "a") [((some (u!! "u"), u!! "x:b"), some (u!! "1"))] []) = none ∧
    structAgain (.elem none (u!! "a") [((some (u!! "u"), u!! "b"), some (u!! "1"))] []) =
      some [.start (none, u!! "a") [((none, u!! "b"), u!! "1")], .stop (none, u!! "a")] := by decide +kernel

/-- An `NS` that comes after other content is passed over (struct.py:126-127, 143-150):
`E(u'a', E(u'b'), NS(u'x', u'u'), E(u'x:c'))` cannot be read. -/
theorem C74_refuted_late :
    structAgain (.elem none (u!! "a") [] [.elem none (u!! "b") [] [], .ns (some (u!! "x")) (u!! "u"),
      .elem none (u!! "x:c") [] []]) = none := by decide +kernel

/-- A `RAW` without namespaces in an element with a default namespace reads back in this namespace
(struct.py:131-134): `E((u'u', u'a'), RAW('<b/>'))`. -/
theorem C74_refuted_raw :
    structAgain (.elem (some (u!! "u")) (u!! "a") [] [.raw [.element none none (u!! "b") [] [] []]]) =
      some [.start (some (u!! "u"), u!! "a") [], .start (some (u!! "u"), u!! "b") [],
        .stop (some (u!! "u"), u!! "b"), .stop (some (u!! "u"), u!! "a")] := by decide +kernel

/-- `NS(None, v)` and `NS(u'', u)` are different keys of the dictionary of prefixes (struct.py:145, 153), so
the declaration of `E((u'u', u'c'))` is left out in
`E((u'u', u'a'), E(u'b', NS(None, u'v'), E((u'u', u'c'))))`. -/
theorem C74_refuted_none :
    structAgain (.elem (some (u!! "u")) (u!! "a") [] [.elem none (u!! "b") [] [.ns none (u!! "v"),
      .elem (some (u!! "u")) (u!! "c") [] []]]) =
      some [.start (some (u!! "u"), u!! "a") [], .start (some (u!! "v"), u!! "b") [], .start (some (u!! "v"), u!! "c") [],
        .stop (some (u!! "v"), u!! "c"), .stop (some (u!! "v"), u!! "b"), .stop (some (u!! "u"), u!! "a")] := by decide +kernel

/-- An `E` remembers the namespace it was first written in (struct.py:155): when `e = E(u'b')` has been
fed in `E((u'u', u'a'), e)` and is fed again, it is no longer written without a namespace. -/
theorem C74_refuted_again :
    structAgain (.elem none (u!! "b") [] []) = some [.start (none, u!! "b") [], .stop (none, u!! "b")] ∧
    fed [] (.elem (some (u!! "u")) (u!! "a") [] [.elem none (u!! "b") [] []]) =
      .elem (some (u!! "u")) (u!! "a") [] [.elem (some (u!! "u")) (u!! "b") [] []] ∧
    structAgain (.elem (some (u!! "u")) (u!! "b") [] []) =
      some [.start (some (u!! "u"), u!! "b") [], .stop (some (u!! "u"), u!! "b")] := by
  refine ⟨by decide +kernel, ?_, by decide +kernel⟩
  simp [fed, fedAll, leads, leadObj, Obj.truth, newPrefixes, leadingNs, ownDecl, structPrefix, dget, dupdate, dset]

end Verif.Write
