import Verif.Compare.Lines
/-
C94: `xml_compare` says that two documents are the same exactly when they are, whatever the pieces
in which the parser delivers the text and whatever the order of attributes and declarations, and
`check_xml` accepts exactly then.
-/
namespace Verif.Compare
open Verif

/-! ### Examples -/

/-- `<a xmlns="u" y="1" x="it's"> b<!--c--><![CDATA[ ]]></a>`. -/
def exampleA : Content :=
  .elem [(none, some (s!! "u"))] ⟨some (s!! "u"), s!! "a"⟩
    [(⟨none, s!! "y"⟩, s!! "1"), (⟨none, s!! "x"⟩, s!! "it's")]
    (.text (s!! " b") (.comment (s!! "c") (.cdata (s!! " ") .nil))) .nil

/-- The same with the attributes the other way round. -/
def exampleB : Content :=
  .elem [(none, some (s!! "u"))] ⟨some (s!! "u"), s!! "a"⟩
    [(⟨none, s!! "x"⟩, s!! "it's"), (⟨none, s!! "y"⟩, s!! "1")]
    (.text (s!! " b") (.comment (s!! "c") (.cdata (s!! " ") .nil))) .nil

/-- The first document with its text in one piece. -/
def eventsA : List Event :=
  [.nsDecl none (some (s!! "u")),
   .start (s!! "u#a") [(s!! "y", s!! "1"), (s!! "x", s!! "it's")],
   .chars (s!! " b"), .comment (s!! "c"), .startCdata, .chars (s!! " "), .endCdata,
   .stop (s!! "u#a")]

/-- The second document with its text in two pieces. -/
def eventsB : List Event :=
  [.nsDecl none (some (s!! "u")),
   .start (s!! "u#a") [(s!! "x", s!! "it's"), (s!! "y", s!! "1")],
   .chars (s!! " "), .chars (s!! "b"), .comment (s!! "c"), .startCdata, .chars (s!! " "), .endCdata,
   .stop (s!! "u#a")]

theorem deliversA : Delivers exampleA eventsA :=
  .elem (.text (pieces := [s!! " b"]) (.comment (.cdata (pieces := [s!! " "]) .nil))) .nil

theorem deliversB : Delivers exampleB eventsB :=
  .elem (.text (pieces := [s!! " ", s!! "b"]) (.comment (.cdata (pieces := [s!! " "]) .nil))) .nil

theorem mergedA : Merged exampleA := by simp [exampleA, Merged, StartsText]
theorem mergedB : Merged exampleB := by simp [exampleB, Merged, StartsText]
theorem knownA : Known exampleA := by simp [exampleA, Known]
theorem knownB : Known exampleB := by simp [exampleB, Known]
theorem namedA : Named exampleA := by simp [exampleA, Named, Clear]
theorem namedB : Named exampleB := by simp [exampleB, Named, Clear]

theorem sameAB : Same exampleA exampleB :=
  .elem (.refl _) (.swap _ _ _) (.text (.comment (.cdata .nil))) .nil

/-! ### The theorems -/

/-- **C94**, documents that are the same are said to be the same: for all documents whose entities
the parser knows, all ways of cutting their texts into pieces, and all names.  With `whitespace`
false, texts of white space do not count; that works for external entities only (see
`C94_refuted_whitespace`). -/
theorem C94_complete {entity whitespace lexical : Bool} {c c' : Content} {es es' : List Event}
    (hs : whitespace = true ∨ entity = true)
    (h : Delivers c es) (h' : Delivers c' es') (hm : Merged c) (hm' : Merged c')
    (hk : Known c) (hk' : Known c')
    (same : if whitespace then Same c c' else Same (stripped c) (stripped c')) :
    xmlCompare entity es es' whitespace lexical = .ok true := by
  rw [xmlCompare, sequence_delivers h hm hk hs, sequence_delivers h' hm' hk' hs]
  have e : lines whitespace c = lines whitespace c' := by
    cases whitespace with
    | true => exact lines_same same
    | false => rw [lines_stripped, lines_stripped]; exact lines_same same
  simp [e]

example : xmlCompare false eventsA eventsB true true = .ok true :=
  C94_complete (Or.inl rfl) deliversA deliversB mergedA mergedB knownA knownB sameAB

/-- **C94**, documents that are said to be the same are the same, when their names do not imitate
the notation of the report.  Missing: names that do (`C94_refuted_names`, `C94_refuted_prefix`),
entities that the parser does not know (`C94_refuted_entities`), documents without white space
(`C94_refuted_whitespace`). -/
theorem C94_sound_partial {entity whitespace lexical : Bool} {c c' : Content} {es es' : List Event}
    (hs : whitespace = true ∨ entity = true)
    (h : Delivers c es) (h' : Delivers c' es') (hm : Merged c) (hm' : Merged c')
    (hk : Known c) (hk' : Known c') (hn : Named c) (hn' : Named c')
    (eq : xmlCompare entity es es' whitespace lexical = .ok true) :
    if whitespace then Same c c' else Same (stripped c) (stripped c') := by
  rw [xmlCompare, sequence_delivers h hm hk hs, sequence_delivers h' hm' hk' hs] at eq
  simp only [Except.ok.injEq, decide_eq_true_eq] at eq
  cases whitespace with
  | true =>
    exact lines_inj (merged_filled hm) (merged_filled hm') hk hk' hn hn' eq
  | false =>
    rw [lines_stripped, lines_stripped] at eq
    exact lines_inj (stripped_filled c) (stripped_filled c') (stripped_known hk)
      (stripped_known hk') (stripped_named hn) (stripped_named hn') eq

example : Same exampleA exampleB :=
  C94_sound_partial (entity := false) (whitespace := true) (lexical := true) (Or.inl rfl) deliversA
    deliversB mergedA mergedB knownA knownB namedA namedB (by decide +kernel)

/-- **C94**, the comparison always comes to an answer for documents whose entities the parser
knows. -/
theorem C94_answers {entity whitespace lexical : Bool} {c c' : Content} {es es' : List Event}
    (hs : whitespace = true ∨ entity = true)
    (h : Delivers c es) (h' : Delivers c' es') (hm : Merged c) (hm' : Merged c')
    (hk : Known c) (hk' : Known c') :
    ∃ b, xmlCompare entity es es' whitespace lexical = .ok b := by
  rw [xmlCompare, sequence_delivers h hm hk hs, sequence_delivers h' hm' hk' hs]
  exact ⟨_, rfl⟩

example : ∃ b, xmlCompare false eventsA eventsB true true = .ok b :=
  C94_answers (Or.inl rfl) deliversA deliversB mergedA mergedB knownA knownB

/-- **C94**, `check_xml` accepts a document whose names are clear exactly when it is the expected
one, and raises an `AssertionError` otherwise. -/
theorem C94_check_partial {entity : Bool} {c c' : Content} {es es' : List Event}
    (h : Delivers c es) (h' : Delivers c' es') (hm : Merged c) (hm' : Merged c')
    (hk : Known c) (hk' : Known c') (hn : Named c) (hn' : Named c') :
    (Same c c' → checkXml entity es es' = .ok ()) ∧
    (¬ Same c c' → checkXml entity es es' = .error .assertionError) := by
  obtain ⟨b, hb⟩ := C94_answers (entity := entity) (whitespace := true) (lexical := true)
    (Or.inl rfl) h h' hm hm' hk hk'
  constructor
  · intro same
    rw [checkXml, C94_complete (Or.inl rfl) h h' hm hm' hk hk' same]; rfl
  · intro ne
    rw [checkXml, hb]
    cases b with
    | false => rfl
    | true =>
      exact absurd (C94_sound_partial (whitespace := true) (Or.inl rfl) h h' hm hm' hk hk' hn hn' hb) ne

example : checkXml false eventsA eventsB = .ok () :=
  (C94_check_partial deliversA deliversB mergedA mergedB knownA knownB namedA namedB).1 sameAB

/-- **C94**, the answer does not depend on the order of the two documents. -/
theorem C94_symmetric (entity whitespace lexical : Bool) (es es' : List Event) (b : Bool)
    (h : xmlCompare entity es es' whitespace lexical = .ok b) :
    xmlCompare entity es' es whitespace lexical = .ok b := by
  unfold xmlCompare at h ⊢
  cases h1 : sequence entity whitespace es with
  | error => simp [h1] at h
  | ok a =>
    cases h2 : sequence entity whitespace es' with
    | error => simp [h1, h2] at h
    | ok a' =>
      simp only [h1, h2, Except.ok.injEq] at h ⊢
      rw [← h]
      exact decide_eq_decide.mpr eq_comm

example : xmlCompare false eventsB eventsA true true = .ok true :=
  C94_symmetric _ _ _ _ _ _ (by decide +kernel)

/-! ### Where the code disagrees -/

/-- **C94**, refuted for names: `<r xmlns:p="x=u'1', y" xmlns:q="y" p:a="2"/>` and
`<r xmlns:p="x=u'1', y" xmlns:q="y" x="1" q:a="2"/>` are said to be the same, although one has one
attribute and the other has two. -/
theorem C94_refuted_names : ∃ (c c' : Content) (es es' : List Event),
    Delivers c es ∧ Delivers c' es' ∧ Merged c ∧ Merged c' ∧ Known c ∧ Known c' ∧ ¬ Same c c' ∧
    xmlCompare false es es' true true = .ok true := by
  refine ⟨.elem [(some (s!! "p"), some (s!! "x=u'1', y")), (some (s!! "q"), some (s!! "y"))]
      ⟨none, s!! "r"⟩ [(⟨some (s!! "x=u'1', y"), s!! "a"⟩, s!! "2")] .nil .nil,
    .elem [(some (s!! "p"), some (s!! "x=u'1', y")), (some (s!! "q"), some (s!! "y"))]
      ⟨none, s!! "r"⟩ [(⟨none, s!! "x"⟩, s!! "1"), (⟨some (s!! "y"), s!! "a"⟩, s!! "2")] .nil .nil,
    _, _, .elem .nil .nil, .elem .nil .nil, ?_, ?_, ?_, ?_, ?_, ?_⟩
  · simp [Merged]
  · simp [Merged]
  · simp [Known]
  · simp [Known]
  · intro h
    cases h with
    | elem _ h2 _ _ => simpa using h2.length_eq
  · decide +kernel

/-- **C94**, refuted for a prefix: `<a xmlns="u"/>` and `<None:a xmlns:None="u"/>` are said to be
the same, although another prefix makes a difference. -/
theorem C94_refuted_prefix :
    xmlCompare false [.nsDecl none (some (s!! "u")), .start (s!! "u#a") [], .stop (s!! "u#a")]
      [.nsDecl (some (s!! "None")) (some (s!! "u")), .start (s!! "u#a") [], .stop (s!! "u#a")]
      true true = .ok true ∧
    xmlCompare false [.nsDecl none (some (s!! "u")), .start (s!! "u#a") [], .stop (s!! "u#a")]
      [.nsDecl (some (s!! "x")) (some (s!! "u")), .start (s!! "u#a") [], .stop (s!! "u#a")]
      true true = .ok false := by
  constructor <;> decide +kernel

/-- **C94**, refuted for `whitespace=False`: the comparison of documents always raises an
`AttributeError`. -/
theorem C94_refuted_whitespace (es es' : List Event) (lexical : Bool) :
    xmlCompare false es es' false lexical = .error .attributeError := rfl

/-- **C94**, refuted for `lexical=False`: the option has no effect, comments still count. -/
theorem C94_refuted_lexical :
    (∀ entity es es' whitespace, xmlCompare entity es es' whitespace false =
      xmlCompare entity es es' whitespace true) ∧
    xmlCompare false [.start (s!! "a") [], .comment (s!! "c"), .stop (s!! "a")]
      [.start (s!! "a") [], .stop (s!! "a")] true false = .ok false :=
  ⟨fun _ _ _ _ => rfl, by decide +kernel⟩

/-- **C94**, refuted for references to entities that the parser does not know, as those of a DTD
that it does not read: the comparison always raises a `TypeError`. -/
theorem C94_refuted_entities {entity whitespace lexical : Bool} {c : Content}
    {es es' : List Event} (hs : whitespace = true ∨ entity = true) (h : Delivers c es)
    (hk : ¬ Known c) : xmlCompare entity es es' whitespace lexical = .error .typeError := by
  have hc : ¬ ((!whitespace && !entity) = true) := by rcases hs with h | h <;> simp [h]
  have := feed_ref (ws := whitespace) h hk ⟨[], [], []⟩ []
  rw [List.append_nil] at this
  rw [xmlCompare, sequence, if_neg hc, this]

example : xmlCompare false
    [.doctype (s!! "a") (some (s!! "a.dtd")) none false, .start (s!! "a") [],
      .skipped (s!! "uuml") false, .stop (s!! "a")] [] true true = .error .typeError :=
  C94_refuted_entities (c := .doctype (s!! "a") (some (s!! "a.dtd")) none false
    (.elem [] ⟨none, s!! "a"⟩ [] (.ref (s!! "uuml") false .nil) .nil)) (Or.inl rfl)
    (.doctype (.elem (.ref .nil) .nil)) (by simp [Known])

end Verif.Compare
