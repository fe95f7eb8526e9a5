import Verif.Content.ValidLemmas
/-
C36: a compiled content model accepts exactly the child sequences of its regular expression.
C46: a validating parse reports no content error exactly for the valid documents.
-/
namespace Verif.Content
open Spec

section
variable {A : Type} [DecidableEq A]

/-- Compiling a content model always terminates. -/
theorem C36_compile_terminates (fin : A) (c : Content A) : ∃ dfa, compile fin c = some dfa := by
  obtain ⟨dfa, h, _⟩ := compile_run fin c
  exact ⟨dfa, h⟩

/-- A compiled content model accepts exactly the sequences in the language of the content model, for a content
model without empty sequences. (`fin` is the unique final event, which is neither a name nor an event.) -/
theorem C36_accepts_iff_partial (fin : A) (c : Content A) (hs : NoEmptySeq c) (hf : fin ∉ Names c) :
    ∃ dfa, compile fin c = some dfa ∧ ∀ w, fin ∉ w → (accepts fin dfa w = true ↔ lang c w) := by
  obtain ⟨dfa, h1, h2, _⟩ := compile_correct hs hf
  exact ⟨dfa, h1, h2⟩

/-- An event is refused as soon as, and only when, no continuation could be accepted. -/
theorem C36_refuses_iff_hopeless_partial (fin : A) (c : Content A) (hs : NoEmptySeq c) (ha : NoEmptyAlt c)
    (hf : fin ∉ Names c) : ∃ dfa, compile fin c = some dfa ∧
      ∀ w, fin ∉ w → ((runDfa dfa 0 w).isSome = true ↔ ∃ v, lang c (w ++ v)) := by
  obtain ⟨dfa, h1, _, h2⟩ := compile_correct hs hf
  exact ⟨dfa, h1, h2 ha⟩

omit [DecidableEq A] in
/-- `rep` of any content model means zero or more of it, if it has no quantity yet. -/
theorem C36_builders (c : Content A) (h : c.setQuant .none = c) (w : List A) :
    (lang (mkRep c) w ↔ Star (lang c) w) ∧ (lang (mkOpt c) w ↔ w = [] ∨ lang c w) ∧
      (lang (mkRep1 c) w ↔ ∃ u v, w = u ++ v ∧ lang c u ∧ Star (lang c) v) := by
  cases c with
  | name e q =>
    cases h
    simp [mkRep, mkOpt, mkRep1, Content.setQuant, lang, quantify, opt, plus]
  | seq l q =>
    cases h
    simp [mkRep, mkOpt, mkRep1, Content.setQuant, lang, quantify, opt, plus]
  | alt l q =>
    cases h
    simp [mkRep, mkOpt, mkRep1, Content.setQuant, lang, quantify, opt, plus]

end

/-- The full statement is false of the code in two places: an empty sequence accepts nothing, although it
means the empty sequence of children; and `opt` applied to a repeated content loses the repetition. -/
theorem C36_refuted :
    (∃ dfa, compile (9 : Nat) (mkSeq []) = some dfa ∧ accepts 9 dfa [] = false ∧ lang (mkSeq ([] : List (Content Nat))) []) ∧
    (∃ dfa, compile (9 : Nat) (mkOpt (mkRep1 (.name 1 .none))) = some dfa ∧ accepts 9 dfa [1, 1] = false ∧
      opt (lang (mkRep1 (.name 1 .none))) [1, 1]) := by
  refine ⟨⟨[[]], by decide +kernel, by decide, ?_⟩, ⟨[[(1, 1), (9, 2)], [(9, 2)], []], by decide +kernel, by decide, ?_⟩⟩
  · simp [mkSeq, lang, quantify, langSeq]
  · refine Or.inr ?_
    simp only [mkRep1, Content.setQuant, lang, quantify]
    exact ⟨[1], [1], rfl, rfl, by simpa using Star.cons (L := fun w => w = [1]) (rfl : [1] = [1]) .nil⟩

/- The hypotheses are met by `(1, (2 | 3)*, 4?)+`, whose automaton reads `1 3 2 4 1`. -/
private def sample : Content Nat :=
  .seq [.name 1 .none, .alt [.name 2 .none, .name 3 .none] .rep, .name 4 .opt] .plus

example : NoEmptySeq sample ∧ NoEmptyAlt sample ∧ 9 ∉ Names sample := by
  simp [sample, NoEmptySeq, NoEmptySeqs, NoEmptyAlt, NoEmptyAlts, Names, NamesL]

example : (compile 9 sample).map (fun d => (accepts 9 d [1, 3, 2, 4, 1], accepts 9 d [1, 4, 2])) = some (true, false) := by
  decide +kernel

section
variable {N : Type} [DecidableEq N]

/-- A validating parse of a document reports no content error exactly if the document element is the
one named in the document type declaration and the document is valid against the element declarations. -/
theorem C46_no_error_iff_valid (decls : List (N × Decl N)) (hwf : ∀ x ∈ decls, WellFormedDecl x.2) (root n : N)
    (cs : List (Doc N)) :
    (run true (afterDoctype decls root) (events (.elem n cs))).1 = [] ↔ root = n ∧ Valid decls (.elem n cs) := by
  obtain ⟨r, hr⟩ : ∃ r, r = afterDoctype decls root := ⟨_, rfl⟩
  have hroot : r.root = some root := by rw [hr]; rfl
  have hel : ∀ k, lookup k r.validator.elements = (declOf k decls).map declModel := by
    intro k
    have := lookup_elements k decls (newValidator : Validator N)
    have h2 : r.validator.elements = (decls.foldl (fun v d => addElementType v d.1 d.2) newValidator).elements := by
      rw [hr]
      unfold afterDoctype startElement
      dsimp only
      split <;> rfl
    rw [h2, this]
    simp [newValidator, lookup]
  rw [← hr]
  have hev : events (Doc.elem n cs) = [Sax.start n] ++ (eventsAll cs ++ [Sax.stop n]) := by rw [events]; rfl
  rw [hev, run_append, run_append]
  have hs : run true r [Sax.start n] = onStart n r := by simp [run, onEvent]
  rw [hs]
  have hstart : (onStart n r).1 = errIf (decide (root = n)) (.rootMismatch n) ++
      errIf (startElement r.validator n).1 (.undeclaredElement n) ∧
      (onStart n r).2 = ⟨(startElement r.validator n).2, none⟩ := by
    unfold onStart checkElement
    rw [hroot]
    exact ⟨rfl, rfl⟩
  rw [hstart.1, hstart.2]
  simp only [append_eq_nil, errIf_nil, decide_eq_true_eq]
  by_cases hp : root = n
  · simp only [hp, true_and]
    have hl := hel n
    cases hdecl : declOf n decls with
    | none =>
      rw [hdecl] at hl
      have hf : (startElement r.validator n).1 = false := by
        unfold startElement; rw [hl]; rfl
      rw [hf]
      simp [Valid, hdecl]
    | some d' =>
      rw [hdecl] at hl
      have hw' := declOf_wf hwf hdecl
      obtain ⟨s1, cx2, s2, s3, s4⟩ := start_declared (v := r.validator) (n := n) hl hw'
      rw [s1]
      have hin : Inside decls d' [] r.validator.context ⟨(startElement r.validator n).2, none⟩ := by
        refine ⟨rfl, ?_, ⟨cx2, s2, s4⟩, ?_⟩
        · intro k; simp only [s3]; exact hel k
        · intro c hc'
          obtain ⟨o1, o2, o3⟩ := declContent_ok hw' hc'
          obtain ⟨w, hw⟩ := lang_ne c o2
          exact ⟨w, hw⟩
      obtain ⟨c1, c2⟩ := docs_run decls hwf cs d' hw' [] _ _ hin
      obtain ⟨r2, hr2⟩ : ∃ r2, r2 = run true
          (⟨(startElement r.validator n).2, none⟩ : Reader N) (eventsAll cs) := ⟨_, rfl⟩
      rw [← hr2] at c1 c2 ⊢
      rw [List.nil_append] at c1 c2
      have hstop : run true r2.2 [Sax.stop n] = onStop n r2.2 := by simp [run, onEvent]
      rw [hstop]
      unfold onStop
      simp only [errIf_nil]
      by_cases hr0 : r2.1 = []
      · have hin2 := c2 hr0
        obtain ⟨cx3, k1, k2⟩ := hin2.ctx
        obtain ⟨f1, f2, f3⟩ := transit_fin hw' k1 k2 (by simp)
        have hc1 := c1.1 hr0
        simp only [hr0, f1, true_and]
        rw [Valid, hdecl]
        constructor
        · intro hf
          exact ⟨⟨d', rfl, (contentOk_iff d' cs).2 ⟨hc1.2.1, hf⟩⟩, hc1.1⟩
        · rintro ⟨⟨d2, hd2, hok⟩, -⟩
          cases hd2
          exact ((contentOk_iff _ cs).1 hok).2
      · simp only [hr0, false_and, and_false, false_iff]
        intro hv
        apply hr0
        rw [c1]
        rw [Valid, hdecl] at hv
        obtain ⟨⟨d2, hd2, hok⟩, hall⟩ := hv
        cases hd2
        have := (contentOk_iff _ cs).1 hok
        exact ⟨hall, this.1, fun c hc => ⟨[], by rw [List.append_nil]; exact this.2 c hc⟩⟩
  · simp [hp]

end

/-- Two things the full property does not survive. With white space stripping, white space in an element declared
ANY is reported as an error. And an undeclared element whose context is reused is checked against the content model of an
earlier element: in `<r><a/><u>text</u></r>`, with `a` EMPTY and `u` undeclared, the text inside `u` is reported too,
while without the earlier `a` it is not. -/
theorem C46_refuted :
    (Valid [((0 : Nat), Decl.any)] (.elem 0 [.text true]) ∧
      (run false (afterDoctype [((0 : Nat), Decl.any)] 0) (events (.elem 0 [.text true]))).1 = [.invalidText]) ∧
    (run true (afterDoctype [((0 : Nat), Decl.any), (1, .empty)] 0)
        (events (.elem 0 [.elem 1 [], .elem 2 [.text false]]))).1 =
        [.undeclaredElement 2, .invalidText, .incompleteElement 2] ∧
    (run true (afterDoctype [((0 : Nat), Decl.any), (1, .empty)] 0)
        (events (.elem 0 [.elem 2 [.text false]]))).1 = [.undeclaredElement 2] := by
  refine ⟨⟨?_, by decide +kernel⟩, by decide +kernel, by decide +kernel⟩
  simp [Valid, ValidAll, declOf, ContentOk]

/- `<!ELEMENT r (a, b*)> <!ELEMENT a (#PCDATA | b)*> <!ELEMENT b EMPTY>`: the hypotheses are met, and a valid document
exists. -/
private def decls0 : List (Nat × Decl Nat) :=
  [(0, .children (.seq [.name (.name 1) .none, .name (.name 2) .rep] .none)), (1, .mixed [2]), (2, .empty)]

example : ∀ x ∈ decls0, WellFormedDecl x.2 := by
  simp [decls0, WellFormedDecl, NoEmptySeq, NoEmptySeqs, NoEmptyAlt, NoEmptyAlts, Names, NamesL]

example : (run true (afterDoctype decls0 0) (events (.elem 0 [.elem 1 [.text false, .elem 2 []], .text true, .elem 2 []]))).1 = [] ∧
    (run true (afterDoctype decls0 0) (events (.elem 0 [.elem 2 [.text true]]))).1 =
      [.invalidElement 2, .invalidText, .incompleteElement 0] := by
  constructor <;> decide +kernel

end Verif.Content
