import Verif.Xslt.SpaceLemmas

/-
C63: whitespace stripping.
-/
namespace Verif.Xslt
open Verif Spec

/-- C63, the reader: for every list of rules it leaves out exactly the texts that consist of whitespace and whose parent
is not whitespace-preserving by the first rule that matches it, unless `xml:space` says otherwise; whatever the pieces
are in which the texts arrive. -/
theorem C63_reader (rules : List (Token × Bool)) (doc : XTree) (hd : doc.Normal) :
    Reads (fun n => isPreserving rules n = true) [] doc (readDocument rules doc.events) := by
  have ht : Tops (fun n => isPreserving rules n = true) [] false true := by
    refine ⟨?_, by simp⟩
    simp [SpacePreserved]
  obtain ⟨o, h1, h2⟩ := readAll_tree rules doc [] false true [] [] [] [] hd ht (by simp)
  unfold readDocument
  rw [h2]
  simpa [pending] using h1

/-- C63: what is left is determined. -/
theorem C63_unique {P : EName → Prop} {anc t o o'} (h : Reads P anc t o) (h' : Reads P anc t o') : o = o' :=
  reads_unique h h'

/-- C63, stylesheets: whitespace is removed from a stylesheet except in `xsl:text`. -/
theorem C63_stylesheet (xsl : Str) (doc : XTree) (hd : doc.Normal) :
    Reads (fun n => n = (some xsl, s!! "text")) [] doc (readDocument (sheetRules xsl) doc.events) := by
  have := C63_reader (sheetRules xsl) doc hd
  have e : (fun n => isPreserving (sheetRules xsl) n = true) = fun n => n = (some xsl, s!! "text") := by
    funext n
    obtain ⟨ns, l⟩ := n
    have h1 : ruleTest (some xsl, s!! "text") (ns, l) = true ↔ ((ns, l) : EName) = (some xsl, s!! "text") := by
      rw [ruleTest_iff]
      constructor
      · rintro (e | ⟨ns', e, _⟩ | ⟨_, e⟩)
        · exact absurd (Prod.mk.inj e).2 (by decide)
        · exact absurd (Prod.mk.inj e).2 (by decide)
        · exact e.symm
      · intro e
        exact .inr (.inr ⟨by simp, e.symm⟩)
    have h2 : ruleTest (none, s!! "*") (ns, l) = true := by simp [ruleTest]
    simp only [sheetRules, isPreserving, h2]
    by_cases h : ((ns, l) : EName) = (some xsl, s!! "text")
    · rw [h1.2 h]; simp [h]
    · have : ruleTest (some xsl, s!! "text") (ns, l) = false := by
        cases e : ruleTest (some xsl, s!! "text") (ns, l) with
        | true => exact absurd (h1.1 e) h
        | false => rfl
      simp only [this, if_true, Bool.false_eq_true, if_false, Bool.not_true, eq_iff_iff, false_iff]
      exact h
  rwa [e] at this

/-- C63, which rule is used for an element: the one that XSLT chooses, if there is one, else whitespace is preserved.
Missing: declarations where a less specific test has a higher import precedence; see `C63_refuted_imports`. -/
theorem C63_rules_partial (l : List SpaceDecl) (n : EName) (hn : Named n) (hs : l.Pairwise (·.prec ≤ ·.prec))
    (hp : ∀ x ∈ l, ∀ y ∈ l, TokenMatches x.token n → TokenMatches y.token n →
      tokenPriority x.token < tokenPriority y.token → x.prec ≤ y.prec) :
    ((∀ x ∈ l, ¬ TokenMatches x.token n) ∧ isPreserving (spaceRules l) n = true) ∨
    ∃ e, Wins l n e ∧ isPreserving (spaceRules l) n = !e.strip := by
  by_cases h : ∃ x ∈ l, TokenMatches x.token n
  · right
    have hr : ∃ r ∈ spaceRules l, TokenMatches r.1 n := by
      obtain ⟨x, hx, hm⟩ := h
      obtain ⟨f, hf⟩ := lastDecl_exists hx
      exact ⟨_, mem_spaceRules.2 hf, hm⟩
    obtain ⟨t, f, h1, h2, h3, h4⟩ := isPreserving_first (spaceRules_sorted l) hr
    obtain ⟨a, e, b, rfl, rfl, rfl, h7⟩ := mem_spaceRules.1 h1
    have le : ∀ x ∈ a ++ e :: b, TokenMatches x.token n → tokenPriority x.token ≤ tokenPriority e.token := by
      intro x hx hm
      obtain ⟨f, hf⟩ := lastDecl_exists hx
      rcases h4 _ (mem_spaceRules.2 hf) hm with heq | hc
      · rw [(Prod.mk.inj heq).1]; exact Nat.le_refl _
      · apply Nat.le_of_not_lt
        intro hlt
        have := (cmp_of_priority hn (f := e.strip) (g := f) h2 hm).1 hlt
        rw [ruleCmp_linear.swap, this] at hc
        exact hc rfl
    obtain ⟨_, p2, p3⟩ := List.pairwise_append.1 hs
    refine ⟨e, ⟨a, b, rfl, h2, fun x hx hm hb => ?_, fun x hx hm => ?_⟩, h3⟩
    · have l1 := le x (by simp [hx]) hm
      have l2 := p3 x hx e (by simp)
      rcases hb with hb | ⟨_, hb⟩ <;> omega
    · have l1 := le x (by simp [hx]) hm
      have l2 := (cmp_of_priority hn (f := true) (g := true) hm h2).2
      have l3 : tokenPriority x.token < tokenPriority e.token := by
        rcases Nat.lt_or_eq_of_le l1 with h | h
        · exact h
        · exact absurd (l2 h) (h7 x hx)
      have l4 := hp x (by simp [hx]) e (by simp) hm h2 l3
      rcases Nat.lt_or_eq_of_le l4 with h | h
      · exact .inl h
      · exact .inr ⟨h, l3⟩
  · left
    have hno : ∀ x ∈ l, ¬ TokenMatches x.token n := fun x hx hm => h ⟨x, hx, hm⟩
    refine ⟨hno, isPreserving_none ?_⟩
    rintro ⟨t, f⟩ hr hm
    obtain ⟨a, e, b, rfl, rfl, _, _⟩ := mem_spaceRules.1 hr
    exact hno e (by simp) hm

/-- C63: only one declaration is chosen. -/
theorem C63_wins_unique {l : List SpaceDecl} {n : EName} {e e' : SpaceDecl} (h : Wins l n e) (h' : Wins l n e') : e = e' := by
  obtain ⟨a, b, rfl, h1, h2, h3⟩ := h
  obtain ⟨a', b', h0, h1', h2', h3'⟩ := h'
  rcases List.append_eq_append_iff.1 h0 with ⟨c, e1, e2⟩ | ⟨c, e1, e2⟩
  · cases c with
    | nil => simp at e2; exact e2.1
    | cons y c =>
      simp only [List.cons_append, List.cons.injEq] at e2
      obtain ⟨rfl, rfl⟩ := e2
      exact absurd (h3 e' (by simp) h1') (h2' e (by simp [e1]) h1)
  · cases c with
    | nil => simp at e2; exact e2.1.symm
    | cons y c =>
      simp only [List.cons_append, List.cons.injEq] at e2
      obtain ⟨rfl, rfl⟩ := e2
      exact absurd (h3' e (by simp) h1) (h2 e' (by simp [e1]) h1')

/-- C63: without imports the condition holds. -/
theorem C63_rules_single {l : List SpaceDecl} {n : EName} (hn : Named n) {p : Nat} (hs : ∀ x ∈ l, x.prec = p) :
    ((∀ x ∈ l, ¬ TokenMatches x.token n) ∧ isPreserving (spaceRules l) n = true) ∨
    ∃ e, Wins l n e ∧ isPreserving (spaceRules l) n = !e.strip := by
  refine C63_rules_partial l n hn ?_ fun x hx y hy _ _ _ => by rw [hs x hx, hs y hy]; exact Nat.le_refl _
  exact List.Pairwise.imp_of_mem (R := fun _ _ => True)
    (fun hx hy _ => by rw [hs _ hx, hs _ hy]; exact Nat.le_refl _) (List.pairwise_of_forall fun _ _ => trivial)

/-! Examples -/

/-- `<xsl:strip-space elements="* p:*"/><xsl:preserve-space elements="p:a"/>`. -/
def spaceSample : List SpaceDecl :=
  [⟨(none, s!! "*"), true, 0⟩, ⟨(some (s!! "ns"), s!! "*"), true, 0⟩, ⟨(some (s!! "ns"), s!! "a"), false, 0⟩]

example : (∀ x ∈ spaceSample, x.prec = 0) ∧ Named (some (s!! "ns"), s!! "a") ∧
    isPreserving (spaceRules spaceSample) (some (s!! "ns"), s!! "a") = true ∧
    isPreserving (spaceRules spaceSample) (some (s!! "ns"), s!! "b") = false ∧
    isPreserving (spaceRules spaceSample) (none, s!! "a") = false := by
  refine ⟨by simp [spaceSample], ⟨'a', [], rfl, by decide⟩, by decide +kernel, by decide +kernel, by decide +kernel⟩

/-- `<a> <b xml:space="preserve"> <c xml:space="default"> </c></b> x</a>`, with the last text in two pieces. -/
def spaceDoc : XTree :=
  .elem (none, s!! "a") none
    (.text [s!! " "] (.elem (none, s!! "b") (some (s!! "preserve"))
      (.text [s!! " "] (.elem (none, s!! "c") (some (s!! "default")) (.text [s!! " "] .nil) .nil))
      (.text [s!! " ", s!! "x"] .nil))) .nil

example : spaceDoc.Normal ∧ readDocument [((none, s!! "*"), true)] spaceDoc.events =
    [.start (none, s!! "a") none, .start (none, s!! "b") (some (s!! "preserve")), .data (s!! " "),
     .start (none, s!! "c") (some (s!! "default")), .stop, .stop, .data (s!! " x"), .stop] := by
  refine ⟨by simp [spaceDoc, XTree.Normal, XTree.startsText], by decide +kernel⟩

/-! Where the code differs -/

/-- `<xsl:preserve-space elements="x"/>` in an imported stylesheet, `<xsl:strip-space elements="*"/>` in the importing
one. -/
def importedSpace : List SpaceDecl := [⟨(none, s!! "x"), false, 0⟩, ⟨(none, s!! "*"), true, 1⟩]

/-- C63 fails with imports: the declaration with the higher import precedence is to be used, but the code looks at the
priorities only. -/
theorem C63_refuted_imports :
    Wins importedSpace (none, s!! "x") ⟨(none, s!! "*"), true, 1⟩ ∧
    isPreserving (spaceRules importedSpace) (none, s!! "x") = true := by
  refine ⟨⟨[⟨(none, s!! "x"), false, 0⟩], [], rfl, .inl rfl, ?_, by simp⟩, by decide +kernel⟩
  intro x hx _ hb
  simp only [List.mem_singleton] at hx
  subst hx
  rcases hb with h | h
  · exact absurd h (by decide)
  · exact absurd h.1 (by decide)

/-- C63 fails for transformations: the source document is read without any rules. -/
theorem C63_refuted_processor :
    ¬ Reads (fun n => isPreserving (spaceRules spaceSample) n = true) [] (.elem (none, s!! "a") none (.text [s!! " "] .nil) .nil)
      (runSource (spaceRules spaceSample) (XTree.elem (none, s!! "a") none (.text [s!! " "] .nil) .nil).events) := by
  intro h
  have h' := C63_reader (spaceRules spaceSample) (.elem (none, s!! "a") none (.text [s!! " "] .nil) .nil)
    (by simp [XTree.Normal, XTree.startsText])
  have := C63_unique h h'
  revert this
  decide +kernel

end Verif.Xslt
