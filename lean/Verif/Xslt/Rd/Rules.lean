import Verif.Xslt.Rd.Spec
import Verif.Content.Correct
/-
The content models of the code have the languages that the rules of the specification allow, and the tables of the code
are those of the specification.
-/
namespace Verif.Xslt.Rd
open Verif.Content Verif.Content.Spec
open Verif.Write (UStr)
open Spec (Item Rule)

/-- The token of a child. -/
def tok : Item → Tok
  | .xsl l => .xsl l
  | .other => .result
  | .chars => .text

theorem tok_ne_fin (i : Item) : tok i ≠ .fin := by cases i <;> simp [tok]
theorem tok_inj {i j : Item} (h : tok i = tok j) : i = j := by
  cases i <;> cases j <;> simp [tok] at h ⊢ <;> assumption

theorem star_all {L : Lang Tok} {S : Tok → Prop} (h1 : ∀ u, L u → ∀ x ∈ u, S x) (h2 : ∀ x, S x → L [x]) (w : List Tok) :
    Star L w ↔ ∀ x ∈ w, S x := by
  constructor
  · intro h
    induction h with
    | nil => simp
    | cons hu _ ih =>
      intro x hx
      rcases List.mem_append.1 hx with hx | hx
      · exact h1 _ hu x hx
      · exact ih x hx
  · intro h
    induction w with
    | nil => exact .nil
    | cons a w ih =>
      exact .cons (u := [a]) (h2 a (h a (by simp))) (ih (fun x hx => h x (by simp [hx])))

theorem langAlt_names {es : List Tok} {w : List Tok} : langAlt (es.map (fun e => Content.name e .none)) w ↔ ∃ e ∈ es, w = [e] := by
  induction es with
  | nil => simp [langAlt]
  | cons e es ih => simp [langAlt, ih, lang, quantify]

theorem lang_rep_name {e : Tok} (w : List Tok) : lang (.name e .rep) w ↔ ∀ x ∈ w, x = e := by
  show Star _ w ↔ _
  exact star_all (fun u hu x hx => by rw [hu] at hx; simpa using hx) (fun x hx => by rw [hx]) w

theorem lang_rep_names {es : List Tok} (w : List Tok) :
    lang (.alt (es.map (fun e => Content.name e .none)) .rep) w ↔ ∀ x ∈ w, x ∈ es := by
  show Star _ w ↔ _
  refine star_all (S := (· ∈ es)) (fun u hu x hx => ?_) (fun x hx => ?_) w
  · obtain ⟨e, he, rfl⟩ := langAlt_names.1 hu
    simp only [List.mem_singleton] at hx
    rw [hx]; exact he
  · exact langAlt_names.2 ⟨x, hx, rfl⟩

/-- The names of the instructions, in the order of the code. -/
def instrNames : List UStr := [u!! "apply-templates", u!! "call-template", u!! "apply-imports", u!! "for-each",
  u!! "value-of", u!! "copy-of", u!! "number", u!! "choose", u!! "if", u!! "text", u!! "copy", u!! "variable",
  u!! "message", u!! "fallback", u!! "processing-instruction", u!! "comment", u!! "element", u!! "attribute"]

def topNames : List UStr := [u!! "include", u!! "strip-space", u!! "preserve-space", u!! "output", u!! "key",
  u!! "decimal-format", u!! "attribute-set", u!! "variable", u!! "param", u!! "template", u!! "namespace-alias"]

theorem instr_same (l : UStr) : l ∈ instrNames ↔ l ∈ Spec.instructions := by
  have h1 : ∀ x ∈ instrNames, x ∈ Spec.instructions := by decide
  have h2 : ∀ x ∈ Spec.instructions, x ∈ instrNames := by decide
  exact ⟨h1 l, h2 l⟩

theorem top_same (l : UStr) : l ∈ topNames ↔ l ∈ Spec.topLevels := by
  have h1 : ∀ x ∈ topNames, x ∈ Spec.topLevels := by decide
  have h2 : ∀ x ∈ Spec.topLevels, x ∈ topNames := by decide
  exact ⟨h1 l, h2 l⟩

theorem lang_template (w : List Tok) : lang template w ↔ ∀ x ∈ w, x = .text ∨ x = .result ∨ ∃ l ∈ instrNames, x = .xsl l := by
  have hi : instructions = .alt ((instrNames.map Tok.xsl).map (fun e => Content.name e .none)) .rep := rfl
  show Star _ w ↔ _
  refine star_all (S := fun x => x = .text ∨ x = .result ∨ ∃ l ∈ instrNames, x = .xsl l) (fun u hu x hx => ?_)
    (fun x hx => ?_) w
  · rcases hu with hu | hu | hu | hu
    · exact .inl ((lang_rep_name u).1 hu x hx)
    · rw [hi] at hu
      obtain ⟨l, hl, h⟩ := List.mem_map.1 ((lang_rep_names u).1 hu x hx)
      exact .inr (.inr ⟨l, hl, h.symm⟩)
    · exact .inr (.inl ((lang_rep_name u).1 hu x hx))
    · exact hu.elim
  · rcases hx with rfl | rfl | ⟨l, hl, rfl⟩
    · exact .inl ((lang_rep_name _).2 (by simp))
    · exact .inr (.inr (.inl ((lang_rep_name _).2 (by simp))))
    · refine .inr (.inl ?_)
      rw [hi]
      exact (lang_rep_names _).2 (by simpa using hl)

theorem lang_topLevel (w : List Tok) : lang topLevelElements w ↔ ∀ x ∈ w, x = .result ∨ ∃ l ∈ topNames, x = .xsl l := by
  have key : ∀ (es : List Tok) (u : List Tok), langAlt (es.map (fun e => Content.name e .none) ++ [resultElements]) u ↔
      (∃ e ∈ es, u = [e]) ∨ lang resultElements u := by
    intro es
    induction es with
    | nil => intro u; simp [langAlt]
    | cons e es ih => intro u; simp [langAlt, ih, lang, quantify, or_assoc]
  have hi : topLevelElements = .alt ((topNames.map Tok.xsl).map (fun e => Content.name e .none) ++ [resultElements]) .rep := rfl
  rw [hi]
  show Star _ w ↔ _
  refine star_all (S := fun x => x = .result ∨ ∃ l ∈ topNames, x = .xsl l) (fun u hu x hx => ?_) (fun x hx => ?_) w
  · rcases (key _ u).1 hu with ⟨e, he, rfl⟩ | hu
    · obtain ⟨l, hl, rfl⟩ := List.mem_map.1 he
      exact .inr ⟨l, hl, by simpa using hx⟩
    · exact .inl ((lang_rep_name u).1 hu x hx)
  · rcases hx with rfl | ⟨l, hl, rfl⟩
    · exact (key _ _).2 (.inr ((lang_rep_name _).2 (by simp)))
    · exact (key _ _).2 (.inl ⟨_, List.mem_map.2 ⟨l, hl, rfl⟩, rfl⟩)

theorem lang_seq2 {a b : Content Tok} (w : List Tok) : lang (mkSeq [a, b]) w ↔ ∃ u v, w = u ++ v ∧ lang a u ∧ lang b v := by
  show (∃ u v, w = u ++ v ∧ lang a u ∧ ∃ u' v', v = u' ++ v' ∧ lang b u' ∧ v' = []) ↔ _
  constructor
  · rintro ⟨u, v, h1, h2, u', v', h3, h4, rfl⟩
    exact ⟨u, v, h1, h2, by simpa [h3] using h4⟩
  · rintro ⟨u, v, h1, h2, h3⟩
    exact ⟨u, v, h1, h2, v, [], by simp, h3, rfl⟩

/-- The content model of a rule. -/
def ruleModel : Rule → Content Tok
  | .template => template
  | .sortsThenTemplate => mkSeq [mkRep (qname (u!! "sort")), template]
  | .paramsThenTemplate => mkSeq [mkRep (qname (u!! "param")), template]
  | .empty => empty
  | .chars => text
  | .sortsAndParams => mkRep (mkAlt [qname (u!! "sort"), qname (u!! "with-param")])
  | .withParams => mkRep (qname (u!! "with-param"))
  | .choices => mkSeq [mkRep1 (qname (u!! "when")), mkOpt (qname (u!! "otherwise"))]
  | .attributes => mkRep (qname (u!! "attribute"))
  | .topLevel => mkSeq [mkRep (qname (u!! "import")), topLevelElements]
  | .anything => template

theorem all_map_tok {P : Tok → Prop} {p : Item → Bool} (h : ∀ i, P (tok i) ↔ p i = true) (w : List Item) :
    (∀ x ∈ w.map tok, P x) ↔ w.all p = true := by
  simp [List.all_eq_true, h]

theorem inTemplate_iff (i : Item) : (tok i = .text ∨ tok i = .result ∨ ∃ l ∈ instrNames, tok i = .xsl l) ↔
    Spec.inTemplate i = true := by
  cases i with
  | xsl l => simp [tok, Spec.inTemplate, instr_same]
  | other => simp [tok, Spec.inTemplate]
  | chars => simp [tok, Spec.inTemplate]

theorem atTop_iff (i : Item) : (tok i = .result ∨ ∃ l ∈ topNames, tok i = .xsl l) ↔ Spec.atTop i = true := by
  cases i with
  | xsl l => simp [tok, Spec.atTop, top_same]
  | other => simp [tok, Spec.atTop]
  | chars => simp [tok, Spec.atTop]

theorem split_iff {a : Item} {P : Tok → Prop} {p : Item → Bool} (h : ∀ i, P (tok i) ↔ p i = true) (w : List Item) :
    (∃ u v, w.map tok = u ++ v ∧ (∀ x ∈ u, x = tok a) ∧ ∀ x ∈ v, P x) ↔ (w.dropWhile (· = a)).all p = true := by
  constructor
  · rintro ⟨u, v, h1, h2, h3⟩
    induction w generalizing u with
    | nil => simp
    | cons i w ih =>
      by_cases hi : i = a
      · subst hi
        cases u with
        | nil =>
          simp only [List.nil_append] at h1
          have hw := List.all_eq_true.1 ((all_map_tok h _).1 (h1 ▸ h3))
          exact List.all_eq_true.2 (fun x hx => hw x ((List.dropWhile_sublist _).mem hx))
        | cons b u =>
          simp only [List.map_cons, List.cons_append, List.cons.injEq] at h1
          simp only [List.dropWhile_cons, decide_true, if_true]
          exact ih u h1.2 (fun x hx => h2 x (by simp [hx]))
      · have hu : u = [] := by
          cases u with
          | nil => rfl
          | cons b u =>
            simp only [List.map_cons, List.cons_append, List.cons.injEq] at h1
            exact absurd (tok_inj (h1.1.trans (h2 b (by simp)))) hi
        subst hu
        simp only [List.nil_append] at h1
        rw [List.dropWhile_cons, if_neg (by simpa using hi)]
        exact (all_map_tok h _).1 (h1 ▸ h3)
  · intro hw
    refine ⟨(w.takeWhile (· = a)).map tok, (w.dropWhile (· = a)).map tok, ?_, ?_, (all_map_tok h _).2 hw⟩
    · rw [← List.map_append, List.takeWhile_append_dropWhile]
    · intro x hx
      obtain ⟨i, hi, rfl⟩ := List.mem_map.1 hx
      have := List.all_eq_true.1 (List.all_takeWhile (l := w) (p := (· = a))) i hi
      rw [of_decide_eq_true this]

theorem lang_rule (r : Rule) (hr : r ≠ .anything) (w : List Item) :
    lang (ruleModel r) (w.map tok) ↔ Spec.allows r w = true := by
  cases r with
  | template => exact (lang_template _).trans (all_map_tok inTemplate_iff w)
  | sortsThenTemplate =>
    refine (lang_seq2 _).trans ?_
    simp only [lang_template]
    exact (exists_congr fun u => exists_congr fun v => and_congr_right fun _ => and_congr_left fun _ => lang_rep_name u).trans
      (split_iff (a := .xsl (u!! "sort")) inTemplate_iff w)
  | paramsThenTemplate =>
    refine (lang_seq2 _).trans ?_
    simp only [lang_template]
    exact (exists_congr fun u => exists_congr fun v => and_congr_right fun _ => and_congr_left fun _ => lang_rep_name u).trans
      (split_iff (a := .xsl (u!! "param")) inTemplate_iff w)
  | empty =>
    show (w.map tok = [] ∨ w.map tok = [Tok.empty]) ↔ decide (w = []) = true
    constructor
    · rintro (h | h)
      · simpa using h
      · cases w with
        | nil => rfl
        | cons i w =>
          simp only [List.map_cons, List.cons.injEq] at h
          cases i <;> simp [tok] at h
    · intro h
      exact .inl (by simpa using h)
  | chars => exact (lang_rep_name _).trans (all_map_tok (fun i => by
      constructor
      · intro h; exact decide_eq_true (tok_inj (j := .chars) h)
      · intro h; rw [of_decide_eq_true h]; rfl) w)
  | sortsAndParams =>
    refine (lang_rep_names (es := [.xsl (u!! "sort"), .xsl (u!! "with-param")]) _).trans (all_map_tok (fun i => ?_) w)
    rw [Bool.or_eq_true, decide_eq_true_eq, decide_eq_true_eq]
    constructor
    · intro h
      rcases List.mem_cons.1 h with h | h
      · exact .inl (tok_inj (j := .xsl (u!! "sort")) h)
      · exact .inr (tok_inj (j := .xsl (u!! "with-param")) (List.mem_singleton.1 h))
    · rintro (rfl | rfl) <;> simp [tok]
  | withParams => exact (lang_rep_name _).trans (all_map_tok (fun i => by
      constructor
      · intro h; exact decide_eq_true (tok_inj (j := .xsl (u!! "with-param")) h)
      · intro h; rw [of_decide_eq_true h]; rfl) w)
  | attributes => exact (lang_rep_name _).trans (all_map_tok (fun i => by
      constructor
      · intro h; exact decide_eq_true (tok_inj (j := .xsl (u!! "attribute")) h)
      · intro h; rw [of_decide_eq_true h]; rfl) w)
  | topLevel =>
    refine (lang_seq2 _).trans ?_
    simp only [lang_topLevel]
    exact (exists_congr fun u => exists_congr fun v => and_congr_right fun _ => and_congr_left fun _ => lang_rep_name u).trans
      (split_iff (a := .xsl (u!! "import")) atTop_iff w)
  | choices =>
    refine (lang_seq2 _).trans ?_
    have hplus : ∀ u : List Tok, lang (mkRep1 (qname (u!! "when"))) u ↔ u ≠ [] ∧ ∀ x ∈ u, x = .xsl (u!! "when") := by
      intro u
      show (∃ a b, u = a ++ b ∧ a = [Tok.xsl (u!! "when")] ∧ lang (.name (.xsl (u!! "when")) .rep) b) ↔ _
      constructor
      · rintro ⟨a, b, rfl, rfl, hb⟩
        refine ⟨by simp, fun x hx => ?_⟩
        rcases List.mem_append.1 hx with hx | hx
        · simpa using hx
        · exact (lang_rep_name b).1 hb x hx
      · rintro ⟨h1, h2⟩
        cases u with
        | nil => exact absurd rfl h1
        | cons a u =>
          refine ⟨[a], u, rfl, by rw [h2 a (by simp)], (lang_rep_name u).2 (fun x hx => h2 x (by simp [hx]))⟩
    have hopt : ∀ v : List Tok, lang (mkOpt (qname (u!! "otherwise"))) v ↔ v = [] ∨ v = [.xsl (u!! "otherwise")] :=
      fun v => Iff.rfl
    simp only [hplus, hopt]
    show _ ↔ (decide (w.head? = some (.xsl (u!! "when"))) && (decide (_ = []) || decide (_ = [Item.xsl (u!! "otherwise")]))) = true
    rw [Bool.and_eq_true, Bool.or_eq_true, decide_eq_true_eq, decide_eq_true_eq, decide_eq_true_eq]
    constructor
    · rintro ⟨u, v, h1, ⟨h2, h3⟩, h4⟩
      have hd : ∀ (w : List Item) (u : List Tok), w.map tok = u ++ v → (∀ x ∈ u, x = .xsl (u!! "when")) →
          (w.dropWhile (· = .xsl (u!! "when"))).map tok = v := by
        intro w
        induction w with
        | nil =>
          intro u h _
          have := congrArg List.length h
          simp only [List.map_nil, List.length_nil, List.length_append] at this
          have : v = [] := List.length_eq_zero_iff.1 (by omega)
          rw [this]; rfl
        | cons i w ih =>
          intro u h hu
          cases u with
          | nil =>
            have hi : i ≠ .xsl (u!! "when") := by
              rintro rfl
              simp only [List.map_cons, List.nil_append] at h
              rcases h4 with h4 | h4
              · rw [h4] at h; exact absurd h (by simp)
              · rw [h4] at h
                have := (List.cons.inj h).1
                exact absurd this (by decide)
            rw [List.dropWhile_cons, if_neg (by simpa using hi)]
            simpa using h
          | cons b u =>
            simp only [List.map_cons, List.cons_append, List.cons.injEq] at h
            have hi : i = .xsl (u!! "when") := tok_inj (j := .xsl (u!! "when")) (h.1.trans (hu b (by simp)))
            rw [List.dropWhile_cons, if_pos (by simpa using hi)]
            exact ih u h.2 (fun x hx => hu x (by simp [hx]))
      have hv := hd w u h1 h3
      refine ⟨?_, ?_⟩
      · cases u with
        | nil => exact absurd rfl h2
        | cons b u =>
          cases w with
          | nil => simp at h1
          | cons i w =>
            simp only [List.map_cons, List.cons_append, List.cons.injEq] at h1
            rw [List.head?_cons, tok_inj (j := .xsl (u!! "when")) (h1.1.trans (h3 b (by simp)))]
      · rcases h4 with h4 | h4
        · left
          rw [h4] at hv
          exact List.map_eq_nil_iff.1 hv
        · right
          rw [h4] at hv
          obtain ⟨i, hi⟩ : ∃ i, w.dropWhile (· = .xsl (u!! "when")) = [i] := by
            have := congrArg List.length hv
            simp only [List.length_map, List.length_cons, List.length_nil] at this
            exact List.length_eq_one_iff.1 this
          rw [hi] at hv ⊢
          simp only [List.map_cons, List.map_nil, List.cons.injEq, and_true] at hv
          rw [tok_inj (j := .xsl (u!! "otherwise")) hv]
    · rintro ⟨h1, h2⟩
      refine ⟨(w.takeWhile (· = .xsl (u!! "when"))).map tok, (w.dropWhile (· = .xsl (u!! "when"))).map tok, ?_, ⟨?_, ?_⟩, ?_⟩
      · rw [← List.map_append, List.takeWhile_append_dropWhile]
      · cases w with
        | nil => simp at h1
        | cons i w =>
          simp only [List.head?_cons, Option.some.injEq] at h1
          rw [h1, List.takeWhile_cons, if_pos (by simp)]
          simp
      · intro x hx
        obtain ⟨i, hi, rfl⟩ := List.mem_map.1 hx
        have := List.all_eq_true.1 (List.all_takeWhile (l := w) (p := (· = .xsl (u!! "when")))) i hi
        rw [of_decide_eq_true this]; rfl
      · rcases h2 with h2 | h2 <;> rw [h2] <;> simp [tok]
  | anything => exact absurd rfl hr

theorem rule_good (r : Rule) : NoEmptySeq (ruleModel r) ∧ Tok.fin ∉ Names (ruleModel r) := by
  cases r <;> refine ⟨?_, by decide⟩ <;>
    simp [ruleModel, NoEmptySeq, NoEmptySeqs, template, mkSeq, mkRep, mkRep1, mkOpt, mkAlt, Content.setQuant, qname, text,
      empty, instructions, resultElements, topLevelElements]

/-- The DFA of a rule: it accepts what the rule allows. -/
theorem rule_accepts (r : Rule) : ∃ dfa, compile Tok.fin (ruleModel r) = some dfa ∧
    ∀ w : List Item, (runDfa dfa 0 (w.map tok ++ [.fin])).isSome = true ↔ lang (ruleModel r) (w.map tok) := by
  obtain ⟨dfa, h1, h2, -⟩ := compile_correct (rule_good r).1 (rule_good r).2
  refine ⟨dfa, h1, fun w => h2 _ ?_⟩
  intro h
  obtain ⟨i, -, hi⟩ := List.mem_map.1 h
  exact tok_ne_fin i hi

end Verif.Xslt.Rd
