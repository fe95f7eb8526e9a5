import Verif.Xslt.Rd.Element
/-
The content of an element, and the class of an element.
-/
namespace Verif.Xslt.Rd
open Verif.Content
open Verif.Write (UStr)
open Spec (Item Ctx St)

variable {N : Type}

/-- The specification and the program agree: both fail, or both give something and `P` holds of it. -/
def Rel {α β ε : Type} (o : Option α) (x : Except ε β) (P : α → β → Prop) : Prop :=
  (∃ a b, o = some a ∧ x = .ok b ∧ P a b) ∨ (o = none ∧ ∃ e, x = .error e)

/-- A child in the content of an element. -/
def step (k : Klass) (v : Val) (i : Item) : Option Val :=
  match transit v.1 v.2 (tok i) with
  | some q => some (v.1, q)
  | none => if k = .undefinedExt ∧ i ≠ .chars then some v else none

def walk (k : Klass) : Val → List Item → Option Val
  | v, [] => some v
  | v, i :: is => (step k v i).bind (fun v => walk k v is)

def closes (v : Val) : Bool := (transit v.1 v.2 .fin).isSome

theorem walk_strict {k : Klass} (hk : k ≠ .undefinedExt) (dfa : List (List (Tok × Nat))) (q : Nat) (w : List Item) :
    (walk k (dfa, q) w).any closes = (runDfa dfa q (w.map tok ++ [.fin])).isSome := by
  induction w generalizing q with
  | nil =>
    show closes (dfa, q) = _
    simp only [closes, List.map_nil, List.nil_append, runDfa]
    cases transit dfa q .fin <;> rfl
  | cons i w ih =>
    rw [List.map_cons, List.cons_append, runDfa, walk, step]
    dsimp only
    cases transit dfa q (tok i) with
    | some q' => exact ih q'
    | none => rw [if_neg (fun h => hk h.1)]; rfl

/-- A row of a DFA from which the element may end and which takes text. -/
def live (dfa : List (List (Tok × Nat))) (q : Nat) : Bool :=
  (transit dfa q .fin).isSome && (transit dfa q .text).isSome

/-- Every step from a live row leads to a live row. -/
def closed (dfa : List (List (Tok × Nat))) : Bool :=
  (List.range dfa.length).all (fun q => !live dfa q ||
    ((dfa[q]?).getD []).all (fun x => x.1 = .fin || live dfa x.2))

theorem template_closed : closed ((compile Tok.fin template).getD []) = true := by decide +kernel
theorem template_live : live ((compile Tok.fin template).getD []) 0 = true := by decide +kernel

theorem walk_lax (dfa : List (List (Tok × Nat))) (hc : closed dfa = true) (q : Nat) (hl : live dfa q = true) (w : List Item) :
    (walk .undefinedExt (dfa, q) w).any closes = true := by
  induction w generalizing q with
  | nil =>
    rw [live, Bool.and_eq_true] at hl
    exact hl.1
  | cons i w ih =>
    rw [walk, step]
    dsimp only
    cases ht : transit dfa q (tok i) with
    | none =>
      dsimp only
      by_cases hi : i = .chars
      · subst hi
        rw [live, Bool.and_eq_true] at hl
        rw [show Tok.text = tok .chars from rfl, ht] at hl
        exact absurd hl.2 (by simp)
      · rw [if_pos ⟨rfl, hi⟩]
        exact ih q hl
    | some q' =>
      refine ih q' ?_
      rw [transit] at ht
      cases hr : dfa[q]? with
      | none => rw [hr] at ht; cases ht
      | some row =>
        rw [hr] at ht
        have hq : q < dfa.length := by
          have := List.getElem?_eq_some_iff.1 hr
          exact this.1
        have h1 := List.all_eq_true.1 hc q (List.mem_range.2 hq)
        rw [hl] at h1
        simp only [Bool.not_true, Bool.false_or, hr, Option.getD_some] at h1
        have h2 := List.all_eq_true.1 h1 _ (lookup_mem ht)
        simp only [Bool.or_eq_true, decide_eq_true_eq] at h2
        rcases h2 with h2 | h2
        · exact absurd h2 (tok_ne_fin i)
        · exact h2

/-- The content model of the class of an element is the rule for the element. -/
theorem model_rule {H : Hooks N} {k : Klass} {name : Name} {c : Class} (hc : ClassOf H k name c) (hk : k ≠ .undefinedExt) :
    Spec.rule H k ≠ .anything ∧ c.model = ruleModel (Spec.rule H k) := by
  cases hc with
  | xsl l m as hl =>
    obtain ⟨r, sas, h1, h2, h3, _⟩ := entries_ok _ (lookup_mem hl)
    dsimp only at h1
    simp only [Spec.rule, h1]
    exact ⟨h3, h2⟩
  | undefinedXslt => exact ⟨by simp [Spec.rule], rfl⟩
  | ext n x as he =>
    simp only [Spec.rule, he]
    cases x <;> exact ⟨by simp, rfl⟩
  | undefinedExt => exact absurd rfl hk
  | literal => exact ⟨by simp [Spec.rule], rfl⟩

theorem walk_ok {H : Hooks N} {k : Klass} {name : Name} {c : Class} (hc : ClassOf H k name c) (w : List Item) :
    (walk k (start_ c.model) w).any closes = Spec.allows (Spec.rule H k) w := by
  by_cases hk : k = .undefinedExt
  · subst hk
    cases hc
    exact walk_lax _ template_closed 0 template_live w
  · obtain ⟨h1, h2⟩ := model_rule hc hk
    obtain ⟨dfa, h3, h4⟩ := rule_accepts (Spec.rule H k)
    rw [start_, h2, h3, Option.getD_some, walk_strict hk, Bool.eq_iff_iff, h4, lang_rule _ h1]

/-- The shared cache: it holds the classes of the table, and the class of unknown XSLT elements for those that have been
met. -/
structure Agrees (cache : List (UStr × Class)) (seen : List UStr) : Prop where
  known : ∀ l c, lookup l cache = some c → elementClass l = some c ∨ (elementClass l = none ∧ c = undefinedXslt ∧ l ∈ seen)
  new : ∀ l, lookup l cache = none → l ∉ seen

theorem elementClass_none {l : UStr} : elementClass l = none ↔ lookup l elementClasses = none := by
  rw [elementClass]
  cases lookup l elementClasses <;> simp

/-- The class of an element. -/
theorem classify_spec (H : Hooks N) (cache : List (UStr × Class)) (c : Ctx) (seen : List UStr) (ha : Agrees cache seen) (name : Name) :
    Rel (Spec.kind H c seen name) (classify H cache c.fc c.ext name) (fun k r => ClassOf H k name r.2 ∧ r.2.klass = k ∧
      r.2.token = tok (Spec.item k) ∧ Agrees r.1 (if k = .undefinedXslt then name.2 :: seen else seen)) := by
  obtain ⟨ns, l⟩ := name
  unfold Spec.kind classify
  by_cases hx : ns = some xslNs
  · subst hx
    simp only [if_true, find_iff]
    have hcls : ∀ x, elementClass l = some x → ∃ m as, lookup l elementClasses = some (m, as) ∧
        x = { klass := .xsl l, model := m, token := .xsl l, attrs := some as } := by
      intro x hx
      rw [elementClass] at hx
      cases hl : lookup l elementClasses with
      | none => rw [hl] at hx; cases hx
      | some e => obtain ⟨m, as⟩ := e; rw [hl] at hx; cases hx; exact ⟨m, as, rfl, rfl⟩
    cases hl : lookup l cache with
    | some x =>
      rcases ha.known l x hl with h | ⟨h1, h2, h3⟩
      · obtain ⟨m, as, h1, rfl⟩ := hcls x h
        left
        rw [h1]
        refine ⟨_, _, rfl, rfl, .xsl l m as h1, rfl, rfl, ?_⟩
        simpa using ha
      · subst h2
        left
        rw [elementClass_none.1 h1]
        simp only [Option.isSome_none, Bool.false_eq_true, if_false]
        refine ⟨.undefinedXslt, _, ?_, rfl, .undefinedXslt l (elementClass_none.1 h1), rfl, rfl, ?_⟩
        · rw [if_pos]; simp [h3]
        · simp only [if_true]
          refine ⟨fun l' c' h' => ?_, fun l' h' => ?_⟩
          · rcases ha.known l' c' h' with h | ⟨a, b, d⟩
            · exact .inl h
            · exact .inr ⟨a, b, List.mem_cons_of_mem _ d⟩
          · intro hm
            rcases List.mem_cons.1 hm with e | hm
            · subst e; rw [hl] at h'; cases h'
            · exact ha.new l' h' hm
    | none =>
      have hns : l ∉ seen := ha.new l hl
      dsimp only
      cases he : elementClass l with
      | some x =>
        obtain ⟨m, as, h1, rfl⟩ := hcls x he
        left
        rw [h1]
        refine ⟨_, _, rfl, rfl, .xsl l m as h1, rfl, rfl, ?_⟩
        simp only [reduceCtorEq, if_false]
        refine ⟨fun l' c' h' => ?_, fun l' h' => ?_⟩
        · rw [lookup] at h'
          split at h'
          · rename_i e; subst e; cases h'; exact .inl he
          · exact ha.known l' c' h'
        · rw [lookup] at h'
          split at h'
          · cases h'
          · exact ha.new l' h'
      | none =>
        rw [elementClass_none.1 he]
        simp only [Option.isSome_none, Bool.false_eq_true, if_false]
        cases hfc : c.fc with
        | true =>
          left
          refine ⟨.undefinedXslt, _, by simp, rfl, .undefinedXslt l (elementClass_none.1 he), rfl, rfl, ?_⟩
          simp only [if_true]
          refine ⟨fun l' c' h' => ?_, fun l' h' => ?_⟩
          · rw [lookup] at h'
            split at h'
            · rename_i e; subst e; cases h'; exact .inr ⟨he, rfl, by simp⟩
            · rcases ha.known l' c' h' with h | ⟨a, b, d⟩
              · exact .inl h
              · exact .inr ⟨a, b, List.mem_cons_of_mem _ d⟩
          · rw [lookup] at h'
            split at h'
            · cases h'
            · rename_i hne
              intro hm
              rcases List.mem_cons.1 hm with e | hm
              · exact hne e.symm
              · exact ha.new l' h' hm
        | false =>
          right
          exact ⟨by simp [hns], _, rfl⟩
  · simp only [hx, if_false]
    by_cases he : ns ∈ c.ext
    · simp only [he, if_true]
      left
      cases hh : H.ext (ns, l) with
      | none => exact ⟨.undefinedExt, _, rfl, rfl, .undefinedExt _, rfl, rfl, by simpa using ha⟩
      | some x =>
        obtain ⟨x, as⟩ := x
        exact ⟨_, _, rfl, rfl, .ext _ x as hh, rfl, rfl, by simpa using ha⟩
    · simp only [he, if_false]
      left
      exact ⟨.literal, _, rfl, rfl, .literal _, rfl, rfl, by simpa using ha⟩

end Verif.Xslt.Rd
