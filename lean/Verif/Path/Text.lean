import Verif.Path.Lemmas
/-
Lemmas for C93: the tokens of a step, and what they stand for.
-/
namespace Verif.Path
open Verif Verif.XPath Verif.Dom Verif.Dom.Spec Verif.Eval Verif.Eval.Spec Verif.Parse Verif.Parse.Spec Verif.Path.Spec
open Verif.Names.Spec (NCNameStart NCNameChar)

theorem not_ncNameChar {c : Char} (h : c = '/' ∨ c = '[' ∨ c = '(') : ¬ NCNameChar c.toNat := by
  unfold NCNameChar Verif.Names.Spec.Letter Verif.Names.Spec.Other Verif.Names.Spec.inClass
  rcases h with rfl | rfl | rfl <;> decide +kernel

theorem start_char {c : Nat} (h : NCNameStart c) : NCNameChar c := by
  rcases h with h | h
  · exact .inl h
  · exact .inr (.inr (.inr (.inr h)))

/-- What may follow a step. -/
def Tail (rest : Str) : Prop := ∀ c cs, rest = c :: cs → c = '/'

/-- What may follow a name test. -/
def Stop (rest : Str) : Prop := ∀ c cs, rest = c :: cs → c = '/' ∨ c = '['

theorem not_nextIs {rest : Str} (h : Stop rest) {c : Char} {w : Str} (h1 : c ≠ '/') (h2 : c ≠ '[') :
    ¬ NextIs (c :: w) rest := by
  rintro ⟨sp, r, rfl, hs⟩
  cases sp with
  | nil =>
    rcases h c (w ++ r) rfl with h | h
    · exact h1 h
    · exact h2 h
  | cons x sp =>
    have hx := hs x (by simp)
    rcases h x (sp ++ c :: w ++ r) (by simp) with rfl | rfl
    · unfold Space at hx; revert hx; decide
    · unfold Space at hx; revert hx; decide

theorem stop_ends {rest : Str} (h : Stop rest) : Ends (fun c => NCNameChar c.toNat ∨ c = ':') rest := by
  intro c cs hr hc
  rcases h c cs hr with rfl | rfl
  · rcases hc with hc | hc
    · exact not_ncNameChar (by simp) hc
    · cases hc
  · rcases hc with hc | hc
    · exact not_ncNameChar (by simp) hc
    · cases hc

theorem stop_name {rest : Str} (h : Stop rest) : EndsName rest := fun c cs hr hc => stop_ends h c cs hr (.inl hc)

/-- The names that `abspath` writes. -/
inductive Written : Str → RawTest → Prop
  | name {l : Str} : NCName l → Written l (.name l)
  | qname {p l : Str} : NCName p → NCName l → Written (p ++ ':' :: l) (.qname p l)

theorem written_says {q : Str} {t : RawTest} (h : Written q t) : NameTestSays q t := by
  cases h with
  | name h => exact .name h
  | qname h1 h2 => exact .qname h1 h2

theorem written_token {q : Str} {t : RawTest} (h : Written q t) {rest : Str} (hr : Stop rest) :
    Token false .nameTest q rest := by
  cases h with
  | name h => exact .name h (stop_ends hr) (not_nextIs hr (by decide) (by decide)) (not_nextIs hr (by decide) (by decide))
  | qname h1 h2 => exact .nameNs h1 h2 (stop_name hr) (not_nextIs hr (by decide) (by decide))

theorem written_head {q : Str} {t : RawTest} (h : Written q t) : ∃ c cs, q = c :: cs ∧ c ≠ '/' := by
  have key : ∀ {l : Str}, NCName l → ∃ c cs, l = c :: cs ∧ c ≠ '/' := by
    rintro l ⟨c, cs, rfl, hc, _⟩
    refine ⟨c, cs, rfl, ?_⟩
    rintro rfl
    exact not_ncNameChar (by simp) (start_char hc)
  cases h with
  | name h => exact key h
  | qname h1 _ =>
    obtain ⟨c, cs, rfl, hc⟩ := key h1
    exact ⟨c, _, rfl, hc⟩

/-- The tokens of a predicate. -/
def posToks (k : Nat) : List Tok :=
  [⟨Term.num .lbracket, ['[']⟩, ⟨Term.num .number, decimal k⟩, ⟨Term.num .rbracket, [']']⟩]

theorem position_lexes (op : Bool) (k : Nat) {rest : Str} {ts : List Tok} (h : Lexes true rest ts) :
    Lexes op (position k ++ rest) (posToks k ++ ts) := by
  obtain ⟨h1, h2⟩ := decimal_digits k
  have e : position k ++ rest = ['['] ++ (decimal k ++ ([']'] ++ rest)) := by simp [position]
  rw [e]
  refine .token (k := .lbracket) (.single (by decide)) (.token (k := .number) (.integer h1 h2 ?_)
    (.token (k := .rbracket) (.single (by decide)) h))
  intro c cs hc
  obtain ⟨rfl, _⟩ := List.cons.inj hc
  show ¬ (']' = '.' ∨ Parse.Spec.Digit ']')
  unfold Parse.Spec.Digit
  decide

theorem number_says (t : Tok) (ht : Is .number t) : Says .expr [t] (.expr (.number t.text)) :=
  .p14 (.p21a (.p22a (.p23a (.p24a (.p25a (.p26a (.p27a (.p18a (.p19b (.p20a (.p15d ht)))))))))))

theorem position_says (k : Nat) : Says .predicates (posToks k) (.list [.number (decimal k)]) := by
  have h := Says.some .none (.p8 (l := ⟨Term.num .lbracket, ['[']⟩) (r := ⟨Term.num .rbracket, [']']⟩) rfl
    (.p9 (number_says ⟨Term.num .number, decimal k⟩ rfl)) rfl)
  simpa [posToks] using h

/-- A step in the text: its tokens, what they stand for, and what this selects from `a`.  `u` says that it should select
nothing but `n`. -/
structure StepOK (d : Doc) (env : Env) (a n : Nat) (u : Prop) (len : Nat) (st : Str) : Prop where
  head : ∃ c cs, st = c :: cs ∧ c ≠ '/'
  ok : ∃ ts s l, (∀ rest trs, Tail rest → Lexes true rest trs → Lexes false (st ++ rest) (ts ++ trs)) ∧
    Says .step ts (.step s) ∧ ts.length ≤ len ∧ resolveStep d.R env s = some l ∧
    (∃ k, StepSelects d l a k ∧ n ∈ k) ∧ (u → ∀ k, StepSelects d l a k → k = [n])

theorem tail_stop {rest : Str} (h : Tail rest) : Stop rest := fun c cs hr => .inl (h c cs hr)

/-- A name test on the child axis, with a position if it is not 1. -/
theorem step_element {d : Doc} {r : Nat} (w : DocWF d r) {env : Env} {a n k : Nat} {before after : List Nat} {q : Str}
    {t : RawTest} {nt : NodeTest} (ha : Root d.h r a) (hq : Written q t) (ht : resolveTest env t = some nt)
    (hn : passes d .element nt n = true)
    (hl : d.h.kids a = before ++ n :: after) (hk : k = 1 + (before.filter (passes d .element nt)).length)
    (hs : k ≤ 2 ^ 53) {u : Prop}
    (hu : u → before.filter (passes d .element nt) = [] → after.filter (passes d .element nt) = []) :
    StepOK d env a n u 4 (q ++ if 1 < k then position k else []) := by
  have hc := candidates_child w ha nt
  have hf : (d.h.kids a).filter (passes d .element nt) =
      before.filter (passes d .element nt) ++ n :: after.filter (passes d .element nt) := by
    rw [hl, List.filter_append, List.filter_cons_of_pos hn]
  rw [hf] at hc
  obtain ⟨c, cs, rfl, hc0⟩ := written_head hq
  refine ⟨⟨c, _, rfl, hc0⟩, ?_⟩
  by_cases h1 : 1 < k
  · rw [if_pos h1]
    refine ⟨⟨Term.num .nameTest, c :: cs⟩ :: posToks k, .mk (.tree .child) t [.number (decimal k)],
      .mk (.tree .child) nt [.lit true (decimal k)], ?_, ?_, by simp [posToks], ?_, ?_⟩
    · intro rest trs hr hx
      have := position_lexes (opAfter .nameTest) k hx
      have h2 := Lexes.token (written_token hq (rest := position k ++ rest) (by
        intro x xs hx
        have : position k ++ rest = '[' :: (decimal k ++ [']'] ++ rest) := by simp [position]
        rw [this] at hx
        exact .inr (List.cons.inj hx).1.symm)) this
      simpa [List.append_assoc] using h2
    · have := Says.p4a (.p5b .p13b) (.p7a (t := ⟨Term.num .nameTest, c :: cs⟩) rfl (written_says hq)) (position_says k)
      simpa using this
    · simp [resolveStep, ht, resolves, resolve]
    · have hsel := fun x => selects_iff w hc (ps := [.lit true (decimal k)]) x
      rw [kept_number k (by omega) hs] at hsel
      have hget : (before.filter (passes d .element nt) ++ n :: after.filter (passes d .element nt))[k - 1]? = some n := by
        rw [List.getElem?_append_right (by omega)]
        have : k - 1 - (before.filter (passes d .element nt)).length = 0 := by omega
        rw [this]; rfl
      rw [hget] at hsel
      exact ⟨⟨[n], (hsel _).mpr rfl, by simp⟩, fun _ x hx => (hsel _).mp hx⟩
  · rw [if_neg h1]
    have hb : before.filter (passes d .element nt) = [] := List.length_eq_zero_iff.mp (by omega)
    rw [hb] at hc
    refine ⟨[⟨Term.num .nameTest, c :: cs⟩], .mk (.tree .child) t [], .mk (.tree .child) nt [], ?_, ?_, by simp, ?_, ?_⟩
    · intro rest trs hr hx
      have h2 := Lexes.token (written_token hq (tail_stop hr)) hx
      simpa using h2
    · have := Says.p4a (.p5b .p13b) (.p7a (t := ⟨Term.num .nameTest, c :: cs⟩) rfl (written_says hq)) .none
      simpa using this
    · simp [resolveStep, ht, resolves]
    · have hsel := fun x => selects_iff w hc (ps := []) x
      simp only [kept] at hsel
      refine ⟨⟨_, (hsel _).mpr rfl, by simp⟩, fun h x hx => ?_⟩
      rw [(hsel _).mp hx, hu h hb]; rfl

theorem nodup_single {l : List Nat} (hn : l.Nodup) {a : Nat} (ha : a ∈ l) (h : ∀ x ∈ l, x = a) : l = [a] := by
  cases l with
  | nil => cases ha
  | cons b l =>
    have hb := h b (by simp)
    subst hb
    cases l with
    | nil => rfl
    | cons c l =>
      have hc := h c (by simp)
      subst hc
      simp at hn

/-- An attribute. -/
theorem step_attr {d : Doc} {r : Nat} (w : DocWF d r) {env : Env} {a n : Nat} {q : Str} {t : RawTest} {nt : NodeTest}
    (ha : Root d.h r a) (hk : d.h.kind a = .element) (hq : Written q t) (ht : resolveTest env t = some nt)
    (hm : n ∈ d.attrs a) (hn : passes d .attr nt n = true) {u : Prop}
    (hu : ∀ x ∈ d.attrs a, passes d .attr nt x = true → x = n) : StepOK d env a n u 6 ('@' :: q) := by
  have hc := candidates_attr w ha hk nt
  have hf : (d.attrs a).filter (passes d .attr nt) = [n] :=
    nodup_single ((w.attr_nodup a).filter _) (List.mem_filter.mpr ⟨hm, hn⟩) fun x hx => by
      obtain ⟨h1, h2⟩ := List.mem_filter.mp hx
      exact hu x h1 h2
  rw [hf] at hc
  refine ⟨⟨'@', q, rfl, by decide⟩, [⟨Term.num .at, ['@']⟩, ⟨Term.num .nameTest, q⟩], .mk .attr t [], .mk .attr nt [],
    ?_, ?_, by simp, ?_, ?_⟩
  · intro rest trs hr hx
    have h2 := Lexes.token (op := false) (k := .at) (w := ['@']) (.single (by decide))
      (Lexes.token (written_token hq (tail_stop hr)) hx)
    simpa using h2
  · have := Says.p4a (.p5b (.p13a (t := ⟨Term.num .at, ['@']⟩) rfl))
      (.p7a (t := ⟨Term.num .nameTest, q⟩) rfl (written_says hq)) .none
    simpa using this
  · simp [resolveStep, ht, resolves]
  · have hsel := fun x => selects_iff w hc (ps := []) x
    simp only [kept] at hsel
    exact ⟨⟨_, (hsel _).mpr rfl, by simp⟩, fun _ x hx => (hsel _).mp hx⟩

/-- The node types, their tests, and the name. -/
inductive Typed : Kind → Str → RawTest → Prop
  | text : Typed .text (s!! "text") .text
  | comment : Typed .comment (s!! "comment") .comment
  | pi : Typed .pi (s!! "processing-instruction") (.pi none)

/-- Text, comments and processing instructions. -/
theorem step_other {d : Doc} {r : Nat} (w : DocWF d r) {env : Env} {a n k : Nat} {before after : List Nat} {f : Str}
    {t : RawTest} {kd : Kind} (ha : Root d.h r a) (hq : Typed kd f t) (hn : d.h.kind n = kd)
    (hl : d.h.kids a = before ++ n :: after)
    (hk : k = 1 + (before.filter fun p => decide (d.h.kind p = kd)).length)
    (hs : k ≤ 2 ^ 53) {u : Prop} : StepOK d env a n u 6 (f ++ s!! "()" ++ position k) := by
  have ht : resolveTest env t = some (.kind kd) := by cases hq <;> rfl
  have hp : passes d .element (.kind kd) = fun p => decide (d.h.kind p = kd) := by funext p; rfl
  have hc := candidates_child w ha (.kind kd)
  have hf : (d.h.kids a).filter (passes d .element (.kind kd)) =
      before.filter (passes d .element (.kind kd)) ++ n :: after.filter (passes d .element (.kind kd)) := by
    rw [hl, List.filter_append, List.filter_cons_of_pos (by rw [hp]; simpa using hn)]
  rw [hf] at hc
  rw [← hp] at hk
  have hty : f ∈ nodeTypes := by cases hq <;> decide
  have hnm : ∃ name, (name, t) ∈ nodeTypeTests ∧ f = name.toList := by
    cases hq with
    | text => exact ⟨"text", by simp [nodeTypeTests], rfl⟩
    | comment => exact ⟨"comment", by simp [nodeTypeTests], rfl⟩
    | pi => exact ⟨"processing-instruction", by simp [nodeTypeTests], rfl⟩
  obtain ⟨name, hm, hname⟩ := hnm
  refine ⟨by cases hq <;> exact ⟨_, _, rfl, by decide⟩,
    ⟨Term.num .nodeType, f⟩ :: ⟨Term.num .lparen, ['(']⟩ :: ⟨Term.num .rparen, [')']⟩ :: posToks k,
    .mk (.tree .child) t [.number (decimal k)],
    .mk (.tree .child) (.kind kd) [.lit true (decimal k)], ?_, ?_, by simp [posToks], ?_, ?_⟩
  · intro rest trs hr hx
    have h2 := Lexes.token (op := false) (k := .nodeType) (w := f) (rest := ['('] ++ ([')'] ++ (position k ++ rest)))
      (.nodeType hty (by
        intro c cs hc
        obtain ⟨rfl, _⟩ := List.cons.inj hc
        exact not_ncNameChar (by simp)) ⟨[], [')'] ++ (position k ++ rest), by simp, by simp⟩)
      (Lexes.token (op := opAfter .nodeType) (k := .lparen) (w := ['(']) (.single (by decide))
        (Lexes.token (k := .rparen) (w := [')']) (.single (by decide)) (position_lexes _ k hx)))
    simpa [List.append_assoc] using h2
  · have := Says.p4a (.p5b .p13b) (.p7b (t := ⟨Term.num .nodeType, f⟩) (l := ⟨Term.num .lparen, ['(']⟩)
      (r := ⟨Term.num .rparen, [')']⟩) rfl rfl rfl hm hname) (position_says k)
    simpa using this
  · simp [resolveStep, ht, resolves, resolve]
  · have hsel := fun x => selects_iff w hc (ps := [.lit true (decimal k)]) x
    rw [kept_number k (by omega) hs] at hsel
    have hget : (before.filter (passes d .element (.kind kd)) ++ n :: after.filter (passes d .element (.kind kd)))[k - 1]? =
        some n := by
      rw [List.getElem?_append_right (by omega)]
      have : k - 1 - (before.filter (passes d .element (.kind kd))).length = 0 := by omega
      rw [this]; rfl
    rw [hget] at hsel
    exact ⟨⟨[n], (hsel _).mpr rfl, by simp⟩, fun _ x hx => (hsel _).mp hx⟩

end Verif.Path
