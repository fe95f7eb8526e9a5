import Verif.Parse.AvtLex
import Verif.Parse.Embed
/-
What the lexer of attribute value templates reads between braces are the tokens
of an expression.
-/
namespace Verif.Parse
open Spec

/-- The number of a token. -/
def number (r : Rule) (c : Char) : Option Nat :=
  match r.give with
  | .token n => some n
  | .ascii => some c.toNat
  | .discard => none
  | .again => none

/-- The steps of a lexer, without fuel. -/
inductive Toks (L : Lexer) : Nat → Str → List Tok → Prop where
  | nil {st} : Toks L st [] []
  | char {st c cs ts} : bestRule L.sets (L.rules.getD st []) (c :: cs) = none → c.toNat ≠ 0 →
      Toks L st cs ts → Toks L st (c :: cs) (⟨L.kind c.toNat, [c]⟩ :: ts)
  | charEnd {st c cs} : bestRule L.sets (L.rules.getD st []) (c :: cs) = none → c.toNat = 0 →
      Toks L st (c :: cs) []
  | token {st c cs r rest n ts} : bestRule L.sets (L.rules.getD st []) (c :: cs) = some (r, rest) →
      number r c = some n → n ≠ 0 → Toks L (r.next.getD st) rest ts →
      Toks L st (c :: cs) (⟨L.kind n, (c :: cs).take ((c :: cs).length - rest.length)⟩ :: ts)
  | tokenEnd {st c cs r rest} : bestRule L.sets (L.rules.getD st []) (c :: cs) = some (r, rest) →
      number r c = some 0 → Toks L st (c :: cs) []
  | discard {st c cs r rest ts} : bestRule L.sets (L.rules.getD st []) (c :: cs) = some (r, rest) →
      r.give = .discard → Toks L (r.next.getD st) rest ts → Toks L st (c :: cs) ts
  | again {st c cs r rest ts} : bestRule L.sets (L.rules.getD st []) (c :: cs) = some (r, rest) →
      r.give = .again → Toks L (r.next.getD st) (c :: cs) ts → Toks L st (c :: cs) ts

theorem toks_of_lex {L : Lexer} : ∀ (f st : Nat) (s : Str) (ts : List Tok),
    lexFrom L f st s = some ts → Toks L st s ts
  | 0, st, [], ts, h => by rw [lexFrom] at h; injection h with h; subst h; exact .nil
  | 0, st, c :: cs, ts, h => by rw [lexFrom] at h; exact (nomatch h)
  | f + 1, st, [], ts, h => by rw [lexFrom] at h; injection h with h; subst h; exact .nil
  | f + 1, st, c :: cs, ts, h => by
    have hem : ∀ n w r, emit L n w r = some ts →
        (n = 0 ∧ ts = []) ∨ (n ≠ 0 ∧ ∃ us, r = some us ∧ ts = ⟨L.kind n, w⟩ :: us) := by
      intro n w r h
      rw [emit] at h
      split at h
      · next hn => injection h with h; exact .inl ⟨hn, h.symm⟩
      · next hn =>
        cases r with
        | none => exact (nomatch h)
        | some us =>
          have h : some (⟨L.kind n, w⟩ :: us) = some ts := h
          injection h with h
          exact .inr ⟨hn, us, rfl, h.symm⟩
    rw [lexFrom] at h
    cases hb : bestRule L.sets (L.rules.getD st []) (c :: cs) with
    | none =>
      rw [hb] at h
      rcases hem _ _ _ h with ⟨h1, rfl⟩ | ⟨h1, us, h2, rfl⟩
      · exact .charEnd hb h1
      · exact .char hb h1 (toks_of_lex f _ _ _ h2)
    | some b =>
      obtain ⟨r, rest⟩ := b
      rw [hb] at h
      dsimp only at h
      cases hg : r.give with
      | token n =>
        rw [hg] at h
        rcases hem _ _ _ h with ⟨h1, rfl⟩ | ⟨h1, us, h2, rfl⟩
        · exact .tokenEnd hb (by rw [number, hg, h1])
        · exact .token hb (by rw [number, hg]) h1 (toks_of_lex f _ _ _ h2)
      | ascii =>
        rw [hg] at h
        rcases hem _ _ _ h with ⟨h1, rfl⟩ | ⟨h1, us, h2, rfl⟩
        · exact .tokenEnd hb (by rw [number, hg, ← h1])
        · exact .token hb (by rw [number, hg]) h1 (toks_of_lex f _ _ _ h2)
      | discard =>
        rw [hg] at h
        exact .discard hb hg (toks_of_lex f _ _ _ h)
      | again =>
        rw [hg] at h
        exact .again hb hg (toks_of_lex f _ _ _ h)

theorem lex_of_toks {L : Lexer} {st : Nat} {s : Str} {ts : List Tok} (h : Toks L st s ts) :
    ∃ f, ∀ g, f ≤ g → lexFrom L g st s = some ts := by
  induction h with
  | nil => exact ⟨0, fun g _ => by cases g <;> rw [lexFrom]⟩
  | char hb hn _ ih =>
    obtain ⟨f, hf⟩ := ih
    refine ⟨f + 1, fun g hg => ?_⟩
    obtain ⟨g, rfl⟩ : ∃ k, g = k + 1 := ⟨g - 1, by omega⟩
    rw [lexFrom, hb]
    dsimp only
    rw [emit, if_neg hn, hf g (by omega)]
    rfl
  | charEnd hb hn =>
    refine ⟨1, fun g hg => ?_⟩
    obtain ⟨g, rfl⟩ : ∃ k, g = k + 1 := ⟨g - 1, by omega⟩
    rw [lexFrom, hb]
    dsimp only
    rw [emit, if_pos hn]
  | @token st c cs r rest n ts hb hr hn _ ih =>
    obtain ⟨f, hf⟩ := ih
    refine ⟨f + 1, fun g hg => ?_⟩
    obtain ⟨g, rfl⟩ : ∃ k, g = k + 1 := ⟨g - 1, by omega⟩
    rw [lexFrom, hb]
    dsimp only
    rw [number] at hr
    cases hg' : r.give with
    | token m =>
      rw [hg'] at hr
      injection hr with hr
      subst hr
      dsimp only
      rw [emit, if_neg hn, hf g (by omega)]
      rfl
    | ascii =>
      rw [hg'] at hr
      injection hr with hr
      subst hr
      dsimp only
      rw [emit, if_neg hn, hf g (by omega)]
      rfl
    | discard => rw [hg'] at hr; exact (nomatch hr)
    | again => rw [hg'] at hr; exact (nomatch hr)
  | @tokenEnd st c cs r rest hb hr =>
    refine ⟨1, fun g hg => ?_⟩
    obtain ⟨g, rfl⟩ : ∃ k, g = k + 1 := ⟨g - 1, by omega⟩
    rw [lexFrom, hb]
    dsimp only
    rw [number] at hr
    cases hg' : r.give with
    | token m =>
      rw [hg'] at hr
      injection hr with hr
      subst hr
      rfl
    | ascii =>
      rw [hg'] at hr
      injection hr with hr
      dsimp only
      rw [emit, if_pos hr]
    | discard => rw [hg'] at hr; exact (nomatch hr)
    | again => rw [hg'] at hr; exact (nomatch hr)
  | discard hb hg' _ ih =>
    obtain ⟨f, hf⟩ := ih
    refine ⟨f + 1, fun g hg => ?_⟩
    obtain ⟨g, rfl⟩ : ∃ k, g = k + 1 := ⟨g - 1, by omega⟩
    rw [lexFrom, hb]
    dsimp only
    rw [hg']
    exact hf g (by omega)
  | again hb hg' _ ih =>
    obtain ⟨f, hf⟩ := ih
    refine ⟨f + 1, fun g hg => ?_⟩
    obtain ⟨g, rfl⟩ : ∃ k, g = k + 1 := ⟨g - 1, by omega⟩
    rw [lexFrom, hb]
    dsimp only
    rw [hg']
    exact hf g (by omega)

theorem toks_unique {L : Lexer} {st : Nat} {s : Str} {ts us : List Tok} (h : Toks L st s ts)
    (h' : Toks L st s us) : ts = us := by
  obtain ⟨f, hf⟩ := lex_of_toks h
  obtain ⟨g, hg⟩ := lex_of_toks h'
  have := hf (max f g) (Nat.le_max_left _ _)
  rw [hg (max f g) (Nat.le_max_right _ _)] at this
  injection this with this
  exact this.symm

theorem xlex_iff {s : Str} {ts : List Tok} : lex xpathLexer s = some ts ↔ Toks xpathLexer 1 s ts := by
  constructor
  · exact toks_of_lex _ _ _ _
  · intro h
    obtain ⟨us, hu⟩ := C65_total s
    rw [hu, toks_unique (toks_of_lex _ _ _ _ hu) h]

/-! ### The lexer always ends -/

def avtNeed (st : Nat) (s : Str) : Nat := 2 * s.length + (if st = 3 then 1 else 0)

theorem avtNeed_le (st : Nat) (s : Str) : avtNeed st s ≤ 2 * s.length + 1 := by
  rw [avtNeed]; split <;> omega

def avtRuleOk (st : Nat) (r : Rule) : Bool :=
  !nullable r.prog &&
  (match r.give with
    | .again => decide (st = 3 ∧ r.next = some 1)
    | _ => true) &&
  decide (r.next.getD st = 1 ∨ r.next.getD st = 2 ∨ r.next.getD st = 3)

theorem avt_rules_ok : ∀ st, st = 1 ∨ st = 2 ∨ st = 3 →
    (avtLexer.rules.getD st []).all (avtRuleOk st) = true := by
  rintro st (rfl | rfl | rfl) <;> decide +kernel

theorem avt_total_from : ∀ (f st : Nat) (s : Str), st = 1 ∨ st = 2 ∨ st = 3 →
    avtNeed st s ≤ f → ∃ ts, lexFrom avtLexer f st s = some ts := by
  intro f
  induction f with
  | zero =>
    intro st s hst hf
    cases s with
    | nil => exact ⟨[], by rw [lexFrom]⟩
    | cons c cs => rw [avtNeed] at hf; simp only [List.length_cons] at hf; omega
  | succ f ih =>
    intro st s hst hf
    cases s with
    | nil => exact ⟨[], by rw [lexFrom]⟩
    | cons c cs =>
      have hem : ∀ n t r, (∃ ts, r = some ts) → ∃ ts, emit avtLexer n t r = some ts := by
        rintro n t _ ⟨ts, rfl⟩
        rw [emit]
        split
        · exact ⟨[], rfl⟩
        · exact ⟨_, rfl⟩
      have hle : ∀ st' s', s'.length < (c :: cs).length → avtNeed st' s' ≤ f := by
        intro st' s' h
        have := avtNeed_le st' s'
        rw [avtNeed] at hf
        omega
      rw [lexFrom]
      cases hb : bestRule avtLexer.sets (avtLexer.rules.getD st []) (c :: cs) with
      | none => exact hem _ _ _ (ih st cs hst (hle _ _ (by simp)))
      | some b =>
        obtain ⟨r, rest⟩ := b
        dsimp only
        obtain ⟨hm, hs⟩ := best_scan hb
        have hok := List.all_eq_true.mp (avt_rules_ok st hst) r hm
        rw [avtRuleOk, Bool.and_eq_true, Bool.and_eq_true, decide_eq_true_eq] at hok
        have hlt : rest.length < (c :: cs).length := by
          have := scan_left _ _ _ _ hs
          rw [hok.1.1] at this
          exact shorter this
        have go := ih (r.next.getD st) rest hok.2 (hle _ _ hlt)
        cases hg : r.give with
        | token n => exact hem _ _ _ go
        | ascii => exact hem _ _ _ go
        | discard => exact go
        | again =>
          have h2 := hok.1.2
          rw [hg] at h2
          simp only [decide_eq_true_eq] at h2
          obtain ⟨rfl, h2⟩ := h2
          dsimp only
          rw [h2]
          refine ih 1 (c :: cs) (.inl rfl) ?_
          rw [avtNeed, if_pos rfl] at hf
          rw [avtNeed, if_neg (by decide)]
          omega

theorem avt_lex_total (s : Str) : ∃ ts, lex avtLexer s = some ts :=
  avt_total_from _ 2 s (.inr (.inl rfl)) (by rw [avtNeed, if_neg (by decide)]; omega)

theorem avt_lex_iff {s : Str} {ts : List Tok} : lex avtLexer s = some ts ↔ Toks avtLexer 2 s ts := by
  constructor
  · exact toks_of_lex _ _ _ _
  · intro h
    obtain ⟨us, hu⟩ := avt_lex_total s
    rw [hu, toks_unique (toks_of_lex _ _ _ _ hu) h]

/-! ### The symbols -/

/-- The symbols of the XPath grammar in this one. -/
def avtSym (x : Nat) : Nat := if x ≤ 17 then x else if x ≤ 28 then x + 4 else x + 8

/-- And back. -/
def avtUnsym (x : Nat) : Nat := if x ≤ 17 then x else if x ≤ 32 then x - 4 else x - 8

/-- The terminals of XPath expressions. -/
def InX (k : Nat) : Prop := 3 ≤ k ∧ k ≤ 28
/-- Their numbers here. -/
def InA (k : Nat) : Prop := (3 ≤ k ∧ k ≤ 17) ∨ (22 ≤ k ∧ k ≤ 32)

instance (k : Nat) : Decidable (InX k) := inferInstanceAs (Decidable (_ ∧ _))
instance (k : Nat) : Decidable (InA k) := inferInstanceAs (Decidable (_ ∨ _))

theorem avt_kinds : ∀ n ∈ List.range 300, n ≠ 0 →
    (InX (xpathLexer.kind n) → avtLexer.kind n = avtSym (xpathLexer.kind n)) ∧
    (InA (avtLexer.kind n) → InX (xpathLexer.kind n) ∧
      avtLexer.kind n = avtSym (xpathLexer.kind n)) ∧
    (avtLexer.kind n = 21 → n = 125) ∧ (avtLexer.kind n = 20 → n = 123) ∧
    (avtLexer.kind n = 18 → n = 272) ∧ (avtLexer.kind n = 19 → n = 273) ∧
    0 < avtLexer.kind n ∧ avtLexer.kind n < 66 := by decide +kernel

theorem avt_kind {n : Nat} (hn : n ≠ 0) :
    (InX (xpathLexer.kind n) → avtLexer.kind n = avtSym (xpathLexer.kind n)) ∧
    (InA (avtLexer.kind n) → InX (xpathLexer.kind n) ∧
      avtLexer.kind n = avtSym (xpathLexer.kind n)) ∧
    (avtLexer.kind n = 21 → n = 125) ∧ (avtLexer.kind n = 20 → n = 123) ∧
    (avtLexer.kind n = 18 → n = 272) ∧ (avtLexer.kind n = 19 → n = 273) ∧
    0 < avtLexer.kind n ∧ avtLexer.kind n < 66 := by
  by_cases h : n < 300
  · exact avt_kinds n (List.mem_range.mpr h) hn
  · have h1 : xpathLexer.kind n = 57 := by
      rw [Lexer.kind, if_neg]
      · rfl
      · have : xpathLexer.translate.length ≤ 300 := by decide +kernel
        omega
    have h2 : avtLexer.kind n = 65 := by
      rw [Lexer.kind, if_neg]
      · rfl
      · have : avtLexer.translate.length ≤ 300 := by decide +kernel
        omega
    rw [h1, h2]
    exact ⟨by decide, by decide, nofun, nofun, nofun, nofun, by decide, by decide⟩

theorem bad_kinds : ¬ InX (xpathLexer.kind 125) ∧ ¬ InX (xpathLexer.kind 39) ∧
    ¬ InX (xpathLexer.kind 34) := by decide +kernel

/-! ### From XPath to templates -/

theorem avt_best {st : Nat} (hst : st = 1 ∨ st = 2) {c : Char} (hc : st = 2 ∨ c ≠ '}') (cs : Str) :
    bestRule avtLexer.sets (avtLexer.rules.getD (avtState st) []) (c :: cs) =
      best (bestRule X (xpathLexer.rules.getD st []) (c :: cs)) := by
  rcases hst with rfl | rfl
  · exact avt_initial (hc.resolve_left (by decide)) cs
  · exact avt_operator (c :: cs)

theorem best_map {x e : Str} : ∀ {rs : List Rule},
    (∀ r ∈ rs, scan X r.prog (e ++ x) = (scan X r.prog e).map (· ++ x)) →
    bestRule X rs (e ++ x) = (bestRule X rs e).map (fun p => (p.1, p.2 ++ x))
  | [], _ => rfl
  | r :: rs, h => by
    rw [bestRule, bestRule, h r List.mem_cons_self,
      best_map fun q hq => h q (List.mem_cons_of_mem _ hq)]
    cases scan X r.prog e with
    | none => rfl
    | some y =>
      cases bestRule X rs e with
      | none => rfl
      | some b =>
        simp only [Option.map_some, List.length_append]
        by_cases hl : b.2.length < y.length
        · rw [if_pos hl, if_pos (by omega)]
          rfl
        · rw [if_neg hl, if_neg (by omega)]
          rfl

theorem quote_first : covers X '\'' [false, false, false, false, false, false, false, true, false,
    false, false, false, false, false, false] initialRules = true ∧
    covers X '"' [false, false, false, false, false, false, false, true, false,
    false, false, false, false, false, false] initialRules = true := by decide +kernel

theorem quote_best {c : Char} (hc : c = '\'' ∨ c = '"') {cs : Str}
    (h : scan X pLiteral (c :: cs) = none) : bestRule X initialRules (c :: cs) = none := by
  rcases hc with rfl | rfl
  · rw [best_pick cs _ _ quote_first.1]
    show bestRule X [⟨pLiteral, some stOperator, .token 257⟩] _ = none
    rw [best_one, h]
    rfl
  · rw [best_pick cs _ _ quote_first.2]
    show bestRule X [⟨pLiteral, some stOperator, .token 257⟩] _ = none
    rw [best_one, h]
    rfl

/-- A text that does not begin with an open literal. -/
def Closed (st : Nat) (e : Str) : Prop :=
  st = 2 ∨ scan X pLiteral e ≠ none ∨ ∃ c cs, e = c :: cs ∧ c ≠ '\'' ∧ c ≠ '"'

theorem rules_local {st : Nat} (hst : st = 1 ∨ st = 2) {e : Str} (he : e ≠ []) (hq : Closed st e)
    (x : Str) : ∀ r ∈ xpathLexer.rules.getD st [],
      scan X r.prog (e ++ '}' :: x) = (scan X r.prog e).map (· ++ '}' :: x) := by
  intro r hr
  rcases hst with rfl | rfl
  · have := List.all_eq_true.mp initial_avoids r hr
    rw [Bool.or_eq_true, decide_eq_true_eq] at this
    rcases this with h | h
    · exact scan_local X '}' x r.prog h e
    · rw [literal_rule r hr h]
      rcases hq with hq | hq | ⟨c, cs, rfl, h1, h2⟩
      · exact absurd hq (by decide)
      · cases hs : scan X pLiteral e with
        | none => exact absurd hs hq
        | some y => exact (literal_ends1 _).2 e y he hs
      · have n1 : ¬ c.toNat = 39 := fun h => h1 (char_eq '\'' h)
        have n2 : ¬ c.toNat = 34 := fun h => h2 (char_eq '"' h)
        rw [List.cons_append, scan_literal, scan_literal]
        dsimp only
        rw [if_neg n1, if_neg n2, if_neg n1, if_neg n2]
        rfl
  · have := List.all_eq_true.mp operator_avoids r hr
    rw [Bool.or_eq_true, decide_eq_true_eq] at this
    rcases this with h | h
    · exact scan_local X '}' x r.prog h e
    · rw [any_rule r hr h]
      cases e with
      | nil => exact absurd rfl he
      | cons c cs =>
        show (if c = '\n' then none else some (cs ++ '}' :: x)) =
          (if c = '\n' then none else some cs).map (· ++ '}' :: x)
        split <;> rfl

theorem closed_of_some {st : Nat} (hst : st = 1 ∨ st = 2) {c : Char} {cs : Str}
    {b : Rule × Str} (hb : bestRule X (xpathLexer.rules.getD st []) (c :: cs) = some b) :
    Closed st (c :: cs) := by
  rcases hst with rfl | rfl
  · by_cases hc : c = '\'' ∨ c = '"'
    · refine .inr (.inl fun h => ?_)
      have : bestRule X initialRules (c :: cs) = some b := hb
      rw [quote_best hc h] at this
      exact (nomatch this)
    · exact .inr (.inr ⟨c, cs, rfl, fun h => hc (.inl h), fun h => hc (.inr h)⟩)
  · exact .inl rfl

theorem next_ok {st : Nat} (hst : st = 1 ∨ st = 2) {r : Rule} (hr : r ∈ xpathLexer.rules.getD st []) :
    (r.next.getD st = 1 ∨ r.next.getD st = 2) ∧
      (r.next.map avtState).getD (avtState st) = avtState (r.next.getD st) := by
  refine ⟨?_, by cases r.next <;> rfl⟩
  have hok := List.all_eq_true.mp (rules_ok st hst) r hr
  rw [ruleOk, Bool.and_eq_true, Bool.and_eq_true, decide_eq_true_eq] at hok
  exact hok.2

theorem number_shift (r : Rule) (c : Char) : number (shiftRule r) c = number r c := rfl

theorem take_ext (c : Char) (cs x rest : Str) (h : rest.length ≤ (c :: cs).length) :
    (c :: (cs ++ x)).take ((c :: (cs ++ x)).length - (rest ++ x).length) =
      (c :: cs).take ((c :: cs).length - rest.length) := by
  have : (c :: (cs ++ x)).length - (rest ++ x).length = (c :: cs).length - rest.length := by
    simp only [List.length_cons, List.length_append] at h ⊢
    omega
  rw [this, ← List.cons_append, List.take_append_of_le_length (by omega)]

theorem best_shorter {st : Nat} (hst : st = 1 ∨ st = 2) {s : Str} {r : Rule} {rest : Str}
    (hb : bestRule X (xpathLexer.rules.getD st []) s = some (r, rest)) :
    ∃ w, w ≠ [] ∧ s = w ++ rest := by
  obtain ⟨hm, hs⟩ := best_scan hb
  have hok := List.all_eq_true.mp (rules_ok st hst) r hm
  rw [ruleOk, Bool.and_eq_true, Bool.and_eq_true, decide_eq_true_eq] at hok
  have hl := scan_left _ _ _ _ hs
  rw [hok.1.1] at hl
  obtain ⟨w, e, hw⟩ := hl
  exact ⟨w, hw rfl, e⟩

theorem brace_kind : avtLexer.kind 125 = 21 := by decide +kernel

theorem brace_toks {rest : Str} {us : List Tok} (hr : Toks avtLexer 2 rest us) :
    Toks avtLexer 1 ('}' :: rest) (⟨21, ['}']⟩ :: us) := by
  have h := Toks.token (L := avtLexer) (st := 1) (c := '}') (cs := rest) (r := braceRule) (rest := rest)
    (n := 125) (ts := us) (avt_initial_brace rest) rfl (by decide) hr
  have e : ('}' :: rest).take (('}' :: rest).length - rest.length) = ['}'] := take_append ['}'] rest
  rw [e, brace_kind] at h
  exact h

theorem operator_brace (cs : Str) :
    bestRule X operatorRules ('}' :: cs) = some (⟨pAny, some stInitial, .again⟩, cs) := by
  have hc : covers X '}' [false, false, false, false, true] operatorRules = true := by
    decide +kernel
  rw [best_pick cs _ _ hc]
  rfl

theorem avt_forward {st : Nat} {e : Str} {ts : List Tok} (h : Toks xpathLexer st e ts) :
    st = 1 ∨ st = 2 → (∀ t ∈ ts, InX t.kind) → (∀ c ∈ e, c.toNat ≠ 0) → ∀ {rest : Str}
    {us : List Tok}, Toks avtLexer 2 rest us →
    Toks avtLexer (avtState st) (e ++ '}' :: rest) (ts.map (mapTok avtSym) ++ ⟨21, ['}']⟩ :: us) := by
  induction h with
  | @nil st =>
    intro hst _ _ rest us hr
    rcases hst with rfl | rfl
    · exact brace_toks hr
    · refine .again (r := shiftRule ⟨pAny, some stInitial, .again⟩) (rest := rest) ?_ rfl
        (brace_toks hr)
      show bestRule A avtOperatorRules ('}' :: rest) = _
      rw [avt_operator, operator_brace]
      rfl
  | @char st c cs ts hb hn _ ih =>
    intro hst hk h0 rest us hr
    have hkc := (List.forall_mem_cons.mp hk).1
    dsimp only at hkc
    have hcc : ∀ d : Char, ¬ InX (xpathLexer.kind d.toNat) → c ≠ d := fun d hd e => hd (e ▸ hkc)
    have hc : c ≠ '}' := hcc '}' bad_kinds.1
    have hq : Closed st (c :: cs) := by
      exact .inr (.inr ⟨c, cs, rfl, hcc '\'' bad_kinds.2.1, hcc '"' bad_kinds.2.2⟩)
    have hk' := (avt_kind hn).1 hkc
    have hb' : bestRule X (xpathLexer.rules.getD st []) (c :: cs) = none := hb
    have := best_map (rules_local hst (List.cons_ne_nil c cs) hq rest)
    rw [hb', List.cons_append] at this
    have h2 := Toks.char (L := avtLexer) (st := avtState st) (c := c) (cs := cs ++ '}' :: rest)
      (by rw [avt_best hst (.inr hc), this]; rfl) hn
      (ih hst (fun t ht => hk t (List.mem_cons_of_mem _ ht))
        (fun x hx => h0 x (List.mem_cons_of_mem _ hx)) hr)
    rw [hk'] at h2
    rw [List.map_cons, List.cons_append, List.cons_append, mapTok]
    dsimp only
    exact h2
  | @charEnd st c cs hb hn =>
    intro _ _ h0
    exact absurd hn (h0 c List.mem_cons_self)
  | @token st c cs r rest' n ts hb hr' hn _ ih =>
    intro hst hk h0 rest us hr
    have hb : bestRule X (xpathLexer.rules.getD st []) (c :: cs) = some (r, rest') := hb
    have hkc := (List.forall_mem_cons.mp hk).1
    dsimp only at hkc
    have hk' := (avt_kind hn).1 hkc
    have hc : st = 2 ∨ c ≠ '}' := by
      rcases hst with rfl | rfl
      · refine .inr ?_
        rintro rfl
        have : bestRule X initialRules ('}' :: cs) = some (r, rest') := hb
        rw [best_brace] at this
        exact (nomatch this)
      · exact .inl rfl
    have := best_map (rules_local hst (List.cons_ne_nil c cs) (closed_of_some hst hb) rest)
    rw [hb, List.cons_append] at this
    have hnx := next_ok hst (best_scan hb).1
    obtain ⟨w, _, ew⟩ := best_shorter hst hb
    have h0' : ∀ x ∈ rest', x.toNat ≠ 0 := fun x hx => h0 x (by rw [ew]; simp [hx])
    have h1 := ih hnx.1 (fun t ht => hk t (List.mem_cons_of_mem _ ht)) h0' hr
    rw [← hnx.2] at h1
    have h2 := Toks.token (L := avtLexer) (st := avtState st) (c := c) (cs := cs ++ '}' :: rest)
      (r := shiftRule r) (rest := rest' ++ '}' :: rest) (n := n)
      (by rw [avt_best hst hc, this]; rfl) hr' hn h1
    rw [hk', take_ext c cs _ rest' (by rw [ew, List.length_append]; omega)] at h2
    rw [List.map_cons, List.cons_append, List.cons_append, mapTok]
    dsimp only
    exact h2
  | @tokenEnd st c cs r rest' hb hr' =>
    intro hst _ h0 _ _ _
    have hb : bestRule X (xpathLexer.rules.getD st []) (c :: cs) = some (r, rest') := hb
    have hok := List.all_eq_true.mp (rules_ok st hst) r (best_scan hb).1
    rw [ruleOk, Bool.and_eq_true, Bool.and_eq_true, decide_eq_true_eq] at hok
    have h2 := hok.1.2
    rw [number] at hr'
    cases hg : r.give with
    | token n =>
      rw [hg] at h2 hr'
      injection hr' with hr'
      subst hr'
      exact (nomatch h2)
    | ascii =>
      rw [hg] at hr'
      injection hr' with hr'
      exact absurd hr' (h0 c List.mem_cons_self)
    | discard => rw [hg] at hr'; exact (nomatch hr')
    | again => rw [hg] at hr'; exact (nomatch hr')
  | @discard st c cs r rest' ts hb hg _ ih =>
    intro hst hk h0 rest us hr
    have hb : bestRule X (xpathLexer.rules.getD st []) (c :: cs) = some (r, rest') := hb
    have hc : st = 2 ∨ c ≠ '}' := by
      rcases hst with rfl | rfl
      · refine .inr ?_
        rintro rfl
        have : bestRule X initialRules ('}' :: cs) = some (r, rest') := hb
        rw [best_brace] at this
        exact (nomatch this)
      · exact .inl rfl
    have := best_map (rules_local hst (List.cons_ne_nil c cs) (closed_of_some hst hb) rest)
    rw [hb, List.cons_append] at this
    have hnx := next_ok hst (best_scan hb).1
    obtain ⟨w, _, ew⟩ := best_shorter hst hb
    have h0' : ∀ x ∈ rest', x.toNat ≠ 0 := fun x hx => h0 x (by rw [ew]; simp [hx])
    have h1 := ih hnx.1 hk h0' hr
    rw [← hnx.2] at h1
    exact Toks.discard (L := avtLexer) (st := avtState st) (c := c) (cs := cs ++ '}' :: rest)
      (r := shiftRule r) (rest := rest' ++ '}' :: rest) (by rw [avt_best hst hc, this]; rfl) hg h1
  | @again st c cs r rest' ts hb hg _ ih =>
    intro hst hk h0 rest us hr
    have hb : bestRule X (xpathLexer.rules.getD st []) (c :: cs) = some (r, rest') := hb
    have hc : st = 2 ∨ c ≠ '}' := by
      rcases hst with rfl | rfl
      · refine .inr ?_
        rintro rfl
        have : bestRule X initialRules ('}' :: cs) = some (r, rest') := hb
        rw [best_brace] at this
        exact (nomatch this)
      · exact .inl rfl
    have := best_map (rules_local hst (List.cons_ne_nil c cs) (closed_of_some hst hb) rest)
    rw [hb, List.cons_append] at this
    have hnx := next_ok hst (best_scan hb).1
    have h1 := ih hnx.1 hk h0 hr
    rw [← hnx.2] at h1
    exact Toks.again (L := avtLexer) (st := avtState st) (c := c) (cs := cs ++ '}' :: rest)
      (r := shiftRule r) (rest := rest' ++ '}' :: rest) (by rw [avt_best hst hc, this]; rfl) hg h1

end Verif.Parse
