import Verif.Parse.AvtParse
/-
The lexer of attribute value templates outside of expressions.
-/
namespace Verif.Parse
open Spec

def isBrace (c : Char) : Bool := c == '{' || c == '}'

theorem brace_set (c : Char) : inSet A c (.small 0) = isBrace c := by
  have h : ∀ n ∈ List.range 256, (A.rows.getD (32 * 0 + n >>> 3) 0 &&& (1 <<< (n &&& 7)) != 0) =
      (n == 123 || n == 125) := by decide +kernel
  have e : isBrace c = (c.toNat == 123 || c.toNat == 125) := by
    rw [Bool.eq_iff_iff, isBrace, Bool.or_eq_true, Bool.or_eq_true, beq_iff_eq, beq_iff_eq,
      beq_iff_eq, beq_iff_eq]
    constructor
    · rintro (rfl | rfl)
      · exact .inl rfl
      · exact .inr rfl
    · rintro (h | h)
      · exact .inl (char_eq '{' h)
      · exact .inr (char_eq '}' h)
  rw [inSet, e]
  by_cases hc : c.toNat < 256
  · rw [h _ (List.mem_range.mpr hc), decide_eq_true hc, Bool.true_and]
  · rw [decide_eq_false hc, Bool.false_and]
    have h1 : ¬ c.toNat = 123 := by omega
    have h2 : ¬ c.toNat = 125 := by omega
    simp [h1, h2]

theorem plain_one : OneOf A (.notSet (.small 0) .success) (fun c => !isBrace c) := by
  refine ⟨rfl, fun c cs => ?_⟩
  show (if inSet A c (.small 0) then none else some cs) = _
  dsimp only
  rw [brace_set]
  by_cases h : isBrace c = true
  · rw [if_pos h, if_neg (by simp [h])]
  · rw [if_neg h, if_pos (by simp [h])]

theorem scan_plain (c : Char) (s : Str) : scan A pPlain (c :: s) =
    if isBrace c then none else some (s.dropWhile fun c => !isBrace c) := by
  have := scan_rep1 (k := .success) plain_one c s (.inr (by rw [scan]; nofun))
  rw [pPlain, this, scan]
  cases isBrace c <;> rfl

theorem scan_two (n : Nat) (s : Str) : scan A (.range 2 2 (.lit n .success) .success) s =
    match s with
    | c :: d :: r => if c.toNat = n ∧ d.toNat = n then some r else none
    | _ => none := by
  rw [scan]
  match s with
  | [] => rfl
  | [c] =>
    show (match times (scan A (.lit n .success)) 2 [c] with
      | none => none
      | some s' => _) = none
    have : times (scan A (.lit n .success)) 2 [c] = none := by
      rw [times, scan]
      by_cases h : c.toNat = n
      · rw [if_pos h]; rfl
      · rw [if_neg h]; rfl
    rw [this]
  | c :: d :: r =>
    have : times (scan A (.lit n .success)) 2 (c :: d :: r) =
        if c.toNat = n ∧ d.toNat = n then some r else none := by
      rw [times, scan]
      by_cases h : c.toNat = n
      · rw [if_pos h]
        show (scan A (.lit n .success) (d :: r)).bind (times (scan A (.lit n .success)) 0) = _
        rw [scan]
        by_cases h' : d.toNat = n
        · rw [if_pos h', if_pos ⟨h, h'⟩]; rfl
        · rw [if_neg h', if_neg fun x => h' x.2]; rfl
      · rw [if_neg h, if_neg fun x => h x.1]; rfl
    rw [this]
    dsimp only
    by_cases h : c.toNat = n ∧ d.toNat = n
    · rw [if_pos h]; rfl
    · rw [if_neg h]

/-- A doubled brace. -/
def Doubled (c d : Char) : Prop := (c = '{' ∧ d = '{') ∨ (c = '}' ∧ d = '}')

instance (c d : Char) : Decidable (Doubled c d) := inferInstanceAs (Decidable (_ ∨ _))

theorem scan_escape (s : Str) : scan A pEscape s =
    match s with
    | c :: d :: r => if Doubled c d then some r else none
    | _ => none := by
  have e : scan A pEscape s = longest A (.cons (.range 2 2 (.lit 123 .success) .success)
      (.cons (.range 2 2 (.lit 125 .success) .success) .nil)) s := by
    rw [pEscape, scan]
    cases longest A _ s <;> rfl
  rw [e, longest, longest, longest, longer_none, scan_two, scan_two]
  match s with
  | [] => rfl
  | [c] => rfl
  | c :: d :: r =>
    dsimp only
    by_cases h : c.toNat = 123 ∧ d.toNat = 123
    · have : c = '{' ∧ d = '{' := ⟨char_eq '{' h.1, char_eq '{' h.2⟩
      rw [if_pos h, if_neg (by omega), if_pos (.inl this)]
      rfl
    · rw [if_neg h]
      by_cases h' : c.toNat = 125 ∧ d.toNat = 125
      · have : c = '}' ∧ d = '}' := ⟨char_eq '}' h'.1, char_eq '}' h'.2⟩
        rw [if_pos h', if_pos (.inr this)]
        rfl
      · rw [if_neg h', if_neg]
        · rfl
        · rintro (⟨rfl, rfl⟩ | ⟨rfl, rfl⟩)
          · exact h ⟨rfl, rfl⟩
          · exact h' ⟨rfl, rfl⟩

theorem scan_any (c : Char) (s : Str) : scan A pAny (c :: s) = if c = '\n' then none else some s := rfl

def escRule : Rule := ⟨pEscape, none, .token 273⟩
def plainRule : Rule := ⟨pPlain, none, .token 272⟩
def openRule : Rule := ⟨pAny, some stInitial, .ascii⟩

theorem text_rules : avtLexer.rules.getD 2 [] = [escRule, plainRule, openRule] := rfl

/-- Text up to the next brace. -/
theorem text_plain {c : Char} (h : isBrace c = false) (s : Str) :
    bestRule A (avtLexer.rules.getD 2 []) (c :: s) =
      some (plainRule, s.dropWhile fun c => !isBrace c) := by
  have h1 : scan A escRule.prog (c :: s) = none := by
    show scan A pEscape (c :: s) = none
    rw [scan_escape]
    cases s with
    | nil => rfl
    | cons d r =>
      dsimp only
      rw [if_neg]
      rintro (⟨rfl, _⟩ | ⟨rfl, _⟩) <;> exact (nomatch h)
  rw [text_rules, best_skip h1, bestRule, best_one]
  have h2 : scan A plainRule.prog (c :: s) = some (s.dropWhile fun c => !isBrace c) := by
    show scan A pPlain (c :: s) = _
    rw [scan_plain, h]
    rfl
  have h3 : scan A openRule.prog (c :: s) = if c = '\n' then none else some s := scan_any c s
  rw [h2, h3]
  by_cases hn : c = '\n'
  · rw [if_pos hn]; rfl
  · rw [if_neg hn]
    have : (s.dropWhile fun c => !isBrace c).length ≤ s.length := (List.dropWhile_sublist _).length_le
    simp only [Option.map_some]
    rw [if_neg (by omega)]

theorem text_double {c d : Char} (h : Doubled c d) (s : Str) :
    bestRule A (avtLexer.rules.getD 2 []) (c :: d :: s) = some (escRule, s) := by
  have hb : isBrace c = true ∧ c ≠ '\n' := by
    rcases h with ⟨rfl, _⟩ | ⟨rfl, _⟩ <;> decide
  have h1 : scan A escRule.prog (c :: d :: s) = some s := by
    show scan A pEscape (c :: d :: s) = _
    rw [scan_escape]
    exact if_pos h
  have h2 : scan A plainRule.prog (c :: d :: s) = none := by
    show scan A pPlain (c :: d :: s) = _
    rw [scan_plain, hb.1]
    rfl
  have h3 : scan A openRule.prog (c :: d :: s) = some (d :: s) := by
    show scan A pAny (c :: d :: s) = _
    rw [scan_any, if_neg hb.2]
  rw [text_rules, bestRule, h1, best_skip h2, best_one, h3]
  simp only [Option.map_some]
  rw [if_neg (by rw [List.length_cons]; omega)]

theorem text_single {c : Char} (hb : isBrace c = true) {s : Str}
    (h : ∀ d r, s = d :: r → ¬ Doubled c d) :
    bestRule A (avtLexer.rules.getD 2 []) (c :: s) = some (openRule, s) := by
  have hn : c ≠ '\n' := by rintro rfl; exact (nomatch hb)
  have h1 : scan A escRule.prog (c :: s) = none := by
    show scan A pEscape (c :: s) = _
    rw [scan_escape]
    cases s with
    | nil => rfl
    | cons d r => exact if_neg (h d r rfl)
  have h2 : scan A plainRule.prog (c :: s) = none := by
    show scan A pPlain (c :: s) = _
    rw [scan_plain, hb]
    rfl
  have h3 : scan A openRule.prog (c :: s) = some s := by
    show scan A pAny (c :: s) = _
    rw [scan_any, if_neg hn]
  rw [text_rules, best_skip h1, best_skip h2, best_one, h3]
  rfl

theorem text_kinds : avtLexer.kind 272 = 18 ∧ avtLexer.kind 273 = 19 ∧ avtLexer.kind 123 = 20 ∧
    avtLexer.kind 125 = 21 := by decide +kernel

/-! ### One token -/

theorem cons_takeWhile (c : Char) (s : Str) (q : Char → Bool) :
    (c :: s).take ((c :: s).length - (s.dropWhile q).length) = c :: s.takeWhile q := by
  have e : c :: s = (c :: s.takeWhile q) ++ s.dropWhile q := by
    rw [List.cons_append, List.takeWhile_append_dropWhile]
  have := take_append (c :: s.takeWhile q) (s.dropWhile q)
  rw [← e] at this
  exact this

theorem toks_plain {c : Char} (h : isBrace c = false) {s : Str} {us : List Tok}
    (hr : Toks avtLexer 2 (s.dropWhile fun c => !isBrace c) us) :
    Toks avtLexer 2 (c :: s) (⟨18, c :: s.takeWhile fun c => !isBrace c⟩ :: us) := by
  have := Toks.token (L := avtLexer) (st := 2) (c := c) (cs := s) (r := plainRule)
    (rest := s.dropWhile fun c => !isBrace c) (n := 272) (text_plain h s) rfl (by decide) hr
  rw [text_kinds.1, cons_takeWhile] at this
  exact this

theorem toks_double {c d : Char} (h : Doubled c d) {s : Str} {us : List Tok}
    (hr : Toks avtLexer 2 s us) : Toks avtLexer 2 (c :: d :: s) (⟨19, [c, d]⟩ :: us) := by
  have := Toks.token (L := avtLexer) (st := 2) (c := c) (cs := d :: s) (r := escRule)
    (rest := s) (n := 273) (text_double h s) rfl (by decide) hr
  rw [text_kinds.2.1] at this
  have e := take_append [c, d] s
  rw [show [c, d] ++ s = c :: d :: s from rfl] at e
  rw [e] at this
  exact this

theorem toks_open {s : Str} {us : List Tok} (h : ∀ r, s ≠ '{' :: r) (hr : Toks avtLexer 1 s us) :
    Toks avtLexer 2 ('{' :: s) (⟨20, ['{']⟩ :: us) := by
  have := Toks.token (L := avtLexer) (st := 2) (c := '{') (cs := s) (r := openRule)
    (rest := s) (n := 123) (text_single (by decide) (by
      rintro d r rfl (⟨_, rfl⟩ | ⟨h1, _⟩)
      · exact h r rfl
      · exact absurd h1 (by decide))) rfl (by decide) hr
  rw [text_kinds.2.2.1] at this
  have e := take_append ['{'] s
  rw [show ['{'] ++ s = '{' :: s from rfl] at e
  rw [e] at this
  exact this

/-- The first token of a text, outside of expressions. -/
inductive TextStep : Str → Tok → Nat → Str → Prop where
  | plain {c s} : isBrace c = false → TextStep (c :: s) ⟨18, c :: s.takeWhile fun c => !isBrace c⟩ 2
      (s.dropWhile fun c => !isBrace c)
  | double {c d s} : Doubled c d → TextStep (c :: d :: s) ⟨19, [c, d]⟩ 2 s
  | left {s} : (∀ r, s ≠ '{' :: r) → TextStep ('{' :: s) ⟨20, ['{']⟩ 1 s
  | right {s} : (∀ r, s ≠ '}' :: r) → TextStep ('}' :: s) ⟨21, ['}']⟩ 1 s

theorem isBrace_cases {c : Char} (h : isBrace c = true) : c = '{' ∨ c = '}' := by
  rw [isBrace, Bool.or_eq_true, beq_iff_eq, beq_iff_eq] at h
  exact h

theorem number_token {r : Rule} {c : Char} {n m : Nat} (h : number r c = some n)
    (h' : number r c = some m) : n = m := by rw [h] at h'; exact Option.some.inj h'

theorem toks_step {s : Str} {us : List Tok} (h : Toks avtLexer 2 s us) :
    (s = [] ∧ us = []) ∨ ∃ t st s' us', TextStep s t st s' ∧ Toks avtLexer st s' us' ∧ us = t :: us' := by
  have key : ∀ c cs, s = c :: cs → ∃ r rest t n, bestRule A (avtLexer.rules.getD 2 []) (c :: cs) =
      some (r, rest) ∧ TextStep (c :: cs) t (r.next.getD 2) rest ∧ number r c = some n ∧ n ≠ 0 ∧
      t = ⟨avtLexer.kind n, (c :: cs).take ((c :: cs).length - rest.length)⟩ := by
    intro c cs _
    by_cases hb : isBrace c = true
    · have single : ∀ cs, (∀ d r, cs = d :: r → ¬ Doubled c d) →
          ∃ r rest t n, bestRule A (avtLexer.rules.getD 2 []) (c :: cs) =
          some (r, rest) ∧ TextStep (c :: cs) t (r.next.getD 2) rest ∧ number r c = some n ∧ n ≠ 0 ∧
          t = ⟨avtLexer.kind n, (c :: cs).take ((c :: cs).length - rest.length)⟩ := by
        intro cs hd
        have e := take_append [c] cs
        rw [show [c] ++ cs = c :: cs from rfl] at e
        rcases isBrace_cases hb with rfl | rfl
        · refine ⟨openRule, cs, ⟨20, ['{']⟩, 123, text_single hb hd, .left ?_, rfl, by decide, ?_⟩
          · rintro r rfl; exact hd _ _ rfl (.inl ⟨rfl, rfl⟩)
          · rw [e, text_kinds.2.2.1]
        · refine ⟨openRule, cs, ⟨21, ['}']⟩, 125, text_single hb hd, .right ?_, rfl, by decide, ?_⟩
          · rintro r rfl; exact hd _ _ rfl (.inr ⟨rfl, rfl⟩)
          · rw [e, text_kinds.2.2.2]
      cases cs with
      | nil => exact single [] nofun
      | cons d cs =>
        by_cases hd : Doubled c d
        · have e := take_append [c, d] cs
          rw [show [c, d] ++ cs = c :: d :: cs from rfl] at e
          exact ⟨escRule, cs, ⟨19, [c, d]⟩, 273, text_double hd cs, .double hd, rfl, by decide,
            by rw [e, text_kinds.2.1]⟩
        · exact single (d :: cs) (by rintro _ _ e; injection e with e _; rw [← e]; exact hd)
    · have hb : isBrace c = false := by simpa using hb
      exact ⟨plainRule, _, _, 272, text_plain hb cs, .plain hb, rfl, by decide,
        by rw [cons_takeWhile, text_kinds.1]⟩
  cases h with
  | nil => exact .inl ⟨rfl, rfl⟩
  | @char _ c cs ts hb _ _ =>
    obtain ⟨r, rest, t, n, h1, _⟩ := key c cs rfl
    have hb : bestRule A (avtLexer.rules.getD 2 []) (c :: cs) = none := hb
    rw [h1] at hb
    exact (nomatch hb)
  | @charEnd _ c cs hb _ =>
    obtain ⟨r, rest, t, n, h1, _⟩ := key c cs rfl
    have hb : bestRule A (avtLexer.rules.getD 2 []) (c :: cs) = none := hb
    rw [h1] at hb
    exact (nomatch hb)
  | @token _ c cs r' rest' n' ts hb hr hn ht =>
    obtain ⟨r, rest, t, n, h1, h2, h3, h4, rfl⟩ := key c cs rfl
    have hb : bestRule A (avtLexer.rules.getD 2 []) (c :: cs) = some (r', rest') := hb
    rw [h1] at hb
    injection hb with hb
    injection hb with e1 e2
    subst e1 e2
    have := number_token h3 hr
    subst this
    exact .inr ⟨_, _, rest, ts, h2, ht, rfl⟩
  | @tokenEnd _ c cs r' rest' hb hr =>
    obtain ⟨r, rest, t, n, h1, h2, h3, h4, rfl⟩ := key c cs rfl
    have hb : bestRule A (avtLexer.rules.getD 2 []) (c :: cs) = some (r', rest') := hb
    rw [h1] at hb
    injection hb with hb
    injection hb with e1 e2
    subst e1 e2
    exact absurd (number_token h3 hr) h4
  | @discard _ c cs r' rest' ts hb hg ht =>
    obtain ⟨r, rest, t, n, h1, h2, h3, h4, rfl⟩ := key c cs rfl
    have hb : bestRule A (avtLexer.rules.getD 2 []) (c :: cs) = some (r', rest') := hb
    rw [h1] at hb
    injection hb with hb
    injection hb with e1 e2
    subst e1 e2
    rw [number, hg] at h3
    exact (nomatch h3)
  | @again _ c cs r' rest' ts hb hg ht =>
    obtain ⟨r, rest, t, n, h1, h2, h3, h4, rfl⟩ := key c cs rfl
    have hb : bestRule A (avtLexer.rules.getD 2 []) (c :: cs) = some (r', rest') := hb
    rw [h1] at hb
    injection hb with hb
    injection hb with e1 e2
    subst e1 e2
    rw [number, hg] at h3
    exact (nomatch h3)

end Verif.Parse
