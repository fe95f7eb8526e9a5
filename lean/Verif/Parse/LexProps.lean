import Verif.Parse.LexSim
import Verif.Parse.LexTotal
import Verif.Parse.XPathProps
/-
C65: the text of an XPath expression, from characters to tokens, and both
parts of the parser together.
-/
namespace Verif.Parse
open Spec

/-! ### The lexer always ends and loses nothing -/

theorem best_scan {S : Sets} {rs : List Rule} {s : Str} {r : Rule} {rest : Str}
    (h : bestRule S rs s = some (r, rest)) : r ∈ rs ∧ scan S r.prog s = some rest := best_mem h

def ruleOk (st : Nat) (r : Rule) : Bool :=
  !nullable r.prog &&
  (match r.give with
    | .token n => decide (n ≠ 0)
    | .ascii => true
    | .discard => true
    | .again => decide (st = stOperator ∧ r.next = some stInitial)) &&
  decide (r.next.getD st = stInitial ∨ r.next.getD st = stOperator)

theorem rules_ok : ∀ st, st = stInitial ∨ st = stOperator →
    (xpathLexer.rules.getD st []).all (ruleOk st) = true := by
  rintro st (rfl | rfl) <;> decide +kernel

theorem shorter {s r : Str} (h : Left true s r) : r.length < s.length := by
  obtain ⟨w, rfl, hw⟩ := h
  have := List.length_pos_iff.mpr (hw rfl)
  rw [List.length_append]
  omega

theorem lex_total_from : ∀ (f st : Nat) (s : Str), st = stInitial ∨ st = stOperator →
    need st s ≤ f → ∃ ts, lexFrom xpathLexer f st s = some ts := by
  intro f
  induction f with
  | zero =>
    intro st s hst hf
    cases s with
    | nil => exact ⟨[], by rw [lexFrom]⟩
    | cons c cs => rw [need] at hf; simp only [List.length_cons] at hf; omega
  | succ f ih =>
    intro st s hst hf
    cases s with
    | nil => exact ⟨[], by rw [lexFrom]⟩
    | cons c cs =>
      have hem : ∀ n t r, (∃ ts, r = some ts) → ∃ ts, emit xpathLexer n t r = some ts := by
        rintro n t _ ⟨ts, rfl⟩
        rw [emit]
        split
        · exact ⟨[], rfl⟩
        · exact ⟨_, rfl⟩
      have hle : ∀ st' s', s'.length < (c :: cs).length → need st' s' ≤ f := by
        intro st' s' h
        have := need_le st' s'
        rw [need] at hf
        omega
      rw [lexFrom]
      cases hb : bestRule xpathLexer.sets (xpathLexer.rules.getD st []) (c :: cs) with
      | none => exact hem _ _ _ (ih st cs hst (hle _ _ (by simp)))
      | some b =>
        obtain ⟨r, rest⟩ := b
        dsimp only
        obtain ⟨hm, hs⟩ := best_scan hb
        have hok := List.all_eq_true.mp (rules_ok st hst) r hm
        rw [ruleOk, Bool.and_eq_true, Bool.and_eq_true, decide_eq_true_eq] at hok
        have hlt : rest.length < (c :: cs).length := by
          have := scan_left _ _ _ _ hs
          rw [hok.1.1] at this
          exact shorter this
        have go := ih (r.next.getD st) rest hok.2 (hle _ _ hlt)
        cases hg : r.give with
        | token n => exact hem _ _ _ go
        | ascii => exact hem _ _ _ go
        | discard => exact go
        | again =>
          have h2 := hok.1.2
          rw [hg] at h2
          simp only [decide_eq_true_eq] at h2
          obtain ⟨rfl, h2⟩ := h2
          dsimp only
          rw [h2]
          refine ih stInitial (c :: cs) (.inl rfl) ?_
          rw [need, if_neg (by decide)] at hf
          rw [need, if_pos rfl]
          omega

/-- The lexer comes to an end for every text. -/
theorem C65_total (s : Str) : ∃ ts, lex xpathLexer s = some ts :=
  lex_total_from _ stInitial s (.inl rfl) (by rw [need, if_pos rfl]; omega)

theorem kinds_ok : ∀ n ∈ List.range 300, n ≠ 0 →
    0 < xpathLexer.kind n ∧ xpathLexer.kind n < 58 := by decide +kernel

theorem kind_ok {n : Nat} (hn : n ≠ 0) : 0 < xpathLexer.kind n ∧ xpathLexer.kind n < 58 := by
  by_cases h : n < 300
  · exact kinds_ok n (List.mem_range.mpr h) hn
  · rw [Lexer.kind, if_neg]
    · decide
    · have : xpathLexer.translate.length ≤ 300 := by decide +kernel
      omega

theorem lex_kinds : ∀ (f st : Nat) (s : Str) (ts : List Tok),
    lexFrom xpathLexer f st s = some ts → Tokens58 ts := by
  intro f
  induction f with
  | zero =>
    intro st s ts h
    cases s with
    | nil => rw [lexFrom] at h; injection h with h; subst h; nofun
    | cons c cs => rw [lexFrom] at h; exact (nomatch h)
  | succ f ih =>
    intro st s ts h
    cases s with
    | nil => rw [lexFrom] at h; injection h with h; subst h; nofun
    | cons c cs =>
      have hem : ∀ n t r, (∀ ts, r = some ts → Tokens58 ts) →
          ∀ ts, emit xpathLexer n t r = some ts → Tokens58 ts := by
        intro n t r hr ts h
        rw [emit] at h
        split at h
        · injection h with h; subst h; nofun
        · next hn =>
          cases r with
          | none => exact (nomatch h)
          | some l =>
            have hk := kind_ok hn
            generalize xpathLexer.kind n = k at hk h
            injection h with h
            subst h
            intro x hx
            rcases List.mem_cons.mp hx with rfl | hx
            · exact hk
            · exact hr l rfl x hx
      rw [lexFrom] at h
      cases hb : bestRule xpathLexer.sets (xpathLexer.rules.getD st []) (c :: cs) with
      | none => rw [hb] at h; exact hem _ _ _ (ih st cs) ts h
      | some b =>
        obtain ⟨r, rest⟩ := b
        rw [hb] at h
        dsimp only at h
        cases hg : r.give with
        | token n => rw [hg] at h; exact hem _ _ _ (ih _ _) ts h
        | ascii => rw [hg] at h; exact hem _ _ _ (ih _ _) ts h
        | discard => rw [hg] at h; exact ih _ _ ts h
        | again => rw [hg] at h; exact ih _ _ ts h

namespace Spec

/-- The text consists of the texts of these tokens, one after the other, with
white space between them. -/
inductive Covers : Str → List Tok → Prop where
  | nil : Covers [] []
  | space {c s ts} : Space c → Covers s ts → Covers (c :: s) ts
  | token {t s ts} : t.text ≠ [] → Covers s ts → Covers (t.text ++ s) (t :: ts)

end Spec

theorem covers_spaces {sp s : Str} {ts : List Tok} (h : ∀ c ∈ sp, Space c) (hs : Covers s ts) :
    Covers (sp ++ s) ts := by
  induction sp with
  | nil => exact hs
  | cons c cs ih =>
    exact .space (h c List.mem_cons_self) (ih fun x hx => h x (List.mem_cons_of_mem _ hx))

theorem discard_space : ∀ st, st = stInitial ∨ st = stOperator →
    ∀ r ∈ xpathLexer.rules.getD st [], r.give = .discard → r.prog = pSpace := by
  rintro st (rfl | rfl) r hr hg
  · rw [initial_rules] at hr
    simp only [initialRules, List.mem_cons, List.not_mem_nil, or_false] at hr
    rcases hr with rfl | rfl | rfl | rfl | rfl | rfl | rfl | rfl | rfl | rfl | rfl | rfl | rfl |
      rfl | rfl <;> first | rfl | exact (nomatch hg)
  · rw [operator_rules] at hr
    simp only [operatorRules, List.mem_cons, List.not_mem_nil, or_false] at hr
    rcases hr with rfl | rfl | rfl | rfl | rfl <;> first | rfl | exact (nomatch hg)

theorem lex_covers : ∀ (f st : Nat) (s : Str) (ts : List Tok), st = stInitial ∨ st = stOperator →
    (∀ c ∈ s, c.toNat ≠ 0) → lexFrom xpathLexer f st s = some ts → Covers s ts := by
  intro f
  induction f with
  | zero =>
    intro st s ts _ _ h
    cases s with
    | nil => rw [lexFrom] at h; injection h with h; subst h; exact .nil
    | cons c cs => rw [lexFrom] at h; exact (nomatch h)
  | succ f ih =>
    intro st s ts hst h0 h
    cases s with
    | nil => rw [lexFrom] at h; injection h with h; subst h; exact .nil
    | cons c cs =>
      have hem : ∀ n w rest r, n ≠ 0 → w ≠ [] → (∀ ts, r = some ts → Covers rest ts) →
          emit xpathLexer n w r = some ts → Covers (w ++ rest) ts := by
        intro n w rest r hn hw hr h
        rw [emit, if_neg hn] at h
        cases r with
        | none => exact (nomatch h)
        | some l =>
          injection h with h
          subst h
          exact Covers.token (t := ⟨_, w⟩) hw (hr l rfl)
      have hc := h0 c List.mem_cons_self
      rw [lexFrom] at h
      cases hb : bestRule xpathLexer.sets (xpathLexer.rules.getD st []) (c :: cs) with
      | none =>
        rw [hb] at h
        exact hem _ [c] cs _ hc (by simp)
          (fun ts h' => ih st cs ts hst (fun x hx => h0 x (List.mem_cons_of_mem _ hx)) h') h
      | some b =>
        obtain ⟨r, rest⟩ := b
        rw [hb] at h
        dsimp only at h
        obtain ⟨hm, hs⟩ := best_scan hb
        have hok := List.all_eq_true.mp (rules_ok st hst) r hm
        rw [ruleOk, Bool.and_eq_true, Bool.and_eq_true, decide_eq_true_eq] at hok
        have hl := scan_left _ _ _ _ hs
        rw [hok.1.1] at hl
        obtain ⟨w, e, hw⟩ := hl
        have hw := hw rfl
        have hrest : ∀ x ∈ rest, x.toNat ≠ 0 := fun x hx => h0 x (by rw [e]; simp [hx])
        rw [e, take_append] at h
        rw [e]
        cases hg : r.give with
        | token n =>
          rw [hg] at h
          have h2 := hok.1.2
          rw [hg] at h2
          exact hem n w rest _ (by simpa using h2) hw
            (fun ts h' => ih _ rest ts hok.2 hrest h') h
        | ascii =>
          rw [hg] at h
          exact hem _ w rest _ hc hw (fun ts h' => ih _ rest ts hok.2 hrest h') h
        | discard =>
          rw [hg] at h
          refine covers_spaces ?_ (ih _ rest ts hok.2 hrest h)
          have hp := discard_space st hst r hm hg
          have hs : scan X r.prog (c :: cs) = some rest := hs
          rw [hp, scan_space] at hs
          by_cases hsp : isSp c = true
          · rw [if_pos hsp] at hs
            injection hs with hs
            have e2 : w ++ rest = (c :: cs.takeWhile isSp) ++ rest := by
              rw [← e, ← hs, List.cons_append, List.takeWhile_append_dropWhile]
            rw [List.append_cancel_right e2]
            intro x hx
            rcases List.mem_cons.mp hx with rfl | hx
            · exact spec_space.mpr hsp
            · exact takeWhile_spaces cs x hx
          · rw [if_neg hsp] at hs
            exact (nomatch hs)
        | again =>
          rw [hg] at h
          dsimp only at h
          rw [← e] at h ⊢
          exact ih _ _ ts hok.2 h0 h

/-- The tokens of a text without U+0000 cover all of it: nothing but white
space between tokens is dropped. -/
theorem C65_lossless (s : Str) (h0 : ∀ c ∈ s, c.toNat ≠ 0) (ts : List Tok)
    (h : lex xpathLexer s = some ts) : Covers s ts :=
  lex_covers _ stInitial s ts (.inl rfl) h0 h

/-! ### The tokens of the recommendation -/

/-- A text that has tokens by the recommendation is read as these tokens. -/
theorem C65_tokens_partial (s : Str) (ts : List Tok) (h : Lexes false s ts) :
    lex xpathLexer s = some ts :=
  lexes_lex _ s rfl false ts h stInitial _ (.inl ⟨rfl, rfl⟩) (by rw [need, if_pos rfl]; omega)

/-- The recommendation gives a text one sequence of tokens at most. -/
theorem C65_unambiguous (s : Str) (ts ts' : List Tok) (h : Lexes false s ts)
    (h' : Lexes false s ts') : ts = ts' := by
  have := C65_tokens_partial s ts h
  rw [C65_tokens_partial s ts' h'] at this
  injection this with this
  exact this.symm

/-- `parser_parse` with its lexer: what happens to the text of an expression. -/
def compileText (s : Str) : Parsed :=
  match lex xpathLexer s with
  | none => .stuck
  | some ts => parseXPath ts

/-- Every text is compiled or rejected, or overflows the stack. -/
theorem C65_compile_total (s : Str) :
    (∃ t, compileText s = .ok t) ∨ (∃ l, compileText s = .error l) ∨
      compileText s = .overflow := by
  obtain ⟨ts, h⟩ := C65_total s
  rw [compileText, h]
  exact C64_total ts (lex_kinds _ _ _ _ h)

/-- An expression of the recommendation (without repeated minus signs), of less
than 500 tokens, is compiled, and the tokens in the tree are its tokens. -/
theorem C65_compile_partial (s : Str) (ts : List Tok) (h : Lexes false s ts)
    (hn : ts.length < 500) (hp : Phrase ⟨false, false⟩ .expr ts) :
    ∃ t, compileText s = .ok t ∧ yield t = ts := by
  have hc : Phrase code .expr ts :=
    phrase_mono (d := ⟨false, false⟩) (d' := code) id (fun _ => rfl) hp
  obtain ⟨t, ht⟩ := C64_complete ts hn hc
  refine ⟨t, ?_, (C64_sound ts (expr_kinds hc) t ht).2⟩
  rw [compileText, C65_tokens_partial s ts h]
  exact ht

/-- A text that has tokens but is no expression is not compiled. -/
theorem C65_reject (s : Str) (ts : List Tok) (h : Lexes false s ts)
    (hp : ¬ Phrase code .expr ts) (t : Tree) : compileText s ≠ .ok t := by
  intro ht
  rw [compileText, C65_tokens_partial s ts h] at ht
  exact hp (C64_sound ts (lex_kinds _ _ _ _ (C65_tokens_partial s ts h)) t ht).1

/-! An example: `a[1] * b` has a name test, a number and an operator. -/

def exText : Str := "a[1] * b".toList
def exToks : List Tok := [tk .nameTest "a", tk .lbracket "[", tk .number "1", tk .rbracket "]",
  tk .multiplicative "*", tk .nameTest "b"]

theorem one_letter {c : Char} (h : isStart c = true) : NCName [c] :=
  ⟨c, [], rfl, (isStart_iff c).mp h, nofun⟩

theorem not_next {w s : Str} (h : nextParen s = false) : w = ['('] → ¬ NextIs w s := by
  rintro rfl hn
  rw [nextParen_iff.mpr hn] at h
  exact (nomatch h)

theorem not_next' {w s : Str} (h : nextColons s = false) : w = [':', ':'] → ¬ NextIs w s := by
  rintro rfl hn
  rw [nextColons_iff.mpr hn] at h
  exact (nomatch h)

theorem ends_name {s : Str} (h : (match s with
    | [] => true
    | c :: _ => !isName c && (c != ':')) = true) :
    Ends (fun c => Names.Spec.NCNameChar c.toNat ∨ c = ':') s := by
  intro c cs e hc
  subst e
  dsimp only at h
  rw [Bool.and_eq_true] at h
  rcases hc with hc | rfl
  · rw [(isName_iff c).mpr hc] at h
    exact (nomatch h.1)
  · exact (nomatch h.2)

theorem ex_lexes : Lexes false exText exToks := by
  refine Lexes.token (k := .nameTest) (w := ['a']) (rest := "[1] * b".toList)
    (.name (one_letter (by decide +kernel)) (ends_name (by decide +kernel))
      (not_next (by decide +kernel) rfl) (not_next' (by decide +kernel) rfl)) ?_
  refine Lexes.token (k := .lbracket) (w := ['[']) (rest := "1] * b".toList)
    (.single (by decide)) ?_
  refine Lexes.token (k := .number) (w := ['1']) (rest := "] * b".toList)
    (.integer (by simp) (by intro c hc; obtain rfl := List.mem_singleton.mp hc
                            exact ⟨by decide, by decide⟩) ?_) ?_
  · intro c cs e hc
    injection e with e _
    subst e
    rcases hc with hc | hc
    · exact absurd hc (by decide)
    · exact absurd hc.2 (by decide)
  refine Lexes.token (k := .rbracket) (w := [']']) (rest := " * b".toList)
    (.single (by decide)) ?_
  refine Lexes.space (.inl rfl) ?_
  refine Lexes.token (k := .multiplicative) (w := ['*']) (rest := " b".toList) .times ?_
  refine Lexes.space (.inl rfl) ?_
  exact Lexes.token (k := .nameTest) (w := ['b']) (rest := [])
    (.name (one_letter (by decide +kernel)) (ends_name (by decide +kernel))
      (not_next (by decide +kernel) rfl) (not_next' (by decide +kernel) rfl)) .nil

example : Lexes false exText exToks ∧ exToks.length < 500 ∧
    (∃ t, compileText exText = .ok t) := by
  refine ⟨ex_lexes, by decide, ?_⟩
  rw [compileText, C65_tokens_partial _ _ ex_lexes]
  exact isOk_iff.mp (by decide +kernel)

/-! ### Where the lexer differs -/

theorem lexes_inv {op : Bool} {s : Str} {t : Tok} {ts : List Tok} (h : Lexes op s (t :: ts)) :
    ∃ sp k rest, s = sp ++ (t.text ++ rest) ∧ (∀ c ∈ sp, Space c) ∧ t.kind = k.num ∧
      Token op k t.text rest ∧ Lexes (opAfter k) rest ts := by
  generalize hl : t :: ts = l at h
  induction h with
  | nil => exact (nomatch hl)
  | space hc _ ih =>
    obtain ⟨sp, k, rest, rfl, h1, h2⟩ := ih hl
    exact ⟨_ :: sp, k, rest, rfl, by
      intro x hx
      rcases List.mem_cons.mp hx with rfl | hx
      · exact hc
      · exact h1 x hx, h2⟩
  | @token _ k w rest ts' ht hr _ =>
    injection hl with h1 h2
    subst h1 h2
    exact ⟨[], k, rest, rfl, nofun, rfl, ht, hr⟩

theorem lexes_nil {op : Bool} {s : Str} (h : Lexes op s []) : ∀ c ∈ s, Space c := by
  generalize hl : ([] : List Tok) = l at h
  induction h with
  | nil => nofun
  | space hc _ ih =>
    intro x hx
    rcases List.mem_cons.mp hx with rfl | hx
    · exact hc
    · exact ih hl x hx
  | token => exact (nomatch hl)

theorem token_drop {op : Bool} {k : Term} {w rest r : Str} (h : Token op k w rest) :
    (w ++ r).dropWhile isSp = w ++ r := by
  obtain ⟨c, cs, rfl, hc⟩ := token_first h
  rw [List.cons_append, List.dropWhile_cons, if_neg (by rw [(first_ok hc).2]; nofun)]

theorem num_inj {a b : Term} (h : a.num = b.num) : a = b := by
  cases a <;> cases b <;> first | rfl | exact absurd h (by decide)

theorem lexes_head {op : Bool} {s u : Str} {k : Term} {w : Str} {ts : List Tok}
    (h : Lexes op s (⟨k.num, w⟩ :: ts)) (e : s.dropWhile isSp = w ++ u) :
    Token op k w u ∧ Lexes (opAfter k) u ts := by
  obtain ⟨sp, k', rest, rfl, h1, h2, h3, h4⟩ := lexes_inv h
  rw [drop_spaces h1, token_drop h3] at e
  obtain rfl := List.append_cancel_left e
  obtain rfl := num_inj h2
  exact ⟨h3, h4⟩

theorem lexes_code {s : Str} {ts : List Tok} (h : lex xpathLexer s = some ts)
    (hl : ∃ ts, Lexes false s ts) : Lexes false s ts := by
  obtain ⟨ts', hl⟩ := hl
  have := C65_tokens_partial s ts' hl
  rw [h] at this
  injection this with this
  exact this ▸ hl

/-- `1 mod2` is compiled, as if there were a space before the 2, and so is
`a order`, as `a or der`; by the recommendation the operator names of these
texts are `mod2` and `order`, which do not exist. -/
theorem C65_refuted_operator :
    (isOk (compileText "1 mod2".toList) = true ∧ ¬ ∃ ts, Lexes false "1 mod2".toList ts) ∧
    (isOk (compileText "a order".toList) = true ∧ ¬ ∃ ts, Lexes false "a order".toList ts) := by
  have key : ∀ (k : Term) (c : Char) (w : Str) (d : Char) (r : Str), c ∉ plainChars → c ≠ '*' →
      isName d = true → ¬ Token true k (c :: w) (d :: r) := by
    intro k c w d r hc hs hd h
    rcases token_split h with ⟨_, h⟩ | ⟨_, h⟩ | ⟨_, c', cs, e, h⟩
    · injection h with h _
      exact hs h
    · exact h d r rfl ((isName_iff d).mp hd)
    · injection e with e _
      exact hc (e ▸ h)
  refine ⟨⟨by decide +kernel, fun h => ?_⟩, by decide +kernel, fun h => ?_⟩
  · have h1 := lexes_code (ts := [tk .number "1", tk .multiplicative "mod", tk .number "2"])
      (by decide +kernel) h
    have h2 := lexes_head (u := " mod2".toList) h1 (by decide +kernel)
    have h3 := lexes_head (u := "2".toList) h2.2 (by decide +kernel)
    exact key _ _ _ _ _ (by decide) (by decide) (by decide +kernel) h3.1
  · have h1 := lexes_code (ts := [tk .nameTest "a", tk .or "or", tk .nameTest "der"])
      (by decide +kernel) h
    have h2 := lexes_head (u := " order".toList) h1 (by decide +kernel)
    have h3 := lexes_head (u := "der".toList) h2.2 (by decide +kernel)
    exact key _ _ _ _ _ (by decide) (by decide) (by decide +kernel) h3.1

/-- A digit of another script is compiled as a number. -/
theorem C65_refuted_digit : isOk (compileText [Char.ofNat 0x663]) = true ∧
    ¬ ∃ ts, Lexes false [Char.ofNat 0x663] ts := by
  refine ⟨by decide +kernel, fun h => ?_⟩
  have h1 := lexes_code (ts := [⟨Term.number.num, [Char.ofNat 0x663]⟩]) (by decide +kernel) h
  have h2 := lexes_head (u := []) h1 (by decide +kernel)
  obtain ⟨c, cs, e, h3⟩ := token_first h2.1
  injection e with e _
  subst e
  revert h3
  decide +kernel

/-- What follows a character U+0000 is ignored: here a parenthesis that is not
closed. -/
theorem C65_refuted_nul : isOk (compileText ['1', Char.ofNat 0, '(']) = true ∧
    ¬ ∃ ts, Lexes false ['1', Char.ofNat 0, '('] ts := by
  refine ⟨by decide +kernel, fun h => ?_⟩
  have h1 := lexes_code (ts := [tk .number "1"]) (by decide +kernel) h
  have h2 := lexes_head (u := [Char.ofNat 0, '(']) h1 (by decide +kernel)
  have h3 := spec_space.mp (lexes_nil h2.2 (Char.ofNat 0) List.mem_cons_self)
  revert h3
  decide +kernel

end Verif.Parse
