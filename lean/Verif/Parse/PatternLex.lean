import Verif.Parse.PatternMeans
import Verif.Parse.AvtSim
/-
The lexer of patterns: after the first `[` it reads as that of XPath does.
-/
namespace Verif.Parse
open Spec

theorem pattern_sets : patternSets = xpathSets := rfl

/-! ### It ends -/

def patRuleOk (st : Nat) (r : Rule) : Bool :=
  !nullable r.prog &&
  (match r.give with
    | .again => decide (st = 3 ∧ r.next = some 1)
    | _ => true) &&
  decide (r.next.getD st = 1 ∨ r.next.getD st = 2 ∨ r.next.getD st = 3)

theorem pat_rules_ok : ∀ st, st = 1 ∨ st = 2 ∨ st = 3 →
    (patternLexer.rules.getD st []).all (patRuleOk st) = true := by
  rintro st (rfl | rfl | rfl) <;> decide +kernel

theorem pat_total_from : ∀ (f st : Nat) (s : Str), st = 1 ∨ st = 2 ∨ st = 3 →
    avtNeed st s ≤ f → ∃ ts, lexFrom patternLexer f st s = some ts := by
  intro f
  induction f with
  | zero =>
    intro st s hst hf
    cases s with
    | nil => exact ⟨[], by rw [lexFrom]⟩
    | cons c cs => rw [avtNeed] at hf; simp only [List.length_cons] at hf; omega
  | succ f ih =>
    intro st s hst hf
    cases s with
    | nil => exact ⟨[], by rw [lexFrom]⟩
    | cons c cs =>
      have hem : ∀ n t r, (∃ ts, r = some ts) → ∃ ts, emit patternLexer n t r = some ts := by
        rintro n t _ ⟨ts, rfl⟩
        rw [emit]
        split
        · exact ⟨[], rfl⟩
        · exact ⟨_, rfl⟩
      have hle : ∀ st' s', s'.length < (c :: cs).length → avtNeed st' s' ≤ f := by
        intro st' s' h
        have := avtNeed_le st' s'
        rw [avtNeed] at hf
        omega
      rw [lexFrom]
      cases hb : bestRule patternLexer.sets (patternLexer.rules.getD st []) (c :: cs) with
      | none => exact hem _ _ _ (ih st cs hst (hle _ _ (by simp)))
      | some b =>
        obtain ⟨r, rest⟩ := b
        dsimp only
        obtain ⟨hm, hs⟩ := best_scan hb
        have hok := List.all_eq_true.mp (pat_rules_ok st hst) r hm
        rw [patRuleOk, Bool.and_eq_true, Bool.and_eq_true, decide_eq_true_eq] at hok
        have hlt : rest.length < (c :: cs).length := by
          have := scan_left _ _ _ _ hs
          rw [hok.1.1] at this
          exact shorter this
        have go := ih (r.next.getD st) rest hok.2 (hle _ _ hlt)
        cases hg : r.give with
        | token n => exact hem _ _ _ go
        | ascii => exact hem _ _ _ go
        | discard => exact go
        | again =>
          have h2 := hok.1.2
          rw [hg] at h2
          simp only [decide_eq_true_eq] at h2
          obtain ⟨rfl, h2⟩ := h2
          dsimp only
          rw [h2]
          refine ih 1 (c :: cs) (.inl rfl) ?_
          rw [avtNeed, if_pos rfl] at hf
          rw [avtNeed, if_neg (by decide)]
          omega

theorem pat_lex_total (s : Str) : ∃ ts, lex patternLexer s = some ts :=
  pat_total_from _ 2 s (.inr (.inl rfl)) (by rw [avtNeed, if_neg (by decide)]; omega)

theorem pat_lex_iff {s : Str} {ts : List Tok} : lex patternLexer s = some ts ↔ Toks patternLexer 2 s ts := by
  constructor
  · exact toks_of_lex _ _ _ _
  · intro h
    obtain ⟨us, hu⟩ := pat_lex_total s
    rw [hu, toks_unique (toks_of_lex _ _ _ _ hu) h]

theorem pat_toks_total (s : Str) : ∃ ts, Toks patternLexer 2 s ts := by
  obtain ⟨ts, h⟩ := pat_lex_total s
  exact ⟨ts, pat_lex_iff.mp h⟩

/-! ### The kinds -/

theorem pat_kinds_small : ∀ n ∈ List.range 257, n ≠ 0 →
    patternLexer.kind n = patSym (xpathLexer.kind n) := by decide +kernel

theorem pat_kinds_range : ∀ n ∈ List.range 300, n ≠ 0 →
    0 < patternLexer.kind n ∧ patternLexer.kind n < 69 := by decide +kernel

theorem pat_kind_big {n : Nat} (h : 300 ≤ n) : patternLexer.kind n = 68 := by
  rw [Lexer.kind, if_neg]
  · rfl
  · have : patternLexer.translate.length ≤ 300 := by decide +kernel
    omega

theorem pat_kind_ok {n : Nat} (hn : n ≠ 0) : 0 < patternLexer.kind n ∧ patternLexer.kind n < 69 := by
  by_cases h : n < 300
  · exact pat_kinds_range n (List.mem_range.mpr h) hn
  · rw [pat_kind_big (by omega)]; decide

theorem pat_tokens {st : Nat} {s : Str} {ts : List Tok} (h : Toks patternLexer st s ts) : Tokens 69 ts := by
  have : ∀ {st : Nat} {s : Str} {ts : List Tok}, Toks patternLexer st s ts →
      ∀ t ∈ ts, 0 < t.kind ∧ t.kind < 69 := by
    intro st s ts h
    induction h with
    | nil => nofun
    | char _ hn _ ih =>
      refine List.forall_mem_cons.mpr ⟨?_, ih⟩
      dsimp only
      exact pat_kind_ok hn
    | charEnd _ _ => nofun
    | token _ _ hn _ ih =>
      refine List.forall_mem_cons.mpr ⟨?_, ih⟩
      dsimp only
      exact pat_kind_ok hn
    | tokenEnd _ _ => nofun
    | discard _ _ _ ih => exact ih
    | again _ _ _ ih => exact ih
  exact this h

/-! ### After a bracket -/

/-- What a rule of XPath gives here. -/
theorem rule_kinds {r : Rule} (hr : r ∈ initialRules ++ operatorRules) {n : Nat} (hg : r.give = .token n) :
    n ≠ 0 ∧ patternLexer.kind (n + 4) = patSym (xpathLexer.kind n) := by
  have h : (initialRules ++ operatorRules).all (fun r => match r.give with
    | .token n => decide (n ≠ 0 ∧ patternLexer.kind (n + 4) = patSym (xpathLexer.kind n))
    | _ => true) = true := by decide +kernel
  have := List.all_eq_true.mp h r hr
  rw [hg] at this
  exact decide_eq_true_eq.mp this

theorem best_mapRule (s : Str) : ∀ rs : List Rule,
    bestRule X (rs.map patRule) s = (bestRule X rs s).map fun p => (patRule p.1, p.2)
  | [] => rfl
  | r :: rs => by
    rw [List.map_cons, bestRule, bestRule, best_mapRule s rs]
    show (match scan X r.prog s, (bestRule X rs s).map fun p => (patRule p.1, p.2) with
      | none, b => b
      | some rest, none => some (patRule r, rest)
      | some rest, some b => if b.2.length < rest.length then some b else some (patRule r, rest)) = _
    cases scan X r.prog s with
    | none => rfl
    | some rest =>
      cases bestRule X rs s with
      | none => rfl
      | some b =>
        show (if b.2.length < rest.length then _ else _) = Option.map _ (if _ then _ else _)
        split <;> rfl

theorem pat_best {st : Nat} (hst : st = 1 ∨ st = 2) (s : Str) :
    bestRule patternLexer.sets (patternLexer.rules.getD (patState st) []) s =
      (bestRule X (xpathLexer.rules.getD st []) s).map fun p => (patRule p.1, p.2) := by
  rcases hst with rfl | rfl
  · exact best_mapRule s initialRules
  · exact best_mapRule s operatorRules

theorem patState_next (r : Rule) (st : Nat) :
    (patRule r).next.getD (patState st) = patState (r.next.getD st) := by
  cases hn : r.next with
  | none => simp [patRule, hn]
  | some x => simp [patRule, hn]

/-- A token of XPath read in the initial state. -/
theorem inside_token {k : Term} {w rest : Str} {ts : List Tok} (h : ReadsI k w rest)
    (ht : Toks patternLexer (patState (stAfter k)) rest ts) :
    Toks patternLexer 1 (w ++ rest) (⟨patSym k.num, w⟩ :: ts) := by
  cases h with
  | @token n _ _ r hw hb hg hn hk hs =>
    cases w with
    | nil => exact absurd rfl hw
    | cons c cs =>
      have hm : r ∈ initialRules ++ operatorRules := List.mem_append_left _ (best_mem hb).1
      have e := pat_best (.inl rfl) (c :: cs ++ rest)
      rw [initial_rules.symm] at hb
      rw [show xpathLexer.rules.getD 1 [] = xpathLexer.rules.getD stInitial [] from rfl, hb] at e
      have hr := rule_kinds hm hg
      have := Toks.token (L := patternLexer) (st := 1) (c := c) (cs := cs ++ rest) (n := n + 4) e
        (by rw [number, patRule, patGive.eq_def, hg]) (by omega) (ts := ts) (by
          have e1 := patState_next r 1
          rw [show r.next.getD 1 = r.next.getD stInitial from rfl, hs] at e1
          rw [show (patRule r).next.getD 1 = (patRule r).next.getD (patState 1) from rfl, e1]
          exact ht)
      rw [hr.2, hk, ← List.cons_append, take_append] at this
      exact this
  | @ascii c _ r hb hg hn hl hk hs =>
    have e := pat_best (.inl rfl) (c :: rest)
    rw [show xpathLexer.rules.getD 1 [] = initialRules from rfl, hb] at e
    have := Toks.token (L := patternLexer) (st := 1) (c := c) (cs := rest) (n := c.toNat) e
      (by rw [number, patRule, patGive.eq_def, hg]) hn (ts := ts) (by
        have e1 := patState_next r 1
        rw [show r.next.getD 1 = r.next.getD stInitial from rfl, hs] at e1
        rw [show (patRule r).next.getD 1 = (patRule r).next.getD (patState 1) from rfl, e1]
        exact ht)
    rw [pat_kinds_small _ (List.mem_range.mpr hl) hn, hk,
      show c :: rest = [c] ++ rest from rfl, take_append] at this
    exact this
  | @char c _ hb hn hl hk hs =>
    have e := pat_best (.inl rfl) (c :: rest)
    rw [show xpathLexer.rules.getD 1 [] = initialRules from rfl, hb] at e
    rw [← hs] at ht
    have := Toks.char (L := patternLexer) (st := 1) e hn (ts := ts) ht
    rw [pat_kinds_small _ (List.mem_range.mpr hl) hn, hk] at this
    exact this

theorem op_best {k : Term} {c : Char} {cs rest : Str} {r : Rule} {n : Nat} {bs : List Bool}
    (hc : covers X c bs operatorRules = true)
    (hp : pick bs operatorRules = [r, ⟨pAny, some stInitial, .again⟩])
    (hs : scan X r.prog (c :: cs ++ rest) = some rest) (hg : r.give = .token n)
    (hk : xpathLexer.kind n = k.num) (hst : r.next = some stInitial) {ts : List Tok}
    (ht : Toks patternLexer 1 rest ts) :
    Toks patternLexer 3 (c :: cs ++ rest) (⟨patSym k.num, c :: cs⟩ :: ts) := by
  have hb := best_pick (cs ++ rest) _ _ hc
  rw [← List.cons_append, hp, best_take hs (by
    intro x y hxy
    rw [best_one] at hxy
    have ha : scan X pAny (c :: cs ++ rest) = if c = '\n' then none else some (cs ++ rest) := rfl
    rw [ha] at hxy
    by_cases hc : c = '\n'
    · rw [if_pos hc] at hxy; exact (nomatch hxy)
    · rw [if_neg hc] at hxy
      injection hxy with hxy
      injection hxy with _ hxy
      subst hxy
      simp)] at hb
  have hm : r ∈ initialRules ++ operatorRules := List.mem_append_right _ (best_mem hb).1
  have e := pat_best (.inr rfl) (c :: cs ++ rest)
  rw [show xpathLexer.rules.getD 2 [] = operatorRules from rfl, hb] at e
  have hr := rule_kinds hm hg
  have := Toks.token (L := patternLexer) (st := 3) (c := c) (cs := cs ++ rest) (n := n + 4) e
    (by rw [number, patRule, patGive.eq_def, hg]) (by omega) (ts := ts) (by
      rw [show (patRule r).next = some 1 by rw [patRule, hst]; rfl]
      exact ht)
  rw [hr.2, hk, ← List.cons_append, take_append] at this
  exact this

theorem inside_times {rest : Str} {ts : List Tok} (ht : Toks patternLexer 1 rest ts) :
    Toks patternLexer 3 (['*'] ++ rest) (⟨patSym Term.multiplicative.num, ['*']⟩ :: ts) :=
  op_best (bs := [false, false, true, false, true]) (by decide +kernel) rfl rfl rfl
    (by decide +kernel) rfl ht

theorem inside_operator {w : Str} {k : Term} (h : (w, k) ∈ operatorNames) {rest : Str} {ts : List Tok}
    (ht : Toks patternLexer 1 rest ts) :
    Toks patternLexer 3 (w ++ rest) (⟨patSym k.num, w⟩ :: ts) := by
  simp only [operatorNames, List.mem_cons, List.not_mem_nil, or_false, Prod.mk.injEq] at h
  rcases h with ⟨rfl, rfl⟩ | ⟨rfl, rfl⟩ | ⟨rfl, rfl⟩ | ⟨rfl, rfl⟩
  · exact op_best (bs := [false, true, false, false, true]) (by decide +kernel) rfl rfl rfl
      (by decide +kernel) rfl ht
  · exact op_best (bs := [true, false, false, false, true]) (by decide +kernel) rfl rfl rfl
      (by decide +kernel) rfl ht
  · exact op_best (bs := [false, false, true, false, true]) (by decide +kernel) rfl rfl rfl
      (by decide +kernel) rfl ht
  · exact op_best (bs := [false, false, true, false, true]) (by decide +kernel) rfl rfl rfl
      (by decide +kernel) rfl ht

theorem inside_back {c : Char} (h : c ∈ plainChars) {s : Str} {ts : List Tok}
    (ht : Toks patternLexer 1 (c :: s) ts) : Toks patternLexer 3 (c :: s) ts := by
  obtain ⟨_, _, h1, h2⟩ := plain_facts c h
  have hb := best_pick s _ _ h1
  have e : pick [false, false, false, false, true] operatorRules =
    [⟨pAny, some stInitial, .again⟩] := rfl
  have e' : scan X pAny (c :: s) = some s := by
    show (if c = '\n' then none else some s) = some s
    rw [if_neg h2]
  rw [e, best_one, e'] at hb
  have e := pat_best (.inr rfl) (c :: s)
  rw [show xpathLexer.rules.getD 2 [] = operatorRules from rfl, hb] at e
  exact Toks.again (L := patternLexer) (st := 3) e rfl ht

theorem inside_space {c : Char} (h : isSp c = true) {s : Str} {ts : List Tok} {st : Nat}
    (hst : st = 1 ∨ st = 2) (ht : Toks patternLexer (patState st) (s.dropWhile isSp) ts) :
    Toks patternLexer (patState st) (c :: s) ts := by
  have e' : scan X pSpace (c :: s) = some (s.dropWhile isSp) := by rw [scan_space, if_pos h]
  rcases hst with rfl | rfl
  · have := (space_facts _ ((isSp_nat c).mp h)).1
    rw [Char.ofNat_toNat] at this
    have hb := best_pick s _ _ this
    have e : pick (only 14) initialRules = [⟨pSpace, none, .discard⟩] := rfl
    rw [e, best_one, e'] at hb
    have e := pat_best (.inl rfl) (c :: s)
    rw [show xpathLexer.rules.getD 1 [] = initialRules from rfl, hb] at e
    exact Toks.discard (L := patternLexer) (st := 1) e rfl ht
  · have := (space_facts _ ((isSp_nat c).mp h)).2
    rw [Char.ofNat_toNat] at this
    have hb := best_pick s _ _ this
    have e : pick [false, false, false, true, true] operatorRules =
      [⟨pSpace, none, .discard⟩, ⟨pAny, some stInitial, .again⟩] := rfl
    rw [e, best_take (r := ⟨pSpace, none, .discard⟩) e' (by
      intro x y hxy
      rw [best_one] at hxy
      have ha : scan X pAny (c :: s) = if c = '\n' then none else some s := rfl
      rw [ha] at hxy
      by_cases hc : c = '\n'
      · rw [if_pos hc] at hxy; exact (nomatch hxy)
      · rw [if_neg hc] at hxy
        injection hxy with hxy
        injection hxy with _ hxy
        subst hxy
        exact (List.dropWhile_suffix _).length_le)] at hb
    have e := pat_best (.inr rfl) (c :: s)
    rw [show xpathLexer.rules.getD 2 [] = operatorRules from rfl, hb] at e
    exact Toks.discard (L := patternLexer) (st := 3) e rfl ht

/-- What comes after a bracket is read as the lexer of XPath reads it. -/
theorem inside : ∀ (n : Nat) (s : Str), s.length = n → ∀ (op : Bool) (ts : List Tok),
    Lexes op s ts → ∀ st : Nat, Sim op st s → Toks patternLexer (patState st) s (inPattern ts) := by
  intro n
  induction n using Nat.strongRecOn with
  | ind n ih =>
    intro s hn op ts h st hsim
    cases h with
    | nil => exact .nil
    | @space _ c s' _ hc hl =>
      have hsp := spec_space.mp hc
      have hlen : (s'.dropWhile isSp).length ≤ s'.length := (List.dropWhile_suffix _).length_le
      have go := ih _ (by rw [← hn]; simp only [List.length_cons]; omega) (s'.dropWhile isSp) rfl op
        ts (lexes_drop hl) st (sim_space hsp hsim)
      refine inside_space hsp ?_ go
      rcases hsim with ⟨rfl, _⟩ | ⟨rfl, _⟩ | ⟨rfl, _⟩
      · exact .inl rfl
      · exact .inr rfl
      · exact .inl rfl
    | @token _ k w rest ts ht hl =>
      obtain ⟨c, cs, hw, hc⟩ := token_first ht
      have hlen : (w ++ rest).length = rest.length + w.length := by simp; omega
      have hwl : 0 < w.length := by rw [hw]; simp
      have go := ih _ (by omega) rest rfl _ ts hl
      have run : Token false k w rest →
          Toks patternLexer 1 (w ++ rest) (⟨patSym k.num, w⟩ :: inPattern ts) := fun ht' =>
        inside_token (token_reads ht' (lexes_digitOk hl)) (go (stAfter k) (token_sim ht'))
      rcases hsim with ⟨rfl, rfl⟩ | ⟨rfl, rfl⟩ | ⟨rfl, rfl, hnext⟩
      · exact run ht
      · rcases token_split ht with ⟨rfl, rfl⟩ | ⟨ho, _⟩ | ⟨ht', c', cs', hw', hp⟩
        · exact inside_times (go stInitial (.inl ⟨rfl, rfl⟩))
        · exact inside_operator ho (go stInitial (op_after ho rest))
        · have e : w ++ rest = c' :: (cs' ++ rest) := by rw [hw']; rfl
          have r := run ht'
          rw [e] at r ⊢
          exact inside_back hp r
      · rcases token_split ht with ⟨rfl, rfl⟩ | ⟨ho, _⟩ | ⟨ht', _⟩
        · exfalso
          have e : (['*'] ++ rest).dropWhile isSp = '*' :: rest := by
            show ('*' :: rest).dropWhile isSp = _
            rw [List.dropWhile_cons, if_neg (by decide +kernel)]
          rw [nextParen, nextColons, e] at hnext
          rcases hnext with h | h
          · exact (nomatch h)
          · cases rest <;> exact (nomatch h)
        · exfalso
          obtain ⟨d, ds, hd, hdn⟩ := operator_start ho
          rw [hd, List.cons_append, name_no_paren hdn, name_no_colons hdn] at hnext
          rcases hnext with h | h <;> exact (nomatch h)
        · exact run ht'

/-- After the bracket that opens a predicate. -/
theorem inside_bracket {s : Str} {ts : List Tok} (h : Lexes false s ts) :
    Toks patternLexer 1 s (inPattern ts) :=
  inside _ s rfl false ts h stInitial (.inl ⟨rfl, rfl⟩)

end Verif.Parse
