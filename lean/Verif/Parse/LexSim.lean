import Verif.Parse.LexNames
/-
A text that has tokens by the specification is read as these tokens.
-/
namespace Verif.Parse
open Spec
open Verif.Names.Spec (NCNameStart NCNameChar)

theorem token_reads {k : Term} {w rest : Str} (h : Token false k w rest) (hd : DigitOk rest) :
    ReadsI k w rest := by
  cases h with
  | single h => exact reads_single h rest
  | double h => exact reads_double h rest
  | slash h => exact reads_slash h
  | less h => exact reads_order (.inl rfl) h
  | greater h => exact reads_order (.inr rfl) h
  | dot h => exact reads_dot h hd
  | literal h1 h2 => exact reads_literal h1 h2 rest
  | integer h1 h2 h3 => exact reads_integer h1 h2 h3 hd
  | decimal h1 h2 h3 h4 => exact reads_decimal h1 h2 h3 h4 hd
  | «variable» h1 h2 => exact reads_variable (qName_after h1 h2)
  | variableNs h1 h2 h3 => exact reads_variable (qNameNs_after h1 h2 h3)
  | nodeType h1 h2 h3 => exact reads_nodeType h1 h3
  | axisName h1 h2 h3 => exact reads_axisName h1 h3
  | function h1 h2 h3 h4 => exact reads_function h1 h2 h4
  | functionNs h1 h2 h3 h4 => exact reads_functionNs h1 h2 h4
  | star => exact reads_star rest
  | prefixStar h => exact reads_prefixStar h
  | name h1 h2 h3 h4 => exact reads_name h1 h2 h3 h4
  | nameNs h1 h2 h3 h4 => exact reads_nameNs h1 h2 h3 h4

/-- The first characters of tokens that are no names. -/
def plainChars : List Char := "()[]@,|+-=/!<>:.\"'$0123456789".toList

theorem digit_plain {c : Char} (h : Spec.Digit c) : c ∈ plainChars := by
  have : ∀ n ∈ List.range 10, Char.ofNat (48 + n) ∈ plainChars := by decide
  obtain ⟨n, hn, rfl⟩ := digit_char h
  exact this n hn

theorem token_split {k : Term} {w rest : Str} (h : Token true k w rest) :
    (k = .multiplicative ∧ w = ['*']) ∨ ((w, k) ∈ operatorNames ∧ EndsName rest) ∨
      (Token false k w rest ∧ ∃ c cs, w = c :: cs ∧ c ∈ plainChars) := by
  cases h with
  | @single _ c _ _ h =>
    refine .inr (.inr ⟨.single h, c, [], rfl, ?_⟩)
    simp only [singles, List.mem_cons, List.not_mem_nil, or_false, Prod.mk.injEq] at h
    rcases h with ⟨rfl, _⟩ | ⟨rfl, _⟩ | ⟨rfl, _⟩ | ⟨rfl, _⟩ | ⟨rfl, _⟩ | ⟨rfl, _⟩ |
      ⟨rfl, _⟩ | ⟨rfl, _⟩ | ⟨rfl, _⟩ | ⟨rfl, _⟩ <;> decide
  | @double _ a b _ _ h =>
    refine .inr (.inr ⟨.double h, a, [b], rfl, ?_⟩)
    simp only [doubles, List.mem_cons, List.not_mem_nil, or_false, Prod.mk.injEq] at h
    rcases h with ⟨rfl, _⟩ | ⟨rfl, _⟩ | ⟨rfl, _⟩ | ⟨rfl, _⟩ | ⟨rfl, _⟩ | ⟨rfl, _⟩ <;> decide
  | slash h => exact .inr (.inr ⟨.slash h, _, _, rfl, by decide⟩)
  | less h => exact .inr (.inr ⟨.less h, _, _, rfl, by decide⟩)
  | greater h => exact .inr (.inr ⟨.greater h, _, _, rfl, by decide⟩)
  | dot h => exact .inr (.inr ⟨.dot h, _, _, rfl, by decide⟩)
  | literal h1 h2 =>
    refine .inr (.inr ⟨.literal h1 h2, _, _, rfl, ?_⟩)
    rcases h1 with rfl | rfl <;> decide
  | integer h1 h2 h3 =>
    refine .inr (.inr ⟨.integer h1 h2 h3, ?_⟩)
    cases w with
    | nil => exact absurd rfl h1
    | cons c cs => exact ⟨c, cs, rfl, digit_plain (h2 c List.mem_cons_self)⟩
  | @decimal _ v w _ h1 h2 h3 h4 =>
    refine .inr (.inr ⟨.decimal h1 h2 h3 h4, ?_⟩)
    cases v with
    | nil => exact ⟨_, _, rfl, by decide⟩
    | cons c cs => exact ⟨c, _, rfl, digit_plain (h1 c List.mem_cons_self)⟩
  | «variable» h1 h2 => exact .inr (.inr ⟨.variable h1 h2, _, _, rfl, by decide⟩)
  | variableNs h1 h2 h3 => exact .inr (.inr ⟨.variableNs h1 h2 h3, _, _, rfl, by decide⟩)
  | times => exact .inl ⟨rfl, rfl⟩
  | operator h1 h2 => exact .inr (.inl ⟨h1, h2⟩)

/-- The first character of a token. -/
theorem token_first {op : Bool} {k : Term} {w rest : Str} (h : Token op k w rest) :
    ∃ c cs, w = c :: cs ∧ (c ∈ plainChars ∨ c = '*' ∨ isStart c = true) := by
  have nm : ∀ {w : Str}, NCName w → ∀ r, ∃ c cs, w ++ r = c :: cs ∧
      (c ∈ plainChars ∨ c = '*' ∨ isStart c = true) := by
    rintro _ ⟨c, cs, rfl, h, _⟩ r
    exact ⟨c, _, rfl, .inr (.inr ((isStart_iff c).mpr h))⟩
  have nm' : ∀ {w : Str}, NCName w → ∃ c cs, w = c :: cs ∧
      (c ∈ plainChars ∨ c = '*' ∨ isStart c = true) := by
    rintro _ ⟨c, cs, rfl, h, _⟩
    exact ⟨c, _, rfl, .inr (.inr ((isStart_iff c).mpr h))⟩
  have tt : Token true k w rest → ∃ c cs, w = c :: cs ∧
      (c ∈ plainChars ∨ c = '*' ∨ isStart c = true) := by
    intro h
    rcases token_split h with ⟨_, rfl⟩ | ⟨h, _⟩ | ⟨_, c, cs, rfl, hp⟩
    · exact ⟨_, _, rfl, .inr (.inl rfl)⟩
    · simp only [operatorNames, List.mem_cons, List.not_mem_nil, or_false, Prod.mk.injEq] at h
      rcases h with ⟨rfl, _⟩ | ⟨rfl, _⟩ | ⟨rfl, _⟩ | ⟨rfl, _⟩ <;>
        exact ⟨_, _, rfl, .inr (.inr (by decide +kernel))⟩
    · exact ⟨c, cs, rfl, .inl hp⟩
  cases op with
  | true => exact tt h
  | false =>
    cases h with
    | single h => exact tt (.single h)
    | double h => exact tt (.double h)
    | slash h => exact tt (.slash h)
    | less h => exact tt (.less h)
    | greater h => exact tt (.greater h)
    | dot h => exact tt (.dot h)
    | literal h1 h2 => exact tt (.literal h1 h2)
    | integer h1 h2 h3 => exact tt (.integer h1 h2 h3)
    | decimal h1 h2 h3 h4 => exact tt (.decimal h1 h2 h3 h4)
    | «variable» h1 h2 => exact tt (.variable h1 h2)
    | variableNs h1 h2 h3 => exact tt (.variableNs h1 h2 h3)
    | nodeType h1 h2 h3 => exact nm' (nodeTypes_names h1)
    | axisName h1 h2 h3 => exact nm' h1
    | function h1 h2 h3 h4 => exact nm' h1
    | functionNs h1 h2 h3 h4 => exact nm h1 _
    | star => exact ⟨_, _, rfl, .inr (.inl rfl)⟩
    | prefixStar h => exact nm h _
    | name h1 h2 h3 h4 => exact nm' h1
    | nameNs h1 h2 h3 h4 => exact nm h1 _

def digitB (c : Char) : Bool := decide ('0' ≤ c) && decide (c ≤ '9')

theorem plain_facts : ∀ c ∈ plainChars, (isDig c → digitB c) ∧ isSp c = false ∧
    covers X c [false, false, false, false, true] operatorRules = true ∧ c ≠ '\n' := by
  decide +kernel

theorem first_ok {c : Char} (h : c ∈ plainChars ∨ c = '*' ∨ isStart c = true) :
    (isDig c = true → Spec.Digit c) ∧ isSp c = false := by
  rcases h with h | rfl | h
  · refine ⟨fun hd => ?_, (plain_facts c h).2.1⟩
    have := (plain_facts c h).1 hd
    rw [digitB, Bool.and_eq_true, decide_eq_true_eq, decide_eq_true_eq] at this
    exact this
  · exact ⟨fun hd => absurd hd (by decide +kernel), by decide +kernel⟩
  · refine ⟨fun hd => ?_, ?_⟩
    · rw [start_not_dig h] at hd
      exact (nomatch hd)
    · cases hs : isSp c with
      | false => rfl
      | true => rw [sp_not_start hs] at h; exact (nomatch h)

theorem lexes_digitOk {op : Bool} {s : Str} {ts : List Tok} (h : Lexes op s ts) : DigitOk s := by
  intro x xs e hx
  cases h with
  | nil => exact (nomatch e)
  | space hc _ =>
    injection e with e _
    subst e
    rw [sp_not_dig (spec_space.mp hc)] at hx
    exact (nomatch hx.1)
  | token ht _ =>
    obtain ⟨c, cs, rfl, hc⟩ := token_first ht
    injection e with e _
    subst e
    exact hx.2 ((first_ok hc).1 hx.1)

theorem lexes_drop {op : Bool} {s : Str} {ts : List Tok} (h : Lexes op s ts) :
    Lexes op (s.dropWhile isSp) ts := by
  induction h with
  | nil => exact .nil
  | space hc _ ih =>
    rw [List.dropWhile_cons, if_pos (spec_space.mp hc)]
    exact ih
  | token ht hr ih =>
    obtain ⟨c, cs, rfl, hc⟩ := token_first ht
    rw [List.cons_append, List.dropWhile_cons, if_neg (by rw [(first_ok hc).2]; nofun)]
    exact .token ht hr

/-! The operator state -/

theorem operator_rules : xpathLexer.rules.getD stOperator [] = operatorRules := rfl

theorem space_facts : ∀ n ∈ [9, 10, 13, 32],
    covers X (Char.ofNat n) (only 14) initialRules = true ∧
    covers X (Char.ofNat n) [false, false, false, true, true] operatorRules = true := by
  decide +kernel

theorem space_initial {c : Char} (h : isSp c = true) (s : Str) (f : Nat) :
    lexFrom xpathLexer (f + 1) stInitial (c :: s) =
      lexFrom xpathLexer f stInitial (s.dropWhile isSp) := by
  have := (space_facts _ ((isSp_nat c).mp h)).1
  rw [Char.ofNat_toNat] at this
  have hb := best_pick s _ _ this
  have e : pick (only 14) initialRules = [⟨pSpace, none, .discard⟩] := rfl
  rw [e, best_one] at hb
  have e' : scan X pSpace (c :: s) = some (s.dropWhile isSp) := by rw [scan_space, if_pos h]
  rw [e'] at hb
  exact skips (st := stInitial) hb rfl f

theorem space_operator {c : Char} (h : isSp c = true) (s : Str) (f : Nat) :
    lexFrom xpathLexer (f + 1) stOperator (c :: s) =
      lexFrom xpathLexer f stOperator (s.dropWhile isSp) := by
  have := (space_facts _ ((isSp_nat c).mp h)).2
  rw [Char.ofNat_toNat] at this
  have hb := best_pick s _ _ this
  have e : pick [false, false, false, true, true] operatorRules =
    [⟨pSpace, none, .discard⟩, ⟨pAny, some stInitial, .again⟩] := rfl
  have e' : scan X pSpace (c :: s) = some (s.dropWhile isSp) := by rw [scan_space, if_pos h]
  rw [e, best_take (r := ⟨pSpace, none, .discard⟩) e' (by
    intro x y hxy
    rw [best_one] at hxy
    have ha : scan X pAny (c :: s) = if c = '\n' then none else some s := rfl
    rw [ha] at hxy
    by_cases hc : c = '\n'
    · rw [if_pos hc] at hxy; exact (nomatch hxy)
    · rw [if_neg hc] at hxy
      injection hxy with hxy
      injection hxy with _ hxy
      subst hxy
      exact (List.dropWhile_suffix _).length_le)] at hb
  exact skips (st := stOperator) hb rfl f

theorem back {c : Char} (h : c ∈ plainChars) (s : Str) (f : Nat) :
    lexFrom xpathLexer (f + 1) stOperator (c :: s) = lexFrom xpathLexer f stInitial (c :: s) := by
  obtain ⟨_, _, h1, h2⟩ := plain_facts c h
  have hb := best_pick s _ _ h1
  have e : pick [false, false, false, false, true] operatorRules =
    [⟨pAny, some stInitial, .again⟩] := rfl
  have e' : scan X pAny (c :: s) = some s := by
    show (if c = '\n' then none else some s) = some s
    rw [if_neg h2]
  rw [e, best_one, e'] at hb
  exact backs (st := stOperator) hb rfl f

/-- An operator: its rule is the only one but for the last. -/
theorem reads_op {k : Term} {c : Char} {cs rest : Str} {r : Rule} {n : Nat} {bs : List Bool}
    (hc : covers X c bs operatorRules = true)
    (hp : pick bs operatorRules = [r, ⟨pAny, some stInitial, .again⟩])
    (hs : scan X r.prog (c :: cs ++ rest) = some rest) (hg : r.give = .token n) (hn : n ≠ 0)
    (hk : xpathLexer.kind n = k.num) (hst : r.next.getD stOperator = stInitial) :
    Reads stOperator k.num (c :: cs) rest stInitial := by
  have hb := best_pick (cs ++ rest) _ _ hc
  rw [← List.cons_append, hp, best_take hs (by
    intro x y hxy
    rw [best_one] at hxy
    have ha : scan X pAny (c :: cs ++ rest) = if c = '\n' then none else some (cs ++ rest) := rfl
    rw [ha] at hxy
    by_cases hc : c = '\n'
    · rw [if_pos hc] at hxy; exact (nomatch hxy)
    · rw [if_neg hc] at hxy
      injection hxy with hxy
      injection hxy with _ hxy
      subst hxy
      simp)] at hb
  have := reads_token (st := stOperator) (w := c :: cs) (by simp) hb hg hn
  rw [hk, hst] at this
  exact this

theorem reads_times (rest : Str) : Reads stOperator Term.multiplicative.num ['*'] rest stInitial :=
  reads_op (bs := [false, false, true, false, true]) (by decide +kernel) rfl rfl rfl (by decide)
    (by decide +kernel) rfl

theorem reads_operator {w : Str} {k : Term} (h : (w, k) ∈ operatorNames) (rest : Str) :
    Reads stOperator k.num w rest stInitial := by
  simp only [operatorNames, List.mem_cons, List.not_mem_nil, or_false, Prod.mk.injEq] at h
  rcases h with ⟨rfl, rfl⟩ | ⟨rfl, rfl⟩ | ⟨rfl, rfl⟩ | ⟨rfl, rfl⟩
  · exact reads_op (bs := [false, true, false, false, true]) (by decide +kernel) rfl rfl rfl
      (by decide) (by decide +kernel) rfl
  · exact reads_op (bs := [true, false, false, false, true]) (by decide +kernel) rfl rfl rfl
      (by decide) (by decide +kernel) rfl
  · exact reads_op (bs := [false, false, true, false, true]) (by decide +kernel) rfl rfl rfl
      (by decide) (by decide +kernel) rfl
  · exact reads_op (bs := [false, false, true, false, true]) (by decide +kernel) rfl rfl rfl
      (by decide) (by decide +kernel) rfl

/-! The simulation -/

/-- How the state of the lexer is related to the preceding token. -/
def Sim (op : Bool) (st : Nat) (s : Str) : Prop :=
  (st = stInitial ∧ op = false) ∨ (st = stOperator ∧ op = true) ∨
    (st = stInitial ∧ op = true ∧ (nextParen s = true ∨ nextColons s = true))

theorem token_sim {op : Bool} {k : Term} {w rest : Str} (h : Token op k w rest) :
    Sim (opAfter k) (stAfter k) rest := by
  have par : NextIs ['('] rest → Sim true stInitial rest :=
    fun h => .inr (.inr ⟨rfl, rfl, .inl (nextParen_iff.mpr h)⟩)
  have i : Sim false stInitial rest := .inl ⟨rfl, rfl⟩
  have o : Sim true stOperator rest := .inr (.inl ⟨rfl, rfl⟩)
  cases h with
  | single h =>
    simp only [singles, List.mem_cons, List.not_mem_nil, or_false, Prod.mk.injEq] at h
    rcases h with ⟨_, rfl⟩ | ⟨_, rfl⟩ | ⟨_, rfl⟩ | ⟨_, rfl⟩ | ⟨_, rfl⟩ | ⟨_, rfl⟩ |
      ⟨_, rfl⟩ | ⟨_, rfl⟩ | ⟨_, rfl⟩ | ⟨_, rfl⟩ <;> first | exact i | exact o
  | double h =>
    simp only [doubles, List.mem_cons, List.not_mem_nil, or_false, Prod.mk.injEq] at h
    rcases h with ⟨_, _, rfl⟩ | ⟨_, _, rfl⟩ | ⟨_, _, rfl⟩ | ⟨_, _, rfl⟩ | ⟨_, _, rfl⟩ |
      ⟨_, _, rfl⟩ <;> first | exact i | exact o
  | operator h1 h2 =>
    simp only [operatorNames, List.mem_cons, List.not_mem_nil, or_false, Prod.mk.injEq] at h1
    rcases h1 with ⟨_, rfl⟩ | ⟨_, rfl⟩ | ⟨_, rfl⟩ | ⟨_, rfl⟩ <;> exact i
  | nodeType h1 h2 h3 => exact par h3
  | axisName h1 h2 h3 => exact .inr (.inr ⟨rfl, rfl, .inr (nextColons_iff.mpr h3)⟩)
  | function h1 h2 h3 h4 => exact par h4
  | functionNs h1 h2 h3 h4 => exact par h4
  | slash h => exact i
  | less h => exact i
  | greater h => exact i
  | dot h => exact o
  | literal h1 h2 => exact o
  | integer h1 h2 h3 => exact o
  | decimal h1 h2 h3 h4 => exact o
  | «variable» h1 h2 => exact o
  | variableNs h1 h2 h3 => exact o
  | times => exact i
  | star => exact o
  | prefixStar h => exact o
  | name h1 h2 h3 h4 => exact o
  | nameNs h1 h2 h3 h4 => exact o

theorem op_after {w : Str} {k : Term} (h : (w, k) ∈ operatorNames) (rest : Str) :
    Sim (opAfter k) stInitial rest := by
  simp only [operatorNames, List.mem_cons, List.not_mem_nil, or_false, Prod.mk.injEq] at h
  rcases h with ⟨_, rfl⟩ | ⟨_, rfl⟩ | ⟨_, rfl⟩ | ⟨_, rfl⟩ <;> exact .inl ⟨rfl, rfl⟩

theorem sim_space {op : Bool} {st : Nat} {c : Char} {s : Str} (hc : isSp c = true)
    (h : Sim op st (c :: s)) : Sim op st (s.dropWhile isSp) := by
  have e : (c :: s).dropWhile isSp = s.dropWhile isSp := by rw [List.dropWhile_cons, if_pos hc]
  have idem : ∀ s : Str, (s.dropWhile isSp).dropWhile isSp = s.dropWhile isSp := by
    intro s
    induction s with
    | nil => rfl
    | cons d ds ih =>
      rw [List.dropWhile_cons]
      split
      · exact ih
      · next hd => rw [List.dropWhile_cons, if_neg hd]
  have p : nextParen (s.dropWhile isSp) = nextParen (c :: s) := by
    rw [nextParen, nextParen, e, idem]
  have q : nextColons (s.dropWhile isSp) = nextColons (c :: s) := by
    rw [nextColons, nextColons, e, idem]
  rcases h with h | h | ⟨h1, h2, h3⟩
  · exact .inl h
  · exact .inr (.inl h)
  · exact .inr (.inr ⟨h1, h2, by rw [p, q]; exact h3⟩)

theorem operator_start {w : Str} {k : Term} (h : (w, k) ∈ operatorNames) :
    ∃ c cs, w = c :: cs ∧ isName c = true := by
  simp only [operatorNames, List.mem_cons, List.not_mem_nil, or_false, Prod.mk.injEq] at h
  rcases h with ⟨rfl, _⟩ | ⟨rfl, _⟩ | ⟨rfl, _⟩ | ⟨rfl, _⟩ <;>
    exact ⟨_, _, rfl, by decide +kernel⟩

def need (st : Nat) (s : Str) : Nat := 2 * s.length + (if st = stInitial then 0 else 1)

theorem need_le (st : Nat) (s : Str) : need st s ≤ 2 * s.length + 1 := by
  rw [need]; split <;> omega

theorem lexes_lex : ∀ (n : Nat) (s : Str), s.length = n → ∀ (op : Bool) (ts : List Tok),
    Lexes op s ts → ∀ (st f : Nat), Sim op st s → need st s ≤ f →
    lexFrom xpathLexer f st s = some ts := by
  intro n
  induction n using Nat.strongRecOn with
  | ind n ih =>
    intro s hn op ts h st f hsim hf
    cases h with
    | nil => rw [lexFrom]
    | @space _ c s' _ hc hl =>
      have hsp := spec_space.mp hc
      obtain ⟨f, rfl⟩ : ∃ m, f = m + 1 := ⟨f - 1, by
        rw [need] at hf
        simp only [List.length_cons] at hf
        omega⟩
      have hlen : (s'.dropWhile isSp).length ≤ s'.length := (List.dropWhile_suffix _).length_le
      have hneed : need st (s'.dropWhile isSp) ≤ f := by
        rw [need] at hf ⊢
        simp only [List.length_cons] at hf
        omega
      have go := ih _ (by rw [← hn]; simp only [List.length_cons]; omega) (s'.dropWhile isSp) rfl op
        ts (lexes_drop hl) st f (sim_space hsp hsim) hneed
      rcases hsim with ⟨rfl, _⟩ | ⟨rfl, _⟩ | ⟨rfl, _⟩
      · rw [space_initial hsp]; exact go
      · rw [space_operator hsp]; exact go
      · rw [space_initial hsp]; exact go
    | @token _ k w rest ts ht hl =>
      obtain ⟨c, cs, hw, hc⟩ := token_first ht
      have hlen : (w ++ rest).length = rest.length + w.length := by simp; omega
      have hwl : 0 < w.length := by rw [hw]; simp
      -- a token read in the initial state
      have run : Token false k w rest → ∀ f, 2 * (w ++ rest).length ≤ f →
          lexFrom xpathLexer f stInitial (w ++ rest) = some (⟨k.num, w⟩ :: ts) := by
        intro ht' f hf
        obtain ⟨f, rfl⟩ : ∃ m, f = m + 1 := ⟨f - 1, by omega⟩
        rw [(token_reads ht' (lexes_digitOk hl)).reads f]
        have hnd := need_le (stAfter k) rest
        rw [ih _ (by omega) rest rfl _ ts hl (stAfter k) f (token_sim ht') (by omega)]
        rfl
      rcases hsim with ⟨rfl, rfl⟩ | ⟨rfl, rfl⟩ | ⟨rfl, rfl, hnext⟩
      · exact run ht f hf
      · obtain ⟨f, rfl⟩ : ∃ m, f = m + 1 := ⟨f - 1, by
          rw [need, if_neg (by decide)] at hf; omega⟩
        rw [need, if_neg (by decide)] at hf
        have hnd := need_le stInitial rest
        rcases token_split ht with ⟨rfl, rfl⟩ | ⟨ho, _⟩ | ⟨ht', c', cs', hw', hp⟩
        · rw [reads_times rest f, ih _ (by omega) rest rfl _ ts hl stInitial f (.inl ⟨rfl, rfl⟩)
            (by omega)]
          rfl
        · rw [reads_operator ho rest f, ih _ (by omega) rest rfl _ ts hl stInitial f
            (op_after ho rest) (by omega)]
          rfl
        · have e : w ++ rest = c' :: (cs' ++ rest) := by rw [hw']; rfl
          rw [e, back hp, ← e]
          exact run ht' f (by omega)
      · rcases token_split ht with ⟨rfl, rfl⟩ | ⟨ho, _⟩ | ⟨ht', _⟩
        · exfalso
          have e : (['*'] ++ rest).dropWhile isSp = '*' :: rest := by
            show ('*' :: rest).dropWhile isSp = _
            rw [List.dropWhile_cons, if_neg (by decide +kernel)]
          rw [nextParen, nextColons, e] at hnext
          rcases hnext with h | h
          · exact (nomatch h)
          · cases rest <;> exact (nomatch h)
        · exfalso
          obtain ⟨d, ds, hd, hdn⟩ := operator_start ho
          rw [hd, List.cons_append, name_no_paren hdn, name_no_colons hdn] at hnext
          rcases hnext with h | h <;> exact (nomatch h)
        · exact run ht' f hf

end Verif.Parse
