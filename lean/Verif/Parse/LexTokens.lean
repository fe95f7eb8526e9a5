import Verif.Parse.LexPatterns
import Verif.Parse.LexSpec
/-
The lexer reads the tokens of the specification.
-/
namespace Verif.Parse
open Spec

/-- The state after a token. -/
def stAfter : Term → Nat
  | .literal | .number | .variable | .nameTest | .dotDot | .rparen | .rbracket | .dot => stOperator
  | _ => stInitial

theorem initial_rules : xpathLexer.rules.getD stInitial [] = initialRules := rfl

/-- The next token, read in the initial state, and how: by the rule that gives
its number, by one that gives a character, or by none. -/
inductive ReadsI (k : Term) : Str → Str → Prop where
  | token {n : Nat} {w rest : Str} {r : Rule} : w ≠ [] →
      bestRule X initialRules (w ++ rest) = some (r, rest) → r.give = .token n → n ≠ 0 →
      xpathLexer.kind n = k.num → r.next.getD stInitial = stAfter k → ReadsI k w rest
  | ascii {c : Char} {rest : Str} {r : Rule} :
      bestRule X initialRules (c :: rest) = some (r, rest) → r.give = .ascii → c.toNat ≠ 0 →
      c.toNat < 257 → xpathLexer.kind c.toNat = k.num → r.next.getD stInitial = stAfter k →
      ReadsI k [c] rest
  | char {c : Char} {rest : Str} : bestRule X initialRules (c :: rest) = none → c.toNat ≠ 0 →
      c.toNat < 257 → xpathLexer.kind c.toNat = k.num → stInitial = stAfter k → ReadsI k [c] rest

theorem ReadsI.reads {k : Term} {w rest : Str} (h : ReadsI k w rest) :
    Reads stInitial k.num w rest (stAfter k) := by
  cases h with
  | token hw hb hg hn hk hs =>
    have := reads_token (st := stInitial) hw hb hg hn
    rw [hk, hs] at this
    exact this
  | ascii hb hg hn _ hk hs =>
    have := reads_ascii (st := stInitial) hb hg hn
    rw [hk, hs] at this
    exact this
  | char hb hn _ hk hs =>
    have := reads_char (st := stInitial) hb hn
    rw [hk] at this
    rw [← hs]
    exact this

theorem readsI_token {k : Term} {n : Nat} {w rest : Str} {r : Rule} (hw : w ≠ [])
    (hb : bestRule X initialRules (w ++ rest) = some (r, rest)) (hg : r.give = .token n)
    (hn : n ≠ 0) (hk : xpathLexer.kind n = k.num) (hs : r.next.getD stInitial = stAfter k) :
    ReadsI k w rest := .token hw hb hg hn hk hs

/-! Single characters and pairs -/

theorem reads_plain {c : Char} {k : Term} {rest : Str}
    (hc : covers X c (List.replicate 15 false) initialRules = true)
    (hn : c.toNat ≠ 0) (hl : c.toNat < 257) (hk : xpathLexer.kind c.toNat = k.num)
    (hs : stAfter k = stInitial) : ReadsI k [c] rest := by
  have h := best_pick rest _ _ hc
  exact .char (by rw [h]; rfl) hn hl hk hs.symm

def only (i : Nat) : List Bool := (List.range 15).map (· == i)

theorem reads_single {c : Char} {k : Term} (h : (c, k) ∈ singles) (rest : Str) :
    ReadsI k [c] rest := by
  simp only [singles, List.mem_cons, List.not_mem_nil, or_false, Prod.mk.injEq] at h
  have close : ∀ (c : Char) (k : Term), inSet X c (.small 1) = true →
      covers X c (only 0) initialRules = true → c.toNat ≠ 0 → c.toNat < 257 →
      xpathLexer.kind c.toNat = k.num → stAfter k = stOperator → ReadsI k [c] rest := by
    intro c k hi hc hn hl hk hs
    have h := best_pick rest _ _ hc
    have e : pick (only 0) initialRules = [⟨pClose, some stOperator, .ascii⟩] := rfl
    rw [e, best_one] at h
    have e' : scan X pClose (c :: rest) = some rest := by
      rw [pClose, scan, if_pos hi]
      rfl
    rw [e'] at h
    exact .ascii h rfl hn hl hk hs.symm
  rcases h with ⟨rfl, rfl⟩ | ⟨rfl, rfl⟩ | ⟨rfl, rfl⟩ | ⟨rfl, rfl⟩ | ⟨rfl, rfl⟩ | ⟨rfl, rfl⟩ |
    ⟨rfl, rfl⟩ | ⟨rfl, rfl⟩ | ⟨rfl, rfl⟩ | ⟨rfl, rfl⟩
  · exact reads_plain (by decide +kernel) (by decide) (by decide) (by decide +kernel) rfl
  · exact close _ _ (by decide +kernel) (by decide +kernel) (by decide) (by decide) (by decide +kernel) rfl
  · exact reads_plain (by decide +kernel) (by decide) (by decide) (by decide +kernel) rfl
  · exact close _ _ (by decide +kernel) (by decide +kernel) (by decide) (by decide) (by decide +kernel) rfl
  · exact reads_plain (by decide +kernel) (by decide) (by decide) (by decide +kernel) rfl
  · exact reads_plain (by decide +kernel) (by decide) (by decide) (by decide +kernel) rfl
  · exact reads_plain (by decide +kernel) (by decide) (by decide) (by decide +kernel) rfl
  · exact reads_plain (by decide +kernel) (by decide) (by decide) (by decide +kernel) rfl
  · exact reads_plain (by decide +kernel) (by decide) (by decide) (by decide +kernel) rfl
  · have h := best_pick rest _ _ (show covers X '=' (only 3) initialRules = true by decide +kernel)
    have e : pick (only 3) initialRules = [⟨pEquality, none, .token 266⟩] := rfl
    rw [e, best_one] at h
    exact readsI_token (w := ['=']) (by simp) h rfl (by decide) (by decide +kernel) rfl

/-- Two characters that only one pattern can match. -/
theorem reads_pair {a b : Char} {k : Term} {n i : Nat} {p : Prog} {rest : Str}
    (hc : covers X a (only i) initialRules = true)
    (he : pick (only i) initialRules = [⟨p, none, .token n⟩])
    (hs : scan X p (a :: b :: rest) = some rest) (hn : n ≠ 0) (hk : xpathLexer.kind n = k.num)
    (hst : stAfter k = stInitial) : ReadsI k [a, b] rest := by
  have h := best_pick (b :: rest) _ _ hc
  rw [he, best_one, hs] at h
  exact .token (w := [a, b]) (by simp) h rfl hn hk hst.symm

/-- The three patterns that begin with a dot. -/
def dots : List Bool := (List.range 15).map (fun i => i == 8 || i == 12 || i == 13)

theorem best_dots (s : Str) : bestRule X initialRules ('.' :: s) =
    bestRule X [⟨pNumber, some stOperator, .token 258⟩, ⟨pDotDot, some stOperator, .token 269⟩,
      ⟨pDot, some stOperator, .ascii⟩] ('.' :: s) := by
  have e : pick dots initialRules = [⟨pNumber, some stOperator, .token 258⟩,
    ⟨pDotDot, some stOperator, .token 269⟩, ⟨pDot, some stOperator, .ascii⟩] := rfl
  have h : covers X '.' dots initialRules = true := by decide +kernel
  rw [best_pick s _ _ h, e]

theorem scan_lit (n : Nat) (k : Prog) (c : Char) (cs : Str) :
    scan X (.lit n k) (c :: cs) = if c.toNat = n then scan X k cs else none := rfl

theorem scan_lit_self (k : Prog) (c : Char) (cs : Str) :
    scan X (.lit c.toNat k) (c :: cs) = scan X k cs := by rw [scan_lit, if_pos rfl]

theorem scan_orEqual {c : Char} (hc : c = '<' ∨ c = '>') (rest : Str) :
    scan X pRelational (c :: '=' :: rest) = some rest := by
  rw [pRelational, scan_branch_success]
  simp only [longest, word, scan_lit, longer_none]
  have hin : inSet X c (.small 2) = true := by rcases hc with rfl | rfl <;> decide +kernel
  have h1 : scan X (.set (.small 2) .success) (c :: '=' :: rest) = some ('=' :: rest) := by
    rw [scan, if_pos hin]
    rfl
  rw [h1]
  rcases hc with rfl | rfl
  · show longer (some ('=' :: rest)) (longer (some rest) none) = some rest
    simp [longer]
  · show longer (some ('=' :: rest)) (longer none (some rest)) = some rest
    simp [longer]

theorem reads_double {a b : Char} {k : Term} (h : (a, b, k) ∈ doubles) (rest : Str) :
    ReadsI k [a, b] rest := by
  simp only [doubles, List.mem_cons, List.not_mem_nil, or_false, Prod.mk.injEq] at h
  rcases h with ⟨rfl, rfl, rfl⟩ | ⟨rfl, rfl, rfl⟩ | ⟨rfl, rfl, rfl⟩ | ⟨rfl, rfl, rfl⟩ |
    ⟨rfl, rfl, rfl⟩ | ⟨rfl, rfl, rfl⟩
  · exact reads_pair (i := 2) (by decide +kernel) rfl rfl (by decide) (by decide +kernel) rfl
  · exact reads_pair (i := 3) (by decide +kernel) rfl rfl (by decide) (by decide +kernel) rfl
  · exact reads_pair (i := 4) (by decide +kernel) rfl
      (scan_orEqual (by decide) rest)
      (by decide) (by decide +kernel) rfl
  · exact reads_pair (i := 4) (by decide +kernel) rfl
      (scan_orEqual (by decide) rest)
      (by decide) (by decide +kernel) rfl
  · exact reads_pair (i := 1) (by decide +kernel) rfl rfl (by decide) (by decide +kernel) rfl
  · have h := best_dots ('.' :: rest)
    rw [best_skip (by
      show scan X pNumber _ = none
      rw [scan_number, afterNumber.eq_def]
      dsimp only
      rw [if_neg (by decide +kernel), if_pos (by decide), afterSome, if_neg (by decide +kernel)]),
      best_take (rest := rest) rfl (by
        intro x y hxy
        rw [best_one] at hxy
        have e : scan X pDot ('.' :: '.' :: rest) = some ('.' :: rest) := rfl
        rw [e] at hxy
        injection hxy with hxy
        injection hxy with _ hxy
        subst hxy
        simp)] at h
    exact readsI_token (w := ['.', '.']) (by simp) h rfl (by decide) (by decide +kernel) rfl

theorem reads_slash {rest : Str} (h : Ends (· = '/') rest) : ReadsI .slash ['/'] rest := by
  have hb := best_pick rest _ _ (show covers X '/' (only 2) initialRules = true by decide +kernel)
  have e : pick (only 2) initialRules = [⟨pSlashes, none, .token 271⟩] := rfl
  have e' : scan X pSlashes ('/' :: rest) = none := by
    rw [pSlashes, word, scan_lit_self]
    cases rest with
    | nil => rfl
    | cons c cs =>
      rw [word, scan_lit, if_neg]
      exact fun hc => h c cs rfl (char_eq _ hc)
  rw [e, best_one, e'] at hb
  exact .char (c := '/') hb (by decide) (by decide) (by decide +kernel) rfl

theorem reads_order {c : Char} (hc : c = '<' ∨ c = '>') {rest : Str} (h : Ends (· = '=') rest) :
    ReadsI .relational [c] rest := by
  have cov : covers X c (only 4) initialRules = true := by
    rcases hc with rfl | rfl <;> decide +kernel
  have hb := best_pick rest _ _ cov
  have e : pick (only 4) initialRules = [⟨pRelational, none, .token 267⟩] := rfl
  have e' : scan X pRelational (c :: rest) = some rest := by
    rw [pRelational, scan_branch_success]
    simp only [longest, word, scan_lit, longer_none]
    have hin : inSet X c (.small 2) = true := by rcases hc with rfl | rfl <;> decide +kernel
    have h1 : scan X (.set (.small 2) .success) (c :: rest) = some rest := by
      rw [scan, if_pos hin]
      rfl
    have h2 : scan X (.lit '='.toNat .success) rest = none := by
      cases rest with
      | nil => rfl
      | cons d ds => rw [scan_lit, if_neg (fun hd => h d ds rfl (char_eq _ hd))]
    rw [h1, h2]
    split <;> split <;> rfl
  rw [e, best_one, e'] at hb
  exact readsI_token (w := [c]) (by simp) hb rfl (by decide) (by decide +kernel) rfl

/-- ASCII digits are the only digits that may follow. -/
def DigitOk (rest : Str) : Prop := Ends (fun c => isDig c = true ∧ ¬ Spec.Digit c) rest

theorem reads_dot {rest : Str} (h : Ends (fun c => c = '.' ∨ Spec.Digit c) rest)
    (hd : DigitOk rest) : ReadsI .dot ['.'] rest := by
  have hb := best_dots rest
  have h1 : scan X pNumber ('.' :: rest) = none := by
    rw [scan_number, afterNumber.eq_def]
    dsimp only
    rw [if_neg (by decide +kernel), if_pos (by decide)]
    cases rest with
    | nil => rfl
    | cons c cs =>
      rw [afterSome, if_neg]
      intro hc
      exact hd c cs rfl ⟨hc, fun h' => h c cs rfl (.inr h')⟩
  have h2 : scan X pDotDot ('.' :: rest) = none := by
    rw [pDotDot, word, scan_lit_self]
    cases rest with
    | nil => rfl
    | cons c cs => rw [word, scan_lit, if_neg (fun hc => h c cs rfl (.inl (char_eq _ hc)))]
  rw [best_skip (r := ⟨pNumber, some stOperator, .token 258⟩) h1,
    best_skip (r := ⟨pDotDot, some stOperator, .token 269⟩) h2, best_one] at hb
  exact .ascii (c := '.') hb rfl (by decide) (by decide) (by decide +kernel) rfl

/-! Literals -/

theorem drop_until {q : Char} {w rest : Str} (h : q ∉ w) :
    (w ++ q :: rest).dropWhile (fun c => c.toNat != q.toNat) = q :: rest := by
  induction w with
  | nil => simp
  | cons c cs ih =>
    have hc : c ≠ q := fun e => h (by simp [e])
    have : c.toNat ≠ q.toNat := fun e => hc (char_eq _ e)
    simp only [List.cons_append, List.dropWhile_cons]
    rw [if_pos (by simpa using this)]
    exact ih (fun hm => h (List.mem_cons_of_mem _ hm))

theorem reads_literal {q : Char} (hq : q = '"' ∨ q = '\'') {w : Str} (hw : q ∉ w) (rest : Str) :
    ReadsI .literal (q :: w ++ [q]) rest := by
  have cov : covers X q (only 7) initialRules = true := by
    rcases hq with rfl | rfl <;> decide +kernel
  have hb := best_pick (w ++ q :: rest) _ _ cov
  have e : pick (only 7) initialRules = [⟨pLiteral, some stOperator, .token 257⟩] := rfl
  have e' : scan X pLiteral (q :: (w ++ q :: rest)) = some rest := by
    rw [scan_literal]
    dsimp only
    rcases hq with rfl | rfl
    · rw [if_neg (by decide), if_pos (by decide)]
      have := drop_until (rest := rest) hw
      rw [show (34 : Nat) = '"'.toNat from rfl, this, scan_lit_self]
      rfl
    · rw [if_pos (by decide)]
      have := drop_until (rest := rest) hw
      rw [show (39 : Nat) = '\''.toNat from rfl, this, scan_lit_self]
      rfl
  rw [e, best_one, e'] at hb
  have hb' : bestRule X initialRules ((q :: w ++ [q]) ++ rest) =
      some (⟨pLiteral, some stOperator, .token 257⟩, rest) := by
    rw [show (q :: w ++ [q]) ++ rest = q :: (w ++ q :: rest) by simp]
    exact hb
  exact readsI_token (by simp) hb' rfl (by decide) (by decide +kernel) rfl

/-! Numbers -/

theorem digit_facts : ∀ n ∈ List.range 10,
    isDig (Char.ofNat (48 + n)) = true ∧
      covers X (Char.ofNat (48 + n)) (only 8) initialRules = true := by decide +kernel

theorem digit_char {c : Char} (h : Spec.Digit c) : ∃ n ∈ List.range 10, c = Char.ofNat (48 + n) := by
  have h1 : 48 ≤ c.toNat := h.1
  have h2 : c.toNat ≤ 57 := h.2
  refine ⟨c.toNat - 48, List.mem_range.mpr (by omega), ?_⟩
  rw [show 48 + (c.toNat - 48) = c.toNat by omega, Char.ofNat_toNat]

theorem digit_dig {c : Char} (h : Spec.Digit c) : isDig c = true := by
  obtain ⟨n, hn, rfl⟩ := digit_char h
  exact (digit_facts n hn).1

theorem drop_digits {w rest : Str} (hw : ∀ c ∈ w, Spec.Digit c) (hr : Ends Spec.Digit rest)
    (hd : DigitOk rest) : (w ++ rest).dropWhile isDig = rest := by
  induction w with
  | nil =>
    cases rest with
    | nil => rfl
    | cons c cs =>
      simp only [List.nil_append, List.dropWhile_cons]
      rw [if_neg]
      intro hc
      exact hd c cs rfl ⟨hc, hr c cs rfl⟩
  | cons c cs ih =>
    simp only [List.cons_append, List.dropWhile_cons]
    rw [if_pos (digit_dig (hw c List.mem_cons_self))]
    exact ih fun x hx => hw x (List.mem_cons_of_mem _ hx)

theorem reads_number {c : Char} {cs rest : Str} (hc : Spec.Digit c)
    (hs : scan X pNumber (c :: cs ++ rest) = some rest) : ReadsI .number (c :: cs) rest := by
  obtain ⟨n, hn, e⟩ := digit_char hc
  have hb := best_pick (cs ++ rest) _ _ (e ▸ (digit_facts n hn).2)
  have e : pick (only 8) initialRules = [⟨pNumber, some stOperator, .token 258⟩] := rfl
  rw [e, best_one] at hb
  have hs' : scan X pNumber (c :: (cs ++ rest)) = some rest := hs
  rw [hs'] at hb
  exact readsI_token (w := c :: cs) (by simp) hb rfl (by decide) (by decide +kernel) rfl

theorem reads_integer {w rest : Str} (h0 : w ≠ []) (hw : ∀ c ∈ w, Spec.Digit c)
    (hr : Ends (fun c => c = '.' ∨ Spec.Digit c) rest) (hd : DigitOk rest) :
    ReadsI .number w rest := by
  cases w with
  | nil => exact absurd rfl h0
  | cons c cs =>
    have hc := hw c List.mem_cons_self
    apply reads_number hc
    rw [scan_number, List.cons_append, afterNumber, if_pos (digit_dig hc),
      drop_digits (fun x hx => hw x (List.mem_cons_of_mem _ hx))
        (fun x xs h h' => hr x xs h (.inr h')) hd]
    cases rest with
    | nil => rfl
    | cons d ds => rw [afterDigits, if_neg (show ¬ d.toNat = 46 from fun hd => hr d ds rfl (.inl (char_eq '.' hd)))]

theorem dot_not_digit : ¬ Spec.Digit '.' := by
  intro h
  have : 48 ≤ '.'.toNat := h.1
  exact absurd this (by decide)

theorem reads_decimal {v w rest : Str} (hv : ∀ c ∈ v, Spec.Digit c) (hw : ∀ c ∈ w, Spec.Digit c)
    (h0 : v ≠ [] ∨ w ≠ []) (hr : Ends Spec.Digit rest) (hd : DigitOk rest) :
    ReadsI .number (v ++ '.' :: w) rest := by
  cases v with
  | cons c cs =>
    have hc := hv c List.mem_cons_self
    rw [List.cons_append]
    apply reads_number hc
    have e : c :: (cs ++ '.' :: w) ++ rest = c :: (cs ++ '.' :: (w ++ rest)) := by simp
    rw [scan_number, e, afterNumber, if_pos (digit_dig hc),
      drop_digits (rest := '.' :: (w ++ rest)) (fun x hx => hv x (List.mem_cons_of_mem _ hx))]
    · rw [afterDigits, if_pos (by decide), drop_digits hw hr hd]
    · intro x xs h h'
      injection h with h _
      subst h
      exact dot_not_digit h'
    · intro x xs h h'
      injection h with h _
      subst h
      exact absurd h'.1 (by decide +kernel)
  | nil =>
    cases w with
    | nil => rcases h0 with h0 | h0 <;> exact absurd rfl h0
    | cons d ds =>
      have hdd := hw d List.mem_cons_self
      have hb := best_dots (d :: ds ++ rest)
      have h1 : scan X pNumber ('.' :: (d :: ds ++ rest)) = some rest := by
        rw [scan_number, afterNumber.eq_def]
        dsimp only
        rw [if_neg (by decide +kernel), if_pos (by decide), List.cons_append, afterSome,
          if_pos (digit_dig hdd), drop_digits (fun x hx => hw x (List.mem_cons_of_mem _ hx)) hr hd]
      rw [best_take (r := ⟨pNumber, some stOperator, .token 258⟩) h1 (by
        intro x y hxy
        have h2 : scan X pDotDot ('.' :: (d :: ds ++ rest)) = none := by
          rw [pDotDot, word, scan_lit_self, List.cons_append, word, scan_lit, if_neg]
          intro he
          rw [char_eq '.' he] at hdd
          exact dot_not_digit hdd
        rw [best_skip (r := ⟨pDotDot, some stOperator, .token 269⟩) h2, best_one] at hxy
        have h3 : scan X pDot ('.' :: (d :: ds ++ rest)) = some (d :: ds ++ rest) := rfl
        rw [h3] at hxy
        injection hxy with hxy
        injection hxy with _ hxy
        subst hxy
        simp
        omega)] at hb
      exact readsI_token (w := '.' :: d :: ds) (by simp) hb rfl (by decide) (by decide +kernel) rfl

end Verif.Parse
