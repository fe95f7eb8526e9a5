import Verif.Parse.PatternNest
import Verif.Parse.AstProps
/-
C73: which texts are match patterns and what they are made into.
-/
namespace Verif.Parse
open Spec
open Verif.Eval Verif.Eval.Spec

/-! ### Tokens -/

theorem lexes_term {op : Bool} {s : Str} {ts : List Tok} (h : Lexes op s ts) :
    ∀ t ∈ ts, ∃ k : Term, t.kind = k.num := by
  induction h with
  | nil => nofun
  | space _ _ ih => exact ih
  | @token op k w rest ts _ _ ih =>
    intro t ht
    rcases List.mem_cons.mp ht with rfl | ht
    · exact ⟨k, rfl⟩
    · exact ih t ht

theorem patSym_inj : ∀ k k' : Term, patSym k.num = patSym k'.num → k = k' := by
  intro k k'
  cases k <;> cases k' <;> first | (intro _; rfl) | (intro h; exact absurd h (by decide))

theorem in_ok {s : Str} {ts : List Tok} (h : Lexes false s ts) : ∀ t ∈ inPattern ts, PTokOk t := by
  intro t ht
  obtain ⟨u, hu, rfl⟩ := List.mem_map.mp ht
  obtain ⟨k, hk⟩ := lexes_term h u hu
  have e : (mapTok patSym u).kind = patSym u.kind := rfl
  refine ⟨fun k' hk' => ?_, fun h5 => ?_, fun h6 => ?_⟩
  · rw [e, hk] at hk'
    rw [← patSym_inj _ _ hk']
    exact lexes_ok h u hu k hk
  · exact absurd (by rw [← e, h5]; decide) (patSym_plain u.kind)
  · exact absurd (by rw [← e, h6]; decide) (patSym_plain u.kind)

theorem in_pi {s : Str} {ts : List Tok} (h : Lexes false s ts) (hp : PiOnly ts) : PPiOnly (inPattern ts) := by
  intro a t l x b e ht hx
  rw [inPattern] at e
  obtain ⟨a', r, rfl, _, e1⟩ := List.map_eq_append_iff.mp e
  obtain ⟨t', r, rfl, rfl, e2⟩ := List.map_eq_cons_iff.mp e1
  obtain ⟨l', r, rfl, _, e3⟩ := List.map_eq_cons_iff.mp e2
  obtain ⟨x', r, rfl, rfl, _⟩ := List.map_eq_cons_iff.mp e3
  obtain ⟨k, hk⟩ := lexes_term h t' (by simp)
  obtain ⟨k', hk'⟩ := lexes_term h x' (by simp)
  have ht : patSym t'.kind = patSym Term.nodeType.num := ht
  have hx : patSym x'.kind = patSym Term.literal.num := hx
  rw [hk] at ht
  rw [hk'] at hx
  have e1 := patSym_inj _ _ ht
  have e2 := patSym_inj _ _ hx
  subst e1 e2
  exact hp a' t' l' x' r rfl hk hk'

theorem plain_kinds : ∀ k : Term, patSym k.num ∈ [10, 12, 21, 22, 23, 24, 25, 27] →
    k.num ∈ [17, 18, 26, 24, 6, 8, 19, 20] := by
  intro k; cases k <;> decide

theorem plain_iff {op : Bool} {s : Str} {ts : List Tok} (h : Lexes op s ts) : ∀ {p : Nat},
    Flow p (inPattern ts) → (plainToks ts = true ↔ ∀ t ∈ beforeBracket ts, ¬ Is .literal t) := by
  have hk := lexes_term h
  clear h
  induction ts with
  | nil => intro p _; exact ⟨fun _ => nofun, fun _ => rfl⟩
  | cons t ts ih =>
    intro p hf
    obtain ⟨k, e⟩ := hk t List.mem_cons_self
    have hf : Flow p (mapTok patSym t :: inPattern ts) := hf
    rw [Flow] at hf
    have e' : (mapTok patSym t).kind = patSym k.num := by rw [← e]; rfl
    have e3 : (mapTok patSym t).kind ∉ [3, 4, 5, 6] := patSym_plain _
    rw [plainToks, beforeBracket]
    by_cases hb : t.kind = 21
    · rw [hb]
      have : (t :: ts).takeWhile (fun t => t.kind != Term.lbracket.num) = [] := by
        rw [List.takeWhile_cons, if_neg]
        rw [hb]; decide
      rw [this]
      exact ⟨fun _ => nofun, fun _ => rfl⟩
    · have : (t :: ts).takeWhile (fun t => t.kind != Term.lbracket.num) = t :: beforeBracket ts := by
        rw [List.takeWhile_cons, if_pos]
        · rfl
        · rw [bne_iff_ne]; exact hb
      rw [this, show (t.kind == 21) = false from by rw [beq_eq_false_iff_ne]; exact hb, Bool.false_or,
        Bool.and_eq_true]
      rcases hf with h | h | h | h | ⟨h, _⟩ | ⟨_, _, h, hf⟩
      · rw [e'] at h
        have := patSym_inj k .lbracket h
        rw [this] at e
        exact absurd e hb
      · exact absurd (by rw [h]; decide) e3
      · exact absurd (by rw [h]; decide) e3
      · rw [e'] at h
        have h := patSym_inj k .literal h
        rw [h] at e
        constructor
        · intro ⟨h1, _⟩
          rw [e] at h1
          exact absurd h1 (by decide)
        · intro h1
          exact absurd e (h1 t List.mem_cons_self)
      · rcases h with h | h <;> exact absurd (by rw [h]; decide) e3
      · rw [e'] at h
        have h17 := plain_kinds k h
        rw [ih (fun u hu => hk u (List.mem_cons_of_mem _ hu)) hf]
        constructor
        · rintro ⟨_, h2⟩ u hu
          rcases List.mem_cons.mp hu with rfl | hu
          · intro hl
            have hl : u.kind = 3 := hl
            rw [e] at hl
            rw [hl] at h17
            exact absurd h17 (by decide)
          · exact h2 u hu
        · intro h2
          refine ⟨?_, fun u hu => h2 u (List.mem_cons_of_mem _ hu)⟩
          rw [e]
          exact List.contains_iff_mem.mpr h17

/-! ### Alike and the same -/

theorem same_value {e' e : Ast} (h : Alike e' e) : SameValue e' e :=
  fun _ _ w _ he x hx => alike_same w he h x hx

theorem same_values : ∀ {l' l : List Ast}, Alikes l' l → Both SameValue l' l
  | _, _, .nil => .nil
  | _, _, .cons h t => .cons (same_value h) (same_values t)

theorem Both.append {α β : Type} {R : α → β → Prop} {a b : List α} {c d : List β} (h : Both R a c)
    (h' : Both R b d) : Both R (a ++ b) (c ++ d) := by
  induction h with
  | nil => exact h'
  | cons h _ ih => exact .cons h ih

theorem same_step {s' s : PStep} (h : AlikePStep s' s) : SameNode s'.node s.node := by
  cases h with
  | mk a t h =>
    cases h with
    | nil => exact .test a t
    | cons h1 h2 => exact .predicated a t (same_values (.cons h1 h2))

theorem same_marked {l' l : List (PNode × Bool)} (h : SameChain l' l) : SameChain (marked l') (marked l) := by
  cases h with
  | nil => exact .nil
  | cons h1 h2 => exact .cons ⟨h1.1, rfl⟩ h2

theorem same_rel {r' r : PRel} (h : AlikePRel r' r) : SameChain r'.chain r.chain := by
  induction h with
  | one h => exact .cons ⟨same_step h, rfl⟩ .nil
  | slash _ h ih => exact .cons ⟨same_step h, rfl⟩ ih
  | slashes _ h ih => exact .cons ⟨same_step h, rfl⟩ (same_marked ih)

theorem same_path {p' p : PPath} (h : AlikePPath p' p) : SameChain p'.chain p.chain := by
  cases h with
  | root => exact .cons ⟨.document, rfl⟩ .nil
  | abs h => exact Both.append (same_rel h) (.cons ⟨.document, rfl⟩ .nil)
  | any h => exact same_rel h
  | rel h => exact same_rel h
  | call f => exact .cons ⟨.call f, rfl⟩ .nil
  | callSlash f h => exact Both.append (same_rel h) (.cons ⟨.call f, rfl⟩ .nil)
  | callSlashes f h => exact Both.append (same_rel h) (.cons ⟨.call f, rfl⟩ .nil)

theorem same_paths {P' P : List PPath} (h : AlikePPaths P' P) :
    Both SameChain (P'.map PPath.chain) (P.map PPath.chain) := by
  induction h with
  | nil => exact .nil
  | cons h _ ih => exact .cons (same_path h) ih

/-! ### No calls -/

theorem call_first {w : List Tok} {f : Ast} (h : BuiltCall w f) : ∃ t u, w = t :: u ∧ t.kind ∈ [3, 4, 5, 6] := by
  cases h with
  | id h => exact ⟨_, _, rfl, by rw [show _ = 5 from h]; decide⟩
  | key h => exact ⟨_, _, rfl, by rw [show _ = 6 from h]; decide⟩

theorem no_calls {w : List Tok} {P : List PPath} (h : Built w P) (hw : ∀ t ∈ w, t.kind ∉ [3, 4, 5, 6]) :
    P.map PPath.codeChain = P.map PPath.chain := by
  have one : ∀ {w p}, BPath w p → (∀ t ∈ w, t.kind ∉ [3, 4, 5, 6]) → PPath.codeChain p = PPath.chain p := by
    intro w p h hw
    cases h with
    | callSlashes hc _ _ =>
      obtain ⟨t, u, rfl, ht⟩ := call_first hc
      exact absurd ht (hw t (by simp))
    | root | abs | any | rel | call | callSlash => rfl
  induction h with
  | one h => rw [List.map_singleton, List.map_singleton, one h hw]
  | more _ _ h ih =>
    rw [List.map_append, List.map_append, ih fun t ht => hw t (by simp [ht]), List.map_singleton,
      List.map_singleton, one h fun t ht => hw t (by simp [ht])]

theorem in_plain (ts : List Tok) : ∀ t ∈ inPattern ts, t.kind ∉ [3, 4, 5, 6] := by
  intro t ht
  obtain ⟨u, _, rfl⟩ := List.mem_map.mp ht
  exact patSym_plain _

/-! ### The property -/

/-- Parsing a pattern ends: with a pattern, `XpathError.SYNTAX`, an overflow of
the stack or an exception of a constructor. -/
theorem C73_total (s : Str) : (∃ l, parsePattern s = .ok l) ∨ parsePattern s = .syntaxError ∨
    parsePattern s = .overflow ∨ ∃ e, parsePattern s = .raises e := by
  obtain ⟨ts, h⟩ := pat_lex_total s
  have hk := parsed_total (pat_tokens (pat_lex_iff.mp h))
  rw [parsePattern, h]
  dsimp only
  cases h2 : parsePatToks ts with
  | ok l => exact .inl ⟨l, rfl⟩
  | syntaxError => exact .inr (.inl rfl)
  | overflow => exact .inr (.inr (.inl rfl))
  | raises e => exact .inr (.inr (.inr ⟨e, rfl⟩))
  | stuck => exact absurd h2 hk

theorem accepted_built {s : Str} {ts : List Tok} (h : Lexes false s ts) {l : List (List Entry)}
    (hl : parsePattern s = .ok l) : plainToks ts = true ∧ ∃ P, Built (inPattern ts) P ∧
      l = P.map PPath.chain := by
  obtain ⟨us, hu⟩ := pat_lex_total s
  have ht := pat_lex_iff.mp hu
  rw [parsePattern, hu] at hl
  obtain ⟨P, hb, e⟩ := parsed_built (pat_tokens ht) hl
  have hp := only_plain _ s rfl false ts us 0 h ht (built_kinds hb) (built_flow hb) nofun
  have e' := toks_unique ht (outside _ s rfl false ts h hp)
  subst e'
  exact ⟨hp, P, hb, by rw [e, no_calls hb (in_plain ts)]⟩

theorem built_accepted {s : Str} {ts : List Tok} (h : Lexes false s ts) (hn : ts.length < 500)
    (hp : plainToks ts = true) {P : List PPath} (hb : Built (inPattern ts) P) :
    parsePattern s = .ok (P.map PPath.chain) := by
  have ht := outside _ s rfl false ts h hp
  rw [parsePattern, pat_lex_iff.mpr ht]
  dsimp only
  rw [built_parsed (pat_tokens ht) (by rw [inPattern, List.length_map]; exact hn) hb,
    no_calls hb (in_plain ts)]

/-- Which texts are accepted: those whose tokens are a pattern in which no step
has an axis with its name and no alternative begins with `id` or `key` (these
words are not among the kinds of tokens of XPath), and which has no literal
before the first predicate.  For texts of less than 500 tokens, in which only
`processing-instruction` has a literal. -/
theorem C73_exact_partial (s : Str) (ts : List Tok) (h : Lexes false s ts) (hn : ts.length < 500)
    (hp : PiOnly ts) : (∃ l, parsePattern s = .ok l) ↔
      (∃ P, PatternSays (inPattern ts) P) ∧ ∀ t ∈ beforeBracket ts, ¬ Is .literal t := by
  constructor
  · rintro ⟨l, hl⟩
    obtain ⟨h1, P, hb, _⟩ := accepted_built h hl
    obtain ⟨P', h2, _⟩ := pattern_said hb (in_ok h) (in_pi h hp)
    exact ⟨⟨P', h2⟩, (plain_iff h (built_flow hb)).mp h1⟩
  · rintro ⟨⟨P, hP⟩, hl⟩
    obtain ⟨P', hb, _⟩ := pattern_found hP
    exact ⟨_, built_accepted h hn ((plain_iff h (built_flow hb)).mpr hl) hb⟩

/-- What is accepted is a pattern by the recommendation, and it is made into
what it should be: for each alternative its steps from right to left, each with
its axis, its test and its predicates, and with a mark before `//`. -/
theorem C73_sound (s : Str) (ts : List Tok) (h : Lexes false s ts) (hp : PiOnly ts)
    (l : List (List (PNode × Bool))) (hl : parsePattern s = .ok l) :
    ∃ P, PatternText s P ∧ Both SameChain l (P.map PPath.chain) := by
  obtain ⟨h1, P', hb, e⟩ := accepted_built h hl
  obtain ⟨P, h2, ha⟩ := pattern_said hb (in_ok h) (in_pi h hp)
  refine ⟨P, ⟨ts, inPattern ts, h, ?_, h2⟩, e ▸ same_paths ha⟩
  clear h h2 hb hl h1 hp
  induction ts with
  | nil => exact .nil
  | cons t ts ih => exact .cons (.same t) ih

/-- A pattern by the recommendation (of less than 500 tokens) is accepted if and
only if it has no axis with its name outside of predicates, does not use `id` or
`key` there and has no literal before the first predicate.  If it is accepted it
is made into what it should be. -/
theorem C73_complete_partial (s : Str) (ts ts' : List Tok) (h : Lexes false s ts) (hn : ts.length < 500)
    (ht : Both AsPattern ts ts') (P : List PPath) (hP : PatternSays ts' P) :
    ((∃ l, parsePattern s = .ok l) ↔ (∀ t ∈ ts', ¬ PIs .childAxis t ∧ ¬ PIs .attributeAxis t ∧
        ¬ PIs .idFunction t ∧ ¬ PIs .keyFunction t) ∧ ∀ t ∈ beforeBracket ts, ¬ Is .literal t) ∧
      ∀ l, parsePattern s = .ok l → Both SameChain l (P.map PPath.chain) := by
  obtain ⟨P', hb, ha⟩ := pattern_found hP
  have same : ∀ {l}, parsePattern s = .ok l → ts' = inPattern ts := by
    intro l hl
    obtain ⟨_, Q, hq, _⟩ := accepted_built h hl
    exact nest_same ht 0 (built_nest hb) (built_nest hq)
  refine ⟨⟨?_, ?_⟩, ?_⟩
  · rintro ⟨l, hl⟩
    obtain ⟨h1, Q, hq, _⟩ := accepted_built h hl
    refine ⟨fun t ht' => ?_, (plain_iff h (built_flow hq)).mp h1⟩
    rw [same hl] at ht'
    have := in_plain ts t ht'
    simp only [List.mem_cons, List.not_mem_nil, or_false, not_or] at this
    exact this
  · rintro ⟨hw, hl⟩
    have e : ts' = inPattern ts := by
      clear h hn hP hb ha same hl
      induction ht with
      | nil => rfl
      | @cons t t' l l' h _ ih =>
        have h1 := hw _ List.mem_cons_self
        have ih := ih fun u hu => hw u (List.mem_cons_of_mem _ hu)
        cases h with
        | same => rw [ih]; rfl
        | child => exact absurd rfl h1.1
        | «attribute» => exact absurd rfl h1.2.1
        | id => exact absurd rfl h1.2.2.1
        | key => exact absurd rfl h1.2.2.2
    subst e
    exact ⟨_, built_accepted h hn ((plain_iff h (built_flow hb)).mpr hl) hb⟩
  · intro l hl
    have e := same hl
    subst e
    have hp : plainToks ts = true := (accepted_built h hl).1
    rw [built_accepted h hn hp hb] at hl
    injection hl with hl
    exact hl ▸ same_paths ha

/-! ### An example: `a[1]//@b` -/

def exPat : Str := "a[1]//@b".toList
def exPatToks : List Tok := [tk .nameTest "a", tk .lbracket "[", tk .number "1", tk .rbracket "]",
  tk .slashSlash "//", tk .at "@", tk .nameTest "b"]

theorem ex_pat_lexes : Lexes false exPat exPatToks := by
  refine Lexes.token (k := .nameTest) (w := ['a']) (rest := "[1]//@b".toList)
    (.name (one_letter (by decide +kernel)) (ends_name (by decide +kernel))
      (not_next (by decide +kernel) rfl) (not_next' (by decide +kernel) rfl)) ?_
  refine Lexes.token (k := .lbracket) (w := ['[']) (rest := "1]//@b".toList)
    (.single (by decide)) ?_
  refine Lexes.token (k := .number) (w := ['1']) (rest := "]//@b".toList)
    (.integer (by simp) (by intro c hc; obtain rfl := List.mem_singleton.mp hc
                            exact ⟨by decide, by decide⟩) ?_) ?_
  · intro c cs e hc
    injection e with e _
    subst e
    rcases hc with hc | hc
    · exact absurd hc (by decide)
    · exact absurd hc.2 (by decide)
  refine Lexes.token (k := .rbracket) (w := [']']) (rest := "//@b".toList)
    (.single (by decide)) ?_
  refine Lexes.token (k := .slashSlash) (w := ['/', '/']) (rest := "@b".toList) (.double (by decide)) ?_
  refine Lexes.token (k := .at) (w := ['@']) (rest := "b".toList) (.single (by decide)) ?_
  exact Lexes.token (k := .nameTest) (w := ['b']) (rest := [])
    (.name (one_letter (by decide +kernel)) (ends_name (by decide +kernel))
      (not_next (by decide +kernel) rfl) (not_next' (by decide +kernel) rfl)) .nil

theorem no_types {ts : List Tok} (h : ∀ t ∈ ts, t.kind ≠ Term.nodeType.num) : PiOnly ts := by
  intro a t l x b e ht _
  exact absurd ht (h t (by simp [e]))

theorem accepted_iff {p : ParsedPat} : p.accepted = true ↔ ∃ l, p = .ok l := by
  cases p with
  | ok l => exact ⟨fun _ => ⟨l, rfl⟩, fun _ => rfl⟩
  | syntaxError | overflow | raises | stuck => exact ⟨nofun, fun ⟨_, h⟩ => (nomatch h)⟩

def ParsedPat.rejected : ParsedPat → Bool
  | .syntaxError => true
  | _ => false

theorem rejected_iff {p : ParsedPat} : p.rejected = true ↔ p = .syntaxError := by
  cases p with
  | syntaxError => exact ⟨fun _ => rfl, fun _ => rfl⟩
  | ok | overflow | raises | stuck => exact ⟨nofun, fun h => (nomatch h)⟩

/-- What becomes of a step, without the predicates. -/
def brief : PNode × Bool → Option (PatAxis × RawTest × Nat) × Bool
  | (.document, m) => (none, m)
  | (.test a t, m) => (some (a, t, 0), m)
  | (.predicated a t ps, m) => (some (a, t, ps.length), m)
  | (.call _, m) => (none, m)

instance : DecidableEq (List (Option (PatAxis × RawTest × Nat) × Bool)) := inferInstance

def briefly : ParsedPat → Option (List (List (Option (PatAxis × RawTest × Nat) × Bool)))
  | .ok l => some (l.map (List.map brief))
  | _ => none

example : Lexes false exPat exPatToks ∧ exPatToks.length < 500 ∧ PiOnly exPatToks ∧
    (∃ P, PatternSays (inPattern exPatToks) P) ∧ (∀ t ∈ beforeBracket exPatToks, ¬ Is .literal t) ∧
    briefly (parsePattern exPat) = some [[(some (.attribute, .name ['b'], 0), false),
      (some (.child, .name ['a'], 1), true)]] := by
  have hp : PiOnly exPatToks := no_types (by decide)
  have h := (C73_exact_partial exPat exPatToks ex_pat_lexes (by decide) hp).mp
    (accepted_iff.mp (by decide +kernel))
  exact ⟨ex_pat_lexes, by decide, hp, h.1, h.2, by decide +kernel⟩

/-- Texts that are accepted and texts that are not. -/
example : (∀ s ∈ ["/", "a", "*", "p:*", "/a", "//a", "a/b//@c|/", "text()", "a[1]/b[text()='x']/c", "node()",
      "@*|comment()"], (parsePattern s.toList).accepted = true) ∧
    (∀ s ∈ ["", "a/", ".", "..", "a|", "1", "a b", "/ /", "a//", "//", "f()", "a[", "self::a", "(a)"],
      (parsePattern s.toList).accepted = false) := by
  refine ⟨by decide +kernel, by decide +kernel⟩

/-! ### Where it goes wrong -/

theorem is_ncname (w : Str) (h : (match w with
    | [] => false
    | c :: cs => isStart c && cs.all isName) = true) : NCName w := by
  match w, h with
  | c :: cs, h =>
    dsimp only at h
    rw [Bool.and_eq_true] at h
    exact ⟨c, cs, rfl, (isStart_iff c).mp h.1, fun x hx => (isName_iff x).mp (List.all_eq_true.mp h.2 x hx)⟩

theorem ends_ncname {s : Str} (h : (match s with
    | [] => true
    | c :: _ => !isName c) = true) : EndsName s := by
  intro c cs e hc
  subst e
  dsimp only at h
  rw [(isName_iff c).mpr hc] at h
  exact (nomatch h)

theorem the_a : Says .nodeTest [tk .nameTest "a"] (.test (.name "a".toList)) :=
  .p7a rfl (.name (is_ncname _ (by decide +kernel)))

theorem step_a : StepOf (fun w t => Says .nodeTest w (.test t)) (fun w ps => Says .predicates w (.list ps))
    (inPattern [tk .nameTest "a"]) ⟨.child, .name "a".toList, []⟩ :=
  .mk (u := []) (v := [tk .nameTest "a"]) (w := []) .none the_a .none

theorem lexes_axis (w : Str) (h : NCName w) : Lexes false (w ++ "::a".toList)
    [⟨Term.axisName.num, w⟩, tk .colonColon "::", tk .nameTest "a"] := by
  refine Lexes.token (k := .axisName) (rest := "::a".toList)
    (.axisName h (ends_ncname (by decide +kernel)) ⟨[], ['a'], rfl, nofun⟩) ?_
  refine Lexes.token (k := .colonColon) (w := [':', ':']) (rest := ['a']) (.double (by decide)) ?_
  exact Lexes.token (k := .nameTest) (w := ['a']) (rest := [])
    (.name (one_letter (by decide +kernel)) (ends_name (by decide +kernel))
      (not_next (by decide +kernel) rfl) (not_next' (by decide +kernel) rfl)) .nil

/-- `child::a` and `attribute::a` are patterns, and are not accepted. -/
theorem C73_refuted_axes :
    PatternText "child::a".toList [.rel (.one ⟨.child, .name "a".toList, []⟩)] ∧
    PatternText "attribute::a".toList [.rel (.one ⟨.attribute, .name "a".toList, []⟩)] ∧
    parsePattern "child::a".toList = .syntaxError ∧ parsePattern "attribute::a".toList = .syntaxError := by
  refine ⟨⟨_, _, lexes_axis "child".toList (is_ncname _ (by decide +kernel)),
      .cons (.child rfl rfl) (.cons (.same _) (.cons (.same _) .nil)), ?_⟩,
    ⟨_, _, lexes_axis "attribute".toList (is_ncname _ (by decide +kernel)),
      .cons (.attribute rfl rfl) (.cons (.same _) (.cons (.same _) .nil)), ?_⟩, ?_, ?_⟩
  · exact .one (.rel (.one (.mk (u := [_, _]) (v := [tk .nameTest "a"]) (w := []) (.child rfl rfl) the_a .none)))
  · exact .one (.rel (.one (.mk (u := [_, _]) (v := [tk .nameTest "a"]) (w := []) (.attribute rfl rfl) the_a
      .none)))
  · exact rejected_iff.mp (by decide +kernel)
  · exact rejected_iff.mp (by decide +kernel)

/-- A literal in parentheses after a name. -/
theorem lexes_literal (w : Str) (k : Term) (h : Token false k w "('x')".toList) : Lexes false (w ++ "('x')".toList)
    [⟨k.num, w⟩, tk .lparen "(", tk .literal "'x'", tk .rparen ")"] := by
  refine Lexes.token (k := k) (rest := "('x')".toList) h ?_
  refine Lexes.token (k := .lparen) (w := ['(']) (rest := "'x')".toList) (.single (by decide)) ?_
  refine Lexes.token (k := .literal) (w := '\'' :: ['x'] ++ ['\'']) (rest := [')'])
    (.literal (.inr rfl) (by decide)) ?_
  exact Lexes.token (k := .rparen) (w := [')']) (rest := []) (.single (by decide)) .nil

/-- So it is with `id('x')`. -/
theorem C73_refuted_id :
    PatternText "id('x')".toList [.call (.call "id".toList [.literal "x".toList])] ∧
    parsePattern "id('x')".toList = .syntaxError := by
  refine ⟨⟨_, _, lexes_literal "id".toList .functionName (.function (is_ncname _ (by decide +kernel))
      (by decide) (ends_ncname (by decide +kernel)) ⟨[], "'x')".toList, rfl, nofun⟩),
      .cons (.id rfl rfl) (.cons (.same _) (.cons (.same _) (.cons (.same _) .nil))), ?_⟩, ?_⟩
  · exact .one (.call (.id rfl rfl rfl rfl rfl ⟨'\'', .inr rfl, rfl⟩))
  · exact rejected_iff.mp (by decide +kernel)

/-- And with `processing-instruction('x')`, but not after a predicate. -/
theorem C73_refuted_literal :
    PatternText "processing-instruction('x')".toList [.rel (.one ⟨.child, .pi (some "x".toList), []⟩)] ∧
    parsePattern "processing-instruction('x')".toList = .syntaxError ∧
    (parsePattern "a[1]/processing-instruction('x')".toList).accepted = true := by
  refine ⟨⟨_, _, lexes_literal "processing-instruction".toList .nodeType (.nodeType (by decide)
      (ends_ncname (by decide +kernel)) ⟨[], "'x')".toList, rfl, nofun⟩),
      .cons (.same _) (.cons (.same _) (.cons (.same _) (.cons (.same _) .nil))), ?_⟩, ?_, ?_⟩
  · exact .one (.rel (.one (.mk (u := []) (v := [tk .nodeType "processing-instruction", tk .lparen "(",
      tk .literal "'x'", tk .rparen ")"]) (w := []) .none
      (.p7c rfl rfl rfl rfl rfl ⟨'\'', .inr rfl, rfl⟩) .none)))
  · exact rejected_iff.mp (by decide +kernel)
  · decide +kernel

def isRaises : ParsedPat → Bool
  | .raises _ => true
  | _ => false

/-- And an unknown axis or function in a predicate is not reported as an error of syntax. -/
theorem C73_refuted_errors : isRaises (parsePattern "a[foo::b]".toList) = true ∧
    isRaises (parsePattern "a[foo()]".toList) = true := by
  refine ⟨by decide +kernel, by decide +kernel⟩

/-- The tokens of `id('x')//a`. -/
def idToks : List Tok := [⟨PTerm.idFunction.num, "id".toList⟩] ++
  inPattern [tk .lparen "(", tk .literal "'x'", tk .rparen ")", tk .slashSlash "//", tk .nameTest "a"]

/-- If the lexer knew of `id`, `id('x')//a` would match `a` only as a child of
the element. -/
theorem C73_refuted_slashes :
    PatternSays idToks [.callSlashes (.call "id".toList [.literal "x".toList])
      (.one ⟨.child, .name "a".toList, []⟩)] ∧
    parsePatToks idToks = .ok [[(.test .child (.name "a".toList), false),
      (.call (.call "id".toList [.literal "x".toList]), false)]] ∧
    PPath.chain (.callSlashes (.call "id".toList [.literal "x".toList]) (.one ⟨.child, .name "a".toList, []⟩)) =
      [(.test .child (.name "a".toList), false), (.call (.call "id".toList [.literal "x".toList]), true)] := by
  refine ⟨.one (.callSlashes (v := [_, _, _, _]) (.id rfl rfl rfl rfl rfl ⟨'\'', .inr rfl, rfl⟩) rfl (.one step_a)),
    ?_, rfl⟩
  have hb : Built idToks [.callSlashes (.call "id".toList [.literal "x".toList])
      (.one ⟨.child, .name "a".toList, []⟩)] := by
    have ht : HasV 35 [tk .nameTest "a"] (.test (.name "a".toList)) := foundV the_a
    exact .one (.callSlashes (v := [_, _, _, _]) (.id rfl rfl rfl rfl rfl) rfl
      (.one (.mk (u := []) (v := [tk .nameTest "a"]) (w := []) .none ht (.inl ⟨rfl, rfl⟩))))
  have hk : ∀ t ∈ idToks, 0 < t.kind ∧ t.kind < 69 := by decide
  exact built_parsed hk (by decide) hb

end Verif.Parse
