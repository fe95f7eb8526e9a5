import Verif.Parse.Exact
import Verif.Parse.Room
import Verif.Parse.XPathCert
import Verif.Parse.XPathDialect
/-
C64: the parser of XPath expressions against the grammar of the recommendation,
for sequences of tokens.
-/
namespace Verif.Parse
open Spec

/-- The XPath parser (lib/xpath/parser/xpathparser.c, `parser_parse`) on the
tokens of an expression; `xpath_enough` shows that it ends within this fuel. -/
def parseXPath (ts : List Tok) : Parsed :=
  parse xpathTables (fuelFor xpathCert ts.length) ts

def xpathBounds : Bounds where
  least := [1, 1, 1, 1, 1, 1, 1, 1, 1, 1, 1, 1, 1, 1, 1, 1, 1, 1, 1, 1, 1, 1, 1, 1, 1, 1, 1, 1, 1,
    1, 1, 1, 1, 3, 0, 1, 3, 1, 2, 3, 1, 0, 1, 1, 3, 1, 1, 1, 1, 1, 1, 1, 1, 1, 1, 1, 1]
  over := [1, 1, 1, 1, 1, 1, 1, 1, 1, 1, 1, 1, 1, 1, 1, 1, 1, 1, 1, 1, 1, 1, 1, 1, 1, 1, 1, 1, 1,
    2, 1, 2, 2, 0, 3, 1, 0, 2, 1, 0, 1, 3, 2, 1, 0, 2, 2, 2, 2, 1, 2, 2, 2, 2, 2, 2, 2]

theorem xpath_room : checkRoom xpathTables xpathBounds = true := by decide +kernel

/-- The tokens have numbers the lexer can give (1 to 57; the numbers up to 28
are those of `Term`, the others belong to no token of the grammar). -/
def Tokens58 (ts : List Tok) : Prop := ∀ t ∈ ts, 0 < t.kind ∧ t.kind < 58

/-- The fuel does not matter: with more of it the result is the same. -/
theorem xpath_enough {ts : List Tok} (hk : Tokens58 ts) {f : Nat}
    (hf : fuelFor xpathCert ts.length ≤ f) : parse xpathTables f ts = parseXPath ts := by
  rw [parse, parseXPath, parse]
  obtain ⟨k, rfl⟩ := Nat.exists_eq_add_of_le hf
  rw [run_more _ k]
  rcases sound xpath_sound hk (Nat.le_refl _) with ⟨t', h1, _⟩ | ⟨_, _, h1, _⟩ <;> rw [h1] <;> nofun

theorem expr_kinds {ts : List Tok} (h : Phrase code .expr ts) : Tokens58 ts := by
  obtain ⟨t, h1, _, rfl⟩ := (expr_iff ts).mpr h
  have : ∀ x ∈ yield t, 0 < x.kind ∧ x.kind < 29 := by
    exact yield_terms h1
  intro x hx
  exact ⟨(this x hx).1, by have := (this x hx).2; omega⟩
where
  yield_terms : ∀ {t : Tree}, Derives (grammar xpathTables) t →
      ∀ x ∈ yield t, 0 < x.kind ∧ x.kind < 29
    | .leaf t, .leaf _ h, x, hx => by
      obtain rfl := List.mem_singleton.mp hx
      exact h
    | .node _ ks, .node _ _ _ _ h, x, hx => yields_terms h x hx
  yields_terms : ∀ {ts : Trees}, DerivesAll (grammar xpathTables) ts →
      ∀ x ∈ yields ts, 0 < x.kind ∧ x.kind < 29
    | .nil, _, _, hx => (nomatch hx)
    | .cons t ts, .cons _ _ h1 h2, x, hx => by
      rcases List.mem_append.mp hx with hx | hx
      · exact yield_terms h1 x hx
      · exact yields_terms h2 x hx

/-! ### The tokens of `a[1]/text()`, as an example -/

def tk (k : Term) (s : String) : Tok := ⟨k.num, s.toList⟩

def exTokens : List Tok :=
  [tk .nameTest "a", tk .lbracket "[", tk .number "1", tk .rbracket "]", tk .slash "/",
    tk .nodeType "text", tk .lparen "(", tk .rparen ")"]

/-- The parser always ends, without leaving its tables: with an expression, a
syntax error, or by writing past the end of its stack. -/
theorem C64_total (ts : List Tok) (hk : Tokens58 ts) :
    (∃ t, parseXPath ts = .ok t) ∨ (∃ l, parseXPath ts = .error l) ∨
      parseXPath ts = .overflow :=
  exact_total xpath_complete xpath_sound hk

/-- What the parser accepts is an expression of the grammar (in the dialect
`code`), and the tree it builds has these tokens in this order. -/
theorem C64_sound (ts : List Tok) (hk : Tokens58 ts) (t : Tree) (h : parseXPath ts = .ok t) :
    Phrase code .expr ts ∧ yield t = ts := by
  obtain ⟨h1, h2, h3, _⟩ := (exact_ok xpath_complete xpath_sound hk t).mp h
  exact ⟨(expr_iff ts).mp ⟨t, h1, h2, h3⟩, h3⟩

/-- An expression of less than 500 tokens is accepted. -/
theorem C64_complete (ts : List Tok) (hn : ts.length < 500) (h : Phrase code .expr ts) :
    ∃ t, parseXPath ts = .ok t := by
  obtain ⟨t, h1, h2, h3⟩ := (expr_iff ts).mpr h
  have hr := room_le xpath_room h1
  rw [h2, h3] at hr
  have h42 : xpathBounds.over.getD 42 0 = 2 := rfl
  have hd : depth = 1000 := rfl
  exact ⟨t, (exact_ok xpath_complete xpath_sound (expr_kinds h) t).mpr ⟨h1, h2, h3, by omega⟩⟩

/-- Whatever its length, it is not reported as a syntax error. -/
theorem C64_no_false_error (ts : List Tok) (h : Phrase code .expr ts) (l : List Tok) :
    parseXPath ts ≠ .error l := by
  intro he
  obtain ⟨t, h1, h2, h3⟩ := (expr_iff ts).mpr h
  obtain ⟨pre, e, hp⟩ := exact_error xpath_complete xpath_sound (expr_kinds h) he
  have hp := hp t h1 h2
  cases l with
  | nil => exact hp.1 rfl (by rw [h3, e, List.append_nil])
  | cons k l => exact hp.2 k l l rfl (by rw [h3, e])

/-- Against the recommendation: with less than 500 tokens, and but for
repeated minus signs, the parser accepts an expression if and only if the
recommendation does or a node type other than `processing-instruction` has a
literal. -/
theorem C64_w3c_partial (ts : List Tok) (hn : ts.length < 500) (hk : Tokens58 ts)
    (hp : PiOnly ts) : (∃ t, parseXPath ts = .ok t) ↔ Phrase ⟨false, false⟩ .expr ts := by
  constructor
  · rintro ⟨t, h⟩
    exact phrase_iff.mpr ⟨(C64_sound ts hk t h).1, hp⟩
  · intro h
    exact C64_complete ts hn (phrase_mono (d := ⟨false, false⟩) (d' := code) id (fun _ => rfl) h)

/-- What the parser accepts is an expression of the recommendation, unless a
node type other than `processing-instruction` has a literal. -/
theorem C64_w3c_sound (ts : List Tok) (hk : Tokens58 ts) (hp : PiOnly ts) (t : Tree)
    (h : parseXPath ts = .ok t) : Phrase w3c .expr ts :=
  phrase_mono (d := ⟨false, false⟩) (d' := w3c) (fun _ => rfl) id (phrase_iff.mpr ⟨(C64_sound ts hk t h).1, hp⟩)

/-- There is one reading of an expression only. -/
theorem C64_unambiguous (t t' : Tree) (h : Derives (grammar xpathTables) t)
    (h' : Derives (grammar xpathTables) t') (hr : root (grammar xpathTables).lhs t = 42)
    (hr' : root (grammar xpathTables).lhs t' = 42) (hy : yield t = yield t') : t = t' :=
  exact_unique xpath_complete xpath_sound h h' hr hr' hy

/-- A syntax error is reported at the first token where no expression can go
on: no expression begins with the tokens before it and it. -/
theorem C64_error (ts l : List Tok) (hk : Tokens58 ts) (h : parseXPath ts = .error l) :
    ∃ pre, ts = pre ++ l ∧
      (l = [] → ¬ Phrase code .expr pre) ∧
      ∀ k l', l = k :: l' → ∀ rest, ¬ Phrase code .expr (pre ++ k :: rest) := by
  obtain ⟨pre, e, hp⟩ := exact_error xpath_complete xpath_sound hk h
  refine ⟨pre, e, ?_, ?_⟩
  · intro hl hph
    obtain ⟨t, h1, h2, h3⟩ := (expr_iff _).mpr hph
    exact (hp t h1 h2).1 hl h3
  · intro k l' hl rest hph
    obtain ⟨t, h1, h2, h3⟩ := (expr_iff _).mpr hph
    exact (hp t h1 h2).2 k l' rest hl h3

def isOk : Parsed → Bool
  | .ok _ => true
  | _ => false

theorem isOk_iff {p : Parsed} : isOk p = true ↔ ∃ t, p = .ok t := by
  cases p <;> simp [isOk]

example : Tokens58 exTokens ∧ exTokens.length < 500 ∧ isOk (parseXPath exTokens) = true := by
  refine ⟨?_, by decide, by decide +kernel⟩
  intro t ht
  have : exTokens.all (fun t => decide (0 < t.kind ∧ t.kind < 58)) = true := by decide +kernel
  exact of_decide_eq_true (List.all_eq_true.mp this t ht)

def errorAt : Parsed → Option Nat
  | .error l => some l.length
  | _ => none

/-- `a[1]/text` is an error at its end, `a[1]/)` at the last token. -/
example : errorAt (parseXPath (exTokens.take 6)) = some 0 ∧
    errorAt (parseXPath (exTokens.take 5 ++ [tk .rparen ")"])) = some 1 := by decide +kernel

/-! ### Repeated minus signs -/

def minus : Tok := tk .minus "-"

theorem lift_expr {w : List Tok} (h : Phrase w3c .unaryExpr w) : Phrase w3c .expr w :=
  .p14 (.p21a (.p22a (.p23a (.p24a (.p25a (.p26a h))))))

theorem one_unary : Phrase w3c .unaryExpr [tk .number "1"] :=
  .p27a (.p18a (.p19b (.p20a (.p15d rfl))))

/-- An expression that begins with two minus signs is a syntax error at the
second, whatever follows; the recommendation allows any number of them. -/
theorem C64_refuted_minus :
    (∀ rest, Tokens58 rest →
      parseXPath (minus :: minus :: rest) = .error (minus :: rest)) ∧
    ∀ n, Phrase w3c .expr (List.replicate n minus ++ [tk .number "1"]) := by
  constructor
  · intro rest hk
    have hk' : Tokens58 (minus :: minus :: rest) := by
      intro t ht
      rcases List.mem_cons.mp ht with rfl | ht
      · decide
      rcases List.mem_cons.mp ht with rfl | ht
      · decide
      · exact hk t ht
    have h2 : run xpathTables 9 ⟨[], [minus] ++ minus :: rest⟩ = (.error (minus :: rest), 3) := rfl
    rw [parseXPath, parse, run_unique (g := 9)]
    · rw [show minus :: minus :: rest = [minus] ++ minus :: rest from rfl, h2]
      rfl
    · rcases sound xpath_sound hk' (Nat.le_refl _) with ⟨t', h1, _⟩ | ⟨_, _, h1, _⟩ <;>
        rw [h1] <;> nofun
    · rw [show minus :: minus :: rest = [minus] ++ minus :: rest from rfl, h2]
      nofun
  · intro n
    apply lift_expr
    induction n with
    | zero => exact one_unary
    | succ n ih => exact .p27b rfl rfl ih

/-! ### Literals in node tests -/

/-- `text('x')` -/
def textX : List Tok := [tk .nodeType "text", tk .lparen "(", tk .literal "'x'", tk .rparen ")"]

/-- It is accepted, but not an expression. -/
theorem C64_refuted_literal :
    isOk (parseXPath textX) = true ∧ ¬ Phrase w3c .expr textX := by
  refine ⟨by decide +kernel, fun h => ?_⟩
  have := (phrase_told rfl h).piOnly [] _ _ _ _ rfl rfl rfl
  exact absurd this (by decide)

/-! ### Nesting -/

def lp : Tok := tk .lparen "("
def rp : Tok := tk .rparen ")"

/-- `( ... ( 1 ) ... )` with `n` pairs of parentheses. -/
def nested : Nat → List Tok
  | 0 => [tk .number "1"]
  | n + 1 => lp :: nested n ++ [rp]

theorem nested_expr : ∀ (d : Dialect) (n : Nat), Phrase d .expr (nested n)
  | _, 0 => .p14 (.p21a (.p22a (.p23a (.p24a (.p25a (.p26a (.p27a (.p18a (.p19b (.p20a
      (.p15d rfl)))))))))))
  | d, n + 1 => .p14 (.p21a (.p22a (.p23a (.p24a (.p25a (.p26a (.p27a (.p18a (.p19b (.p20a
      (.p15b rfl (nested_expr d n) rfl)))))))))))

def one (t : Tree) : Trees := .cons t .nil

/-- The rules from a primary expression to an expression. -/
def wrap (t : Tree) : Tree :=
  .node 27 (one (.node 46 (one (.node 48 (one (.node 50 (one (.node 52 (one (.node 54 (one
    (.node 57 (one (.node 59 (one (.node 38 (one (.node 41 (one (.node 44 (one
      t)))))))))))))))))))))

def nestedTree : Nat → Tree
  | 0 => wrap (.node 31 (one (.leaf (tk .number "1"))))
  | n + 1 => wrap (.node 29 (.cons (.leaf lp) (.cons (nestedTree n) (one (.leaf rp)))))

theorem wrap_derives {t : Tree} (h : Derives (grammar xpathTables) t)
    (hr : root (grammar xpathTables).lhs t = 43) : Derives (grammar xpathTables) (wrap t) := by
  have g : ∀ (r : Nat) (t : Tree) (x : Nat), 0 < r ∧ r < 61 → xpathTables.rhs.getD r [] = [x] →
      root (grammar xpathTables).lhs t = x → Derives (grammar xpathTables) t →
      Derives (grammar xpathTables) (.node r (one t)) := by
    intro r t x hr he hx ht
    exact .node _ _ hr (by show [root _ t] = _; rw [hx]; exact he.symm) (.cons _ _ ht .nil)
  exact g 27 _ 50 (by decide) rfl rfl (g 46 _ 51 (by decide) rfl rfl (g 48 _ 52 (by decide) rfl rfl
    (g 50 _ 53 (by decide) rfl rfl (g 52 _ 54 (by decide) rfl rfl (g 54 _ 55 (by decide) rfl rfl
    (g 57 _ 56 (by decide) rfl rfl (g 59 _ 47 (by decide) rfl rfl (g 38 _ 48 (by decide) rfl rfl
    (g 41 _ 49 (by decide) rfl rfl (g 44 _ 43 (by decide) rfl hr h))))))))))

theorem isRule {r : Nat} (h : 0 < r ∧ r < 61) : (grammar xpathTables).isRule r := h

theorem isTerm {k : Nat} (h : 0 < k ∧ k < 29) : (grammar xpathTables).isTerm k := h

theorem nested_derives : ∀ n, Derives (grammar xpathTables) (nestedTree n) ∧
    root (grammar xpathTables).lhs (nestedTree n) = 42
  | 0 => ⟨wrap_derives (.node _ _ (isRule (by decide)) rfl
      (.cons _ _ (.leaf _ (isTerm (by decide))) .nil)) rfl, rfl⟩
  | n + 1 => by
    obtain ⟨h1, h2⟩ := nested_derives n
    refine ⟨wrap_derives (.node _ _ (isRule (by decide)) ?_ (.cons _ _ (.leaf _ (isTerm (by decide)))
      (.cons _ _ h1 (.cons _ _ (.leaf _ (isTerm (by decide))) .nil)))) rfl, rfl⟩
    show [19, root _ (nestedTree n), 20] = [19, 42, 20]
    rw [h2]

theorem nested_yield : ∀ n, yield (nestedTree n) = nested n
  | 0 => rfl
  | n + 1 => by
    have := nested_yield n
    simp only [nestedTree, wrap, one, yield, yields, this, nested, List.append_nil,
      List.nil_append, List.cons_append]

theorem wrap_room (t : Tree) : room (wrap t) = room t := by
  have := room_pos t
  simp only [wrap, one, room, roomAll]
  omega

theorem nested_room : ∀ n, room (nestedTree n) = if n = 0 then 1 else n + 2
  | 0 => rfl
  | n + 1 => by
    have h := nested_room n
    rw [nestedTree, wrap_room]
    simp only [one, room, roomAll]
    split at h <;> simp <;> omega

/-- Parentheses nested 998 times and more are an expression of the
recommendation, but the parser writes past the end of its stack. -/
theorem C64_refuted_nested (n : Nat) :
    Phrase w3c .expr (nested n) ∧ (parseXPath (nested n) = .overflow ↔ 998 ≤ n) := by
  refine ⟨nested_expr _ n, ?_⟩
  obtain ⟨h1, h2⟩ := nested_derives n
  have h := exact_overflow xpath_complete xpath_sound h1 h2
    (by rw [nested_yield]; exact expr_kinds (nested_expr code n))
  rw [nested_yield, nested_room] at h
  rw [parseXPath, h, show depth = 1000 from rfl]
  split <;> omega

end Verif.Parse
