import Verif.Parse.AstMeans
import Verif.Parse.AstSays
import Verif.Parse.LexProps
import Verif.Eval.Props
import Verif.Eval.Sample
/-
C66: the expression that is built for a text has the value that XPath 1.0 gives
to the text.
-/
namespace Verif.Parse
open Spec
open Verif.Eval Verif.Eval.Spec

/-- What `parse` of lib/xpath/parser gives for a text. -/
inductive Compiled where
  | ok (e : Ast)
  | syntaxError (rest : List Tok)
  | overflow
  | raises (e : AErr)
  | stuck

/-- The lexer, the parser and the action routines (xpathparser.c 1021-1068,
1206-1870). -/
def compileExpr (s : Str) : Compiled :=
  match compileText s with
  | .ok t =>
    match build t with
    | .ok (.expr e) => .ok e
    | .ok _ => .stuck
    | .error .stuck => .stuck
    | .error e => .raises e
  | .error l => .syntaxError l
  | .overflow => .overflow
  | .underflow => .stuck
  | .stuck => .stuck

/-- The tree of a text that is accepted. -/
theorem compile_tree {s : Str} {ts : List Tok} (h : Lexes false s ts) {t : Tree}
    (ht : compileText s = .ok t) : Derives (grammar xpathTables) t ∧
      root (grammar xpathTables).lhs t = 42 ∧ yield t = ts := by
  have hk := lex_kinds _ _ _ _ (C65_tokens_partial s ts h)
  rw [compileText, C65_tokens_partial s ts h] at ht
  obtain ⟨h1, h2, h3, _⟩ := (exact_ok xpath_complete xpath_sound hk t).mp ht
  exact ⟨h1, h2, h3⟩

/-- Every text is compiled, or is a syntax error, or overflows the stack, or
makes a constructor raise an exception: no action routine finds values of a kind
it does not expect. -/
theorem C66_total (s : Str) : (∃ e, compileExpr s = .ok e) ∨ (∃ l, compileExpr s = .syntaxError l) ∨
    compileExpr s = .overflow ∨ ∃ e, e ≠ .stuck ∧ compileExpr s = .raises e := by
  rcases C65_compile_total s with ⟨t, h⟩ | ⟨l, h⟩ | h
  · have hf : Fine 42 (build t) := by
      obtain ⟨ts, hts⟩ := C65_total s
      have hk := lex_kinds _ _ _ _ hts
      rw [compileText, hts] at h
      obtain ⟨h1, h2, _, _⟩ := (exact_ok xpath_complete xpath_sound hk t).mp h
      have := build_fine t h1
      rw [h2] at this
      exact this
    rw [compileExpr, h]
    dsimp only
    generalize build t = o at hf
    match o, hf with
    | .ok v, ⟨e, he⟩ => subst he; exact .inl ⟨e, rfl⟩
    | .error e, hf =>
      refine .inr (.inr (.inr ⟨e, hf, ?_⟩))
      cases e <;> first | rfl | exact absurd rfl hf
  · rw [compileExpr, h]; exact .inr (.inl ⟨l, rfl⟩)
  · rw [compileExpr, h]; exact .inr (.inr (.inl rfl))

theorem compile_says {s : Str} {ts : List Tok} (h : Lexes false s ts) (hn : ts.length < 500)
    {e : Ast} (hs : Says .expr ts (.expr e)) : ∃ e', compileExpr s = .ok e' ∧ Alike e' e := by
  obtain ⟨e', _, e1, ⟨t, h1, h2, h3, h4⟩, ha⟩ := foundV hs
  cases e1
  have hr := room_le xpath_room h1
  rw [h2, h3] at hr
  have h42 : xpathBounds.over.getD (num .expr) 0 = 2 := rfl
  have hd : depth = 1000 := rfl
  have hk := lex_kinds _ _ _ _ (C65_tokens_partial s ts h)
  have hp : parseXPath ts = .ok t :=
    (exact_ok xpath_complete xpath_sound hk t).mpr ⟨h1, h2, h3, by omega⟩
  refine ⟨e', ?_, ha⟩
  rw [compileExpr, compileText, C65_tokens_partial s ts h]
  dsimp only
  rw [hp]
  dsimp only
  rw [h4]

/-- The meaning of a text.  Let a text of less than 500 tokens stand for an
expression (with at most one minus sign before each operand).  Then it is
compiled.  In every document and for all namespaces, variables and functions
for which the expression can be resolved, so can what it is compiled to, and
in every context both have the same value. -/
theorem C66_meaning_partial (s : Str) (ts : List Tok) (h : Lexes false s ts) (hn : ts.length < 500)
    (e : Ast) (hs : Says .expr ts (.expr e)) :
    ∃ e', compileExpr s = .ok e' ∧
      ∀ d r, DocWF d r → ∀ env, EnvIn d r env → ∀ x, resolve d.R env e = some x →
        ∃ x', resolve d.R env e' = some x' ∧
          ∀ n, InDoc d r n → ∀ p k v, Means d x' n p k v ↔ Means d x n p k v := by
  obtain ⟨e', h1, ha⟩ := compile_says h hn hs
  exact ⟨e', h1, fun d r w env he x hx => alike_same w he ha x hx⟩

/-- Together with evaluation: what `evaluate` returns for a compiled text is the
value that the text has by the recommendation (for compiled expressions that
C26 covers). -/
theorem C66_evaluate_partial (s : Str) (ts : List Tok) (h : Lexes false s ts)
    (hn : ts.length < 500) (e : Ast) (hs : Says .expr ts (.expr e)) :
    ∃ e', compileExpr s = .ok e' ∧
      ∀ d r, DocWF d r → ∀ env, EnvIn d r env → ∀ x, resolve d.R env e = some x →
        ∃ x', resolve d.R env e' = some x' ∧
          ∀ m, Good d r m x' → ∀ c c' v, InDoc d r c.node → Evaluates d m x' c v c' →
            MeansAs d m x c.node c.position c.size v := by
  obtain ⟨e', h1, h2⟩ := C66_meaning_partial s ts h hn e hs
  refine ⟨e', h1, fun d r w env he x hx => ?_⟩
  obtain ⟨x', hx', hm⟩ := h2 d r w env he x hx
  refine ⟨x', hx', fun m hg c c' v hc hv => ?_⟩
  obtain ⟨u, hu, hcv⟩ := C26_value_partial w hg hc hv
  exact ⟨u, (hm _ hc _ _ _).mp hu, hcv⟩

/-- Nothing else is compiled: a text of less than 500 tokens (in which only
`processing-instruction` has a literal) is compiled if and only if it stands for
an expression: it follows the grammar, every axis is one of the thirteen, every
function without a prefix is known and is called with a permitted number of
arguments. -/
theorem C66_exact_partial (s : Str) (ts : List Tok) (h : Lexes false s ts) (hn : ts.length < 500)
    (hp : PiOnly ts) : (∃ e', compileExpr s = .ok e') ↔ ∃ e, Says .expr ts (.expr e) := by
  constructor
  · rintro ⟨e', he⟩
    rw [compileExpr] at he
    split at he
    · rename_i t ht
      obtain ⟨h1, h2, rfl⟩ := compile_tree h ht
      split at he
      · rename_i e hb
        have := build_said t h1 (lexes_ok h) hp _ hb
        rw [h2] at this
        obtain ⟨_, a, _, ha, _⟩ := this
        exact ⟨a, ha⟩
      all_goals exact (nomatch he)
    all_goals exact (nomatch he)
  · rintro ⟨e, he⟩
    obtain ⟨e', h1, _⟩ := compile_says h hn he
    exact ⟨e', h1⟩

/-- The abbreviations, the precedences and the associativity leave no choice:
two expressions that a text stands for have the same value in every context. -/
theorem C66_one_meaning (s : Str) (ts : List Tok) (h : Lexes false s ts) (hn : ts.length < 500)
    (e1 e2 : Ast) (h1 : Says .expr ts (.expr e1)) (h2 : Says .expr ts (.expr e2)) (d : Doc) (r : Nat)
    (w : DocWF d r) (env : Env) (he : EnvIn d r env) (x1 x2 : Expr)
    (hx1 : resolve d.R env e1 = some x1) (hx2 : resolve d.R env e2 = some x2) (n : Nat)
    (hd : InDoc d r n) (p k : Nat) (v : EVal) : Means d x1 n p k v ↔ Means d x2 n p k v := by
  obtain ⟨a, ha, g1⟩ := C66_meaning_partial s ts h hn e1 h1
  obtain ⟨b, hb, g2⟩ := C66_meaning_partial s ts h hn e2 h2
  rw [ha] at hb
  injection hb with hb
  subst hb
  obtain ⟨y1, hy1, m1⟩ := g1 d r w env he x1 hx1
  obtain ⟨y2, hy2, m2⟩ := g2 d r w env he x2 hx2
  rw [hy1] at hy2
  injection hy2 with hy2
  subst hy2
  exact (m1 n hd p k v).symm.trans (m2 n hd p k v)

/-- Numbers of arguments: a call is accepted if and only if the function has a
prefix or is one of XPath or XSLT with a permitted number of arguments. -/
theorem C66_arity (f : Str) (hf : NCName f ∨ ∃ p l, NCName p ∧ NCName l ∧ f = p ++ ':' :: l)
    (es : List Ast) :
    (∃ v, functionCall f es = .ok v) ↔ MayCall f es.length :=
  ⟨fun ⟨_, h⟩ => (call_inv hf h).2, fun h => ⟨_, call_says h⟩⟩

/-- `//` : a step `//t` leads to the same nodes as `/descendant::t`. -/
theorem C66_slashes (d : Doc) (r : Nat) (w : DocWF d r) (t : NodeTest) (n x : Nat)
    (hn : InDoc d r n) :
    Reaches d [.mk (.tree .descendantOrSelf) .node [], .mk (.tree .child) t []] n x ↔
      Reaches d [.mk (.tree .descendant) t []] n x :=
  (fuse_same w t (l' := []) (l := []) (fun _ _ _ => Iff.rfl) n hn x).symm

/-- What an arithmetic operator computes (XPath 3.5). -/
def Spec.Computes (R : XPath.Rounding) (op : String) (a b c : XPath.XNum) : Prop :=
  (op = "+" ∧ c = XPath.numberAdd R a b) ∨ (op = "-" ∧ c = XPath.numberSub R a b) ∨
  (op = "*" ∧ c = XPath.numberMul R a b) ∨ (op = "div" ∧ c = XPath.numberDiv R a b) ∨
  (op = "mod" ∧ c = XPath.numberRem R a b)

/-- Arithmetic: the value of `l op r` is what the operator computes from the values of
`l` and `r` as numbers, in this order. -/
theorem C66_arithmetic (d : Doc) (env : Env) (op : String) (l r : Ast) (x y : Expr)
    (hop : op ∈ ["+", "-", "*", "div", "mod"]) (hl : resolve d.R env l = some x)
    (hr : resolve d.R env r = some y) :
    ∃ z, resolve d.R env (.arith op.toList l r) = some z ∧ ∀ n p k v, Means d z n p k v ↔
      ∃ a b c, MeansAs d .num x n p k (.sc (.num a)) ∧ MeansAs d .num y n p k (.sc (.num b)) ∧
        Computes d.R op a b c ∧ v = .sc (.num c) := by
  have key : ∃ f, arithOp d.R op.toList = some f ∧ ∀ a b c, Computes d.R op a b c ↔ c = f a b := by
    simp only [List.mem_cons, List.not_mem_nil, or_false] at hop
    rcases hop with rfl | rfl | rfl | rfl | rfl
    · exact ⟨_, rfl, fun a b c => by simp [Computes]⟩
    · exact ⟨_, rfl, fun a b c => by simp [Computes]⟩
    · exact ⟨_, rfl, fun a b c => by simp [Computes]⟩
    · exact ⟨_, rfl, fun a b c => by simp [Computes]⟩
    · exact ⟨_, rfl, fun a b c => by simp [Computes]⟩
  obtain ⟨f, hf, hc⟩ := key
  refine ⟨.fn .num (onNumbers f) [.mk .num x, .mk .num y], ?_, fun n p k v => ?_⟩
  · simp only [resolve, hf, hl, hr]
  · simp only [Means, ArgsMean, ArgMeans]
    constructor
    · rintro ⟨vs, ⟨v1, _, ⟨w1, m1, c1⟩, ⟨v2, _, ⟨w2, m2, c2⟩, rfl, rfl⟩, rfl⟩, hv⟩
      obtain ⟨a, rfl, h1⟩ := c1
      obtain ⟨b, rfl, h2⟩ := c2
      simp only [onNumbers] at hv
      injection hv with hv
      exact ⟨a, b, _, ⟨w1, m1, a, rfl, h1⟩, ⟨w2, m2, b, rfl, h2⟩, (hc a b _).mpr rfl, hv.symm⟩
    · rintro ⟨a, b, c, ⟨w1, m1, c1⟩, ⟨w2, m2, c2⟩, h, rfl⟩
      rw [(hc a b c).mp h]
      exact ⟨_, ⟨_, _, ⟨w1, m1, c1⟩, ⟨_, _, ⟨w2, m2, c2⟩, rfl, rfl⟩, rfl⟩, rfl⟩

/-- Comparison: each operator is the one of its name, with the operands in their order. -/
theorem C66_comparison (d : Doc) (env : Env) (op : String) (o : XPath.Op) (l r : Ast) (x y : Expr)
    (hop : (op, o) ∈ [("=", .eq), ("!=", .ne), ("<", .lt), ("<=", .le), (">", .gt), (">=", XPath.Op.ge)])
    (hl : resolve d.R env l = some x) (hr : resolve d.R env r = some y) :
    ∃ z, resolve d.R env (.compare op.toList l r) = some z ∧ ∀ n p k v, Means d z n p k v ↔
      ∃ a b, Means d x n p k a ∧ Means d y n p k b ∧ compareVals d o a b = .ok v := by
  have key : compareOp op.toList = some o := by
    simp only [List.mem_cons, List.not_mem_nil, or_false, Prod.mk.injEq] at hop
    rcases hop with ⟨rfl, rfl⟩ | ⟨rfl, rfl⟩ | ⟨rfl, rfl⟩ | ⟨rfl, rfl⟩ | ⟨rfl, rfl⟩ | ⟨rfl, rfl⟩ <;> rfl
  exact ⟨.cmp o x y, by simp only [resolve, key, hl, hr], fun n p k v => by simp only [Means]⟩

/-- A node passes a node test, with the prefixes as bound by `ns` (XPath 2.3): a name
without a prefix is in no namespace (and not in a default one). -/
def Spec.Passes (d : Doc) (ns : Str → Option Str) (ax : LAxis) (x : Nat) : RawTest → Prop
  | .node => True
  | .comment => d.h.kind x = .comment
  | .text => d.h.kind x = .text
  | .pi none => d.h.kind x = .pi
  | .pi (some target) => d.h.kind x = .pi ∧ (d.name x).2 = some target
  | .star => d.h.kind x = Principal ax
  | .nsStar p => d.h.kind x = Principal ax ∧ ∃ u, ns p = some u ∧ (d.name x).1 = some u
  | .qname p l => d.h.kind x = Principal ax ∧ ∃ u, ns p = some u ∧ d.name x = (some u, some l)
  | .name l => d.h.kind x = Principal ax ∧ d.name x = (none, some l)

/-- Node tests. -/
theorem C66_node_test (d : Doc) (env : Env) (ax : LAxis) (x : Nat) (t : RawTest) (t' : NodeTest)
    (h : resolveTest env t = some t') : Matches d ax x t' ↔ Passes d env.ns ax x t := by
  match t with
  | .node | .comment | .text | .pi none | .pi (some _) | .star =>
    injection h with h; subst h; exact Iff.rfl
  | .name l =>
    injection h with h; subst h
    simp only [Matches, Passes, Prod.ext_iff]
  | .nsStar p | .qname p l =>
    simp only [resolveTest] at h
    simp only [Passes]
    generalize env.ns p = o at h ⊢
    cases o with
    | none => exact (nomatch h)
    | some u =>
      injection h with h; subst h
      simp [Matches, Prod.ext_iff]

/-! An example: `a[1] * b`. -/

def exAst : Ast := .arith "*".toList (.path false [.mk (.tree .child) (.name "a".toList) [.number "1".toList]])
  (.path false [.mk (.tree .child) (.name "b".toList) []])

theorem step_says {w : List Tok} {s : AStep} (h : Says .step w (.step s)) :
    Says .unaryExpr w (.expr (.path false [s])) :=
  .p27a (.p18a (.p19a (.p1a (.p3a h))))

theorem name_says (n : String) (hn : NCName n.toList) {w : List Tok} {ps : List Ast}
    (h : Says .predicates w (.list ps)) :
    Says .step (tk .nameTest n :: w) (.step (.mk (.tree .child) (.name n.toList) ps)) :=
  .p4a (u := []) (v := [tk .nameTest n]) (.p5b .p13b) (.p7a rfl (.name hn)) h

theorem expr_says {w : List Tok} {e : Ast} (h : Says .multiplicativeExpr w (.expr e)) :
    Says .expr w (.expr e) :=
  .p14 (.p21a (.p22a (.p23a (.p24a (.p25a h)))))

theorem ex_says : Says .expr exToks (.expr exAst) := by
  refine expr_says (.p26b (v := [tk .nameTest "a", tk .lbracket "[", tk .number "1", tk .rbracket "]"])
    (.p26a (step_says ?_)) rfl (step_says ?_))
  · refine name_says "a" (one_letter (by decide +kernel)) (.some (v := []) .none
      (.p8 (w := [tk .number "1"]) rfl (.p9 (expr_says (.p26a (.p27a (.p18a (.p19b (.p20a
        (.p15d rfl)))))))) rfl))
  · exact name_says "b" (one_letter (by decide +kernel)) .none

/-- No prefixes, variables or functions. -/
def exEnv : Env := ⟨fun _ => none, fun _ => none, fun _ _ => none⟩

example : Lexes false exText exToks ∧ exToks.length < 500 ∧ Says .expr exToks (.expr exAst) ∧
    DocWF sample 0 ∧ EnvIn sample 0 exEnv ∧ ∃ x, resolve sample.R exEnv exAst = some x :=
  ⟨ex_lexes, by decide, ex_says, sample_wf, ⟨nofun, nofun⟩, _, rfl⟩

/-- An expression with `//`: what it stands for, and that it is compiled to
something else (which C66_meaning_partial shows to mean the same). -/
example : Says .expr [tk .slashSlash "//", tk .nameTest "b"]
    (.expr (.path true [dosNode, .mk (.tree .child) (.name "b".toList) []])) :=
  expr_says (.p26a (.p27a (.p18a (.p19a (.p1b (.p2c (.p10 rfl
    (.p3a (name_says "b" (one_letter (by decide +kernel)) .none)))))))))

def isDescendant : Compiled → Bool
  | .ok (.path true [.mk (.tree .descendant) (.name _) []]) => true
  | _ => false

example : isDescendant (compileExpr "//b".toList) = true := by decide +kernel

/-! ### Where it goes wrong -/

def raised : Compiled → Option AErr
  | .raises e => some e
  | _ => none

/-- Errors that are found by the constructors are not reported as errors of
XPath: an unknown axis is a KeyError, an argument for a function without
parameters is a NameError (from a misspelt name in the code), and an unknown
function is an AssertionError. -/
theorem C66_refuted_errors :
    raised (compileExpr "foo::a".toList) = some .keyError ∧
    raised (compileExpr "true(1)".toList) = some .nameError ∧
    raised (compileExpr "foo()".toList) = some .assertion := by
  refine ⟨by decide +kernel, by decide +kernel, by decide +kernel⟩

def isText : Compiled → Bool
  | .ok (.path false [.mk (.tree .child) .text []]) => true
  | _ => false

/-- `text('x')`, which is no expression, is compiled like `text()`. -/
theorem C66_refuted_literal : isText (compileExpr "text('x')".toList) = true ∧
    isText (compileExpr "text()".toList) = true := by
  refine ⟨by decide +kernel, by decide +kernel⟩

end Verif.Parse
