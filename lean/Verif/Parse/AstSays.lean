import Verif.Parse.AstTotal
import Verif.Parse.XPathDialect
/-
What the action routines build a value for stands for an expression: the
converse of Verif.Parse.AstBuild.
-/
namespace Verif.Parse
open Spec
open Verif.Eval (LAxis)

/-- What the tokens of a kind look like. -/
def TextOk : Term → Str → Prop
  | .dot, w => w = ['.']
  | .dotDot, w => w = ['.', '.']
  | .slash, w => w = ['/']
  | .slashSlash, w => w = ['/', '/']
  | .literal, w => ∃ s, LiteralSays w s
  | .variable, w => ∃ q, w = '$' :: q
  | .nameTest, w => ∃ x, NameTestSays w x
  | .functionName, w => NCName w ∨ ∃ p l, NCName p ∧ NCName l ∧ w = p ++ ':' :: l
  | .nodeType, w => w ∈ nodeTypes
  | _, _ => True

def TokOk (t : Tok) : Prop := ∀ k : Term, t.kind = k.num → TextOk k t.text

theorem term_inj {k k' : Term} (h : k.num = k'.num) : k = k' := by
  cases k <;> cases k' <;> first | rfl | exact absurd h (by decide)

theorem token_text {op : Bool} {k : Term} {w rest : Str} (h : Token op k w rest) : TextOk k w := by
  cases h with
  | single h =>
    simp only [singles, List.mem_cons, List.not_mem_nil, or_false, Prod.mk.injEq] at h
    rcases h with ⟨rfl, rfl⟩ | ⟨rfl, rfl⟩ | ⟨rfl, rfl⟩ | ⟨rfl, rfl⟩ | ⟨rfl, rfl⟩ | ⟨rfl, rfl⟩ |
      ⟨rfl, rfl⟩ | ⟨rfl, rfl⟩ | ⟨rfl, rfl⟩ | ⟨rfl, rfl⟩ <;> trivial
  | double h =>
    simp only [doubles, List.mem_cons, List.not_mem_nil, or_false, Prod.mk.injEq] at h
    rcases h with ⟨rfl, rfl, rfl⟩ | ⟨rfl, rfl, rfl⟩ | ⟨rfl, rfl, rfl⟩ | ⟨rfl, rfl, rfl⟩ |
      ⟨rfl, rfl, rfl⟩ | ⟨rfl, rfl, rfl⟩ <;> first | trivial | rfl
  | slash => rfl
  | less => trivial
  | greater => trivial
  | dot => rfl
  | literal hq _ => exact ⟨_, _, hq, rfl⟩
  | integer => trivial
  | decimal => trivial
  | «variable» => exact ⟨_, rfl⟩
  | variableNs => exact ⟨_, rfl⟩
  | times => trivial
  | operator h =>
    simp only [operatorNames, List.mem_cons, List.not_mem_nil, or_false, Prod.mk.injEq] at h
    rcases h with ⟨rfl, rfl⟩ | ⟨rfl, rfl⟩ | ⟨rfl, rfl⟩ | ⟨rfl, rfl⟩ <;> trivial
  | nodeType h => exact h
  | axisName => trivial
  | function h => exact .inl h
  | functionNs h h' => exact .inr ⟨_, _, h, h', rfl⟩
  | star => exact ⟨_, .star⟩
  | prefixStar h => exact ⟨_, .nsStar h⟩
  | name h => exact ⟨_, .name h⟩
  | nameNs h h' => exact ⟨_, .qname h h'⟩

/-- The tokens of a text look like tokens. -/
theorem lexes_ok {op : Bool} {s : Str} {ts : List Tok} (h : Lexes op s ts) : ∀ t ∈ ts, TokOk t := by
  induction h with
  | nil => nofun
  | space _ _ ih => exact ih
  | token h _ ih =>
    intro t ht
    rcases List.mem_cons.mp ht with rfl | ht
    · intro k hk
      exact term_inj hk ▸ token_text h
    · exact ih t ht

/-- The value of a symbol stands for something. -/
def Said (x : Nat) (w : List Tok) (v : Val) : Prop :=
  match decide (x < 29) with
  | true => ∃ t, w = [t] ∧ t.kind = x ∧ v = .tok t.text ∧ TokOk t
  | false =>
    if x = 31 ∨ x = 39 then ∃ s' l' l, v = .expr (.path false (s' :: l')) ∧
      Says (symOf x) w (.expr (.path false l)) ∧ AlikeSteps (s' :: l') l
    else if x = 32 then ∃ s' s, v = .step s' ∧ Says .step w (.step s) ∧ AlikeStep s' s
    else if x = 33 then ∃ ps' ps, v = .list ps' ∧ Says .predicates w (.list ps) ∧ Alikes ps' ps ∧
      ∀ u a e', Says .filterExpr u (.expr a) → Alike e' a →
        ∃ b, Says .filterExpr (u ++ w) (.expr b) ∧ Alike (.filter e' ps') b
    else if x = 34 ∨ x = 41 then ∃ a, v = .axis a ∧ Says (symOf x) w (.axis a)
    else if x = 35 then ∃ t, v = .test t ∧ Says .nodeTest w (.test t)
    else if x = 40 then ∃ t, w = [t] ∧ v = .tok t.text ∧
      ((Is .dot t ∧ t.text = ['.']) ∨ (Is .dotDot t ∧ t.text = ['.', '.']))
    else if x = 45 then ∃ l' l, v = .list l' ∧ Says .arguments w (.list l) ∧ Alikes l' l
    else ∃ e' e, v = .expr e' ∧ Says (symOf x) w (.expr e) ∧ Alike e' e

/-- The values of the symbols of a rule. -/
def SaidAll : List Nat → List Tok → List Val → Prop
  | [], w, vs => w = [] ∧ vs = []
  | x :: xs, w, vs => ∃ u w' v vs', w = u ++ w' ∧ vs = v :: vs' ∧ Said x u v ∧ SaidAll xs w' vs'

theorem axis_inv {s : Str} {a : Val} (h : axisSpecifier s = .ok a) :
    ∃ name ax, a = .axis ax ∧ (name, ax) ∈ axes ∧ s = name.toList := by
  rw [axisSpecifier] at h
  split at h
  · rename_i ax hx
    injection h with h
    subst h
    have hm := find_key hx
    have ha : axisMap.all (fun p => axes.any fun q => decide (p.1 = q.1.toList ∧ p.2 = q.2)) = true := by
      decide +kernel
    obtain ⟨q, hq, e⟩ := List.any_eq_true.mp (List.all_eq_true.mp ha _ hm)
    have e := of_decide_eq_true e
    exact ⟨q.1, q.2, congrArg Val.axis e.2, hq, e.1⟩
  · exact (nomatch h)

theorem node_inv {s : Str} {v : Val} (h : nodeType s none = .ok v) :
    ∃ name x, v = .test x ∧ (name, x) ∈ nodeTypeTests ∧ s = name.toList := by
  unfold nodeType at h
  split at h
  · injection h with h; subst h
    exact ⟨_, _, rfl, .head _, by assumption⟩
  split at h
  · injection h with h; subst h
    exact ⟨_, _, rfl, .tail _ (.head _), by assumption⟩
  split at h
  · injection h with h; subst h
    exact ⟨_, _, rfl, .tail _ (.tail _ (.head _)), by assumption⟩
  split at h
  · injection h with h; subst h
    exact ⟨_, _, rfl, .tail _ (.tail _ (.tail _ (.head _))), by assumption⟩
  · exact (nomatch h)

theorem builtins_signed : builtins.all (fun x => signatures.any fun y =>
    decide (y.1.toList = x.1 ∧ y.2.1 = x.2.1 - x.2.2.2 ∧
      (x.2.2.1 = false → y.2.2 = some x.2.1) ∧ (x.2.2.1 = true → y.2.2 = none))) = true := by
  decide +kernel

/-- What `function_call` accepts. -/
theorem call_inv {f : Str} {es : List Ast} {v : Val} (hf : TextOk .functionName f)
    (h : functionCall f es = .ok v) : v = .expr (.call f es) ∧ MayCall f es.length := by
  unfold functionCall at h
  split at h
  · rename_i mx va df hb
    split at h
    · rename_i hc
      injection h with h
      refine ⟨h.symm, .inl ?_⟩
      obtain ⟨q, hq, e⟩ := List.any_eq_true.mp (List.all_eq_true.mp builtins_signed _ (find_key hb))
      obtain ⟨e1, e2, e3, e4⟩ := of_decide_eq_true e
      obtain ⟨c1, c2⟩ := checkCount_ok.mp hc
      refine ⟨q.1, q.2.1, q.2.2, hq, e1.symm, by rw [e2]; exact c1, ?_⟩
      intro m hm
      cases va with
      | false =>
        have := e3 rfl
        rw [hm] at this
        injection this with this
        rw [this]
        exact c2 rfl
      | true => rw [e4 rfl] at hm; exact (nomatch hm)
    · exact (nomatch h)
  · split at h
    · rename_i hc
      injection h with h
      refine ⟨h.symm, .inr ?_⟩
      rcases hf with hf | ⟨p, l, hp, hl, rfl⟩
      · exact absurd hc (ncname_colon hf)
      · exact ⟨p, l, hp, hl, rfl⟩
    · exact (nomatch h)

theorem act_said : ∀ r, 0 < r → r < 61 → ∀ w vs v, PiOnly w →
    SaidAll (xpathTables.rhs.getD r []) w vs → act r vs = .ok v →
    Said (xpathTables.derives.getD r 0) w v
  | 0, h, _, _, _, _, _, _, _ => absurd h (by decide)
  | 1, _, _, _, _, _, hp, h, ha => by
    obtain ⟨_, _, _, _, rfl, rfl, ⟨s0, l0, m0, rfl, y0, a0⟩, rfl, rfl⟩ := h
    show Said 29 _ _
    injection ha with ha; subst ha
    exact ⟨_, _, rfl, by simpa [symOf] using Says.p1a y0, .path _ a0⟩
  | 2, _, _, _, _, _, hp, h, ha => by
    obtain ⟨_, _, _, _, rfl, rfl, ⟨e0, m0, rfl, y0, a0⟩, rfl, rfl⟩ := h
    show Said 29 _ _
    injection ha with ha; subst ha
    exact ⟨_, _, rfl, by simpa [symOf] using Says.p1b y0, a0⟩
  | 3, _, _, _, _, _, hp, h, ha => by
    obtain ⟨_, _, _, _, rfl, rfl, ⟨t0, rfl, k0, rfl, o0⟩, rfl, rfl⟩ := h
    show Said 30 _ _
    injection ha with ha; subst ha
    exact ⟨_, _, rfl, by simpa [symOf] using Says.p2a k0, .path _ .nil⟩
  | 4, _, _, _, _, _, hp, h, ha => by
    obtain ⟨_, _, _, _, rfl, rfl, ⟨t0, rfl, k0, rfl, o0⟩, _, _, _, _, rfl, rfl, ⟨s1, l1, m1, rfl, y1, a1⟩, rfl, rfl⟩ := h
    show Said 30 _ _
    injection ha with ha; subst ha
    exact ⟨_, _, rfl, by simpa [symOf] using Says.p2b k0 y1, .path _ a1⟩
  | 5, _, _, _, _, _, hp, h, ha => by
    obtain ⟨_, _, _, _, rfl, rfl, ⟨e0, m0, rfl, y0, a0⟩, rfl, rfl⟩ := h
    show Said 30 _ _
    injection ha with ha; subst ha
    exact ⟨_, _, rfl, by simpa [symOf] using Says.p2c y0, a0⟩
  | 6, _, _, _, _, _, hp, h, ha => by
    obtain ⟨_, _, _, _, rfl, rfl, ⟨s0, m0, rfl, y0, a0⟩, rfl, rfl⟩ := h
    show Said 31 _ _
    injection ha with ha; subst ha
    exact ⟨_, _, _, rfl, by simpa [symOf] using Says.p3a y0, .cons a0 .nil⟩
  | 7, _, _, _, _, _, hp, h, ha => by
    obtain ⟨_, _, _, _, rfl, rfl, ⟨s0, l0, m0, rfl, y0, a0⟩, _, _, _, _, rfl, rfl, ⟨t1, rfl, k1, rfl, o1⟩, _, _, _, _, rfl, rfl, ⟨s2, m2, rfl, y2, a2⟩, rfl, rfl⟩ := h
    show Said 31 _ _
    injection ha with ha; subst ha
    exact ⟨_, _, _, rfl, by simpa [symOf] using Says.p3b y0 k1 y2, a0.append (.cons a2 .nil)⟩
  | 8, _, _, _, _, _, hp, h, ha => by
    obtain ⟨_, _, _, _, rfl, rfl, ⟨s0, l0, m0, rfl, y0, a0⟩, rfl, rfl⟩ := h
    show Said 31 _ _
    injection ha with ha; subst ha
    exact ⟨_, _, _, rfl, by simpa [symOf] using Says.p3c y0, a0⟩
  | 9, _, _, _, _, _, hp, h, ha => by
    obtain ⟨_, _, _, _, rfl, rfl, ⟨v0, rfl, y0⟩, _, _, _, _, rfl, rfl, ⟨v1, rfl, y1⟩, rfl, rfl⟩ := h
    show Said 32 _ _
    injection ha with ha; subst ha
    exact ⟨_, _, rfl, by simpa [symOf] using Says.p4a y0 y1 .none, .mk _ _ .nil⟩
  | 10, _, _, _, _, _, hp, h, ha => by
    obtain ⟨_, _, _, _, rfl, rfl, ⟨v0, rfl, y0⟩, _, _, _, _, rfl, rfl, ⟨v1, rfl, y1⟩, _, _, _, _, rfl, rfl, ⟨l2, m2, rfl, y2, a2, f2⟩, rfl, rfl⟩ := h
    show Said 32 _ _
    injection ha with ha; subst ha
    exact ⟨_, _, rfl, by simpa [symOf] using Says.p4a y0 y1 y2, .mk _ _ a2⟩
  | 11, _, _, _, _, _, hp, h, ha => by
    obtain ⟨_, _, _, _, rfl, rfl, ⟨t0, rfl, rfl, y0⟩, rfl, rfl⟩ := h
    show Said 32 _ _
    rcases y0 with ⟨h1, h2⟩ | ⟨h1, h2⟩
    · rw [show act 11 [.tok t0.text] = abbreviatedStep t0.text from rfl, h2] at ha
      injection ha with ha; subst ha
      exact ⟨_, _, rfl, by simpa [symOf] using Says.p4b (.p12a h1 h2), .mk _ _ .nil⟩
    · rw [show act 11 [.tok t0.text] = abbreviatedStep t0.text from rfl, h2] at ha
      injection ha with ha; subst ha
      exact ⟨_, _, rfl, by simpa [symOf] using Says.p4b (.p12b h1 h2), .mk _ _ .nil⟩
  | 12, _, _, _, _, _, hp, h, ha => by
    obtain ⟨_, _, _, _, rfl, rfl, ⟨e0, m0, rfl, y0, a0⟩, rfl, rfl⟩ := h
    show Said 33 _ _
    injection ha with ha; subst ha
    refine ⟨_, _, rfl, by simpa [symOf] using Says.some .none y0, .cons a0 .nil, ?_⟩
    intro u a e' hu he
    exact ⟨_, by simpa [symOf] using Says.p20b hu y0, .filter he a0⟩
  | 13, _, _, _, _, _, hp, h, ha => by
    obtain ⟨_, _, _, _, rfl, rfl, ⟨l0, m0, rfl, y0, a0, f0⟩, _, _, _, _, rfl, rfl, ⟨e1, m1, rfl, y1, a1⟩, rfl, rfl⟩ := h
    show Said 33 _ _
    injection ha with ha; subst ha
    refine ⟨_, _, rfl, by simpa [symOf] using Says.some y0 y1, a0.append a1, ?_⟩
    intro u a e' hu he
    obtain ⟨b, hb, hab⟩ := f0 u a e' hu he
    exact ⟨_, by simpa [symOf] using Says.p20b hb y1, .filters hab a1⟩
  | 14, _, _, _, _, _, hp, h, ha => by
    obtain ⟨_, _, _, _, rfl, rfl, ⟨t0, rfl, k0, rfl, o0⟩, _, _, _, _, rfl, rfl, ⟨t1, rfl, k1, rfl, o1⟩, rfl, rfl⟩ := h
    show Said 34 _ _
    obtain ⟨name, ax, rfl, h1, h2⟩ := axis_inv (s := t0.text) ha
    exact ⟨_, rfl, by simpa [symOf] using Says.p5a k0 k1 h1 h2⟩
  | 15, _, _, _, _, _, hp, h, ha => by
    obtain ⟨_, _, _, _, rfl, rfl, ⟨v0, rfl, y0⟩, rfl, rfl⟩ := h
    show Said 34 _ _
    injection ha with ha; subst ha
    exact ⟨_, rfl, by simpa [symOf] using Says.p5b y0⟩
  | 16, _, _, _, _, _, hp, h, ha => by
    obtain ⟨_, _, _, _, rfl, rfl, ⟨t0, rfl, k0, rfl, o0⟩, rfl, rfl⟩ := h
    show Said 35 _ _
    injection ha with ha; subst ha
    obtain ⟨x, hx⟩ := o0 .nameTest k0
    exact ⟨_, rfl, by rw [nameTest_says hx]; simpa [symOf] using Says.p7a k0 hx⟩
  | 17, _, _, _, _, _, hp, h, ha => by
    obtain ⟨_, _, _, _, rfl, rfl, ⟨t0, rfl, k0, rfl, o0⟩, _, _, _, _, rfl, rfl, ⟨t1, rfl, k1, rfl, o1⟩, _, _, _, _, rfl, rfl, ⟨t2, rfl, k2, rfl, o2⟩, rfl, rfl⟩ := h
    show Said 35 _ _
    obtain ⟨name, x, rfl, h1, h2⟩ := node_inv (s := t0.text) ha
    exact ⟨_, rfl, by simpa [symOf] using Says.p7b k0 k1 k2 h1 h2⟩
  | 18, _, _, _, _, _, hp, h, ha => by
    obtain ⟨_, _, _, _, rfl, rfl, ⟨t0, rfl, k0, rfl, o0⟩, _, _, _, _, rfl, rfl, ⟨t1, rfl, k1, rfl, o1⟩, _, _, _, _, rfl, rfl, ⟨t2, rfl, k2, rfl, o2⟩, _, _, _, _, rfl, rfl, ⟨t3, rfl, k3, rfl, o3⟩, rfl, rfl⟩ := h
    show Said 35 _ _
    obtain ⟨s, hs⟩ := o2 .literal k2
    have ht := hp [] t0 t1 t2 [t3] rfl k0 k2
    rw [show act 18 [.tok t0.text, .tok t1.text, .tok t2.text, .tok t3.text] =
      nodeType t0.text (some t2.text) from rfl, ht, piType_says hs] at ha
    injection ha with ha; subst ha
    exact ⟨_, rfl, by simpa [symOf] using Says.p7c k0 ht k1 k2 k3 hs⟩
  | 19, _, _, _, _, _, hp, h, ha => by
    obtain ⟨_, _, _, _, rfl, rfl, ⟨t0, rfl, k0, rfl, o0⟩, _, _, _, _, rfl, rfl, ⟨e1, m1, rfl, y1, a1⟩, _, _, _, _, rfl, rfl, ⟨t2, rfl, k2, rfl, o2⟩, rfl, rfl⟩ := h
    show Said 36 _ _
    injection ha with ha; subst ha
    exact ⟨_, _, rfl, by simpa [symOf] using Says.p8 k0 y1 k2, a1⟩
  | 20, _, _, _, _, _, hp, h, ha => by
    obtain ⟨_, _, _, _, rfl, rfl, ⟨e0, m0, rfl, y0, a0⟩, rfl, rfl⟩ := h
    show Said 37 _ _
    injection ha with ha; subst ha
    exact ⟨_, _, rfl, by simpa [symOf] using Says.p9 y0, a0⟩
  | 21, _, _, _, _, _, hp, h, ha => by
    obtain ⟨_, _, _, _, rfl, rfl, ⟨t0, rfl, k0, rfl, o0⟩, _, _, _, _, rfl, rfl, ⟨s1, l1, m1, rfl, y1, a1⟩, rfl, rfl⟩ := h
    show Said 38 _ _
    injection ha with ha; subst ha
    refine ⟨_, _, rfl, by simpa [symOf] using Says.p10 k0 y1, .path _ ?_⟩
    cases a1 with
    | cons hs hl => exact slashes_alike hs hl
    | fuse t hl =>
      rw [slashes, if_neg (by simp)]
      exact .cons (s' := anyNode) (s := dosNode)
        (AlikeStep.mk (.tree .descendantOrSelf) .node .nil) (.fuse t hl)
  | 22, _, _, _, _, _, hp, h, ha => by
    obtain ⟨_, _, _, _, rfl, rfl, ⟨s0, l0, m0, rfl, y0, a0⟩, _, _, _, _, rfl, rfl, ⟨t1, rfl, k1, rfl, o1⟩, _, _, _, _, rfl, rfl, ⟨s2, m2, rfl, y2, a2⟩, rfl, rfl⟩ := h
    show Said 39 _ _
    injection ha with ha; subst ha
    refine ⟨_, _, _, rfl, by simpa [symOf] using Says.p11 y0 k1 y2, a0.append ?_⟩
    simpa [symOf] using slashes_alike a2 .nil
  | 23, _, _, _, _, _, hp, h, ha => by
    obtain ⟨_, _, _, _, rfl, rfl, ⟨t0, rfl, k0, rfl, o0⟩, rfl, rfl⟩ := h
    show Said 40 _ _
    injection ha with ha; subst ha
    exact ⟨t0, rfl, rfl, .inl ⟨k0, o0 .dot k0⟩⟩
  | 24, _, _, _, _, _, hp, h, ha => by
    obtain ⟨_, _, _, _, rfl, rfl, ⟨t0, rfl, k0, rfl, o0⟩, rfl, rfl⟩ := h
    show Said 40 _ _
    injection ha with ha; subst ha
    exact ⟨t0, rfl, rfl, .inr ⟨k0, o0 .dotDot k0⟩⟩
  | 25, _, _, _, _, _, hp, h, ha => by
    obtain ⟨_, _, _, _, rfl, rfl, ⟨t0, rfl, k0, rfl, o0⟩, rfl, rfl⟩ := h
    show Said 41 _ _
    injection ha with ha; subst ha
    exact ⟨_, rfl, by simpa [symOf] using Says.p13a k0⟩
  | 26, _, _, _, _, _, hp, h, ha => by
    obtain ⟨rfl, rfl⟩ := h
    show Said 41 _ _
    injection ha with ha; subst ha
    exact ⟨_, rfl, .p13b⟩
  | 27, _, _, _, _, _, hp, h, ha => by
    obtain ⟨_, _, _, _, rfl, rfl, ⟨e0, m0, rfl, y0, a0⟩, rfl, rfl⟩ := h
    show Said 42 _ _
    injection ha with ha; subst ha
    exact ⟨_, _, rfl, by simpa [symOf] using Says.p14 y0, a0⟩
  | 28, _, _, _, _, _, hp, h, ha => by
    obtain ⟨_, _, _, _, rfl, rfl, ⟨t0, rfl, k0, rfl, o0⟩, rfl, rfl⟩ := h
    show Said 43 _ _
    injection ha with ha; subst ha
    obtain ⟨q, hq⟩ := o0 .variable k0
    exact ⟨_, _, rfl, by simpa [symOf] using Says.p15a k0 hq, by rw [hq]; exact .variable q⟩
  | 29, _, _, _, _, _, hp, h, ha => by
    obtain ⟨_, _, _, _, rfl, rfl, ⟨t0, rfl, k0, rfl, o0⟩, _, _, _, _, rfl, rfl, ⟨e1, m1, rfl, y1, a1⟩, _, _, _, _, rfl, rfl, ⟨t2, rfl, k2, rfl, o2⟩, rfl, rfl⟩ := h
    show Said 43 _ _
    injection ha with ha; subst ha
    exact ⟨_, _, rfl, by simpa [symOf] using Says.p15b k0 y1 k2, a1⟩
  | 30, _, _, _, _, _, hp, h, ha => by
    obtain ⟨_, _, _, _, rfl, rfl, ⟨t0, rfl, k0, rfl, o0⟩, rfl, rfl⟩ := h
    show Said 43 _ _
    injection ha with ha; subst ha
    obtain ⟨s, hs⟩ := o0 .literal k0
    exact ⟨_, _, rfl, by simpa [symOf] using Says.p15c k0 hs, by rw [stringLiteral_says hs]; exact .literal s⟩
  | 31, _, _, _, _, _, hp, h, ha => by
    obtain ⟨_, _, _, _, rfl, rfl, ⟨t0, rfl, k0, rfl, o0⟩, rfl, rfl⟩ := h
    show Said 43 _ _
    injection ha with ha; subst ha
    exact ⟨_, _, rfl, by simpa [symOf] using Says.p15d k0, .number _⟩
  | 32, _, _, _, _, _, hp, h, ha => by
    obtain ⟨_, _, _, _, rfl, rfl, ⟨e0, m0, rfl, y0, a0⟩, rfl, rfl⟩ := h
    show Said 43 _ _
    injection ha with ha; subst ha
    exact ⟨_, _, rfl, by simpa [symOf] using Says.p15e y0, a0⟩
  | 33, _, _, _, _, _, hp, h, ha => by
    obtain ⟨_, _, _, _, rfl, rfl, ⟨t0, rfl, k0, rfl, o0⟩, _, _, _, _, rfl, rfl, ⟨t1, rfl, k1, rfl, o1⟩, _, _, _, _, rfl, rfl, ⟨t2, rfl, k2, rfl, o2⟩, rfl, rfl⟩ := h
    show Said 44 _ _
    obtain ⟨rfl, hm⟩ := call_inv (o0 .functionName k0) (es := []) ha
    exact ⟨_, _, rfl, by simpa [symOf] using Says.p16a k0 k1 k2 hm, .call _ .nil⟩
  | 34, _, _, _, _, _, hp, h, ha => by
    obtain ⟨_, _, _, _, rfl, rfl, ⟨t0, rfl, k0, rfl, o0⟩, _, _, _, _, rfl, rfl, ⟨t1, rfl, k1, rfl, o1⟩, _, _, _, _, rfl, rfl, ⟨l2, m2, rfl, y2, a2⟩, _, _, _, _, rfl, rfl, ⟨t3, rfl, k3, rfl, o3⟩, rfl, rfl⟩ := h
    show Said 44 _ _
    obtain ⟨rfl, hm⟩ := call_inv (o0 .functionName k0) (es := l2) ha
    exact ⟨_, _, rfl, by simpa [symOf] using Says.p16b k0 k1 y2 k3 (a2.length ▸ hm), .call _ a2⟩
  | 35, _, _, _, _, _, hp, h, ha => by
    obtain ⟨_, _, _, _, rfl, rfl, ⟨e0, m0, rfl, y0, a0⟩, rfl, rfl⟩ := h
    show Said 45 _ _
    injection ha with ha; subst ha
    exact ⟨_, _, rfl, by simpa [symOf] using Says.one y0, .cons a0 .nil⟩
  | 36, _, _, _, _, _, hp, h, ha => by
    obtain ⟨_, _, _, _, rfl, rfl, ⟨l0, m0, rfl, y0, a0⟩, _, _, _, _, rfl, rfl, ⟨t1, rfl, k1, rfl, o1⟩, _, _, _, _, rfl, rfl, ⟨e2, m2, rfl, y2, a2⟩, rfl, rfl⟩ := h
    show Said 45 _ _
    injection ha with ha; subst ha
    exact ⟨_, _, rfl, by simpa [symOf] using Says.more y0 k1 y2, a0.append a2⟩
  | 37, _, _, _, _, _, hp, h, ha => by
    obtain ⟨_, _, _, _, rfl, rfl, ⟨e0, m0, rfl, y0, a0⟩, rfl, rfl⟩ := h
    show Said 46 _ _
    injection ha with ha; subst ha
    exact ⟨_, _, rfl, by simpa [symOf] using Says.p17 y0, a0⟩
  | 38, _, _, _, _, _, hp, h, ha => by
    obtain ⟨_, _, _, _, rfl, rfl, ⟨e0, m0, rfl, y0, a0⟩, rfl, rfl⟩ := h
    show Said 47 _ _
    injection ha with ha; subst ha
    exact ⟨_, _, rfl, by simpa [symOf] using Says.p18a y0, a0⟩
  | 39, _, _, _, _, _, hp, h, ha => by
    obtain ⟨_, _, _, _, rfl, rfl, ⟨e0, m0, rfl, y0, a0⟩, _, _, _, _, rfl, rfl, ⟨t1, rfl, k1, rfl, o1⟩, _, _, _, _, rfl, rfl, ⟨e2, m2, rfl, y2, a2⟩, rfl, rfl⟩ := h
    show Said 47 _ _
    injection ha with ha; subst ha
    exact ⟨_, _, rfl, by simpa [symOf] using Says.p18b y0 k1 y2, unionExpr_alike a0 a2⟩
  | 40, _, _, _, _, _, hp, h, ha => by
    obtain ⟨_, _, _, _, rfl, rfl, ⟨e0, m0, rfl, y0, a0⟩, rfl, rfl⟩ := h
    show Said 48 _ _
    injection ha with ha; subst ha
    exact ⟨_, _, rfl, by simpa [symOf] using Says.p19a y0, a0⟩
  | 41, _, _, _, _, _, hp, h, ha => by
    obtain ⟨_, _, _, _, rfl, rfl, ⟨e0, m0, rfl, y0, a0⟩, rfl, rfl⟩ := h
    show Said 48 _ _
    injection ha with ha; subst ha
    exact ⟨_, _, rfl, by simpa [symOf] using Says.p19b y0, a0⟩
  | 42, _, _, _, _, _, hp, h, ha => by
    obtain ⟨_, _, _, _, rfl, rfl, ⟨e0, m0, rfl, y0, a0⟩, _, _, _, _, rfl, rfl, ⟨t1, rfl, k1, rfl, o1⟩, _, _, _, _, rfl, rfl, ⟨s2, l2, m2, rfl, y2, a2⟩, rfl, rfl⟩ := h
    show Said 48 _ _
    injection ha with ha; subst ha
    refine ⟨_, _, rfl, by simpa [symOf] using Says.p19c y0 k1 (o1 .slash k1) y2, ?_⟩
    rw [o1 .slash k1, pathExpr, if_neg (by decide)]
    exact .pathFrom a0 a2
  | 43, _, _, _, _, _, hp, h, ha => by
    obtain ⟨_, _, _, _, rfl, rfl, ⟨e0, m0, rfl, y0, a0⟩, _, _, _, _, rfl, rfl, ⟨t1, rfl, k1, rfl, o1⟩, _, _, _, _, rfl, rfl, ⟨s2, l2, m2, rfl, y2, a2⟩, rfl, rfl⟩ := h
    show Said 48 _ _
    injection ha with ha; subst ha
    refine ⟨_, _, rfl, by simpa [symOf] using Says.p19d y0 k1 (o1 .slashSlash k1) y2, ?_⟩
    rw [o1 .slashSlash k1, pathExpr, if_pos rfl]
    exact .pathFrom a0 (.cons (s' := anyNode) (s := dosNode)
      (AlikeStep.mk (.tree .descendantOrSelf) .node .nil) a2)
  | 44, _, _, _, _, _, hp, h, ha => by
    obtain ⟨_, _, _, _, rfl, rfl, ⟨e0, m0, rfl, y0, a0⟩, rfl, rfl⟩ := h
    show Said 49 _ _
    injection ha with ha; subst ha
    exact ⟨_, _, rfl, by simpa [symOf] using Says.p20a y0, a0⟩
  | 45, _, _, _, _, _, hp, h, ha => by
    obtain ⟨_, _, _, _, rfl, rfl, ⟨e0, m0, rfl, y0, a0⟩, _, _, _, _, rfl, rfl, ⟨l1, m1, rfl, y1, a1, f1⟩, rfl, rfl⟩ := h
    show Said 49 _ _
    injection ha with ha; subst ha
    obtain ⟨b, hb, hab⟩ := f1 _ _ _ (.p20a y0) a0
    exact ⟨_, _, rfl, by simpa [symOf] using hb, hab⟩
  | 46, _, _, _, _, _, hp, h, ha => by
    obtain ⟨_, _, _, _, rfl, rfl, ⟨e0, m0, rfl, y0, a0⟩, rfl, rfl⟩ := h
    show Said 50 _ _
    injection ha with ha; subst ha
    exact ⟨_, _, rfl, by simpa [symOf] using Says.p21a y0, a0⟩
  | 47, _, _, _, _, _, hp, h, ha => by
    obtain ⟨_, _, _, _, rfl, rfl, ⟨e0, m0, rfl, y0, a0⟩, _, _, _, _, rfl, rfl, ⟨t1, rfl, k1, rfl, o1⟩, _, _, _, _, rfl, rfl, ⟨e2, m2, rfl, y2, a2⟩, rfl, rfl⟩ := h
    show Said 50 _ _
    injection ha with ha; subst ha
    exact ⟨_, _, rfl, by simpa [symOf] using Says.p21b y0 k1 y2, .or a0 a2⟩
  | 48, _, _, _, _, _, hp, h, ha => by
    obtain ⟨_, _, _, _, rfl, rfl, ⟨e0, m0, rfl, y0, a0⟩, rfl, rfl⟩ := h
    show Said 51 _ _
    injection ha with ha; subst ha
    exact ⟨_, _, rfl, by simpa [symOf] using Says.p22a y0, a0⟩
  | 49, _, _, _, _, _, hp, h, ha => by
    obtain ⟨_, _, _, _, rfl, rfl, ⟨e0, m0, rfl, y0, a0⟩, _, _, _, _, rfl, rfl, ⟨t1, rfl, k1, rfl, o1⟩, _, _, _, _, rfl, rfl, ⟨e2, m2, rfl, y2, a2⟩, rfl, rfl⟩ := h
    show Said 51 _ _
    injection ha with ha; subst ha
    exact ⟨_, _, rfl, by simpa [symOf] using Says.p22b y0 k1 y2, .and a0 a2⟩
  | 50, _, _, _, _, _, hp, h, ha => by
    obtain ⟨_, _, _, _, rfl, rfl, ⟨e0, m0, rfl, y0, a0⟩, rfl, rfl⟩ := h
    show Said 52 _ _
    injection ha with ha; subst ha
    exact ⟨_, _, rfl, by simpa [symOf] using Says.p23a y0, a0⟩
  | 51, _, _, _, _, _, hp, h, ha => by
    obtain ⟨_, _, _, _, rfl, rfl, ⟨e0, m0, rfl, y0, a0⟩, _, _, _, _, rfl, rfl, ⟨t1, rfl, k1, rfl, o1⟩, _, _, _, _, rfl, rfl, ⟨e2, m2, rfl, y2, a2⟩, rfl, rfl⟩ := h
    show Said 52 _ _
    injection ha with ha; subst ha
    exact ⟨_, _, rfl, by simpa [symOf] using Says.p23b y0 k1 y2, .compare _ a0 a2⟩
  | 52, _, _, _, _, _, hp, h, ha => by
    obtain ⟨_, _, _, _, rfl, rfl, ⟨e0, m0, rfl, y0, a0⟩, rfl, rfl⟩ := h
    show Said 53 _ _
    injection ha with ha; subst ha
    exact ⟨_, _, rfl, by simpa [symOf] using Says.p24a y0, a0⟩
  | 53, _, _, _, _, _, hp, h, ha => by
    obtain ⟨_, _, _, _, rfl, rfl, ⟨e0, m0, rfl, y0, a0⟩, _, _, _, _, rfl, rfl, ⟨t1, rfl, k1, rfl, o1⟩, _, _, _, _, rfl, rfl, ⟨e2, m2, rfl, y2, a2⟩, rfl, rfl⟩ := h
    show Said 53 _ _
    injection ha with ha; subst ha
    exact ⟨_, _, rfl, by simpa [symOf] using Says.p24b y0 k1 y2, .compare _ a0 a2⟩
  | 54, _, _, _, _, _, hp, h, ha => by
    obtain ⟨_, _, _, _, rfl, rfl, ⟨e0, m0, rfl, y0, a0⟩, rfl, rfl⟩ := h
    show Said 54 _ _
    injection ha with ha; subst ha
    exact ⟨_, _, rfl, by simpa [symOf] using Says.p25a y0, a0⟩
  | 55, _, _, _, _, _, hp, h, ha => by
    obtain ⟨_, _, _, _, rfl, rfl, ⟨e0, m0, rfl, y0, a0⟩, _, _, _, _, rfl, rfl, ⟨t1, rfl, k1, rfl, o1⟩, _, _, _, _, rfl, rfl, ⟨e2, m2, rfl, y2, a2⟩, rfl, rfl⟩ := h
    show Said 54 _ _
    injection ha with ha; subst ha
    exact ⟨_, _, rfl, by simpa [symOf] using Says.p25b y0 k1 y2, .arith _ a0 a2⟩
  | 56, _, _, _, _, _, hp, h, ha => by
    obtain ⟨_, _, _, _, rfl, rfl, ⟨e0, m0, rfl, y0, a0⟩, _, _, _, _, rfl, rfl, ⟨t1, rfl, k1, rfl, o1⟩, _, _, _, _, rfl, rfl, ⟨e2, m2, rfl, y2, a2⟩, rfl, rfl⟩ := h
    show Said 54 _ _
    injection ha with ha; subst ha
    exact ⟨_, _, rfl, by simpa [symOf] using Says.p25c y0 k1 y2, .arith _ a0 a2⟩
  | 57, _, _, _, _, _, hp, h, ha => by
    obtain ⟨_, _, _, _, rfl, rfl, ⟨e0, m0, rfl, y0, a0⟩, rfl, rfl⟩ := h
    show Said 55 _ _
    injection ha with ha; subst ha
    exact ⟨_, _, rfl, by simpa [symOf] using Says.p26a y0, a0⟩
  | 58, _, _, _, _, _, hp, h, ha => by
    obtain ⟨_, _, _, _, rfl, rfl, ⟨e0, m0, rfl, y0, a0⟩, _, _, _, _, rfl, rfl, ⟨t1, rfl, k1, rfl, o1⟩, _, _, _, _, rfl, rfl, ⟨e2, m2, rfl, y2, a2⟩, rfl, rfl⟩ := h
    show Said 55 _ _
    injection ha with ha; subst ha
    exact ⟨_, _, rfl, by simpa [symOf] using Says.p26b y0 k1 y2, .arith _ a0 a2⟩
  | 59, _, _, _, _, _, hp, h, ha => by
    obtain ⟨_, _, _, _, rfl, rfl, ⟨e0, m0, rfl, y0, a0⟩, rfl, rfl⟩ := h
    show Said 56 _ _
    injection ha with ha; subst ha
    exact ⟨_, _, rfl, by simpa [symOf] using Says.p27a y0, a0⟩
  | 60, _, _, _, _, _, hp, h, ha => by
    obtain ⟨_, _, _, _, rfl, rfl, ⟨t0, rfl, k0, rfl, o0⟩, _, _, _, _, rfl, rfl, ⟨e1, m1, rfl, y1, a1⟩, rfl, rfl⟩ := h
    show Said 56 _ _
    injection ha with ha; subst ha
    exact ⟨_, _, rfl, by simpa [symOf] using Says.p27c k0 y1, .neg a1⟩
  | n + 61, _, h, _, _, _, _, _, _ => absurd h (by omega)

mutual
theorem build_said : ∀ (t : Tree), Derives (grammar xpathTables) t → (∀ x ∈ yield t, TokOk x) →
    PiOnly (yield t) → ∀ v, build t = .ok v → Said (root (grammar xpathTables).lhs t) (yield t) v
  | _, .leaf t h, ho, _, v, hv => by
    rw [build] at hv
    injection hv with hv
    subst hv
    show Said t.kind [t] _
    rw [Said, decide_eq_true (show t.kind < 29 from h.2)]
    exact ⟨t, rfl, rfl, rfl, ho t (List.mem_singleton_self t)⟩
  | _, .node r ks hr hs hd, ho, hp, v, hv => by
    rw [build] at hv
    rw [yield] at ho hp
    split at hv
    · rename_i vs hb
      have h := builds_said ks hd ho hp vs hb
      rw [hs] at h
      exact act_said r hr.1 hr.2 _ vs v hp h hv
    · exact (nomatch hv)
theorem builds_said : ∀ (ts : Trees), DerivesAll (grammar xpathTables) ts →
    (∀ x ∈ yields ts, TokOk x) → PiOnly (yields ts) → ∀ vs, builds ts = .ok vs →
      SaidAll (roots (grammar xpathTables).lhs ts) (yields ts) vs
  | _, .nil, _, _, vs, hv => by
    rw [builds] at hv
    injection hv with hv
    exact ⟨rfl, hv.symm⟩
  | _, .cons t ts h h', ho, hp, vs, hv => by
    rw [yields] at ho hp
    rw [builds] at hv
    split at hv
    · rename_i v vs' h1 h2
      injection hv with hv
      subst hv
      exact ⟨_, _, v, vs', rfl, rfl,
        build_said t h (fun x hx => ho x (List.mem_append_left _ hx)) hp.left v h1,
        builds_said ts h' (fun x hx => ho x (List.mem_append_right _ hx)) hp.right vs' h2⟩
    · exact (nomatch hv)
    · exact (nomatch hv)
end

end Verif.Parse
