import Verif.Parse.Pattern
import Verif.Parse.AstProps
/-
The derivations of patterns and the values that the action routines give them.
-/
namespace Verif.Parse
open Spec

/-- The symbols of XPath back. -/
def patUnsym (x : Nat) : Nat :=
  if x ≤ 2 then x else if x ≤ 21 then x - 4 else if x = 22 then 26 else if x ≤ 25 then x - 5
  else if x = 26 then 25 else if x = 27 then 24 else if x ≤ 30 then x - 7 else if x ≤ 32 then x - 4
  else x - 11

theorem pattern_embed : checkEmbed xpathTables patternTables patSym patUnsym 21 57 = true := by
  decide +kernel

abbrev GP := grammar patternTables

/-! ### Values of the rules of XPath -/

theorem unPX_map : ∀ l : List Val, unPX (l.map .x) = some l
  | [] => rfl
  | v :: l => by rw [List.map_cons, unPX, unPX_map l]

mutual
theorem buildPat_map : ∀ {t : Tree}, Derives (grammar xpathTables) t →
    buildPat (mapTree patSym 21 t) = wrapPX (build t)
  | .leaf t, _ => rfl
  | .node r ks, .node _ _ hr _ hd => by
    rw [mapTree, buildPat, build, buildsPat_map hd]
    cases builds ks with
    | error e => rfl
    | ok vs =>
      obtain ⟨k, rfl⟩ : ∃ k, r = k + 1 := ⟨r - 1, by have := hr.1; omega⟩
      show actPat (k + 22) (vs.map .x) = wrapPX (act (k + 1) vs)
      rw [actPat, unPX_map]
theorem buildsPat_map : ∀ {ts : Trees}, DerivesAll (grammar xpathTables) ts →
    buildsPat (mapTrees patSym 21 ts) = match builds ts with
      | .ok vs => .ok (vs.map .x)
      | .error e => .error e
  | .nil, _ => rfl
  | .cons t ts, .cons _ _ h1 h2 => by
    rw [mapTrees, buildsPat, builds, buildPat_map h1, buildsPat_map h2]
    cases build t with
    | error e => rfl
    | ok v =>
      cases builds ts with
      | error e => rfl
      | ok vs => rfl
end

/-! ### What the symbols stand for -/

def HasP (x : Nat) (w : List Tok) (v : PVal) : Prop :=
  ∃ t, Derives GP t ∧ root GP.lhs t = x ∧ yield t = w ∧ buildPat t = .ok v

def HasAllP (xs : List Nat) (w : List Tok) (vs : List PVal) : Prop :=
  ∃ ts, DerivesAll GP ts ∧ roots GP.lhs ts = xs ∧ yields ts = w ∧ buildsPat ts = .ok vs

theorem HasAllP.nil : HasAllP [] [] [] := ⟨.nil, .nil, rfl, rfl, rfl⟩

theorem HasAllP.cons {x : Nat} {xs : List Nat} {u v : List Tok} {a : PVal} {l : List PVal}
    (h : HasP x u a) (h' : HasAllP xs v l) : HasAllP (x :: xs) (u ++ v) (a :: l) := by
  obtain ⟨t, h1, h2, h3, h4⟩ := h
  obtain ⟨ts, g1, g2, g3, g4⟩ := h'
  exact ⟨.cons t ts, .cons _ _ h1 g1, by rw [roots, h2, g2], by rw [yields, h3, g3],
    by rw [buildsPat, h4, g4]⟩

theorem HasP.rule (r : Nat) (hr : 0 < r ∧ r < 82) {w : List Tok} {vs : List PVal} {v : PVal}
    (h : HasAllP (patternTables.rhs.getD r []) w vs) (ha : actPat r vs = .ok v) :
    HasP (patternTables.derives.getD r 0) w v := by
  obtain ⟨ts, h1, h2, h3, h4⟩ := h
  exact ⟨.node r ts, .node r ts hr h2 h1, rfl, h3, by rw [buildPat, h4]; exact ha⟩

theorem HasP.term {k : PTerm} {t : Tok} (h : PIs k t) : HasP k.num [t] (.x (.tok t.text)) := by
  refine ⟨.leaf t, .leaf t ?_, h, rfl, rfl⟩
  rw [show t.kind = k.num from h]
  show 0 < k.num ∧ k.num < 33
  cases k with
  | x k => cases k <;> decide
  | _ => decide

theorem HasP.ofX {x : Nat} {u : List Tok} {v : Val} (h : HasV x u v) :
    HasP (patSym x) (inPattern u) (.x v) := by
  obtain ⟨t, h1, h2, h3, h4⟩ := h
  have hm := map_derives pattern_embed (by decide) h1
  refine ⟨mapTree patSym 21 t, hm.1, ?_, ?_, ?_⟩
  · rw [hm.2.1, h2]
  · rw [map_yield, h3]; rfl
  · rw [buildPat_map h1, h4]; rfl

/-- A node test that the XPath parser reads. -/
def BuiltTest (w : List Tok) (t : RawTest) : Prop := HasV 35 w (.test t)
/-- Predicates that the XPath parser reads. -/
def BuiltPreds (w : List Tok) (ps : List Ast) : Prop :=
  (w = [] ∧ ps = []) ∨ (HasV 33 w (.list ps) ∧ ps ≠ [])

/-- What `id` and `key` with literals are made into. -/
inductive BuiltCall : List Tok → Ast → Prop where
  | id {t l x r f} : PIs .idFunction t → PIs (.x .lparen) l → PIs (.x .literal) x →
      PIs (.x .rparen) r → functionCall t.text [stringLiteral x.text] = .ok (.expr f) →
      BuiltCall [t, l, x, r] f
  | key {t l x c y r f} : PIs .keyFunction t → PIs (.x .lparen) l → PIs (.x .literal) x →
      PIs (.x .comma) c → PIs (.x .literal) y → PIs (.x .rparen) r →
      functionCall t.text [stringLiteral x.text, stringLiteral y.text] = .ok (.expr f) →
      BuiltCall [t, l, x, c, y, r] f

abbrev BStep := StepOf BuiltTest BuiltPreds
abbrev BRel := RelOf BuiltTest BuiltPreds
abbrev BPath := PathOf BuiltTest BuiltPreds BuiltCall
abbrev Built := PatternOf BuiltTest BuiltPreds BuiltCall

/-- The code for `id(..)//r` is that for `id(..)/r` (xpattern.bgen 152-170). -/
def _root_.Verif.Parse.Spec.PPath.codeChain : PPath → List (PNode × Bool)
  | .callSlashes f r => r.chain ++ [(.call f, false)]
  | p => p.chain

theorem flagEnd_reverse : ∀ l : List Entry, flagEnd l.reverse = (marked l).reverse := by
  have key : ∀ (l : List Entry) (n : PNode) (b : Bool), flagEnd (l ++ [(n, b)]) = l ++ [(n, true)] := by
    intro l
    induction l with
    | nil => intro n b; rfl
    | cons a l ih =>
      intro n b
      have : flagEnd (a :: (l ++ [(n, b)])) = a :: flagEnd (l ++ [(n, b)]) := by
        cases l <;> rfl
      rw [List.cons_append, this, ih]
      rfl
  intro l
  cases l with
  | nil => rfl
  | cons a l =>
    obtain ⟨n, b⟩ := a
    rw [List.reverse_cons, key, marked, List.reverse_cons]

theorem chain_ne (r : PRel) : r.chain ≠ [] := by cases r <;> exact nofun

theorem axis_has {w : List Tok} {a : PatAxis} (h : AxisOf w a) : HasP 39 w (.axis a) := by
  cases h with
  | none => exact HasP.rule 18 (by decide) .nil rfl
  | «at» h => exact HasP.rule 19 (by decide) (.cons (.term h) .nil) rfl
  | child h1 h2 => exact HasP.rule 20 (by decide) (.cons (.term h1) (.cons (.term h2) .nil)) rfl
  | «attribute» h1 h2 => exact HasP.rule 21 (by decide) (.cons (.term h1) (.cons (.term h2) .nil)) rfl

theorem step_has {w : List Tok} {s : PStep} (h : BStep w s) : HasP 38 w (.step (s.node, false)) := by
  cases h with
  | @mk u v w a t ps ha ht hp =>
  have ht := HasP.ofX ht
  rcases hp with ⟨rfl, rfl⟩ | ⟨hp, hne⟩
  · have : HasP 38 _ _ := HasP.rule 16 (by decide) (.cons (axis_has ha) (.cons ht .nil)) rfl
    simpa [inPattern, PStep.node] using this
  · have hp := HasP.ofX hp
    have : HasP 38 _ _ := HasP.rule 17 (by decide) (.cons (axis_has ha) (.cons ht (.cons hp .nil))) rfl
    have e : PStep.node ⟨a, t, ps⟩ = .predicated a t ps := by
      cases ps with
      | nil => exact absurd rfl hne
      | cons => rfl
    rw [e]
    simpa using this

theorem rel_has {w : List Tok} {r : PRel} (h : BRel w r) : HasP 37 w (.steps r.chain.reverse) := by
  induction h with
  | one h =>
    have : HasP 37 _ _ := HasP.rule 13 (by decide) (.cons (step_has h) .nil) rfl
    simpa [PRel.chain] using this
  | slash _ ht hs ih =>
    have : HasP 37 _ _ := HasP.rule 14 (by decide)
      (.cons ih (.cons (.term ht) (.cons (step_has hs) .nil))) rfl
    simpa [PRel.chain] using this
  | @slashes _ _ _ r _ _ ht hs ih =>
    have : HasP 37 _ _ := HasP.rule 15 (by decide)
      (.cons ih (.cons (.term ht) (.cons (step_has hs) .nil))) rfl
    rw [flagEnd_reverse] at this
    simpa [PRel.chain] using this

theorem call_has {w : List Tok} {f : Ast} (h : BuiltCall w f) : HasP 36 w (.call f) := by
  cases h with
  | id h1 h2 h3 h4 h5 =>
    exact HasP.rule 11 (by decide) (.cons (.term h1) (.cons (.term h2) (.cons (.term h3)
      (.cons (.term h4) .nil)))) (by rw [actPat, callTest, h5])
  | key h1 h2 h3 h4 h5 h6 h7 =>
    exact HasP.rule 12 (by decide) (.cons (.term h1) (.cons (.term h2) (.cons (.term h3)
      (.cons (.term h4) (.cons (.term h5) (.cons (.term h6) .nil)))))) (by rw [actPat, callTest, h7])

theorem path_has {w : List Tok} {p : PPath} (h : BPath w p) :
    HasP 35 w (.steps p.codeChain.reverse) := by
  cases h with
  | root h => exact HasP.rule 4 (by decide) (.cons (.term h) .nil) rfl
  | abs h hr =>
    have : HasP 35 _ _ := HasP.rule 5 (by decide) (.cons (.term h) (.cons (rel_has hr) .nil)) rfl
    simpa [PPath.codeChain, PPath.chain] using this
  | any h hr =>
    have : HasP 35 _ _ := HasP.rule 9 (by decide) (.cons (.term h) (.cons (rel_has hr) .nil)) rfl
    simpa [PPath.codeChain, PPath.chain] using this
  | rel hr =>
    have : HasP 35 _ _ := HasP.rule 10 (by decide) (.cons (rel_has hr) .nil) rfl
    simpa [PPath.codeChain, PPath.chain] using this
  | call hc =>
    have : HasP 35 _ _ := HasP.rule 6 (by decide) (.cons (call_has hc) .nil) rfl
    simpa [PPath.codeChain, PPath.chain] using this
  | callSlash hc h hr =>
    have : HasP 35 _ _ := HasP.rule 7 (by decide)
      (.cons (call_has hc) (.cons (.term h) (.cons (rel_has hr) .nil))) rfl
    simpa [PPath.codeChain, PPath.chain] using this
  | callSlashes hc h hr =>
    have : HasP 35 _ _ := HasP.rule 8 (by decide)
      (.cons (call_has hc) (.cons (.term h) (.cons (rel_has hr) .nil))) rfl
    simpa [PPath.codeChain, PPath.chain] using this

theorem pattern_has {w : List Tok} {P : List PPath} (h : Built w P) :
    HasP 34 w (.pats (P.map PPath.codeChain)) := by
  induction h with
  | one h =>
    have : HasP 34 _ _ := HasP.rule 2 (by decide) (.cons (path_has h) .nil) rfl
    simpa using this
  | more _ ht hp ih =>
    have : HasP 34 _ _ := HasP.rule 3 (by decide)
      (.cons ih (.cons (.term ht) (.cons (path_has hp) .nil))) rfl
    simpa using this

/-- Every pattern has a derivation with the value it stands for. -/
theorem start_has {w : List Tok} {P : List PPath} (h : Built w P) :
    HasP 33 w (.pats (P.map PPath.codeChain)) := by
  have : HasP 33 _ _ := HasP.rule 1 (by decide) (.cons (pattern_has h) .nil) rfl
  simpa using this

/-! ### And back -/

/-- What the symbols stand for. -/
def SaidP (x : Nat) (w : List Tok) (v : PVal) : Prop :=
  if x < 33 then ∃ t, w = [t] ∧ t.kind = x ∧ v = .x (.tok t.text)
  else if x = 33 ∨ x = 34 then ∃ P, Built w P ∧ v = .pats (P.map PPath.codeChain)
  else if x = 35 then ∃ p, BPath w p ∧ v = .steps p.codeChain.reverse
  else if x = 36 then ∃ f, BuiltCall w f ∧ v = .call f
  else if x = 37 then ∃ r, BRel w r ∧ v = .steps r.chain.reverse
  else if x = 38 then ∃ s, BStep w s ∧ v = .step (s.node, false)
  else if x = 39 then ∃ a, AxisOf w a ∧ v = .axis a
  else ∃ u v', w = inPattern u ∧ v = .x v' ∧ HasV (patUnsym x) u v'

def SaidAllP : List Nat → List Tok → List PVal → Prop
  | [], w, vs => w = [] ∧ vs = []
  | x :: xs, w, vs => ∃ u w' v vs', w = u ++ w' ∧ vs = v :: vs' ∧ SaidP x u v ∧ SaidAllP xs w' vs'

/-- A value of the kind, or an exception of the program. -/
def FineP (x : Nat) (w : List Tok) (o : Except AErr PVal) : Prop :=
  match o with
  | .ok v => SaidP x w v
  | .error e => e ≠ .stuck

theorem hasV_test {w : List Tok} {v : Val} (h : HasV 35 w v) : ∃ t, v = .test t := by
  obtain ⟨t, h1, h2, _, h4⟩ := h
  have := build_fine t h1
  rw [h2, h4] at this
  exact this

theorem preds_rules : ∀ r, r < 61 → xpathTables.derives.getD r 0 = 33 → r = 12 ∨ r = 13 := by
  decide +kernel

theorem hasV_preds {w : List Tok} {v : Val} (h : HasV 33 w v) : ∃ l, v = .list l ∧ l ≠ [] := by
  obtain ⟨t, h1, h2, _, h4⟩ := h
  cases h1 with
  | leaf t ht =>
    have h2 : t.kind = 33 := h2
    have : t.kind < 29 := ht.2
    omega
  | node r ks hr hs hd =>
    have h2 : xpathTables.derives.getD r 0 = 33 := h2
    rw [build] at h4
    split at h4
    · rename_i vs hv
      have hf := builds_fine ks hd
      rw [hs, hv] at hf
      have hf : TypedAll (xpathTables.rhs.getD r []) vs := hf
      rcases preds_rules r hr.2 h2 with rfl | rfl
      · obtain ⟨_, _, rfl, ⟨a0, rfl⟩, rfl⟩ := hf
        injection h4 with h4
        exact ⟨_, h4.symm, nofun⟩
      · obtain ⟨_, _, rfl, ⟨a0, rfl⟩, _, _, rfl, ⟨a1, rfl⟩, rfl⟩ := hf
        injection h4 with h4
        exact ⟨_, h4.symm, by simp⟩
    · exact (nomatch h4)

theorem fine_callTest {w : List Tok} {f : Str} {es : List Ast}
    (h : ∀ e, functionCall f es = .ok (.expr e) → BuiltCall w e) : FineP 36 w (callTest f es) := by
  have hf := fine_call f es
  rw [callTest]
  generalize functionCall f es = o at h hf ⊢
  match o, hf with
  | .ok v, hf =>
    obtain ⟨e, rfl⟩ : ∃ e, v = .expr e := hf
    exact ⟨e, h e rfl, rfl⟩
  | .error e, hf => exact hf

theorem actPat_said : ∀ r, 0 < r → r < 22 → ∀ w vs, SaidAllP (patternTables.rhs.getD r []) w vs →
    FineP (patternTables.derives.getD r 0) w (actPat r vs)
  | 0, h, _, _, _, _ => absurd h (by decide)
  | 1, _, _, _, _, h => by
    obtain ⟨_, _, _, _, rfl, rfl, ⟨P, h, rfl⟩, rfl, rfl⟩ := h
    exact ⟨P, by simpa using h, rfl⟩
  | 2, _, _, _, _, h => by
    obtain ⟨_, _, _, _, rfl, rfl, ⟨p, h, rfl⟩, rfl, rfl⟩ := h
    exact ⟨[p], by simpa using PatternOf.one h, by simp⟩
  | 3, _, _, _, _, h => by
    obtain ⟨_, _, _, _, rfl, rfl, ⟨P, h, rfl⟩, _, _, _, _, rfl, rfl, ⟨t, rfl, ht, rfl⟩,
      _, _, _, _, rfl, rfl, ⟨p, hp, rfl⟩, rfl, rfl⟩ := h
    exact ⟨P ++ [p], by simpa using PatternOf.more h ht hp, by simp⟩
  | 4, _, _, _, _, h => by
    obtain ⟨_, _, _, _, rfl, rfl, ⟨t, rfl, ht, rfl⟩, rfl, rfl⟩ := h
    exact ⟨.root, by simpa using PathOf.root ht, rfl⟩
  | 5, _, _, _, _, h => by
    obtain ⟨_, _, _, _, rfl, rfl, ⟨t, rfl, ht, rfl⟩, _, _, _, _, rfl, rfl, ⟨r, hr, rfl⟩, rfl, rfl⟩ := h
    exact ⟨.abs r, by simpa using PathOf.abs ht hr, by simp [PPath.codeChain, PPath.chain]⟩
  | 6, _, _, _, _, h => by
    obtain ⟨_, _, _, _, rfl, rfl, ⟨f, hf, rfl⟩, rfl, rfl⟩ := h
    exact ⟨.call f, by simpa using PathOf.call hf, rfl⟩
  | 7, _, _, _, _, h => by
    obtain ⟨_, _, _, _, rfl, rfl, ⟨f, hf, rfl⟩, _, _, _, _, rfl, rfl, ⟨t, rfl, ht, rfl⟩,
      _, _, _, _, rfl, rfl, ⟨r, hr, rfl⟩, rfl, rfl⟩ := h
    exact ⟨.callSlash f r, by simpa using PathOf.callSlash hf ht hr, by simp [PPath.codeChain, PPath.chain]⟩
  | 8, _, _, _, _, h => by
    obtain ⟨_, _, _, _, rfl, rfl, ⟨f, hf, rfl⟩, _, _, _, _, rfl, rfl, ⟨t, rfl, ht, rfl⟩,
      _, _, _, _, rfl, rfl, ⟨r, hr, rfl⟩, rfl, rfl⟩ := h
    exact ⟨.callSlashes f r, by simpa using PathOf.callSlashes hf ht hr, by simp [PPath.codeChain]⟩
  | 9, _, _, _, _, h => by
    obtain ⟨_, _, _, _, rfl, rfl, ⟨t, rfl, ht, rfl⟩, _, _, _, _, rfl, rfl, ⟨r, hr, rfl⟩, rfl, rfl⟩ := h
    exact ⟨.any r, by simpa using PathOf.any ht hr, rfl⟩
  | 10, _, _, _, _, h => by
    obtain ⟨_, _, _, _, rfl, rfl, ⟨r, hr, rfl⟩, rfl, rfl⟩ := h
    exact ⟨.rel r, by simpa using PathOf.rel hr, rfl⟩
  | 11, _, _, _, _, h => by
    obtain ⟨_, _, _, _, rfl, rfl, ⟨t, rfl, ht, rfl⟩, _, _, _, _, rfl, rfl, ⟨l, rfl, hl, rfl⟩,
      _, _, _, _, rfl, rfl, ⟨x, rfl, hx, rfl⟩, _, _, _, _, rfl, rfl, ⟨r, rfl, hr, rfl⟩, rfl, rfl⟩ := h
    exact fine_callTest fun e he => .id ht hl hx hr he
  | 12, _, _, _, _, h => by
    obtain ⟨_, _, _, _, rfl, rfl, ⟨t, rfl, ht, rfl⟩, _, _, _, _, rfl, rfl, ⟨l, rfl, hl, rfl⟩,
      _, _, _, _, rfl, rfl, ⟨x, rfl, hx, rfl⟩, _, _, _, _, rfl, rfl, ⟨c, rfl, hc, rfl⟩,
      _, _, _, _, rfl, rfl, ⟨y, rfl, hy, rfl⟩, _, _, _, _, rfl, rfl, ⟨r, rfl, hr, rfl⟩, rfl, rfl⟩ := h
    exact fine_callTest fun e he => .key ht hl hx hc hy hr he
  | 13, _, _, _, _, h => by
    obtain ⟨_, _, _, _, rfl, rfl, ⟨s, hs, rfl⟩, rfl, rfl⟩ := h
    exact ⟨.one s, by simpa using RelOf.one hs, rfl⟩
  | 14, _, _, _, _, h => by
    obtain ⟨_, _, _, _, rfl, rfl, ⟨r, hr, rfl⟩, _, _, _, _, rfl, rfl, ⟨t, rfl, ht, rfl⟩,
      _, _, _, _, rfl, rfl, ⟨s, hs, rfl⟩, rfl, rfl⟩ := h
    exact ⟨.slash r s, by simpa using RelOf.slash hr ht hs, by simp [PRel.chain]⟩
  | 15, _, _, _, _, h => by
    obtain ⟨_, _, _, _, rfl, rfl, ⟨r, hr, rfl⟩, _, _, _, _, rfl, rfl, ⟨t, rfl, ht, rfl⟩,
      _, _, _, _, rfl, rfl, ⟨s, hs, rfl⟩, rfl, rfl⟩ := h
    exact ⟨.slashes r s, by simpa using RelOf.slashes hr ht hs, by simp [PRel.chain, flagEnd_reverse]⟩
  | 16, _, _, _, _, h => by
    obtain ⟨_, _, _, _, rfl, rfl, ⟨a, ha, rfl⟩, _, _, _, _, rfl, rfl, ⟨u, v', rfl, rfl, hv⟩, rfl, rfl⟩ := h
    obtain ⟨t, rfl⟩ := hasV_test hv
    exact ⟨⟨a, t, []⟩, by simpa [inPattern] using StepOf.mk (Q := BuiltPreds) ha hv (.inl ⟨rfl, rfl⟩), rfl⟩
  | 17, _, _, _, _, h => by
    obtain ⟨_, _, _, _, rfl, rfl, ⟨a, ha, rfl⟩, _, _, _, _, rfl, rfl, ⟨u, v', rfl, rfl, hv⟩,
      _, _, _, _, rfl, rfl, ⟨z, w', rfl, rfl, hw⟩, rfl, rfl⟩ := h
    obtain ⟨t, rfl⟩ := hasV_test hv
    obtain ⟨l, rfl, hl⟩ := hasV_preds hw
    refine ⟨⟨a, t, l⟩, by simpa using StepOf.mk (Q := BuiltPreds) ha hv (.inr ⟨hw, hl⟩), ?_⟩
    cases l with
    | nil => exact absurd rfl hl
    | cons => rfl
  | 18, _, _, _, _, h => by
    obtain ⟨rfl, rfl⟩ := h
    exact ⟨.child, .none, rfl⟩
  | 19, _, _, _, _, h => by
    obtain ⟨_, _, _, _, rfl, rfl, ⟨t, rfl, ht, rfl⟩, rfl, rfl⟩ := h
    exact ⟨.attribute, .at ht, rfl⟩
  | 20, _, _, _, _, h => by
    obtain ⟨_, _, _, _, rfl, rfl, ⟨t, rfl, ht, rfl⟩, _, _, _, _, rfl, rfl, ⟨c, rfl, hc, rfl⟩, rfl, rfl⟩ := h
    exact ⟨.child, .child ht hc, rfl⟩
  | 21, _, _, _, _, h => by
    obtain ⟨_, _, _, _, rfl, rfl, ⟨t, rfl, ht, rfl⟩, _, _, _, _, rfl, rfl, ⟨c, rfl, hc, rfl⟩, rfl, rfl⟩ := h
    exact ⟨.attribute, .attribute ht hc, rfl⟩
  | n + 22, _, h, _, _, _ => absurd h (by omega)

theorem pattern_lhs : ∀ r, r < 82 → 22 ≤ r →
    40 ≤ patternTables.derives.getD r 0 ∧ patternTables.derives.getD r 0 < 68 := by decide +kernel

theorem unsym_ok : ∀ x, x < 68 → 40 ≤ x → 0 < patUnsym x ∧ patUnsym x < 57 ∧ patSym (patUnsym x) = x := by
  decide

theorem pattern_nt : ∀ r, r < 82 → 0 < r → r < 22 → 33 ≤ patternTables.derives.getD r 0 ∧
    patternTables.derives.getD r 0 < 40 := by decide +kernel

mutual
theorem buildPat_fine : ∀ (t : Tree), Derives GP t → FineP (root GP.lhs t) (yield t) (buildPat t)
  | _, .leaf t h => by
    show SaidP t.kind [t] _
    rw [SaidP, if_pos (show t.kind < 33 from h.2)]
    exact ⟨t, rfl, rfl, rfl⟩
  | _, .node r ks hr hs hd => by
    rcases Nat.lt_or_ge r 22 with hlt | hge
    · have h := buildsPat_fine ks hd
      rw [buildPat]
      split
      · rename_i vs hv
        rw [hv, hs] at h
        exact actPat_said r hr.1 hlt _ vs h
      · rename_i e he
        rw [he] at h
        exact h
    · have hx := pattern_lhs r hr.2 hge
      have hu := unsym_ok _ hx.2 hx.1
      have e : root GP.lhs (.node r ks) = patternTables.derives.getD r 0 := rfl
      obtain ⟨h1, h2, h3⟩ := unmap_derives pattern_embed (by decide) (t := .node r ks)
        (.node r ks hr hs hd) _ ⟨hu.1, hu.2.1⟩ (by rw [e, hu.2.2])
      have hf := build_fine _ h1
      have hb := buildPat_map h1
      have hy := map_yield patSym 21 (unmapTree patUnsym 21 (.node r ks))
      rw [h3] at hb hy
      rw [hb, hy, e]
      generalize hq : build (unmapTree patUnsym 21 (.node r ks)) = o at hf
      match o, hf with
      | .ok v, _ =>
        show SaidP _ _ (.x v)
        rw [SaidP, if_neg (by omega), if_neg (by omega), if_neg (by omega), if_neg (by omega),
          if_neg (by omega), if_neg (by omega), if_neg (by omega)]
        exact ⟨_, v, rfl, rfl, _, h1, h2, rfl, hq⟩
      | .error e, hf => exact hf
theorem buildsPat_fine : ∀ (ts : Trees), DerivesAll GP ts →
    match buildsPat ts with
    | .ok vs => SaidAllP (roots GP.lhs ts) (yields ts) vs
    | .error e => e ≠ .stuck
  | _, .nil => ⟨rfl, rfl⟩
  | _, .cons t ts h h' => by
    have h1 := buildPat_fine t h
    have h2 := buildsPat_fine ts h'
    rw [buildsPat]
    generalize buildPat t = o at h1 ⊢
    generalize buildsPat ts = o' at h2 ⊢
    match o, o', h1, h2 with
    | .ok v, .ok vs, h1, h2 => exact ⟨_, _, v, vs, rfl, rfl, h1, h2⟩
    | .error e, _, h1, _ => exact h1
    | .ok _, .error e, _, h2 => exact h2
end

/-- A derivation of a pattern and its value. -/
theorem has_start {w : List Tok} {v : PVal} (h : HasP 33 w v) :
    ∃ P, Built w P ∧ v = .pats (P.map PPath.codeChain) := by
  obtain ⟨t, h1, h2, rfl, h4⟩ := h
  have := buildPat_fine t h1
  rw [h2, h4] at this
  exact this

end Verif.Parse
