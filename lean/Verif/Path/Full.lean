import Verif.Path.Text
/-
Lemmas for C93: the long form of a name test.
-/
namespace Verif.Path
open Verif Verif.XPath Verif.Dom Verif.Dom.Spec Verif.Eval Verif.Eval.Spec Verif.Parse Verif.Parse.Spec Verif.Path.Spec
open Verif.Names.Spec (NCNameStart NCNameChar)

/-! ### Meaning -/

theorem keep_filter {T : Nat → Nat → Prop} {P : Nat → Bool} (h : ∀ x p, T x p ↔ P x = true) (l : List Nat) (p : Nat) :
    keep T p l = l.filter P := by
  induction l generalizing p with
  | nil => rfl
  | cons a l ih =>
    simp only [keep, h]
    by_cases hp : P a = true
    · rw [if_pos hp, List.filter_cons_of_pos hp, ih]
    · rw [if_neg hp, List.filter_cons_of_neg hp, ih]

variable {d : Doc} {r : Nat}

theorem means_self (w : DocWF d r) (x p s : Nat) (v : EVal) : Means d (.path false []) x p s v ↔ v = .nodes [x] := by
  simp only [Means, StartNode, Reaches]
  constructor
  · rintro ⟨l, rfl, hs, hm⟩
    rw [sorted_det w hs (List.pairwise_singleton _ x) (fun y => by rw [hm]; simp)]
  · rintro rfl
    exact ⟨[x], rfl, List.pairwise_singleton _ x, fun y => by simp⟩

theorem means_call (w : DocWF d r) {f : List EVal → Except XErr EVal} {ty : Ty} {g : Nat → Str}
    (hf : ∀ x, f [.nodes [x]] = .ok (.sc (.str (g x)))) (x p s : Nat) (v : EVal) :
    Means d (.fn ty f [.mk .nodes (.path false [])]) x p s v ↔ v = .sc (.str (g x)) := by
  rw [Means]
  simp only [ArgsMean, ArgMeans, means_self w, Converts]
  constructor
  · rintro ⟨vs, ⟨u, vs', ⟨_, rfl, rfl, _⟩, rfl, rfl⟩, h⟩
    rw [hf] at h
    cases h
    rfl
  · rintro rfl
    exact ⟨_, ⟨_, _, ⟨_, rfl, rfl, _, rfl⟩, rfl, rfl⟩, hf x⟩

theorem compare_str (a b : Str) : compareVals d .eq (.sc (.str a)) (.sc (.str b)) = .ok (.sc (.bool (decide (a = b)))) := by
  simp [compareVals, cmpVal, XPath.compare, cmpScalar, liftErr]

/-- The first predicate of the long form. -/
def fullPred (t1 t2 : Ty) (f1 f2 : List EVal → Except XErr EVal) (u l : Str) : Expr :=
  .and (.cmp .eq (.fn t1 f1 [.mk .nodes (.path false [])]) (.lit false u))
    (.cmp .eq (.fn t2 f2 [.mk .nodes (.path false [])]) (.lit false l))

theorem means_full (w : DocWF d r) {t1 t2 : Ty} {f1 f2 : List EVal → Except XErr EVal} {g1 g2 : Nat → Str} {u l : Str}
    (h1 : ∀ x, f1 [.nodes [x]] = .ok (.sc (.str (g1 x)))) (h2 : ∀ x, f2 [.nodes [x]] = .ok (.sc (.str (g2 x)))) (x p s : Nat) :
    (∃ v, Means d (fullPred t1 t2 f1 f2 u l) x p s v ∧ PredTrue v p) ↔ g1 x = u ∧ g2 x = l := by
  have c1 : ∀ {t : Ty} {f : List EVal → Except XErr EVal} {g : Nat → Str} {y : Str} (v : EVal),
      (∀ x, f [.nodes [x]] = .ok (.sc (.str (g x)))) →
      (Means d (.cmp .eq (.fn t f [.mk .nodes (.path false [])]) (.lit false y)) x p s v ↔
        v = .sc (.bool (decide (g x = y)))) := by
    intro t f g y v hf
    rw [Means]
    simp only [means_call w hf]
    simp only [Means]
    constructor
    · rintro ⟨a, b, rfl, rfl, h⟩
      rw [compare_str] at h
      cases h; rfl
    · rintro rfl
      exact ⟨_, _, rfl, rfl, compare_str _ _⟩
  rw [fullPred]
  constructor
  · rintro ⟨v, hv, hp⟩
    rw [Means] at hv
    obtain ⟨a, ha, hv⟩ := hv
    rw [c1 a h1] at ha
    subst ha
    rcases hv with ⟨_, rfl⟩ | ⟨ht, b, hb, b', rfl, hb'⟩
    · have hp : (false : Bool) = true := hp
      cases hp
    · rw [c1 b h2] at hb
      subst hb
      have ht : decide (g1 x = u) = true := ht
      have hp : b' = true := hp
      have hb2 : decide (g2 x = l) = true := hb'.mp hp
      exact ⟨of_decide_eq_true ht, of_decide_eq_true hb2⟩
  · rintro ⟨e1, e2⟩
    refine ⟨.sc (.bool true), ?_, rfl⟩
    rw [Means]
    refine ⟨_, (c1 _ h1).mpr rfl, .inr ⟨?_, _, (c1 _ h2).mpr rfl, true, rfl, ?_⟩⟩
    · show decide (g1 x = u) = true
      simp [e1]
    · show true = true ↔ decide (g2 x = l) = true
      simp [e2]

/-! ### Text -/

def nuri : Str := s!! "namespace-uri"
def lname : Str := s!! "local-name"

theorem nuri_nc : NCName nuri := by
  refine ⟨'n', s!! "amespace-uri", rfl, ?_, ?_⟩
  · unfold NCNameStart Verif.Names.Spec.Letter Verif.Names.Spec.inClass; decide +kernel
  · unfold NCNameChar Verif.Names.Spec.Letter Verif.Names.Spec.Other Verif.Names.Spec.inClass; decide +kernel

theorem lname_nc : NCName lname := by
  refine ⟨'l', s!! "ocal-name", rfl, ?_, ?_⟩
  · unfold NCNameStart Verif.Names.Spec.Letter Verif.Names.Spec.inClass; decide +kernel
  · unfold NCNameChar Verif.Names.Spec.Letter Verif.Names.Spec.Other Verif.Names.Spec.inClass; decide +kernel

/-- A literal in quotation marks. -/
def quoted (u : Str) : Str := '"' :: u ++ ['"']

/-- `f()="u"` -/
def eqToks (f u : Str) : List Tok :=
  [⟨Term.num .functionName, f⟩, ⟨Term.num .lparen, ['(']⟩, ⟨Term.num .rparen, [')']⟩, ⟨Term.num .equality, ['=']⟩,
   ⟨Term.num .literal, quoted u⟩]

theorem eq_lexes {f u : Str} (hf : NCName f) (hn : f ∉ nodeTypes) (hu : '"' ∉ u) {rest : Str} {ts : List Tok}
    (h : Lexes true rest ts) :
    Lexes false (f ++ (['('] ++ ([')'] ++ (['='] ++ (quoted u ++ rest))))) (eqToks f u ++ ts) := by
  refine .token (k := .functionName) (.function hf hn ?_ ?_) (.token (k := .lparen) (.single (by decide))
    (.token (k := .rparen) (.single (by decide)) (.token (k := .equality) (.single (by decide))
      (.token (k := .literal) (.literal (.inl rfl) hu) h))))
  · intro c cs hc
    obtain ⟨rfl, _⟩ := List.cons.inj hc
    exact not_ncNameChar (by simp)
  · exact ⟨[], _, rfl, by simp⟩

/-- The tokens of the long form. -/
def fullToks (u l : Str) : List Tok :=
  ⟨Term.num .nameTest, ['*']⟩ :: ⟨Term.num .lbracket, ['[']⟩ ::
    (eqToks nuri u ++ ⟨Term.num .and, s!! "and"⟩ :: eqToks lname l ++ [⟨Term.num .rbracket, [']']⟩])

theorem full_lexes {u l : Str} (hu : '"' ∉ u) (hl : '"' ∉ l) {rest : Str} {ts : List Tok} (h : Lexes true rest ts) :
    Lexes false (fullForm u l ++ rest) (fullToks u l ++ ts) := by
  have e : fullForm u l ++ rest = ['*'] ++ (['['] ++ (nuri ++ (['('] ++ ([')'] ++ (['='] ++ (quoted u ++
      (' ' :: (s!! "and" ++ (' ' :: (lname ++ (['('] ++ ([')'] ++ (['='] ++ (quoted l ++ ([']'] ++ rest))))))))))))))) := by
    simp [fullForm, nuri, lname, quoted]
  have e2 : fullToks u l ++ ts = ⟨Term.num .nameTest, ['*']⟩ :: ⟨Term.num .lbracket, ['[']⟩ ::
      (eqToks nuri u ++ (⟨Term.num .and, s!! "and"⟩ :: (eqToks lname l ++ (⟨Term.num .rbracket, [']']⟩ :: ts)))) := by
    simp [fullToks]
  rw [e, e2]
  refine .token (k := .nameTest) .star (.token (k := .lbracket) (.single (by decide)) (eq_lexes nuri_nc (by decide) hu
    (.space (.inl rfl) (.token (k := .and) (.operator (by decide) ?_) (.space (.inl rfl)
      (eq_lexes lname_nc (by decide) hl (.token (k := .rbracket) (.single (by decide)) h)))))))
  intro c cs hc
  obtain ⟨rfl, _⟩ := List.cons.inj hc
  unfold NCNameChar Verif.Names.Spec.Letter Verif.Names.Spec.Other Verif.Names.Spec.inClass
  decide +kernel

theorem eq_says {f u : Str} (hc : MayCall f 0) :
    Says .equalityExpr (eqToks f u) (.expr (.compare ['='] (.call f []) (.literal u))) := by
  have h := Says.p23b (t := ⟨Term.num .equality, ['=']⟩)
    (.p23a (.p24a (.p25a (.p26a (.p27a (.p18a (.p19b (.p20a (.p15e (.p16a (f := ⟨Term.num .functionName, f⟩)
      (l := ⟨Term.num .lparen, ['(']⟩) (r := ⟨Term.num .rparen, [')']⟩) rfl rfl rfl hc)))))))))) rfl
    (.p24a (.p25a (.p26a (.p27a (.p18a (.p19b (.p20a (.p15c (t := ⟨Term.num .literal, quoted u⟩) rfl
      ⟨'"', .inl rfl, rfl⟩))))))))
  simpa [eqToks] using h

theorem mayCall_nuri : MayCall nuri 0 :=
  .inl ⟨"namespace-uri", 0, some 1, by simp [signatures], rfl, by simp, by simp⟩
theorem mayCall_lname : MayCall lname 0 :=
  .inl ⟨"local-name", 0, some 1, by simp [signatures], rfl, by simp, by simp⟩

/-- The first predicate. -/
def fullAst (u l : Str) : Ast :=
  .and (.compare ['='] (.call nuri []) (.literal u)) (.compare ['='] (.call lname []) (.literal l))

theorem fullPred_says (u l : Str) : Says .predicate (⟨Term.num .lbracket, ['[']⟩ ::
    (eqToks nuri u ++ ⟨Term.num .and, s!! "and"⟩ :: eqToks lname l) ++ [⟨Term.num .rbracket, [']']⟩]) (.expr (fullAst u l)) :=
  .p8 rfl (.p9 (.p14 (.p21a (.p22b (.p22a (eq_says mayCall_nuri)) rfl (eq_says mayCall_lname))))) rfl

theorem quote_free {l : Str} (h : NCName l) : '"' ∉ l := by
  have hq : ¬ NCNameChar '"'.toNat := by
    unfold NCNameChar Verif.Names.Spec.Letter Verif.Names.Spec.Other Verif.Names.Spec.inClass
    decide +kernel
  obtain ⟨c, cs, rfl, h1, h2⟩ := h
  intro hm
  rcases List.mem_cons.mp hm with rfl | hm
  · exact hq (start_char h1)
  · exact hq (h2 _ hm)

/-! ### The step -/

theorem step_full (w : DocWF d r) {env : Env} {a n k : Nat} {before after : List Nat} {u l : Str}
    (ha : Root d.h r a) (hf : Functions d env) (hk : d.h.kind n = .element) (h1 : (d.name n).1 = some u) (hu : u ≠ [])
    (h2 : (d.name n).2 = some l) (hl : NCName l) (hq : '"' ∉ u)
    (hkids : d.h.kids a = before ++ n :: after) (hcount : k = 1 + (before.filter (sameName d n)).length)
    (hs : k ≤ 2 ^ 53) {U : Prop}
    (hU : U → before.filter (sameName d n) = [] → after.filter (sameName d n) = []) :
    StepOK d env a n U 17 (fullForm u l ++ if 1 < k then position k else []) := by
  obtain ⟨⟨g1, f1, s1, m1⟩, ⟨g2, f2, s2, m2⟩⟩ := hf
  have hself : sameName d n n = true := by simp [sameName, hk]
  have hc := candidates_child w ha .any
  have hne : l ≠ [] := by obtain ⟨c, cs, rfl, _⟩ := hl; simp
  have hP : ∀ ps, kept d (fullPred g1.ty g2.ty g1.f g2.f u l :: ps) ((d.h.kids a).filter (passes d .element .any)) =
      kept d ps (before.filter (sameName d n) ++ n :: after.filter (sameName d n)) := by
    intro ps
    rw [kept]
    rw [keep_filter (P := fun x => decide (d.name x = d.name n)) (fun x p => by
      rw [means_full w m1 m2]
      simp only [decide_eq_true_eq]
      constructor
      · rintro ⟨e1, e2⟩
        refine Prod.ext ?_ ?_
        · rw [h1]
          cases hx : (d.name x).1 with
          | none => rw [hx] at e1; exact absurd e1.symm hu
          | some y => rw [hx] at e1; exact congrArg some e1
        · rw [h2]
          cases hx : (d.name x).2 with
          | none => rw [hx] at e2; exact absurd e2.symm hne
          | some y => rw [hx] at e2; exact congrArg some e2
      · intro e
        rw [e, h1, h2]
        exact ⟨rfl, rfl⟩)]
    congr 1
    rw [List.filter_filter]
    have : (fun x => decide (d.name x = d.name n) && passes d .element .any x) = sameName d n := by
      funext x
      simp only [passes, sameName, Bool.and_comm]
    rw [this, hkids, List.filter_append, List.filter_cons_of_pos hself]
  have hres : resolve d.R env (fullAst u l) = some (fullPred g1.ty g2.ty g1.f g2.f u l) := by
    have c1 : callExpr env nuri [] = some (.fn g1.ty g1.f [.mk .nodes (.path false [])]) := by
      rw [callExpr, if_neg (by decide), if_neg (by decide)]
      show (match env.fn nuri 0 with | none => none | some g => _) = _
      have : env.fn nuri 0 = some g1 := f1
      rw [this]
      simp [argsWith, s1, selfArg]
    have c2 : callExpr env lname [] = some (.fn g2.ty g2.f [.mk .nodes (.path false [])]) := by
      rw [callExpr, if_neg (by decide), if_neg (by decide)]
      show (match env.fn lname 0 with | none => none | some g => _) = _
      have : env.fn lname 0 = some g2 := f2
      rw [this]
      simp [argsWith, s2, selfArg]
    have ce : compareOp ['='] = some .eq := by decide
    simp [fullAst, resolve, resolves, c1, c2, ce, fullPred]
  refine ⟨⟨'*', _, rfl, by decide⟩, ?_⟩
  by_cases h1k : 1 < k
  · rw [if_pos h1k]
    refine ⟨fullToks u l ++ posToks k, .mk (.tree .child) .star [fullAst u l, .number (decimal k)],
      .mk (.tree .child) .any [fullPred g1.ty g2.ty g1.f g2.f u l, .lit true (decimal k)], ?_, ?_, by simp [fullToks, eqToks, posToks], ?_, ?_⟩
    · intro rest trs hr hx
      have := full_lexes hq (quote_free hl) (position_lexes true k hx)
      simpa [List.append_assoc] using this
    · have hpos := Says.some (.some .none (fullPred_says u l)) (.p8 (l := ⟨Term.num .lbracket, ['[']⟩)
        (r := ⟨Term.num .rbracket, [']']⟩) rfl (.p9 (number_says ⟨Term.num .number, decimal k⟩ rfl)) rfl)
      have := Says.p4a (.p5b .p13b) (.p7a (t := ⟨Term.num .nameTest, ['*']⟩) rfl .star) hpos
      simpa [fullToks, posToks] using this
    · simp [resolveStep, resolveTest, resolves, hres]
      simp [resolve]
    · have hsel := fun x => selects_iff w hc (ps := [fullPred g1.ty g2.ty g1.f g2.f u l, .lit true (decimal k)]) x
      rw [hP, kept_number k (by omega) hs] at hsel
      have hget : (before.filter (sameName d n) ++ n :: after.filter (sameName d n))[k - 1]? = some n := by
        rw [List.getElem?_append_right (by omega)]
        have : k - 1 - (before.filter (sameName d n)).length = 0 := by omega
        rw [this]; rfl
      rw [hget] at hsel
      exact ⟨⟨[n], (hsel _).mpr rfl, by simp⟩, fun _ x hx => (hsel _).mp hx⟩
  · rw [if_neg h1k]
    have hb : before.filter (sameName d n) = [] := List.length_eq_zero_iff.mp (by omega)
    refine ⟨fullToks u l, .mk (.tree .child) .star [fullAst u l],
      .mk (.tree .child) .any [fullPred g1.ty g2.ty g1.f g2.f u l], ?_, ?_, by simp [fullToks, eqToks], ?_, ?_⟩
    · intro rest trs hr hx
      have := full_lexes hq (quote_free hl) hx
      simpa [List.append_assoc] using this
    · have := Says.p4a (.p5b .p13b) (.p7a (t := ⟨Term.num .nameTest, ['*']⟩) rfl .star) (.some .none (fullPred_says u l))
      simpa [fullToks] using this
    · simp [resolveStep, resolveTest, resolves, hres]
    · have hsel := fun x => selects_iff w hc (ps := [fullPred g1.ty g2.ty g1.f g2.f u l]) x
      rw [hP, hb] at hsel
      simp only [kept] at hsel
      refine ⟨⟨_, (hsel _).mpr rfl, by simp⟩, fun h x hx => ?_⟩
      rw [(hsel _).mp hx, hU h hb]; rfl

end Verif.Path
