import Verif.Eval.PropsLemmas

/-
C26 (predicates), C27 (paths and unions), C28 (string, number and boolean of a node-set), C51 (each
`evaluate_as_...` method is a conversion of `evaluate`): what evaluation gives is what XPath 1.0 says,
for the expressions in `Good`; and counterexamples for the others.
-/
namespace Verif.Eval
open Verif Verif.XPath Verif.Dom Verif.Dom.Spec Verif.Eval.Spec

variable {d : Doc} {r : Nat}

/-- Evaluation of an expression by one of its five methods in a context returns `v` and leaves the
context as `c'`. -/
def Evaluates (d : Doc) (m : Mode) (e : Expr) (c : Ctx) (v : EVal) (c' : Ctx) : Prop :=
  ∃ fuel, eval d fuel m e c = .ok v c'

/-- Evaluation raises an exception. -/
def Raises (d : Doc) (m : Mode) (e : Expr) (c : Ctx) (x : XErr) : Prop :=
  ∃ fuel, eval d fuel m e c = .raise x

/-- C26, C27, C28 and C51 in general: the value returned is the value of the expression for the
context node, position and size, converted to the type asked for. -/
theorem C26_value_partial (w : DocWF d r) {m : Mode} {e : Expr} (hg : Good d r m e) {c c' : Ctx}
    (hc : InDoc d r c.node) {v : EVal} (h : Evaluates d m e c v c') :
    MeansAs d m e c.node c.position c.size v := by
  obtain ⟨fuel, h⟩ := h
  exact ((sound w fuel).eval m e c v c' h hg hc).1

theorem evaluates_any (w : DocWF d r) {e : Expr} (hg : Good d r .any e) {c c' : Ctx}
    (hc : InDoc d r c.node) {v : EVal} (h : Evaluates d .any e c v c') :
    Means d e c.node c.position c.size v := by
  obtain ⟨w, h1, h2⟩ := C26_value_partial w hg hc h
  exact h2 ▸ h1

theorem means_sorted : ∀ (e : Expr) (m : Mode), Good d r m e → ∀ {n p s : Nat} {l : List Nat},
    Means d e n p s (.nodes l) → Sorted d l
  | .lit true _, _, _, _, _, _, _, h => by rw [Means] at h; obtain ⟨x, h, _⟩ := h; cases h
  | .lit false _, _, _, _, _, _, _, h => by rw [Means] at h; cases h
  | .var v, _, hg, _, _, _, _, h => by rw [Means] at h; subst h; exact hg.1
  | .position, _, _, _, _, _, _, h => by rw [Means] at h; cases h
  | .last, _, _, _, _, _, _, h => by rw [Means] at h; cases h
  | .fn _ f _, _, hg, _, _, _, _, h => by
    rw [Means] at h; obtain ⟨vs, _, h⟩ := h; exact (hg.2 vs _ h).2.1
  | .and _ _, _, _, _, _, _, _, h => by
    rw [Means] at h
    obtain ⟨a, _, ⟨_, h⟩ | ⟨_, b, _, c, h, _⟩⟩ := h <;> cases h
  | .or _ _, _, _, _, _, _, _, h => by
    rw [Means] at h
    obtain ⟨a, _, ⟨_, h⟩ | ⟨_, b, _, c, h, _⟩⟩ := h <;> cases h
  | .cmp _ _ _, _, _, _, _, _, _, h => by
    rw [Means] at h
    obtain ⟨a, b, _, _, h⟩ := h
    obtain ⟨b, h⟩ := compareVals_bool h
    cases h
  | .path _ _, _, _, _, _, _, _, h => by
    rw [Means] at h; obtain ⟨l, h1, h2, _⟩ := h; cases h1; exact h2
  | .union _, _, _, _, _, _, _, h => by
    rw [Means] at h; obtain ⟨l, h1, h2, _⟩ := h; cases h1; exact h2
  | .filter e preds, _, hg, _, _, _, _, h => by
    rw [Means] at h
    obtain ⟨l, h1, h2⟩ := h
    cases h2
    exact (means_sorted e .nodes hg.1 h1).sublist kept_sublist
  | .pathFrom _ _, _, _, _, _, _, _, h => by
    rw [Means] at h; obtain ⟨_, l, _, h1, h2, _⟩ := h; cases h1; exact h2

theorem nodeset_value {e : Expr} {m : Mode} (hg : Good d r m e) (hn : e.isNodeset = true)
    {n p s : Nat} {u : EVal} (h : Means d e n p s u) : ∃ l, u = .nodes l ∧ Sorted d l := by
  have : ∃ l, u = .nodes l := by
    cases e <;> first | cases hn | skip
    all_goals rw [Means] at h
    · obtain ⟨l, h, _⟩ := h; exact ⟨l, h⟩
    · obtain ⟨l, h, _⟩ := h; exact ⟨l, h⟩
    · obtain ⟨l, _, h⟩ := h; exact ⟨_, h⟩
    · obtain ⟨_, l, _, h, _⟩ := h; exact ⟨_, h⟩
  obtain ⟨l, rfl⟩ := this
  exact ⟨l, rfl, means_sorted e m hg h⟩

/-! C26: predicates -/

/-- The nodes that a step selects are those that pass its predicates; each predicate is evaluated with
the nodes that passed the earlier ones as its node list. -/
theorem C26_step_partial (w : DocWF d r) {ax : LAxis} {t : NodeTest} {preds : List Expr}
    (hp : GoodPreds d r preds) {c c' : Ctx} (hc : InDoc d r c.node) {v : EVal}
    (h : Evaluates d .any (.path false [.mk ax t preds]) c v c') :
    ∃ l cands, v = .nodes l ∧ Candidates d ax t c.node cands ∧ Sorted d l ∧
      ∀ x, x ∈ l ↔ x ∈ kept d preds cands := by
  have hg : Good d r .any (.path false [.mk ax t preds]) := by
    refine ⟨⟨hp, trivial⟩, trivial, ?_⟩
    show stepShape .one ax ≠ .any
    cases ax with
    | tree a => cases a <;> simp [stepShape]
    | attr => simp [stepShape]
    | namespaces => simp [stepShape]
  have hm := evaluates_any w hg hc h
  rw [Means] at hm
  obtain ⟨l, rfl, hs, hl⟩ := hm
  obtain ⟨cands, hcand⟩ := candidates_exist w ax t hc
  refine ⟨l, cands, rfl, hcand, hs, fun x => ?_⟩
  rw [hl]
  constructor
  · rintro ⟨y, hy, hr⟩
    have hy : y = c.node := hy
    subst hy
    rw [Reaches] at hr
    obtain ⟨k, z, hk, hz, hr⟩ := hr
    rw [Reaches] at hr
    subst hr
    rw [StepSelects] at hk
    obtain ⟨l', h1, rfl⟩ := hk
    rwa [candidates_det w hcand h1]
  · intro hx
    refine ⟨c.node, rfl, ?_⟩
    rw [Reaches]
    refine ⟨kept d preds cands, x, ?_, hx, ?_⟩
    · rw [StepSelects]; exact ⟨cands, hcand, rfl⟩
    · rw [Reaches]

/-- One predicate: the candidate at position `i + 1` (counted along the axis) is selected iff the
predicate's value for that node, that position, and the number of candidates as the context size, is a
number equal to the position or a true value of another type. -/
theorem C26_predicate_partial (w : DocWF d r) {ax : LAxis} {t : NodeTest} {e : Expr}
    (hg : Good d r (predMode e) e) (hp : PredOk e) {c c' : Ctx} (hc : InDoc d r c.node) {v : EVal}
    (h : Evaluates d .any (.path false [.mk ax t [e]]) c v c') :
    ∃ l cands, v = .nodes l ∧ Candidates d ax t c.node cands ∧ Sorted d l ∧ (∀ x ∈ l, x ∈ cands) ∧
      ∀ i x, cands[i]? = some x →
        (x ∈ l ↔ ∃ u, Means d e x (i + 1) cands.length u ∧ PredTrue u (i + 1)) := by
  obtain ⟨l, cands, rfl, hcand, hs, hl⟩ := C26_step_partial w (preds := [e]) ⟨hg, hp, trivial⟩ hc h
  refine ⟨l, cands, rfl, hcand, hs, fun x hx => kept_sublist.subset ((hl x).1 hx), ?_⟩
  intro i x hi
  rw [hl, kept_cons]
  simp only [kept, predKeep]
  exact keep_index (candidates_nodup w hcand) hi

/-- `[k]` selects the node at position `k`, if there is one. -/
theorem C26_number_partial (w : DocWF d r) {ax : LAxis} {t : NodeTest} {s : Str} {x : XNum} {k : Nat}
    (hx : numberOfString d.R s = .ok x) (hk : x.val = .fin (k + 1 : Nat)) {c c' : Ctx}
    (hc : InDoc d r c.node) {v : EVal} (h : Evaluates d .any (.path false [.mk ax t [.lit true s]]) c v c') :
    ∃ l cands, v = .nodes l ∧ Candidates d ax t c.node cands ∧ l = cands[k]?.toList := by
  obtain ⟨l, cands, rfl, hcand, hs, hsub, hl⟩ := C26_predicate_partial w (e := .lit true s)
    (fun _ => by simp [predMode, Expr.ty]) rfl hc h
  refine ⟨l, cands, rfl, hcand, ?_⟩
  have key : ∀ i y, cands[i]? = some y → (y ∈ l ↔ i = k) := by
    intro i y hi
    rw [hl i y hi]
    simp only [numeric_lit hx]
    constructor
    · rintro ⟨u, rfl, hu⟩
      have hu : x.val.toRat? = some ((i + 1 : Nat) : Rat) := hu
      rw [hk] at hu
      have := Rat.natCast_inj.1 (Option.some.inj hu)
      omega
    · rintro rfl
      exact ⟨_, rfl, by show x.val.toRat? = _; rw [hk]; rfl⟩
  apply sorted_det w hs
  · cases cands[k]? <;> simp [Sorted]
  · intro y
    constructor
    · intro hy
      obtain ⟨i, hi⟩ := List.getElem?_of_mem (hsub y hy)
      have := (key i y hi).1 hy
      subst this
      simp [hi]
    · intro hy
      rw [Option.mem_toList] at hy
      exact (key k y hy).2 rfl

/-- `[position() = last()]` selects the last candidate: the one that comes last in document order, or
first for a reverse axis. -/
theorem C26_last_partial (w : DocWF d r) {ax : LAxis} {t : NodeTest} {c c' : Ctx}
    (hc : InDoc d r c.node) {v : EVal}
    (h : Evaluates d .any (.path false [.mk ax t [.cmp .eq .position .last]]) c v c') :
    ∃ l cands, v = .nodes l ∧ Candidates d ax t c.node cands ∧ l = cands.getLast?.toList := by
  obtain ⟨l, cands, rfl, hcand, hs, hsub, hl⟩ := C26_predicate_partial w (e := .cmp .eq .position .last)
    ⟨trivial, trivial⟩ rfl hc h
  refine ⟨l, cands, rfl, hcand, ?_⟩
  have key : ∀ i y, cands[i]? = some y → (y ∈ l ↔ i + 1 = cands.length) := by
    intro i y hi
    rw [hl i y hi]
    have hcmp : ∀ a b : Nat, compareVals d .eq (.sc (.num (.obj (.fin a)))) (.sc (.num (.obj (.fin b)))) =
        .ok (.sc (.bool (decide (a = b)))) := by
      intro a b
      refine congrArg (fun b => Except.ok (EVal.sc (Scalar.bool b))) ?_
      show (Dbl.fin a).eq (.fin b) = _
      rw [Bool.eq_iff_iff, eq_fin_iff, decide_eq_true_iff]
      simp [Dbl.toRat?, Rat.natCast_inj]
    constructor
    · rintro ⟨u, hu, ht⟩
      rw [Means] at hu
      obtain ⟨a, b, ha, hb, hu⟩ := hu
      rw [Means] at ha
      rw [Means] at hb
      subst ha hb
      rw [hcmp] at hu
      cases hu
      exact of_decide_eq_true ht
    · intro hi
      refine ⟨.sc (.bool true), ?_, rfl⟩
      rw [Means]
      refine ⟨.sc (.num (.obj (.fin (i + 1 : Nat)))), .sc (.num (.obj (.fin (cands.length : Nat)))),
        by rw [Means], by rw [Means], ?_⟩
      rw [hcmp, decide_eq_true hi]
  apply sorted_det w hs
  · cases cands.getLast? <;> simp [Sorted]
  · intro y
    rw [Option.mem_toList, List.getLast?_eq_getElem?]
    constructor
    · intro hy
      obtain ⟨i, hi⟩ := List.getElem?_of_mem (hsub y hy)
      have := (key i y hi).1 hy
      rw [← this]
      simpa using hi
    · intro hy
      refine (key _ y hy).2 ?_
      have := (List.getElem?_eq_some_iff.1 hy).1
      omega

/-- `[position() > k]` selects all candidates but the first `k`. -/
theorem C26_greater_partial (w : DocWF d r) {ax : LAxis} {t : NodeTest} {s : Str} {x : XNum} {k : Nat}
    (hx : numberOfString d.R s = .ok x) (hk : x.val = .fin k) {c c' : Ctx}
    (hc : InDoc d r c.node) {v : EVal}
    (h : Evaluates d .any (.path false [.mk ax t [.cmp .gt .position (.lit true s)]]) c v c') :
    ∃ l cands, v = .nodes l ∧ Candidates d ax t c.node cands ∧ Sorted d l ∧
      ∀ y, y ∈ l ↔ y ∈ cands.drop k := by
  obtain ⟨l, cands, rfl, hcand, hs, hsub, hl⟩ := C26_predicate_partial w
    (e := .cmp .gt .position (.lit true s)) ⟨trivial, by simp [Good]⟩ (by simp [PredOk, isSimple, IsNumeric]) hc h
  refine ⟨l, cands, rfl, hcand, hs, ?_⟩
  have key : ∀ i y, cands[i]? = some y → (y ∈ l ↔ k ≤ i) := by
    intro i y hi
    rw [hl i y hi]
    have hcmp : ∀ a : Nat, compareVals d .gt (.sc (.num (.obj (.fin a)))) (.sc (.num x)) =
        .ok (.sc (.bool (decide (k < a)))) := by
      intro a
      refine congrArg (fun b => Except.ok (EVal.sc (Scalar.bool b))) ?_
      show x.val.lt (.fin a) = _
      rw [hk, Bool.eq_iff_iff]
      simp only [Dbl.lt, Dbl.toRat?, decide_eq_true_iff, Rat.natCast_lt_natCast]
    constructor
    · rintro ⟨u, hu, ht⟩
      rw [Means] at hu
      obtain ⟨a, b, ha, hb, hu⟩ := hu
      rw [Means] at ha
      rw [numeric_lit hx] at hb
      subst ha hb
      rw [hcmp] at hu
      cases hu
      have := of_decide_eq_true ht
      omega
    · intro hi
      refine ⟨.sc (.bool true), ?_, rfl⟩
      rw [Means]
      refine ⟨.sc (.num (.obj (.fin (i + 1 : Nat)))), _, by rw [Means], (numeric_lit hx _ _ _ _).2 rfl, ?_⟩
      rw [hcmp, decide_eq_true (by omega)]
  intro y
  constructor
  · intro hy
    obtain ⟨i, hi⟩ := List.getElem?_of_mem (hsub y hy)
    have := (key i y hi).1 hy
    apply List.mem_of_getElem? (i := i - k)
    rw [List.getElem?_drop, show k + (i - k) = i by omega]
    exact hi
  · intro hy
    obtain ⟨i, hi⟩ := List.getElem?_of_mem hy
    rw [List.getElem?_drop] at hi
    exact (key _ y hi).2 (by omega)

/-- Filter expressions `(e)[..]..`: the predicates count in document order. -/
theorem C26_filter_partial (w : DocWF d r) {e : Expr} {preds : List Expr} (he : Good d r .nodes e)
    (hp : GoodPreds d r preds) {c c' : Ctx} (hc : InDoc d r c.node) {v : EVal}
    (h : Evaluates d .any (.filter e preds) c v c') :
    ∃ l0, Means d e c.node c.position c.size (.nodes l0) ∧ v = .nodes (kept d preds l0) := by
  have hm := evaluates_any w (e := .filter e preds) ⟨he, hp⟩ hc h
  rwa [Means] at hm

/-! C27: paths and unions -/

/-- A relative path gives exactly the nodes that its steps reach, each once, in document order. -/
theorem C27_path_partial (w : DocWF d r) {steps : List LStep}
    (hg : Good d r .any (.path false steps)) {c c' : Ctx} (hc : InDoc d r c.node) {v : EVal}
    (h : Evaluates d .any (.path false steps) c v c') :
    ∃ l, v = .nodes l ∧ Sorted d l ∧ ∀ x, x ∈ l ↔ Reaches d steps c.node x := by
  have hm := evaluates_any w hg hc h
  rw [Means] at hm
  obtain ⟨l, rfl, hs, hl⟩ := hm
  refine ⟨l, rfl, hs, fun x => (hl x).trans ?_⟩
  exact ⟨fun ⟨y, h1, h2⟩ => (show y = c.node from h1) ▸ h2, fun h => ⟨c.node, rfl, h⟩⟩

/-- An absolute path starts at the root of the tree that contains the context node. -/
theorem C27_absolute_partial (w : DocWF d r) {steps : List LStep}
    (hg : Good d r .any (.path true steps)) {c c' : Ctx} (hc : InDoc d r c.node) {v : EVal}
    (h : Evaluates d .any (.path true steps) c v c') :
    ∃ l, v = .nodes l ∧ Sorted d l ∧ ∀ x, x ∈ l ↔ Reaches d steps r x := by
  have hm := evaluates_any w hg hc h
  rw [Means] at hm
  obtain ⟨l, rfl, hs, hl⟩ := hm
  refine ⟨l, rfl, hs, fun x => (hl x).trans ?_⟩
  constructor
  · rintro ⟨y, h1, h2⟩
    have : y = r := startNode_det (ab := true) h1 hc.1
    exact this ▸ h2
  · intro h; exact ⟨r, hc.1, h⟩

/-- A union gives exactly the nodes of its operands, each once, in document order. -/
theorem C27_union_partial (w : DocWF d r) {es : List Expr} (hg : GoodUnion d r es) {c c' : Ctx}
    (hc : InDoc d r c.node) {v : EVal} (h : Evaluates d .any (.union es) c v c') :
    ∃ l, v = .nodes l ∧ Sorted d l ∧
      ∀ x, x ∈ l ↔ ∃ e ∈ es, ∃ l', Means d e c.node c.position c.size (.nodes l') ∧ x ∈ l' := by
  have hm := evaluates_any w (e := .union es) hg hc h
  rw [Means] at hm
  obtain ⟨l, rfl, hs, hl⟩ := hm
  refine ⟨l, rfl, hs, fun x => (hl x).trans ?_⟩
  clear hl hg h
  induction es with
  | nil => simp [InSome]
  | cons e es ih =>
    rw [InSome, ih]
    simp

/-- The set of nodes is right for all paths whose predicates are, and it comes in document order,
although nodes may be repeated. -/
theorem C27_members_partial (w : DocWF d r) {steps : List LStep} (hg : Good d r .bool (.path false steps))
    {c c' : Ctx} (hc : InDoc d r c.node) {v : EVal} (h : Evaluates d .any (.path false steps) c v c') :
    ∃ l, v = .nodes l ∧ (∀ x, x ∈ l ↔ Reaches d steps c.node x) ∧
      l.Pairwise (fun a b => ¬ (Before d.h b a ∨ AttrBefore d.h b a)) := by
  obtain ⟨fuel, h⟩ := h
  cases fuel with
  | zero => simp [eval] at h
  | succ fuel =>
    simp only [eval, restore] at h
    obtain ⟨v1, c1, h1, h2⟩ := bind_ok h
    obtain ⟨it, c2, h3, h4⟩ := bind_ok h1
    obtain ⟨l, c3, h5, h6⟩ := bind_ok h4
    cases h6
    cases h2
    obtain ⟨hgi, _, hout⟩ := (sound w fuel).iterable _ _ _ _ _ h3 hg rfl rfl hc
    obtain ⟨hl, hdoc⟩ := (sound w fuel).drain _ _ _ _ h5 hgi
    refine ⟨_, rfl, ?_, sortNodes_weak w fun y hy => (hdoc y hy).1⟩
    intro x
    rw [sortNodes_mem, hl]
    simp only [IterOut] at hout
    obtain ⟨y, hy, _, hout⟩ := hout
    have hy : y = c.node := hy
    subst hy
    rw [hout, flow_mem w]
    simp

/-! C28: string(), number() and boolean() of a node-set -/

/-- The string-value of the node that is first in document order; empty if there is none. -/
theorem C28_string_partial (w : DocWF d r) {e : Expr} (hn : e.isNodeset = true) (hg : Good d r .str e)
    {c c' : Ctx} (hc : InDoc d r c.node) {v : EVal} (h : Evaluates d .str e c v c') :
    ∃ l, Means d e c.node c.position c.size (.nodes l) ∧ Sorted d l ∧
      (l = [] → v = .sc (.str [])) ∧ ∀ x rest, l = x :: rest → v = .sc (.str (strVal d x)) := by
  obtain ⟨u, h1, s, rfl, h2⟩ := C26_value_partial w hg hc h
  obtain ⟨l, rfl, hs⟩ := nodeset_value hg hn h1
  refine ⟨l, h1, hs, ?_, ?_⟩
  · rintro rfl; cases h2; rfl
  · rintro x rest rfl; cases h2; rfl

/-- The number that the string-value of the first node stands for; NaN if there is none. -/
theorem C28_number_partial (w : DocWF d r) {e : Expr} (hn : e.isNodeset = true) (hg : Good d r .num e)
    {c c' : Ctx} (hc : InDoc d r c.node) {v : EVal} (h : Evaluates d .num e c v c') :
    ∃ l y, Means d e c.node c.position c.size (.nodes l) ∧ Sorted d l ∧ v = .sc (.num y) ∧
      (l = [] → y = .sNaN) ∧ ∀ x rest, l = x :: rest →
        numberOfString d.R (strVal d x) = .ok y ∨ (∃ er, numberOfString d.R (strVal d x) = .error er) := by
  obtain ⟨u, h1, y, rfl, h2⟩ := C26_value_partial w hg hc h
  obtain ⟨l, rfl, hs⟩ := nodeset_value hg hn h1
  refine ⟨l, y, h1, hs, rfl, ?_, ?_⟩
  · rintro rfl
    rcases h2 with h2 | ⟨⟨er, h2⟩, _⟩
    · cases h2; rfl
    · cases h2
  · rintro x rest rfl
    simp only [toNum] at h2
    cases hx : numberOfString d.R (strVal d x) with
    | ok z =>
      rw [hx] at h2
      rcases h2 with h2 | ⟨⟨er, h2⟩, _⟩
      · cases h2; exact .inl rfl
      · cases h2
    | error er => exact .inr ⟨er, rfl⟩

/-- True if there is a node. -/
theorem C28_boolean_partial (w : DocWF d r) {e : Expr} (hn : e.isNodeset = true) (hg : Good d r .bool e)
    {c c' : Ctx} (hc : InDoc d r c.node) {v : EVal} (h : Evaluates d .bool e c v c') :
    ∃ l b, Means d e c.node c.position c.size (.nodes l) ∧ v = .sc (.bool b) ∧ (b = true ↔ ∃ x, x ∈ l) := by
  obtain ⟨u, h1, b, rfl, h2⟩ := C26_value_partial w hg hc h
  obtain ⟨l, rfl, hs⟩ := nodeset_value hg hn h1
  refine ⟨l, b, h1, rfl, h2.trans ?_⟩
  exact ⟨fun h => List.exists_mem_of_ne_nil _ h, fun ⟨x, hx⟩ hl => by subst hl; cases hx⟩

/-! C51: the five ways to evaluate an expression agree -/

/-- What `evaluate_as_boolean`, `evaluate_as_number`, `evaluate_as_string`, `evaluate_as_nodeset` return
is the conversion of what `evaluate` returns. -/
theorem C51_partial (w : DocWF d r) {m : Mode} {e : Expr} (h1 : Good d r .any e) (h2 : Good d r m e)
    {c c1 c2 : Ctx} (hc : InDoc d r c.node) {u v : EVal} (hu : Evaluates d .any e c u c1)
    (hv : Evaluates d m e c v c2) : Converts d m u v := by
  obtain ⟨u', h3, h4⟩ := C26_value_partial w h2 hc hv
  rwa [means_det w e (evaluates_any w h1 hc hu) h3]

end Verif.Eval
