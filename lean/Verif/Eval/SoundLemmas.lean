import Verif.Eval.Shape

/-
Lemmas for the soundness of evaluation that do not need the induction over the nesting of calls.
-/
namespace Verif.Eval
open Verif Verif.XPath Verif.Dom Verif.Dom.Spec Verif.Eval.Spec

variable {d : Doc} {r : Nat}

theorem bind_ok {α β : Type} {x : Out α} {k : α → Ctx → Out β} {b : β} {c : Ctx}
    (h : x.bind k = .ok b c) : ∃ a c1, x = .ok a c1 ∧ k a c1 = .ok b c := by
  cases x with
  | stuck => cases h
  | raise e => cases h
  | ok a c1 => exact ⟨a, c1, rfl, h⟩

theorem ret_ok {α : Type} {x : Except XErr α} {c c' : Ctx} {a : α} (h : ret x c = .ok a c') :
    x = .ok a ∧ c' = c := by
  cases x with
  | error e => cases h
  | ok b => cases h; exact ⟨rfl, rfl⟩

theorem next_list {fuel : Nat} {l : List Nat} {c c' : Ctx} {o : Option Nat} {it : Iter}
    (h : next d fuel (.list l) c = .ok (o, it) c') :
    c' = c ∧ o = l.head? ∧ it = .list l.tail := by
  cases fuel with
  | zero => cases h
  | succ fuel =>
    cases l with
    | nil => simp only [next] at h; cases h; exact ⟨rfl, rfl, rfl⟩
    | cons n l => simp only [next] at h; cases h; exact ⟨rfl, rfl, rfl⟩

theorem convert_converts {m : Mode} {v w : EVal} (h : convert d m v = .ok w) : Converts d m v w := by
  cases m with
  | any => cases h; rfl
  | bool => cases h; exact ⟨_, rfl, toBool_iff v⟩
  | num =>
    simp only [convert] at h
    cases hx : toNum d v with
    | error e => simp [hx] at h
    | ok x => simp only [hx] at h; cases h; exact ⟨x, rfl, .inl hx⟩
  | str =>
    simp only [convert] at h
    cases hx : toStr d v with
    | error e => simp [hx] at h
    | ok x => simp only [hx] at h; cases h; exact ⟨x, rfl, hx⟩
  | nodes =>
    cases v with
    | sc s => cases h
    | nodes l => cases h; exact ⟨rfl, _, rfl⟩

theorem convert_good {m : Mode} {v w : EVal} (hv : GoodVal d r v) (h : convert d m v = .ok w) :
    GoodVal d r w := by
  have h1 := convert_converts h
  cases m with
  | any => have h1 : w = v := h1; subst h1; exact hv
  | bool => obtain ⟨_, rfl, _⟩ := h1; trivial
  | num => obtain ⟨_, rfl, _⟩ := h1; trivial
  | str => obtain ⟨_, rfl, _⟩ := h1; trivial
  | nodes => obtain ⟨rfl, _⟩ := h1; exact hv

theorem convert_head {m : Mode} (hm : m = .num ∨ m = .str) (l : List Nat) :
    convert d m (.nodes l.head?.toList) = convert d m (.nodes l) := by
  rcases hm with rfl | rfl <;> cases l <;> rfl

theorem evalLit_means {number : Bool} {str : Str} {m : Mode} (hg : number = true → m ≠ .bool ∧ m ≠ .str)
    {v : EVal} (h : evalLit d number str m = .ok v) (n p s : Nat) :
    MeansAs d m (.lit number str) n p s v ∧ GoodVal d r v := by
  cases number with
  | false =>
    refine ⟨⟨.sc (.str str), by simp only [Means], ?_⟩, ?_⟩
    · cases m with
      | any => cases h; rfl
      | bool =>
        cases h
        refine ⟨_, rfl, ?_⟩
        simp only [Truthy, XPath.Spec.Truth]
        cases str <;> simp
      | num =>
        simp only [evalLit] at h
        cases hx : numberOfString d.R str with
        | ok x => simp only [hx] at h; cases h; exact ⟨x, rfl, .inl (by simp [toNum, toNumber, hx])⟩
        | error e =>
          simp only [hx] at h; cases h; exact ⟨_, rfl, .inr ⟨⟨pyErr e, by simp [toNum, toNumber, hx]⟩, rfl⟩⟩
      | str => cases h; exact ⟨_, rfl, rfl⟩
      | nodes => cases h
    · cases m <;> simp only [evalLit] at h <;> cases h <;> try trivial
      split <;> trivial
  | true =>
    obtain ⟨h1, h2⟩ := hg rfl
    cases hx : numberOfString d.R str with
    | ok x =>
      cases m with
      | bool => exact absurd rfl h1
      | str => exact absurd rfl h2
      | nodes => cases h
      | any =>
        simp only [evalLit, hx] at h; cases h
        exact ⟨⟨.sc (.num x), (numeric_lit hx _ _ _ _).2 rfl, rfl⟩, trivial⟩
      | num =>
        simp only [evalLit, hx] at h; cases h
        exact ⟨⟨.sc (.num x), (numeric_lit hx _ _ _ _).2 rfl, x, rfl, .inl rfl⟩, trivial⟩
    | error e =>
      have hm : Means d (.lit true str) n p s (.sc (.num .sNaN)) := by
        simp only [Means]; exact ⟨_, rfl, .inr ⟨⟨e, hx⟩, rfl⟩⟩
      cases m with
      | bool => exact absurd rfl h1
      | str => exact absurd rfl h2
      | nodes => cases h
      | any => simp only [evalLit, hx] at h; cases h; exact ⟨⟨_, hm, rfl⟩, trivial⟩
      | num => simp only [evalLit, hx] at h; cases h; exact ⟨⟨_, hm, .sNaN, rfl, .inl rfl⟩, trivial⟩

theorem numeric_eval {e : Expr} (hn : IsNumeric e) {fuel : Nat} {c c' : Ctx} {v : EVal}
    (h : eval d fuel .num e c = .ok v c') : c' = c ∧ ∀ n p s, MeansAs d .num e n p s v := by
  cases fuel with
  | zero => cases h
  | succ fuel =>
    cases e with
    | lit number str =>
      have hn : number = true := hn
      subst hn
      simp only [eval] at h
      obtain ⟨h1, h2⟩ := ret_ok h
      exact ⟨h2, fun n p s => (evalLit_means (r := 0) (fun _ => by simp) h1 n p s).1⟩
    | var x =>
      simp only [eval] at h
      obtain ⟨h1, h2⟩ := ret_ok h
      exact ⟨h2, fun n p s => ⟨x, by simp only [Means], convert_converts h1⟩⟩
    | _ => exact hn.elim

/-- `position` and `size` as numbers. -/
theorem mkNumber_nat (k : Nat) : mkNumber (.fin k) = .obj (.fin k) := by simp [mkNumber]

theorem slice_sel (w : DocWF d r) {e : Expr} {v : EVal} (hv : ∀ n p s, MeansAs d .num e n p s v)
    (l : List Nat) : selKeep d (.slice true e) l = keep (fun _ q => beyond q v = true) 1 l := by
  simp only [selKeep]
  refine keep_congr fun n q _ _ _ => ?_
  constructor
  · rintro ⟨v', h1, h2⟩; rw [means_as_det w (hv n q l.length) h1]; exact h2
  · intro h2; exact ⟨v, hv _ _ _, h2⟩

theorem rootOf_root (w : WF d.h) {fuel n y : Nat} (h : rootOf d.h fuel n = some y) :
    Root d.h y n ∧ d.h.kind y = .entity := by
  induction fuel generalizing n with
  | zero => cases h
  | succ fuel ih =>
    unfold rootOf at h
    split at h
    · rename_i hk
      cases h
      exact ⟨⟨.inl rfl, w.entity_root _ hk⟩, hk⟩
    · split at h
      · cases h
      · rename_i p hp
        obtain ⟨h1, h2⟩ := ih h
        exact ⟨⟨h1.1.trans (.inr (.parent hp)), h1.2⟩, h2⟩

theorem start_inDoc (w : DocWF d r) {fuel n y : Nat} (h : rootOf d.h fuel n = some y) (hn : InDoc d r n) :
    StartNode d true n y ∧ InDoc d r y ∧ TreeNode d.h y := by
  obtain ⟨h1, h2⟩ := rootOf_root w.wf h
  have ht : TreeNode d.h y := by simp [TreeNode, h2]
  exact ⟨h1, ⟨root_up hn.1 h1.1, .inl ht⟩, ht⟩

/-- The iterator of a path does nothing until it is used. -/
theorem path_iterable (w : DocWF d r) {fuel n : Nat} {ab : Bool} {steps : List LStep} {c c' : Ctx} {it : Iter}
    (h : iterable d fuel (.path ab steps) n c = .ok it c') (hn : n = c.node) (hc : InDoc d r c.node)
    (hg : GoodSteps d r steps) (hok : StepsOk steps) :
    c' = c ∧ GoodIter d r it ∧ (AllStepsStable steps → Stable it) ∧
    ∃ y, StartNode d ab c.node y ∧ InDoc d r y ∧ (ab = true → TreeNode d.h y) ∧
      ∀ z, den d z it = flow d steps [y] := by
  subst hn
  cases fuel with
  | zero => cases h
  | succ fuel =>
    simp only [iterable] at h
    have key : ∀ y, ret (chain d steps (.list [y])) c = .ok it c' → InDoc d r y →
        c' = c ∧ GoodIter d r it ∧ (AllStepsStable steps → Stable it) ∧ ∀ z, den d z it = flow d steps [y] := by
      intro y hr hy
      obtain ⟨h1, h2⟩ := ret_ok hr
      obtain ⟨k1, k2, k3⟩ := chain_den h1 hg hok (by simpa [GoodIter] using hy) (fun _ => trivial)
      exact ⟨h2, k1, fun ha => k3 ha trivial, k2⟩
    cases ab with
    | false =>
      simp only [Bool.false_eq_true, if_false] at h
      obtain ⟨k1, k2, k3, k4⟩ := key _ h hc
      exact ⟨k1, k2, k3, _, rfl, hc, fun h => by simp at h, k4⟩
    | true =>
      simp only [if_true] at h
      cases hr : rootOf d.h (d.h.size + 1) c.node with
      | none => simp [hr] at h
      | some y =>
        simp only [hr] at h
        obtain ⟨s1, s2, s3⟩ := start_inDoc w hr hc
        obtain ⟨k1, k2, k3, k4⟩ := key _ h s2
        exact ⟨k1, k2, k3, _, s1, s2, fun _ => s3, k4⟩

/-- What the iterator of a node-set expression produces. -/
def IterOut (d : Doc) (r : Nat) : Expr → Nat → Nat → Nat → List Nat → Prop
  | .path ab steps, n, _, _, l => ∃ y, StartNode d ab n y ∧ InDoc d r y ∧ l = flow d steps [y]
  | .union es, n, p, s, l => Sorted d l ∧ (∀ x ∈ l, InDoc d r x) ∧ ∀ x, x ∈ l ↔ InSome d es n p s x
  | .filter e preds, n, p, s, l => ∃ l0, Means d e n p s (.nodes l0) ∧ GoodVal d r (.nodes l0) ∧
      l = kept d preds l0
  | .pathFrom e steps, n, p, s, l => ∃ l0, l = flow d steps l0 ∧
      ((e.isNodeset = true ∧ IterOut d r e n p s l0) ∨
       (e.isNodeset = false ∧ Means d e n p s (.nodes l0) ∧ GoodVal d r (.nodes l0)))
  | _, _, _, _, _ => False

theorem startNode_det {ab : Bool} {n y y' : Nat} (h1 : StartNode d ab n y) (h2 : StartNode d ab n y') :
    y = y' := by
  cases ab with
  | false => exact Eq.trans h1 (Eq.symm h2)
  | true =>
    have h1 : Root d.h y n := h1
    have h2 : Root d.h y' n := h2
    rcases AncS.comparable h1.1 h2.1 with h | h
    · rcases h with rfl | h
      · rfl
      · obtain ⟨q, hq, _⟩ := anc_iff.1 h
        rw [h2.2] at hq; cases hq
    · rcases h with rfl | h
      · rfl
      · obtain ⟨q, hq, _⟩ := anc_iff.1 h
        rw [h1.2] at hq; cases hq

/-- The nodes and their order. -/
theorem iterOut_shape (w : DocWF d r) {e : Expr} {n p s : Nat} {l : List Nat} (h : IterOut d r e n p s l) :
    ShapeHolds d (baseShape e) l ∧ ∀ x ∈ l, InDoc d r x := by
  match e with
  | .path ab steps =>
    simp only [IterOut] at h
    obtain ⟨y, _, hy, rfl⟩ := h
    have hy' : ∀ x ∈ [y], InDoc d r x := by simpa using hy
    simp only [baseShape]
    exact ⟨stepsShape_holds w hy' (by simp [ShapeHolds]), flow_inDoc w hy'⟩
  | .union es => simp only [IterOut] at h; exact ⟨h.1, h.2.1⟩
  | .filter e preds =>
    simp only [IterOut] at h
    obtain ⟨l0, _, ⟨h2, h3⟩, rfl⟩ := h
    exact ⟨List.Pairwise.sublist kept_sublist h2, fun x hx => h3 x (kept_sublist.subset hx)⟩
  | .pathFrom e steps =>
    simp only [IterOut] at h
    obtain ⟨l0, rfl, ⟨_, h⟩ | ⟨h0, _, h2, h3⟩⟩ := h
    · obtain ⟨k1, k2⟩ := iterOut_shape w h
      simp only [baseShape]
      exact ⟨stepsShape_holds w k2 k1, flow_inDoc w k2⟩
    · have hb : baseShape e = .sorted := by cases e <;> first | rfl | simp [Expr.isNodeset] at h0
      simp only [baseShape]
      rw [hb]
      exact ⟨stepsShape_holds w h3 h2, flow_inDoc w h3⟩
  | .lit _ _ | .var _ | .position | .last | .fn _ _ _ | .and _ _ | .or _ _ | .cmp _ _ _ =>
    simp only [IterOut] at h

/-- The same nodes as the value of the expression. -/
theorem iterOut_means (w : DocWF d r) {e : Expr} {n p s : Nat} {l : List Nat} (h : IterOut d r e n p s l) :
    ∃ m, Means d e n p s (.nodes m) ∧ GoodVal d r (.nodes m) ∧ ∀ x, x ∈ m ↔ x ∈ l := by
  match e with
  | .path ab steps =>
    have hs := (iterOut_shape w h).2
    simp only [IterOut] at h
    obtain ⟨y, h1, hy, rfl⟩ := h
    obtain ⟨m, hm, hmem⟩ := exists_sorted w _ hs
    refine ⟨m, ?_, ⟨hm, fun x hx => hs x ((hmem x).1 hx)⟩, hmem⟩
    simp only [Means]
    refine ⟨m, rfl, hm, fun x => ?_⟩
    rw [hmem, flow_mem w]
    constructor
    · rintro ⟨z, hz, hr⟩
      rw [List.mem_singleton] at hz; subst hz
      exact ⟨z, h1, hr⟩
    · rintro ⟨z, hz, hr⟩
      rw [startNode_det hz h1] at hr
      exact ⟨y, by simp, hr⟩
  | .union es =>
    simp only [IterOut] at h
    exact ⟨l, by simp only [Means]; exact ⟨l, rfl, h.1, h.2.2⟩, ⟨h.1, h.2.1⟩, fun x => Iff.rfl⟩
  | .filter e preds =>
    have hs := iterOut_shape w h
    simp only [IterOut] at h
    obtain ⟨l0, h1, _, rfl⟩ := h
    exact ⟨_, by simp only [Means]; exact ⟨l0, h1, rfl⟩, hs, fun x => Iff.rfl⟩
  | .pathFrom e steps =>
    have hs := (iterOut_shape w h).2
    simp only [IterOut] at h
    obtain ⟨l0, rfl, h⟩ := h
    obtain ⟨m, hm, hmem⟩ := exists_sorted w _ hs
    have hbase : ∃ m0, Means d e n p s (.nodes m0) ∧ ∀ x, x ∈ m0 ↔ x ∈ l0 := by
      rcases h with ⟨_, h⟩ | ⟨_, h1, _⟩
      · obtain ⟨m0, k1, _, k2⟩ := iterOut_means w h
        exact ⟨m0, k1, k2⟩
      · exact ⟨l0, h1, fun x => Iff.rfl⟩
    obtain ⟨m0, k1, k2⟩ := hbase
    refine ⟨m, ?_, ⟨hm, fun x hx => hs x ((hmem x).1 hx)⟩, hmem⟩
    simp only [Means]
    refine ⟨m0, m, k1, rfl, hm, fun x => ?_⟩
    rw [hmem, flow_mem w]
    constructor
    · rintro ⟨z, hz, hr⟩; exact ⟨z, (k2 z).2 hz, hr⟩
    · rintro ⟨z, hz, hr⟩; exact ⟨z, (k2 z).1 hz, hr⟩
  | .lit _ _ | .var _ | .position | .last | .fn _ _ _ | .and _ _ | .or _ _ | .cmp _ _ _ =>
    simp only [IterOut] at h

theorem good_shape {m : Mode} {e : Expr} (hg : Good d r m e) (hn : e.isNodeset = true) :
    ShapeOk m (baseShape e) := by
  cases e with
  | path ab steps => simp only [Good] at hg; simp only [baseShape]; exact hg.2.2
  | pathFrom e steps => simp only [Good] at hg; simp only [baseShape]; exact hg.2.2.2.2
  | union es => cases m <;> simp [ShapeOk, baseShape]
  | filter e preds => cases m <;> simp [ShapeOk, baseShape]
  | _ => simp [Expr.isNodeset] at hn

theorem good_bool {m : Mode} {e : Expr} (hg : Good d r m e) (hn : e.isNodeset = true) : Good d r .bool e := by
  cases e with
  | path ab steps => simp only [Good] at hg ⊢; exact ⟨hg.1, hg.2.1, trivial⟩
  | pathFrom e steps => simp only [Good] at hg ⊢; exact ⟨hg.1, hg.2.1, hg.2.2.1, hg.2.2.2.1, trivial⟩
  | union es => simp only [Good] at hg ⊢; exact hg
  | filter e preds => simp only [Good] at hg ⊢; exact hg
  | _ => simp [Expr.isNodeset] at hn

/-- All nodes, sorted: the value. -/
theorem iterOut_all (w : DocWF d r) {m : Mode} (hm : m = .any ∨ m = .nodes) {e : Expr} (hg : Good d r m e)
    (hn : e.isNodeset = true) {n p s : Nat} {l : List Nat} (h : IterOut d r e n p s l) :
    MeansAs d m e n p s (.nodes (sortNodes d l)) ∧ GoodVal d r (.nodes (sortNodes d l)) := by
  obtain ⟨k, h1, h2, h3⟩ := iterOut_means w h
  obtain ⟨h4, h5⟩ := iterOut_shape w h
  have h6 : baseShape e ≠ .any := by
    have := good_shape hg hn
    rcases hm with rfl | rfl <;> exact this
  have h7 : sortNodes d l = k := sorted_det w (sortNodes_sorted w (fun y hy => (h5 y hy).1) (shape_tieOk h4 h6))
    h2.1 fun x => by rw [sortNodes_mem, h3]
  rw [h7]
  refine ⟨⟨_, h1, ?_⟩, h2⟩
  rcases hm with rfl | rfl
  · rfl
  · exact ⟨rfl, _, rfl⟩

/-- The first node in the order of production is the first in document order. -/
theorem iterOut_first (w : DocWF d r) {m : Mode} (hm : m = .num ∨ m = .str) {e : Expr} (hg : Good d r m e)
    (hn : e.isNodeset = true) {n p s : Nat} {l : List Nat} (h : IterOut d r e n p s l) {v : EVal}
    (hv : convert d m (.nodes l.head?.toList) = .ok v) : MeansAs d m e n p s v := by
  obtain ⟨k, h1, h2, h3⟩ := iterOut_means w h
  obtain ⟨h4, h5⟩ := iterOut_shape w h
  have h6 : baseShape e ≠ .any ∧ baseShape e ≠ .nodup := by
    have := good_shape hg hn
    rcases hm with rfl | rfl <;> exact this
  have h7 : l = k := sorted_det w (shape_sorted h4 h6.1 h6.2) h2.1 fun x => (h3 x).symm
  rw [convert_head hm, h7] at hv
  exact ⟨_, h1, convert_converts hv⟩

theorem iterOut_bool (w : DocWF d r) {e : Expr} {n p s : Nat} {l : List Nat} (h : IterOut d r e n p s l) {b : Bool}
    (hb : b = true ↔ l ≠ []) : MeansAs d .bool e n p s (.sc (.bool b)) := by
  obtain ⟨k, h1, h2, h3⟩ := iterOut_means w h
  refine ⟨_, h1, b, rfl, hb.trans ?_⟩
  show l ≠ [] ↔ k ≠ []
  constructor
  · intro hl hk
    subst hk
    exact hl (List.eq_nil_iff_forall_not_mem.2 fun x hx => by simpa using (h3 x).2 hx)
  · intro hk hl
    subst hl
    exact hk (List.eq_nil_iff_forall_not_mem.2 fun x hx => by simpa using (h3 x).1 hx)

/-- Proper axes lead to tree nodes. -/
theorem proper_tree (w : DocWF d r) {ax : LAxis} (hp : ProperAxis ax) {n x : Nat} (hx : OnLAxis d n x ax) :
    TreeNode d.h x := by
  have child : ∀ x, isChildKind (d.h.kind x) = true → TreeNode d.h x := by
    intro x hk; unfold TreeNode; constructor <;> intro h <;> simp [h, isChildKind] at hk
  cases ax with
  | attr => exact hp.elim
  | namespaces => exact hp.elim
  | tree a =>
    obtain ⟨h1, h2 | rfl⟩ := hx
    · exact h2
    · cases a with
      | self => exact hp.elim
      | ancestorOrSelf => exact hp.elim
      | descendantOrSelf => exact hp.elim
      | child => exact absurd (Anc.parent h1) (w.wf.acyclic _)
      | parent => exact absurd (Anc.parent h1) (w.wf.acyclic _)
      | ancestor => exact absurd h1 (w.wf.acyclic _)
      | descendant => exact absurd h1 (w.wf.acyclic _)
      | following => exact absurd h1.1 (before_irrefl w.wf)
      | preceding => exact absurd h1.1 (before_irrefl w.wf)
      | followingSibling =>
        obtain ⟨p, i, j, h3, _⟩ := h1
        exact child _ (w.wf.child_kind _ _ (List.mem_of_getElem? h3))
      | precedingSibling =>
        obtain ⟨p, i, j, h3, _⟩ := h1
        exact child _ (w.wf.child_kind _ _ (List.mem_of_getElem? h3))

theorem flow_tree (w : DocWF d r) {steps : List LStep} {l : List Nat}
    (h : match steps.getLast? with | none => ∀ x ∈ l, TreeNode d.h x | some s => ProperAxis (LStep.axis s)) :
    ∀ x ∈ flow d steps l, TreeNode d.h x := by
  induction steps generalizing l with
  | nil => exact h
  | cons s ss ih =>
    refine ih ?_
    cases ss with
    | nil =>
      intro x hx
      obtain ⟨n, hn, hx⟩ := List.mem_flatMap.1 hx
      exact proper_tree w h (stepOut_axis hx)
    | cons s' ss =>
      rw [List.getLast?_cons_cons] at h
      cases hl : (s' :: ss).getLast? with
      | none => simp at hl
      | some t => rw [hl] at h; exact h

/-- Tree nodes can be sorted. -/
theorem tree_sorted (w : DocWF d r) {l : List Nat} (hn : l.Nodup) (h1 : ∀ x ∈ l, InDoc d r x)
    (h2 : ∀ x ∈ l, TreeNode d.h x) : Sorted d (sortNodes d l) := by
  refine sortNodes_sorted w (fun y hy => (h1 y hy).1) ?_
  refine pairwise_with (fun x => InDoc d r x ∧ TreeNode d.h x) (fun x hx => ⟨h1 x hx, h2 x hx⟩) hn ?_
  intro a b ha hb hab
  refine tieOk_of_not_tied w ha.1.1 hb.1.1 hab ?_
  rintro ⟨e, h3, _, h4, _⟩
  rw [childKind_of w.wf h3 ha.2] at h4; cases h4

end Verif.Eval
