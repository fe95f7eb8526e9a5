import Verif.Template.PatternSpec
import Verif.Eval.PropsLemmas
import Verif.Eval.Term
import Verif.Dom.OrderProps

/-
Lemmas for Verif.Template.PatternProps.
-/
namespace Verif.Template
open Verif Verif.XPath Verif.Dom Verif.Dom.Spec Verif.Eval Verif.Eval.Spec
open Verif.Template.Spec (lstep anyBelow steps last front TestOk StepOk LastOk RelOk CallOk PatOk)

variable {d : Doc} {root : Nat}

/-! One step -/

/-- The step selects the node from its parent. -/
def Holds (d : Doc) (s : PatStep) (n : Nat) : Prop :=
  ∃ p k, d.h.parent n = some p ∧ StepSelects d (lstep s) p k ∧ n ∈ k

theorem anc_root {a n : Nat} (w : DocWF d root) (hn : Root d.h root n) (ha : Anc d.h a n) : Root d.h root a := by
  refine ⟨?_, hn.2⟩
  rcases hn.1 with rfl | h
  · obtain ⟨q, hq, _⟩ := anc_iff.1 ha
    rw [hn.2] at hq; cases hq
  · rcases AncS.comparable (.inr h) (.inr ha) with h1 | h1
    · exact h1
    · rcases h1 with rfl | h1
      · exact .inl rfl
      · obtain ⟨q, hq, _⟩ := anc_iff.1 h1
        rw [hn.2] at hq; cases hq

theorem parent_inDoc (w : DocWF d root) {n p : Nat} (hn : InDoc d root n) (hp : d.h.parent n = some p) :
    InDoc d root p := by
  refine ⟨anc_root w hn.1 (.parent hp), .inl ?_⟩
  have := w.wf.parent_kind _ _ hp
  constructor <;> intro h <;> rw [h] at this <;> cases this

theorem anc_inDoc (w : DocWF d root) {n p : Nat} (hn : InDoc d root n) (hp : Anc d.h p n) : InDoc d root p := by
  induction hp with
  | parent h => exact parent_inDoc w hn h
  | step _ h ih => exact ih (parent_inDoc w hn h)

/-- The attributes of elements only. -/
def AttrsOnElements (d : Doc) : Prop := ∀ e a, a ∈ d.attrs e → d.h.kind e = .element

def PAxis.l : PAxis → LAxis
  | .child => .tree .child
  | .attr => .attr

theorem lstep_eq (s : PatStep) : lstep s = .mk s.axis.l s.test s.preds := by
  unfold lstep; cases s.axis <;> rfl

theorem onAxis_parent (w : DocWF d root) {a : PAxis} {p n : Nat} (h : OnLAxis d p n a.l) : d.h.parent n = some p := by
  cases a with
  | child => exact h.1
  | attr => exact (w.attr _ _ h.2).2

theorem onAxis_iff (w : DocWF d root) (hae : AttrsOnElements d) {a : PAxis} {p n : Nat} (hn : InDoc d root n)
    (hp : d.h.parent n = some p) :
    OnLAxis d p n a.l ↔ match a with | .child => TreeNode d.h n | .attr => d.h.kind n = .attr := by
  cases a with
  | child =>
    refine ⟨fun h => h.2.elim id fun h => ?_, fun h => ⟨hp, .inl h⟩⟩
    subst h; exact absurd (Anc.parent hp) (w.wf.acyclic _)
  | attr =>
    refine ⟨fun h => (w.attr _ _ h.2).1, fun h => ?_⟩
    rcases hn.2 with h1 | ⟨e, h1 | h1⟩
    · exact absurd h h1.1
    · have := (w.attr _ _ h1).2
      rw [hp] at this; cases this
      exact ⟨hae _ _ h1, h1⟩
    · rw [(w.ns _ _ h1).1] at h; cases h

theorem holds_nil (w : DocWF d root) (hae : AttrsOnElements d) {s : PatStep} (hs : s.preds = []) {n : Nat}
    (hn : InDoc d root n) :
    Holds d s n ↔ (∃ p, d.h.parent n = some p) ∧
      (match s.axis with | .child => TreeNode d.h n | .attr => d.h.kind n = .attr) ∧
      Eval.Spec.Matches d s.axis.l n s.test := by
  constructor
  · rintro ⟨p, k, hp, hk, hm⟩
    rw [lstep_eq, hs] at hk
    rw [StepSelects] at hk
    obtain ⟨l, hl, rfl⟩ := hk
    obtain ⟨h1, h2⟩ := (hl.1 n).1 hm
    exact ⟨⟨p, hp⟩, (onAxis_iff w hae hn hp).1 h1, h2⟩
  · rintro ⟨⟨p, hp⟩, h1, h2⟩
    obtain ⟨l, hl⟩ := candidates_exist w s.axis.l s.test (parent_inDoc w hn hp)
    refine ⟨p, l, hp, ?_, (hl.1 n).2 ⟨(onAxis_iff w hae hn hp).2 h1, h2⟩⟩
    rw [lstep_eq, hs, StepSelects]
    exact ⟨l, hl, by simp only [kept]⟩

theorem has_parent (w : DocWF d root) {n : Nat} (hn : InDoc d root n) (hk : d.h.kind n ≠ .entity) :
    ∃ p, d.h.parent n = some p := by
  rcases hn.1.1 with rfl | h
  · exact absurd w.root hk
  · cases h with
    | parent h => exact ⟨_, h⟩
    | step _ h => exact ⟨_, h⟩

theorem testMatch_right (w : DocWF d root) (hae : AttrsOnElements d) {s : PatStep} (hs : s.preds = []) {n : Nat}
    (hn : InDoc d root n) (ho : LastOk d root s n) :
    ∃ b, testMatch d s.axis.kind s.test n = .ok b ∧ (b = true ↔ Holds d s n) := by
  obtain ⟨a, t, ps⟩ := s
  simp only at hs
  subst hs
  rw [holds_nil w hae rfl hn]
  simp only
  have hp := has_parent w hn
  generalize (∃ p, d.h.parent n = some p) = P at hp
  cases a <;> cases t <;> simp only [LastOk, StepOk, TestOk, testMatch, PAxis.kind, PAxis.l, Eval.Spec.Matches, Principal,
    TreeNode, reduceCtorEq, and_false, or_false, false_or, and_true, false_and, true_and] at ho ⊢
  case child.node =>
    refine ⟨_, rfl, ?_⟩
    revert ho hp
    cases d.h.kind n <;> simp [isChildKind]
  case child.kind k =>
    rcases ho with rfl | rfl <;> refine ⟨_, rfl, ?_⟩ <;> revert hp <;> cases d.h.kind n <;> simp
  case attr.node =>
    refine ⟨_, rfl, ?_⟩
    rw [ho] at hp ⊢
    simpa using hp
  all_goals
    refine ⟨_, rfl, ?_⟩
    revert hp
    cases d.h.kind n <;> simp (config := { contextual := true })

theorem selKeep_sub (s : Sel) (l : List Nat) : (selKeep d s l).Sublist l := by
  cases s <;> simp only [selKeep, genKeep]
  case pos => exact (List.take_sublist _ _).trans (List.drop_sublist _ _)
  case never => exact List.nil_sublist _
  all_goals exact keep_sublist

theorem sortNodes_id (w : DocWF d root) {l : List Nat} (hl : ∀ x ∈ l, InDoc d root x) (hs : Sorted d l) :
    sortNodes d l = l :=
  sorted_det w (sortNodes_sorted w (fun y hy => (hl y hy).1) (hs.imp tieOk_of_before)) hs
    (fun x => sortNodes_mem l x)

theorem filterLoop_right (w : DocWF d root) {fuel : Nat} {ss : List Sel} (hg : ∀ s ∈ ss, GoodSel d root s)
    {l m : List Nat} {c c' : Ctx} (hl : ∀ x ∈ l, InDoc d root x) (hs : Sorted d l)
    (h : filterLoop d fuel ss l c = .ok m c') : m = selsKeep d ss l := by
  induction ss generalizing l c with
  | nil => cases h; rfl
  | cons s ss ih =>
    simp only [filterLoop] at h
    obtain ⟨it, c1, h1, h⟩ := bind_ok' h
    obtain ⟨k, c2, h2, h⟩ := bind_ok' h
    obtain ⟨g1, _, g2⟩ := (sound w fuel).start _ _ _ _ _ h1 (by simpa using hg s (by simp)) hl
    obtain ⟨g3, g4⟩ := (sound w fuel).drain _ _ _ _ h2 g1
    have hk : k = selKeep d s l := by
      rw [g3, g2]; simp only [selsKeep, den]
    have sub : k.Sublist l := hk ▸ selKeep_sub s l
    have hks : Sorted d k := hs.sublist sub
    rw [sortNodes_id w g4 hks] at h
    have := ih (fun s hs => hg s (by simp [hs])) g4 hks h
    rw [this, hk, selsKeep]

theorem nodeEq_tree (w : DocWF d root) {n x : Nat} (hn : InDoc d root n) (hx : InDoc d root x)
    (ht : TreeNode d.h x) : nodeEq d n x = true ↔ n = x := by
  unfold nodeEq
  obtain ⟨v, h1, h2⟩ := C15_attributes_partial w.wf d.index hn.1 hx.1 .eq (by
    by_cases hnx : n = x
    · exact .inl hnx
    · right
      rintro ⟨e, _, h2, _, h4⟩
      rw [childKind_of w.wf h2 ht] at h4; cases h4)
  rw [h1]
  simp only [RelMeaning] at h2
  cases v <;> simp_all

theorem testFilter_ok {a : PAxis} {t : NodeTest} (ht : TestOk a t ∨ t = .node) (l : List Nat) :
    testFilter d a.kind t l = .ok (l.filter (passes d a.l.principal t)) := by
  have key : ∀ n, testMatch d a.kind t n = .ok (passes d a.l.principal t n) := by
    intro n
    cases a <;> cases t <;> simp_all [TestOk, testMatch, passes, PAxis.kind, PAxis.l, LAxis.principal]
    all_goals first | rfl | (split <;> simp_all)
  induction l with
  | nil => rfl
  | cons n l ih =>
    simp only [testFilter, key, ih]
    cases h : passes d a.l.principal t n <;> simp [h]

/-- The nodes of a list that a step's candidates are. -/
theorem kids_candidates (w : DocWF d root) {p : Nat} (hp : InDoc d root p) (t : NodeTest) :
    Candidates d (.tree .child) t p ((d.h.kids p).filter (passes d .element t)) := by
  refine ⟨fun x => ?_, ?_⟩
  · rw [List.mem_filter]
    have : passes d .element t x = true ↔ Eval.Spec.Matches d (.tree .child) x t := passes_iff (ax := .tree .child)
    rw [this]
    refine and_congr ⟨fun h => ?_, fun h => ?_⟩ Iff.rfl
    · refine ⟨w.wf.kids_parent _ _ h, .inl ?_⟩
      have := w.wf.child_kind _ _ h
      constructor <;> intro hk <;> rw [hk] at this <;> cases this
    · refine w.wf.parent_kids _ _ h.1 (childKind_of w.wf h.1 (h.2.elim id fun h2 => ?_))
      subst h2; exact absurd (Anc.parent h.1) (w.wf.acyclic _)
  · simp only [LAxis.reverse, Axis.reverse]
    refine List.Pairwise.sublist List.filter_sublist ?_
    rw [List.pairwise_iff_getElem]
    intro i j hi hj hij
    exact .tree (.sib p i j _ _ (List.getElem?_eq_getElem hi) (List.getElem?_eq_getElem hj) hij (.inl rfl) (.inl rfl))

theorem predMatch_right (w : DocWF d root) {fuel : Nat} {s : PatStep} (hs : s.preds ≠ []) (ho : StepOk d root s)
    {ss : List Sel} (hm : mkSels d s.preds = .ok ss) {n : Nat} (hn : InDoc d root n) {c c' : Ctx} {b : Bool}
    (h : predMatch d fuel s.axis s.test ss n c = .ok b c') : (b = true ↔ Holds d s n) ∧ Same c c' := by
  obtain ⟨a, t, ps⟩ := s
  cases ps with
  | nil => exact absurd rfl hs
  | cons e es =>
    obtain ⟨ha, ht, hg⟩ := ho
    simp only at ha ht hg hm h
    subst ha
    obtain ⟨g1, _, g2⟩ := mkSels_keep hm hg
    unfold predMatch predMatch.siblings at h
    cases hp : d.h.parent n with
    | none =>
      simp only [hp] at h
      cases h
      refine ⟨⟨nofun, ?_⟩, .refl⟩
      rintro ⟨p, _, h1, _⟩
      rw [hp] at h1; cases h1
    | some p =>
      simp only [hp] at h
      rw [testFilter_ok ht] at h
      simp only at h
      obtain ⟨l, c1, h1, h2⟩ := bind_ok' h
      obtain ⟨l', c2, h3, h4⟩ := bind_ok' h1
      cases h4
      cases h2
      have hpd := parent_inDoc w hn hp
      have hc := kids_candidates w hpd t
      have hin : ∀ x ∈ (d.h.kids p).filter (passes d .element t), InDoc d root x ∧ TreeNode d.h x := by
        intro x hx
        have hx := (hc.1 x).1 hx
        refine ⟨onLAxis_inDoc w hpd hx.1, hx.1.2.elim id fun h => ?_⟩
        rw [h]
        exact hpd.2.elim id fun ⟨e, he⟩ => by
          have := w.wf.parent_kind _ _ hp
          rcases he with he | he
          · rw [(w.attr _ _ he).1] at this; cases this
          · rw [(w.ns _ _ he).1] at this; cases this
      have hl := filterLoop_right w g1 (fun x hx => (hin x hx).1) hc.2 h3
      rw [g2] at hl
      have sub : l.Sublist _ := hl ▸ kept_sublist
      refine ⟨?_, rfl, rfl, rfl⟩
      rw [List.any_eq_true]
      constructor
      · rintro ⟨x, hx, hnx⟩
        have hx' := hin x (sub.subset hx)
        rw [nodeEq_tree w hn hx'.1 hx'.2] at hnx
        subst hnx
        refine ⟨p, l, hp, ?_, hx⟩
        rw [lstep_eq, StepSelects]
        exact ⟨_, hc, hl⟩
      · rintro ⟨p', k, hp', hk, hnk⟩
        rw [hp] at hp'; cases hp'
        rw [lstep_eq, StepSelects] at hk
        obtain ⟨l2, hl2, rfl⟩ := hk
        have : l2 = _ := candidates_det w hl2 hc
        subst this
        rw [← hl] at hnk
        have hx' := hin n (sub.subset hnk)
        exact ⟨n, hnk, (nodeEq_tree w hn hx'.1 hx'.2).2 rfl⟩

end Verif.Template
