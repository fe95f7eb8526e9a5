import Verif.Eval.Bridge

/-
The order of the nodes that the steps of a path produce.
-/
namespace Verif.Eval
open Verif Verif.XPath Verif.Dom Verif.Dom.Spec Verif.Eval.Spec

variable {d : Doc} {r : Nat}

theorem cand_spec {ax : LAxis} {t : NodeTest} {n x : Nat} (hx : x ∈ cand d ax t n) :
    Candidates d ax t n (cand d ax t n) := by
  unfold cand at hx ⊢
  split
  · rename_i h; exact h.choose_spec
  · rename_i h; rw [dif_neg h] at hx; simp at hx

theorem cand_order {ax : LAxis} {t : NodeTest} {n : Nat} :
    if ax.reverse then (cand d ax t n).Pairwise (fun a b => DocBefore d b a)
    else (cand d ax t n).Pairwise (DocBefore d) := by
  by_cases h : ∃ l, Candidates d ax t n l
  · have h1 : cand d ax t n = h.choose := by unfold cand; rw [dif_pos h]
    rw [h1]; exact h.choose_spec.2
  · have h1 : cand d ax t n = [] := by unfold cand; rw [dif_neg h]
    rw [h1]; split <;> exact .nil

/-- The nodes of a step are those that the specification says. -/
theorem stepOut_mem (w : DocWF d r) {s : LStep} {n x : Nat} :
    x ∈ stepOut d s n ↔ ∃ k, StepSelects d s n k ∧ x ∈ k := by
  cases s with
  | mk ax t preds =>
    have h1 : x ∈ stepOut d (.mk ax t preds) n ↔ x ∈ kept d preds (cand d ax t n) := by
      simp only [stepOut]; split <;> simp
    rw [h1]
    simp only [StepSelects]
    constructor
    · intro hx
      exact ⟨_, ⟨_, cand_spec (kept_sublist.subset hx), rfl⟩, hx⟩
    · rintro ⟨k, ⟨l, hl, rfl⟩, hx⟩
      rw [cand_eq w hl]; exact hx

theorem flow_mem (w : DocWF d r) {steps : List LStep} {l : List Nat} {x : Nat} :
    x ∈ flow d steps l ↔ ∃ y ∈ l, Reaches d steps y x := by
  induction steps generalizing l with
  | nil => simp [flow, Reaches]
  | cons s ss ih =>
    rw [flow, ih]
    simp only [List.mem_flatMap, Reaches]
    constructor
    · rintro ⟨y, ⟨n, hn, hy⟩, hx⟩
      obtain ⟨k, hk, hy⟩ := (stepOut_mem w).1 hy
      exact ⟨n, hn, k, y, hk, hy, hx⟩
    · rintro ⟨n, hn, k, y, hk, hy, hx⟩
      exact ⟨y, ⟨n, hn, (stepOut_mem w).2 ⟨k, hk, hy⟩⟩, hx⟩

theorem stepOut_axis {s : LStep} {n x : Nat} (hx : x ∈ stepOut d s n) : OnLAxis d n x (LStep.axis s) := by
  cases s with
  | mk ax t preds =>
    have h1 : x ∈ kept d preds (cand d ax t n) := by
      simp only [stepOut] at hx; split at hx <;> simpa using hx
    have h2 := kept_sublist.subset h1
    exact (((cand_spec h2).1 x).1 h2).1

theorem stepOut_sorted {s : LStep} {n : Nat} : Sorted d (stepOut d s n) := by
  cases s with
  | mk ax t preds =>
    have h1 := cand_order (d := d) (ax := ax) (t := t) (n := n)
    simp only [stepOut, Sorted]
    split
    · rw [if_pos ‹_›] at h1
      rw [List.pairwise_reverse]; exact h1.sublist kept_sublist
    · rw [if_neg ‹_›] at h1
      exact h1.sublist kept_sublist

theorem flow_inDoc (w : DocWF d r) {steps : List LStep} {l : List Nat} (hl : ∀ x ∈ l, InDoc d r x) :
    ∀ x ∈ flow d steps l, InDoc d r x := by
  induction steps generalizing l with
  | nil => exact hl
  | cons s ss ih =>
    refine ih fun x hx => ?_
    obtain ⟨n, hn, hx⟩ := List.mem_flatMap.1 hx
    exact onLAxis_inDoc w (hl n hn) (stepOut_axis hx)

/-- What a shape says about a list of nodes. -/
def ShapeHolds (d : Doc) : Shape → List Nat → Prop
  | .one, l => l.length ≤ 1
  | .flat, l => Sorted d l ∧ l.Pairwise (fun a b => ¬ Anc d.h a b ∧ ¬ Anc d.h b a)
  | .sorted, l => Sorted d l
  | .nodup, l => l.Pairwise (TieOk d)
  | .any, _ => True

theorem leaf_eq (w : WF d.h) {a x e : Nat} (ha : d.h.parent a = some e) (hk : isChildKind (d.h.kind a) = false)
    (hx : AncS d.h a x) : x = a := by
  rcases hx with rfl | hx
  · rfl
  · exact absurd hx (not_anc_attr w hk ha)

/-- If neither of two nodes is an ancestor of the other, the nodes below them are in the same order. -/
theorem below_before (w : DocWF d r) {a b x y : Nat} (hab : DocBefore d a b) (hn : ¬ Anc d.h a b)
    (hx : AncS d.h a x) (hy : AncS d.h b y) : DocBefore d x y := by
  cases hab with
  | tree h1 =>
    cases h1 with
    | anc h1 => exact absurd h1 hn
    | sib p i j c f hi hj hij h1 h2 => exact .tree (.sib p i j c f hi hj hij (h1.trans hx) (h2.trans hy))
  | attr h1 =>
    obtain ⟨e, k, ha, hk, hke, hkb⟩ := h1
    have := leaf_eq w.wf ha hk hx; subst this
    exact .attr ⟨e, k, ha, hk, hke, hkb.trans hy⟩
  | tie h1 =>
    obtain ⟨e, h2, h3, h4, h5⟩ := w.tied h1
    have := leaf_eq w.wf h2 h4 hx; subst this
    have := leaf_eq w.wf h3 h5 hy; subst this
    exact .tie h1

theorem below_flat {a b x y : Nat} (hne : a ≠ b) (h1 : ¬ Anc d.h a b) (h2 : ¬ Anc d.h b a)
    (hx : AncS d.h a x) (hy : AncS d.h b y) : ¬ Anc d.h x y := by
  intro h3
  rcases AncS.comparable (hx.trans (.inr h3)) hy with h4 | h4
  · rcases h4 with rfl | h4
    · exact hne rfl
    · exact h1 h4
  · rcases h4 with rfl | h4
    · exact hne rfl
    · exact h2 h4

theorem sibling_flat (w : WF d.h) {x y p : Nat} (hx : d.h.parent x = some p) (hy : d.h.parent y = some p) :
    ¬ Anc d.h x y := by
  intro h1
  obtain ⟨q, hq, h2⟩ := anc_iff.1 h1
  rw [hy] at hq; cases hq
  have h3 : Anc d.h x x := by
    rcases h2 with rfl | h2
    · exact .parent hx
    · exact .step h2 hx
  exact w.acyclic _ h3

theorem tieOk_of_before {a b : Nat} (h1 : DocBefore d a b) : TieOk d a b := .inr (.inr h1)

theorem tieOk_ne (w : DocWF d r) {a b : Nat} (h1 : TieOk d a b) : a ≠ b := by
  rintro rfl
  rcases h1 with h1 | h1 | h1
  · exact docBefore_irrefl w (h1.elim .tree .attr)
  · exact docBefore_irrefl w (h1.elim .tree .attr)
  · exact docBefore_irrefl w h1

theorem pairwise_with {R S : Nat → Nat → Prop} {l : List Nat} (P : Nat → Prop) (hP : ∀ x ∈ l, P x)
    (hl : l.Pairwise R) (hRS : ∀ a b, P a → P b → R a b → S a b) : l.Pairwise S := by
  induction l with
  | nil => exact .nil
  | cons a l ih =>
    have h1 := List.pairwise_cons.1 hl
    exact List.pairwise_cons.2 ⟨fun b hb => hRS a b (hP a (by simp)) (hP b (by simp [hb])) (h1.1 b hb),
      ih (fun x hx => hP x (by simp [hx])) h1.2⟩

/-- A step whose nodes for different context nodes are related by `S` and for each one by `S`. -/
theorem flatMap_pairwise {R S : Nat → Nat → Prop} {f : Nat → List Nat} {l : List Nat} (P : Nat → Prop)
    (hP : ∀ x ∈ l, P x) (hl : l.Pairwise R) (h1 : ∀ a ∈ l, (f a).Pairwise S)
    (h2 : ∀ a b, P a → P b → R a b → ∀ x ∈ f a, ∀ y ∈ f b, S x y) : (l.flatMap f).Pairwise S :=
  List.pairwise_flatMap.2 ⟨h1, pairwise_with P hP hl h2⟩

/-- The steps to a child, attribute or namespace node. -/
def Down1 (ax : LAxis) : Prop := ax = .tree .child ∨ ax = .attr ∨ ax = .namespaces

theorem down1_parent (w : DocWF d r) {ax : LAxis} (hd : Down1 ax) {n x : Nat} (hx : OnLAxis d n x ax) :
    d.h.parent x = some n := by
  rcases hd with rfl | rfl | rfl
  · exact hx.1
  · exact (w.attr _ _ hx.2).2
  · exact (w.ns _ _ hx.2).2

theorem tieOk_down (w : DocWF d r) {a b x y : Nat} (hx : InDoc d r x) (hy : InDoc d r y) (hab : a ≠ b)
    (h1 : d.h.parent x = some a) (h2 : d.h.parent y = some b) : TieOk d x y := by
  refine tieOk_of_not_tied w hx.1 hy.1 ?_ ?_
  · rintro rfl; rw [h1] at h2; cases h2; exact hab rfl
  · rintro ⟨e, h3, h4, _⟩
    rw [h1] at h3; rw [h2] at h4; cases h3; cases h4; exact hab rfl

theorem pairwise_and {R S : Nat → Nat → Prop} {l : List Nat} (h1 : l.Pairwise R) (h2 : l.Pairwise S) :
    l.Pairwise (fun a b => R a b ∧ S a b) := by
  induction l with
  | nil => exact .nil
  | cons a l ih =>
    have h1 := List.pairwise_cons.1 h1
    have h2 := List.pairwise_cons.1 h2
    exact List.pairwise_cons.2 ⟨fun b hb => ⟨h1.1 b hb, h2.1 b hb⟩, ih h1.2 h2.2⟩

/-- The child through which the way to a descendant goes. -/
theorem via_child (w : WF d.h) {a b : Nat} (hab : Anc d.h a b) (hb : isChildKind (d.h.kind b) = true) :
    ∃ k ∈ d.h.kids a, AncS d.h k b := by
  induction hab with
  | parent hp => exact ⟨_, w.parent_kids _ _ hp hb, .inl rfl⟩
  | step h1 hp ih =>
    rename_i p b
    have hk : isChildKind (d.h.kind p) = true := by
      have h3 := w.parent_kind _ _ hp
      cases hkp : d.h.kind p <;> simp_all [isContainer, isChildKind]
      rw [anc_iff] at h1
      obtain ⟨q, hq, _⟩ := h1
      rw [w.entity_root p hkp] at hq; cases hq
    obtain ⟨k, hk1, hk2⟩ := ih hk
    exact ⟨k, hk1, hk2.trans (.inr (.parent hp))⟩

theorem step_one {s : LStep} {l : List Nat} (hl : l.length ≤ 1) :
    Sorted d (l.flatMap (stepOut d s)) := by
  match l, hl with
  | [], _ => exact .nil
  | [n], _ => simpa using stepOut_sorted

/-- One step changes the shape as `stepShape` says. -/
theorem stepShape_holds (w : DocWF d r) {s : LStep} {sh : Shape} {l : List Nat}
    (hd : ∀ x ∈ l, InDoc d r x) (hl : ShapeHolds d sh l) :
    ShapeHolds d (stepShape sh (LStep.axis s)) (l.flatMap (stepOut d s)) := by
  have ax : ∀ n x, x ∈ stepOut d s n → OnLAxis d n x (LStep.axis s) := fun n x hx => stepOut_axis hx
  have hd' : ∀ n, InDoc d r n → ∀ x ∈ stepOut d s n, InDoc d r x :=
    fun n hn x hx => onLAxis_inDoc w hn (ax n x hx)
  generalize LStep.axis s = a at *
  -- helpers
  have single : sh = .one → (∀ n x y, OnLAxis d n x a → OnLAxis d n y a → x = y) →
      (l.flatMap (stepOut d s)).length ≤ 1 := by
    rintro rfl huniq
    have h1 := step_one (d := d) (s := s) hl
    match l, hl with
    | [], _ => simp
    | [n], _ =>
      simp only [List.flatMap_cons, List.flatMap_nil, List.append_nil] at h1 ⊢
      have h2 := ax n
      generalize stepOut d s n = m at h1 h2
      match m with
      | [] => simp
      | [_] => simp
      | x :: y :: m =>
        have h3 := huniq n x y (h2 x (by simp)) (h2 y (by simp))
        subst h3
        exact absurd ((List.pairwise_cons.1 h1).1 x (by simp)) (docBefore_irrefl w)
  have family : sh = .one → (∀ n x y, OnLAxis d n x a → OnLAxis d n y a → ∃ p, d.h.parent x = some p ∧
      d.h.parent y = some p) → ShapeHolds d .flat (l.flatMap (stepOut d s)) := by
    rintro rfl hfam
    refine ⟨step_one hl, ?_⟩
    match l, hl with
    | [], _ => exact .nil
    | [n], _ =>
      simp only [List.flatMap_cons, List.flatMap_nil, List.append_nil]
      refine pairwise_with (fun x => x ∈ stepOut d s n) (fun x hx => hx) (stepOut_sorted (d := d)) ?_
      intro x y hx hy _
      obtain ⟨p, h1, h2⟩ := hfam n x y (ax n x hx) (ax n y hy)
      exact ⟨sibling_flat w.wf h1 h2, sibling_flat w.wf h2 h1⟩
  have down : Down1 a → ∀ n x y, OnLAxis d n x a → OnLAxis d n y a → ∃ p, d.h.parent x = some p ∧
      d.h.parent y = some p :=
    fun h n x y hx hy => ⟨n, down1_parent w h hx, down1_parent w h hy⟩
  have flatSorted : sh = .flat → (∀ n x, OnLAxis d n x a → AncS d.h n x) →
      Sorted d (l.flatMap (stepOut d s)) := by
    rintro rfl hb
    refine flatMap_pairwise (fun _ => True) (fun _ _ => trivial) (pairwise_and hl.1 hl.2)
      (fun _ _ => stepOut_sorted) ?_
    intro n m _ _ hnm x hx y hy
    exact below_before w hnm.1 hnm.2.1 (hb _ _ (ax _ _ hx)) (hb _ _ (ax _ _ hy))
  have flatDown : sh = .flat → (a = .tree .self ∨ Down1 a) →
      ShapeHolds d .flat (l.flatMap (stepOut d s)) := by
    rintro rfl ha
    have hb : ∀ n x, OnLAxis d n x a → AncS d.h n x := by
      intro n x hx
      rcases ha with rfl | ha
      · exact .inl hx.1.symm
      · exact .inr (.parent (down1_parent w ha hx))
    refine ⟨flatSorted rfl hb, ?_⟩
    refine flatMap_pairwise (fun _ => True) (fun _ _ => trivial) (pairwise_and hl.1 hl.2) ?_ ?_
    · intro n _
      refine pairwise_with (fun x => x ∈ stepOut d s n) (fun x hx => hx) (stepOut_sorted (d := d)) ?_
      intro x y hx hy hxy
      rcases ha with rfl | ha
      · have h1 : x = n := (ax n x hx).1
        have h2 : y = n := (ax n y hy).1
        subst h1; subst h2
        exact absurd hxy (docBefore_irrefl w)
      · exact ⟨sibling_flat w.wf (down1_parent w ha (ax _ _ hx)) (down1_parent w ha (ax _ _ hy)),
          sibling_flat w.wf (down1_parent w ha (ax _ _ hy)) (down1_parent w ha (ax _ _ hx))⟩
    · intro n m _ _ hnm x hx y hy
      have hne : n ≠ m := by rintro rfl; exact docBefore_irrefl w hnm.1
      have hx := hb _ _ (ax _ _ hx)
      have hy := hb _ _ (ax _ _ hy)
      exact ⟨below_flat hne hnm.2.1 hnm.2.2 hx hy, below_flat hne.symm hnm.2.2 hnm.2.1 hy hx⟩
  have sortedSelf : sh = .sorted → a = .tree .self → Sorted d (l.flatMap (stepOut d s)) := by
    rintro rfl rfl
    refine flatMap_pairwise (fun _ => True) (fun _ _ => trivial) hl (fun _ _ => stepOut_sorted) ?_
    intro n m _ _ hnm x hx y hy
    have h1 : x = n := (ax n x hx).1
    have h2 : y = m := (ax m y hy).1
    subst h1; subst h2; exact hnm
  have sortedAttr : sh = .sorted → (a = .attr ∨ a = .namespaces) → Sorted d (l.flatMap (stepOut d s)) := by
    rintro rfl ha
    refine flatMap_pairwise (fun _ => True) (fun _ _ => trivial) hl (fun _ _ => stepOut_sorted) ?_
    intro n m _ _ hnm x hx y hy
    have owner : ∀ n x, OnLAxis d n x a → d.h.kind n = .element ∧ d.h.parent x = some n ∧
        isChildKind (d.h.kind x) = false := by
      intro n x hx
      rcases ha with rfl | rfl
      · exact ⟨hx.1, w.attr_kind hx.2⟩
      · exact ⟨hx.1, w.ns_kind hx.2⟩
    obtain ⟨_, h2, h3⟩ := owner _ _ (ax _ _ hx)
    obtain ⟨h4, h5, _⟩ := owner _ _ (ax _ _ hy)
    by_cases hanc : Anc d.h n m
    · obtain ⟨k, hk1, hk2⟩ := via_child w.wf hanc (by simp [h4, isChildKind])
      exact .attr ⟨n, k, h2, h3, hk1, hk2.trans (.inr (.parent h5))⟩
    · exact below_before w hnm hanc (.inr (.parent h2)) (.inr (.parent h5))
  have nodupDown : l.Pairwise (TieOk d) → Down1 a → (l.flatMap (stepOut d s)).Pairwise (TieOk d) := by
    intro hl ha
    refine flatMap_pairwise (InDoc d r) hd hl (fun _ _ => stepOut_sorted.imp tieOk_of_before) ?_
    intro n m hn hm hnm x hx y hy
    exact tieOk_down w (hd' n hn x hx) (hd' m hm y hy) (tieOk_ne w hnm)
      (down1_parent w ha (ax _ _ hx)) (down1_parent w ha (ax _ _ hy))
  have nodupSelf : sh = .nodup → a = .tree .self → (l.flatMap (stepOut d s)).Pairwise (TieOk d) := by
    rintro rfl rfl
    refine flatMap_pairwise (fun _ => True) (fun _ _ => trivial) hl
      (fun _ _ => stepOut_sorted.imp tieOk_of_before) ?_
    intro n m _ _ hnm x hx y hy
    have h1 : x = n := (ax n x hx).1
    have h2 : y = m := (ax m y hy).1
    subst h1; subst h2; exact hnm
  have fsib : sh = .one → (a = .tree .followingSibling ∨ a = .tree .precedingSibling) →
      ShapeHolds d .flat (l.flatMap (stepOut d s)) := by
    intro h1 ha
    refine family h1 fun n x y hx hy => ?_
    have par : ∀ x, OnLAxis d n x a → ∃ p, d.h.parent n = some p ∧ d.h.parent x = some p := by
      intro x hx
      rcases ha with rfl | rfl
      · obtain ⟨⟨p, i, j, h1, h2, _⟩, _⟩ := hx
        exact ⟨p, kid_parent w.wf h1, kid_parent w.wf h2⟩
      · obtain ⟨⟨p, i, j, h1, h2, _⟩, _⟩ := hx
        exact ⟨p, kid_parent w.wf h1, kid_parent w.wf h2⟩
    obtain ⟨p, h2, h3⟩ := par x hx
    obtain ⟨q, h4, h5⟩ := par y hy
    rw [h2] at h4; cases h4
    exact ⟨p, h3, h5⟩
  cases sh with
  | any => trivial
  | one =>
    cases a with
    | attr => exact family rfl (down (.inr (.inl rfl)))
    | namespaces => exact family rfl (down (.inr (.inr rfl)))
    | tree a =>
      cases a with
      | self => exact single rfl fun n x y hx hy => hx.1.trans hy.1.symm
      | parent =>
        refine single rfl fun n x y hx hy => ?_
        have h1 : d.h.parent n = some x := hx.1
        have h2 : d.h.parent n = some y := hy.1
        rw [h1] at h2; cases h2; rfl
      | child => exact family rfl (down (.inl rfl))
      | followingSibling => exact fsib rfl (.inl rfl)
      | precedingSibling => exact fsib rfl (.inr rfl)
      | _ => exact step_one hl
  | flat =>
    cases a with
    | attr => exact flatDown rfl (.inr (.inr (.inl rfl)))
    | namespaces => exact flatDown rfl (.inr (.inr (.inr rfl)))
    | tree a =>
      cases a with
      | self => exact flatDown rfl (.inl rfl)
      | child => exact flatDown rfl (.inr (.inl rfl))
      | descendant => exact flatSorted rfl fun n x hx => .inr hx.1
      | descendantOrSelf => exact flatSorted rfl fun n x hx => hx.1
      | _ => trivial
  | sorted =>
    cases a with
    | attr => exact sortedAttr rfl (.inl rfl)
    | namespaces => exact sortedAttr rfl (.inr rfl)
    | tree a =>
      cases a with
      | self => exact sortedSelf rfl rfl
      | child => exact nodupDown (hl.imp tieOk_of_before) (.inl rfl)
      | _ => trivial
  | nodup =>
    cases a with
    | attr => exact nodupDown hl (.inr (.inl rfl))
    | namespaces => exact nodupDown hl (.inr (.inr rfl))
    | tree a =>
      cases a with
      | self => exact nodupSelf rfl rfl
      | child => exact nodupDown hl (.inl rfl)
      | _ => trivial

theorem stepsShape_holds (w : DocWF d r) {steps : List LStep} {sh : Shape} {l : List Nat}
    (hd : ∀ x ∈ l, InDoc d r x) (hl : ShapeHolds d sh l) :
    ShapeHolds d (stepsShape sh steps) (flow d steps l) := by
  induction steps generalizing sh l with
  | nil => exact hl
  | cons s ss ih =>
    refine ih (fun x hx => ?_) (stepShape_holds w hd hl)
    obtain ⟨n, hn, hx⟩ := List.mem_flatMap.1 hx
    exact onLAxis_inDoc w (hd n hn) (stepOut_axis hx)

theorem shape_tieOk {sh : Shape} {l : List Nat} (hl : ShapeHolds d sh l) (h1 : sh ≠ .any) :
    l.Pairwise (TieOk d) := by
  cases sh with
  | any => exact absurd rfl h1
  | one =>
    match l, hl with
    | [], _ => exact .nil
    | [_], _ => simp
  | flat => exact hl.1.imp tieOk_of_before
  | sorted => exact List.Pairwise.imp tieOk_of_before hl
  | nodup => exact hl

theorem shape_sorted {sh : Shape} {l : List Nat} (hl : ShapeHolds d sh l) (h1 : sh ≠ .any) (h2 : sh ≠ .nodup) :
    Sorted d l := by
  cases sh with
  | any => exact absurd rfl h1
  | one =>
    match l, hl with
    | [], _ => exact .nil
    | [_], _ => simp [Sorted]
  | flat => exact hl.1
  | sorted => exact hl
  | nodup => exact absurd rfl h2

end Verif.Eval
