import Verif.Eval.Order

/-
The axis iterators and node tests give the candidates of a step.
-/
namespace Verif.Eval
open Verif Verif.XPath Verif.Dom Verif.Dom.Spec Verif.Eval.Spec

variable {d : Doc} {r : Nat} {h : Heap}

theorem collect_yields {σ : Type} {step : σ → Dom.Step σ} {fuel : Nat} {s : σ} {l : List Nat}
    (hc : collect step fuel s = some (.ok l)) : Yields step s l := by
  induction fuel generalizing s l with
  | zero => simp [collect] at hc
  | succ fuel ih =>
    unfold collect at hc
    cases hs : step s with
    | done => simp [hs] at hc; subst hc; exact .done hs
    | tau s' => simp only [hs] at hc; exact .tau hs (ih hc)
    | raise e => simp [hs] at hc
    | yield n s' =>
      simp only [hs] at hc
      cases hc' : collect step fuel s' with
      | none => simp [hc'] at hc
      | some x =>
        cases x with
        | error e => simp [hc'] at hc
        | ok m =>
          simp [hc'] at hc; subst hc
          exact .yield hs (ih hc')

theorem axisNodes_selects {fuel n : Nat} {a : Axis} {l : List Nat}
    (hc : axisNodes d fuel n (.tree a) = some (.ok l)) : a.Selects d.h n l := by
  cases a <;> simp only [axisNodes] at hc <;> try exact collect_yields hc
  cases hp : Dom.precedingSibling d.h n with
  | error e => simp [hp] at hc
  | ok s => simp only [hp] at hc; exact ⟨s, hp, collect_yields hc⟩

/-- The nodes above a node are elements or the root. -/
theorem anc_tree (w : WF h) {x n : Nat} (hx : Anc h x n) : TreeNode h x := by
  have := anc_container w hx
  unfold TreeNode
  cases hk : h.kind x <;> simp_all [isContainer]

theorem idxOf?_attr (w : WF h) {n p : Nat} (hk : isChildKind (h.kind n) = false) :
    (h.kids p).idxOf? n = none := by
  rw [List.idxOf?_eq_none_iff]
  intro hm
  have := w.child_kind _ _ hm; simp [hk] at this

/-- The axes of an attribute or namespace node: what they produce, unless they raise. -/
theorem axes_attr (w : WF h) {n e : Nat} (hp : h.parent n = some e)
    (hk : isChildKind (h.kind n) = false) {ax : Axis} {l : List Nat} (hs : ax.Selects h n l) :
    (∀ x, x ∈ l ↔ OnAxis h n x ax ∧ (TreeNode h x ∨ x = n)) ∧ InOrder h ax l := by
  have noanc : ∀ x, ¬ Anc h n x := fun x => not_anc_attr w hk hp
  have nokid : ∀ p (i : Nat), (h.kids p)[i]? ≠ some n := fun p i hi => by
    have := w.child_kind _ _ (List.mem_of_getElem? hi); simp [hk] at this
  have hcon : isContainer (h.kind n) = false := by
    have := w.entity_root n
    cases hkn : h.kind n <;> simp_all [isChildKind, isContainer]
  cases ax with
  | self =>
    have : l = [n] := yields_det hs (yields_child _)
    subst this
    exact ⟨fun x => by simpa [OnAxis] using fun h => .inr h, nofun, fun _ => by simp⟩
  | child =>
    have : l = [] := yields_det hs (by simpa [childIter, hcon] using yields_child [])
    subst this
    refine ⟨fun x => ⟨nofun, fun hx => ?_⟩, nofun, fun _ => .nil⟩
    exact absurd (.parent hx.1) (noanc x)
  | parent =>
    have : l = (h.parent n).toList := yields_det hs (yields_child _)
    subst this
    refine ⟨fun x => ?_, nofun, fun _ => by cases h.parent n <;> simp⟩
    rw [Option.mem_toList]
    exact ⟨fun hx => ⟨hx, .inl (anc_tree w (.parent hx))⟩, fun hx => hx.1⟩
  | ancestor =>
    obtain ⟨m, h1, h2, h3⟩ := ancestor_node w n
    have : l = m := yields_det hs h1
    subst this
    refine ⟨fun x => ?_, fun _ => h3, fun hb => absurd trivial hb⟩
    rw [h2]
    exact ⟨fun hx => ⟨hx, .inl (anc_tree w hx)⟩, fun hx => hx.1⟩
  | ancestorOrSelf =>
    obtain ⟨m, h1, h2, h3⟩ := ancestor_node w n
    have : l = n :: m := yields_det hs (.yield rfl h1)
    subst this
    refine ⟨fun x => ?_, fun _ => ?_, fun hb => absurd trivial hb⟩
    · rw [List.mem_cons, h2]
      constructor
      · rintro (rfl | hx)
        · exact ⟨.inl rfl, .inr rfl⟩
        · exact ⟨.inr hx, .inl (anc_tree w hx)⟩
      · rintro ⟨hx | hx, _⟩
        · exact .inl hx
        · exact .inr hx
    · rw [List.pairwise_cons]
      exact ⟨fun x hx => .anc ((h2 x).1 hx), h3⟩
  | descendant =>
    have : l = [] := by
      refine yields_det hs ?_
      refine .done ?_
      simp [descendantInit, childIter, hcon, descendantStep, descendantNext]
    subst this
    exact ⟨fun x => ⟨nofun, fun hx => absurd hx.1 (noanc x)⟩, nofun, fun _ => .nil⟩
  | descendantOrSelf =>
    have : l = [n] := by
      refine yields_det hs ?_
      refine .yield rfl (.done ?_)
      simp [descendantInit, childIter, hcon, dosStep, descendantNext]
    subst this
    refine ⟨fun x => ?_, nofun, fun _ => by simp⟩
    rw [List.mem_singleton]
    constructor
    · rintro rfl; exact ⟨.inl rfl, .inr rfl⟩
    · rintro ⟨rfl | hx, _⟩
      · rfl
      · exact absurd hx (noanc x)
  | following =>
    exfalso
    have hf : followStep h (.outer (some n)) = .raise .invalidState := by
      simp [followStep, Dom.followingSibling, hp, idxOf?_attr w hk]
    cases hs <;> simp_all
  | preceding =>
    exfalso
    have hf : precStep h ⟨some n, []⟩ = .raise .invalidState := by
      simp [precStep, Dom.precedingSibling, hp, idxOf?_attr w hk]
    cases hs <;> simp_all
  | followingSibling =>
    have : l = [] := yields_det hs (by
      simpa [followingSiblingInit, hp, idxOf?_attr w hk] using yields_child [])
    subst this
    refine ⟨fun x => ⟨nofun, ?_⟩, nofun, fun _ => .nil⟩
    rintro ⟨⟨p, i, j, hi, _⟩, _⟩
    exact absurd hi (nokid p i)
  | precedingSibling =>
    exfalso
    obtain ⟨s, hs, _⟩ := hs
    simp [Dom.precedingSibling, hp, idxOf?_attr w hk] at hs

theorem attr_or_tree (w : DocWF d r) {n : Nat} (hn : Root d.h r n) :
    TreeNode d.h n ∨ ∃ e, d.h.parent n = some e ∧ isChildKind (d.h.kind n) = false := by
  by_cases ht : TreeNode d.h n
  · exact .inl ht
  · right
    have hk : isChildKind (d.h.kind n) = false := by
      unfold TreeNode at ht
      cases hk : d.h.kind n <;> simp_all [isChildKind]
    rcases hn.1 with h1 | h1
    · subst h1
      exfalso; apply ht
      simp [TreeNode, w.root]
    · obtain ⟨p, hp, _⟩ := anc_iff.1 h1
      exact ⟨p, hp, hk⟩

theorem root_down {x n : Nat} (hn : Root h r n) (hx : AncS h n x) : Root h r x :=
  ⟨hn.1.trans hx, hn.2⟩

theorem root_up {x n : Nat} (hn : Root h r n) (hx : AncS h x n) : Root h r x := by
  refine ⟨?_, hn.2⟩
  rcases AncS.comparable hn.1 hx with h1 | h1
  · exact h1
  · rcases h1 with rfl | h1
    · exact AncS.refl
    · obtain ⟨q, hq, _⟩ := anc_iff.1 h1; have := hn.2; simp [this] at hq

theorem before_root (w : WF h) {x n : Nat} (hb : Before h x n) : Root h r n ↔ Root h r x := by
  cases hb with
  | anc h1 => exact ⟨fun hn => root_up hn (.inr h1), fun hn => root_down hn (.inr h1)⟩
  | sib p i j c e hi hj hij h1 h2 =>
    have hx := anc_cons (kid_parent w hi) h1
    have hn := anc_cons (kid_parent w hj) h2
    exact ⟨fun h3 => root_down (root_up h3 (.inr hn)) (.inr hx),
      fun h3 => root_down (root_up h3 (.inr hx)) (.inr hn)⟩

/-- What is on an axis is in the same document. -/
theorem onLAxis_root (w : DocWF d r) {n x : Nat} {ax : LAxis} (hn : Root d.h r n)
    (hx : OnLAxis d n x ax) : Root d.h r x := by
  cases ax with
  | attr => exact root_down hn (.inr (.parent (w.attr _ _ hx.2).2))
  | namespaces => exact root_down hn (.inr (.parent (w.ns _ _ hx.2).2))
  | tree a =>
    have hx := hx.1
    cases a with
    | self => exact hx ▸ hn
    | child => exact root_down hn (.inr (.parent hx))
    | parent => exact root_up hn (.inr (.parent hx))
    | ancestor => exact root_up hn (.inr hx)
    | ancestorOrSelf => exact root_up hn hx
    | descendant => exact root_down hn (.inr hx)
    | descendantOrSelf => exact root_down hn hx
    | following => exact (before_root w.wf hx.1).2 hn
    | preceding => exact (before_root w.wf hx.1).1 hn
    | followingSibling =>
      obtain ⟨p, i, j, hi, hj, _⟩ := hx
      exact root_down (root_up hn (.inr (.parent (kid_parent w.wf hi)))) (.inr (.parent (kid_parent w.wf hj)))
    | precedingSibling =>
      obtain ⟨p, i, j, hi, hj, _⟩ := hx
      exact root_down (root_up hn (.inr (.parent (kid_parent w.wf hi)))) (.inr (.parent (kid_parent w.wf hj)))

theorem onLAxis_inDoc (w : DocWF d r) {n x : Nat} {ax : LAxis} (hn : InDoc d r n)
    (hx : OnLAxis d n x ax) : InDoc d r x := by
  refine ⟨onLAxis_root w hn.1 hx, ?_⟩
  cases ax with
  | attr => exact .inr ⟨n, .inl hx.2⟩
  | namespaces => exact .inr ⟨n, .inr hx.2⟩
  | tree a =>
    rcases hx.2 with h1 | rfl
    · exact .inl h1
    · exact hn.2

/-- The order of the nodes of an axis. -/
def AxisOrder (d : Doc) (ax : LAxis) (l : List Nat) : Prop :=
  if ax.reverse then l.Pairwise (fun a b => DocBefore d b a) else l.Pairwise (DocBefore d)

theorem inOrder_axis {ax : Axis} {l : List Nat} (ho : InOrder d.h ax l) (hp : ax = .parent → l.length ≤ 1) :
    AxisOrder d (.tree ax) l := by
  have up : l.Pairwise (Before d.h) → l.Pairwise (DocBefore d) := fun h1 => h1.imp fun h2 => .tree h2
  have down : l.Pairwise (fun a b => Before d.h b a) → l.Pairwise (fun a b => DocBefore d b a) :=
    fun h1 => h1.imp fun h2 => .tree h2
  unfold AxisOrder
  cases ax <;> simp only [LAxis.reverse, Axis.reverse, if_true, if_false, Bool.false_eq_true]
  case parent =>
    have := hp rfl
    match l, this with
    | [], _ => exact .nil
    | [a], _ => simp
  all_goals first
    | exact down (ho.1 trivial)
    | exact up (ho.2 (fun h => h))

theorem pairwise_index {l : List Nat} (R : Nat → Nat → Prop)
    (hR : ∀ (i j : Nat) a b, l[i]? = some a → l[j]? = some b → i < j → R a b) : l.Pairwise R := by
  rw [List.pairwise_iff_getElem]
  intro i j hi hj hij
  exact hR i j _ _ (List.getElem?_eq_getElem hi) (List.getElem?_eq_getElem hj) hij

/-- C19 for every context node of a document: what an axis iterator produces. -/
theorem axisNodes_spec (w : DocWF d r) {fuel n : Nat} {ax : LAxis} {l : List Nat} (hn : Root d.h r n)
    (hc : axisNodes d fuel n ax = some (.ok l)) :
    (∀ x, x ∈ l ↔ OnLAxis d n x ax) ∧ AxisOrder d ax l := by
  cases ax with
  | attr =>
    simp only [axisNodes, Option.some.injEq, Except.ok.injEq] at hc
    subst hc
    simp only [OnLAxis, AxisOrder, LAxis.reverse, Bool.false_eq_true, if_false]
    split
    · rename_i he
      refine ⟨fun x => by simp [he], pairwise_index _ fun i j a b hi hj hij => ?_⟩
      exact .tie (.attrs n i j hi hj hij)
    · rename_i he
      exact ⟨fun x => by simp [he], .nil⟩
  | namespaces =>
    simp only [axisNodes, Option.some.injEq, Except.ok.injEq] at hc
    subst hc
    simp only [OnLAxis, AxisOrder, LAxis.reverse, Bool.false_eq_true, if_false]
    split
    · rename_i he
      refine ⟨fun x => by simp [he], pairwise_index _ fun i j a b hi hj hij => ?_⟩
      exact .tie (.nss n i j hi hj hij)
    · rename_i he
      exact ⟨fun x => by simp [he], .nil⟩
  | tree a =>
    have hs := axisNodes_selects hc
    have hp : a = .parent → l.length ≤ 1 := by
      rintro rfl
      have : l = (d.h.parent n).toList := yields_det hs (yields_child _)
      rw [this]; cases d.h.parent n <;> simp
    rcases attr_or_tree w hn with ht | ⟨e, he, hk⟩
    · obtain ⟨m, h1, h2, h3⟩ := C19_axes_partial w.wf ht a
      have := C19_deterministic a hs h1
      subst this
      refine ⟨fun x => ?_, inOrder_axis h3 hp⟩
      rw [h2, OnLAxis]
      constructor
      · rintro ⟨h4, h5⟩; exact ⟨h5, .inl h4⟩
      · rintro ⟨h4, h5 | rfl⟩
        · exact ⟨h5, h4⟩
        · exact ⟨ht, h4⟩
    · obtain ⟨h1, h2⟩ := axes_attr w.wf he hk hs
      exact ⟨h1, inOrder_axis h2 hp⟩

/-- The node tests. -/
theorem passes_iff {ax : LAxis} {t : NodeTest} {x : Nat} :
    passes d ax.principal t x = true ↔ Matches d ax x t := by
  have hp : ax.principal = Principal ax := by cases ax <;> rfl
  cases t <;> simp [passes, Matches, hp, and_assoc]

theorem axisOrder_sublist {ax : LAxis} {l m : List Nat} (hm : m.Sublist l) (ho : AxisOrder d ax l) :
    AxisOrder d ax m := by
  unfold AxisOrder at *
  split
  · rw [if_pos ‹_›] at ho; exact ho.sublist hm
  · rw [if_neg ‹_›] at ho; exact ho.sublist hm

/-- What a step passes to its predicates. -/
theorem candidates_of (w : DocWF d r) {fuel n : Nat} {ax : LAxis} {t : NodeTest} {l : List Nat}
    (hn : Root d.h r n) (hc : axisNodes d fuel n ax = some (.ok l)) :
    Candidates d ax t n (l.filter (passes d ax.principal t)) := by
  obtain ⟨h1, h2⟩ := axisNodes_spec w hn hc
  refine ⟨fun x => ?_, axisOrder_sublist List.filter_sublist h2⟩
  rw [List.mem_filter, h1, passes_iff]

theorem candidates_det (w : DocWF d r) {n : Nat} {ax : LAxis} {t : NodeTest} {l m : List Nat}
    (hl : Candidates d ax t n l) (hm : Candidates d ax t n m) : l = m := by
  have hlm : ∀ x, x ∈ l ↔ x ∈ m := fun x => by rw [hl.1, hm.1]
  have h1 := hl.2
  have h2 := hm.2
  split at h1
  · rw [if_pos ‹_›] at h2
    exact pairwise_unique (fun a b => docBefore_asymm w) h1 h2 hlm
  · rw [if_neg ‹_›] at h2
    exact pairwise_unique (fun a b => docBefore_asymm w) h1 h2 hlm

/-- C19 for attribute and namespace nodes as context nodes: an axis that does not raise produces
exactly the nodes XPath puts on it; the axes that raise are `following`, `preceding` and
`preceding-sibling`. -/
theorem C19_attribute_partial (w : WF h) {n e : Nat} (hp : h.parent n = some e)
    (hk : h.kind n = .attr ∨ h.kind n = .ns) (ax : Axis)
    (hax : ax ≠ .following ∧ ax ≠ .preceding ∧ ax ≠ .precedingSibling) :
    ∃ l, ax.Selects h n l ∧ (∀ x, x ∈ l ↔ OnAxis h n x ax ∧ (TreeNode h x ∨ x = n)) ∧
      InOrder h ax l := by
  have hk : isChildKind (h.kind n) = false := by rcases hk with hk | hk <;> simp [hk, isChildKind]
  have hcon : isContainer (h.kind n) = false := by
    have := w.entity_root n
    cases hkn : h.kind n <;> simp_all [isChildKind, isContainer]
  suffices ∃ l, ax.Selects h n l by
    obtain ⟨l, hl⟩ := this
    exact ⟨l, hl, axes_attr w hp hk hl⟩
  cases ax with
  | self => exact ⟨_, yields_child _⟩
  | child => exact ⟨_, yields_child _⟩
  | parent => exact ⟨_, yields_child _⟩
  | ancestor => obtain ⟨m, h1, _⟩ := ancestor_node w n; exact ⟨m, h1⟩
  | ancestorOrSelf => obtain ⟨m, h1, _⟩ := ancestor_node w n; exact ⟨n :: m, .yield rfl h1⟩
  | descendant =>
    exact ⟨[], .done (by simp [descendantInit, childIter, hcon, descendantStep, descendantNext])⟩
  | descendantOrSelf =>
    exact ⟨[n], .yield rfl (.done (by simp [descendantInit, childIter, hcon, dosStep, descendantNext]))⟩
  | followingSibling => exact ⟨_, yields_child _⟩
  | following => exact absurd rfl hax.1
  | preceding => exact absurd rfl hax.2.1
  | precedingSibling => exact absurd rfl hax.2.2

/-- Non-vacuity: the axes of attribute 6 of the sample. -/
example : builtAttrs.parent 6 = some 1 ∧ builtAttrs.kind 6 = .attr ∧
    Axis.ancestorOrSelf.Selects builtAttrs 6 [6, 1, 0] :=
  ⟨rfl, rfl, .yield rfl (.yield rfl (.yield rfl (.done rfl)))⟩

end Verif.Eval
