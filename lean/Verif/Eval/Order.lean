import Verif.Eval.Spec

/-
Document order with attributes, and sorting by it.
-/
namespace Verif.Eval
open Verif Verif.XPath Verif.Dom Verif.Dom.Spec Verif.Eval.Spec

variable {d : Doc} {r : Nat} {h : Heap}

/-- Above an attribute there is only its element and what is above that. -/
theorem below_owner (w : WF h) {a e c p : Nat} (ha : h.parent a = some e)
    (hk : isChildKind (h.kind a) = false) (hc : c ∈ h.kids p) (hca : AncS h c a) : AncS h c e := by
  rcases hca with rfl | hca
  · have := w.child_kind _ _ hc; simp [hk] at this
  · obtain ⟨q, hq, h2⟩ := anc_iff.1 hca; rw [ha] at hq; cases hq; exact h2

theorem not_anc_attr (w : WF h) {a x : Nat} (hk : isChildKind (h.kind a) = false) {e : Nat}
    (ha : h.parent a = some e) : ¬ Anc h a x := fun hx => by
  have := anc_container w hx
  have := w.entity_root a
  cases hka : h.kind a <;> simp_all [isChildKind, isContainer]

theorem below_swap (w : WF h) {a b e c p : Nat} (ha : h.parent a = some e) (hb : h.parent b = some e)
    (hk : isChildKind (h.kind a) = false) (hc : c ∈ h.kids p) (hca : AncS h c a) : AncS h c b :=
  (below_owner w ha hk hc hca).trans (.inr (.parent hb))

theorem before_swap_right (w : WF h) {a b e x : Nat} (ha : h.parent a = some e) (hb : h.parent b = some e)
    (hk : isChildKind (h.kind a) = false) (hx : Before h x a) : Before h x b := by
  cases hx with
  | anc h1 =>
    obtain ⟨q, hq, h2⟩ := anc_iff.1 h1; rw [ha] at hq; cases hq
    exact .anc (anc_iff.2 ⟨e, hb, h2⟩)
  | sib p i j c f hi hj hij h1 h2 =>
    exact .sib p i j c f hi hj hij h1 (below_swap w ha hb hk (List.mem_of_getElem? hj) h2)

theorem before_swap_left (w : WF h) {a b e x : Nat} (ha : h.parent a = some e) (hb : h.parent b = some e)
    (hk : isChildKind (h.kind a) = false) (hx : Before h a x) : Before h b x := by
  cases hx with
  | anc h1 => exact absurd h1 (not_anc_attr w hk ha)
  | sib p i j c f hi hj hij h1 h2 =>
    exact .sib p i j c f hi hj hij (below_swap w ha hb hk (List.mem_of_getElem? hi) h1) h2

theorem attrBefore_swap_right (w : WF h) {a b e x : Nat} (ha : h.parent a = some e)
    (hb : h.parent b = some e) (hk : isChildKind (h.kind a) = false) (hx : AttrBefore h x a) :
    AttrBefore h x b := by
  obtain ⟨e', f, h1, h2, h3, h4⟩ := hx
  exact ⟨e', f, h1, h2, h3, below_swap w ha hb hk h3 h4⟩

theorem attrBefore_swap_left {a b e x : Nat} (ha : h.parent a = some e)
    (hb : h.parent b = some e) (hk : isChildKind (h.kind b) = false) (hx : AttrBefore h a x) :
    AttrBefore h b x := by
  obtain ⟨e', f, h1, h2, h3, h4⟩ := hx
  rw [ha] at h1; cases h1
  exact ⟨e, f, hb, hk, h3, h4⟩

theorem attrBefore_before (w : WF h) {a b c : Nat} (h1 : AttrBefore h a b) (h2 : Before h b c) :
    Before h a c ∨ AttrBefore h a c := by
  obtain ⟨e, k, ha, hk, hke, hkb⟩ := h1
  cases h2 with
  | anc h2 => exact .inr ⟨e, k, ha, hk, hke, hkb.trans (.inr h2)⟩
  | sib p i j c1 c2 hi hj hij h3 h4 =>
    have hp1 := kid_parent w hi
    have hp2 := kid_parent w hj
    rcases AncS.comparable hkb h3 with h5 | h5
    · rcases h5 with rfl | h5
      · rw [w.kids_parent _ _ hke] at hp1; cases hp1
        exact .inr ⟨e, c2, ha, hk, List.mem_of_getElem? hj, h4⟩
      · obtain ⟨q, hq, h6⟩ := anc_iff.1 h5
        rw [hp1] at hq; cases hq
        exact .inr ⟨e, k, ha, hk, hke, h6.trans (.inr (anc_cons hp2 h4))⟩
    · rcases h5 with rfl | h5
      · rw [w.kids_parent _ _ hke] at hp1; cases hp1
        exact .inr ⟨e, c2, ha, hk, List.mem_of_getElem? hj, h4⟩
      · obtain ⟨q, hq, h6⟩ := anc_iff.1 h5
        rw [w.kids_parent _ _ hke] at hq; cases hq
        exact .inl (.sib p i j c1 c2 hi hj hij (h6.trans (.inr (.parent ha))) h4)

theorem before_attrBefore (w : WF h) {a b c : Nat} (h1 : Before h a b) (h2 : AttrBefore h b c) :
    Before h a c := by
  obtain ⟨e, k, hb, hk, hke, hkc⟩ := h2
  have hec : Anc h e c := anc_cons (w.kids_parent _ _ hke) hkc
  cases h1 with
  | anc h1 =>
    obtain ⟨q, hq, h3⟩ := anc_iff.1 h1; rw [hb] at hq; cases hq
    exact .anc (h3.anc hec)
  | sib p i j c1 c2 hi hj hij h3 h4 =>
    exact .sib p i j c1 c2 hi hj hij h3
      ((below_owner w hb hk (List.mem_of_getElem? hj) h4).trans (.inr hec))

theorem attrBefore_trans (w : WF h) {a b c : Nat} (h1 : AttrBefore h a b) (h2 : AttrBefore h b c) :
    AttrBefore h a c := by
  obtain ⟨e, k, ha, hk, hke, hkb⟩ := h1
  obtain ⟨e', k', hb, hk', hke', hkc⟩ := h2
  exact ⟨e, k, ha, hk, hke, (below_owner w hb hk' hke hkb).trans
    (.inr (anc_cons (w.kids_parent _ _ hke') hkc))⟩

/-- Two attributes, or two namespace nodes, of one element. -/
def Tied (h : Heap) (a b : Nat) : Prop :=
  ∃ e, h.parent a = some e ∧ h.parent b = some e ∧ isChildKind (h.kind a) = false ∧
    isChildKind (h.kind b) = false

theorem Spec.DocWF.attr_kind (w : DocWF d r) {e a : Nat} (ha : a ∈ d.attrs e) :
    d.h.parent a = some e ∧ isChildKind (d.h.kind a) = false :=
  ⟨(w.attr _ _ ha).2, by simp [(w.attr _ _ ha).1, isChildKind]⟩

theorem Spec.DocWF.ns_kind (w : DocWF d r) {e a : Nat} (ha : a ∈ d.nss e) :
    d.h.parent a = some e ∧ isChildKind (d.h.kind a) = false :=
  ⟨(w.ns _ _ ha).2, by simp [(w.ns _ _ ha).1, isChildKind]⟩

theorem Spec.DocWF.tied (w : DocWF d r) {a b : Nat} (hab : TieBefore d a b) : Tied d.h a b := by
  cases hab with
  | attrs e i j ha hb _ =>
    have h1 := w.attr_kind (List.mem_of_getElem? ha)
    have h2 := w.attr_kind (List.mem_of_getElem? hb)
    exact ⟨e, h1.1, h2.1, h1.2, h2.2⟩
  | nss e i j ha hb _ =>
    have h1 := w.ns_kind (List.mem_of_getElem? ha)
    have h2 := w.ns_kind (List.mem_of_getElem? hb)
    exact ⟨e, h1.1, h2.1, h1.2, h2.2⟩
  | mixed e ha hb =>
    have h1 := w.ns_kind ha
    have h2 := w.attr_kind hb
    exact ⟨e, h1.1, h2.1, h1.2, h2.2⟩

theorem docBefore_tied_left (w : DocWF d r) {a b c : Nat} (ht : Tied d.h a b)
    (hbc : Before d.h b c ∨ AttrBefore d.h b c) : DocBefore d a c := by
  obtain ⟨e, h1, h2, h3, h4⟩ := ht
  rcases hbc with hbc | hbc
  · exact .tree (before_swap_left w.wf h2 h1 h4 hbc)
  · exact .attr (attrBefore_swap_left h2 h1 h3 hbc)

theorem docBefore_tied_right (w : DocWF d r) {a b c : Nat} (hab : Before d.h a b ∨ AttrBefore d.h a b)
    (ht : Tied d.h b c) : DocBefore d a c := by
  obtain ⟨e, h1, h2, h3, h4⟩ := ht
  rcases hab with hab | hab
  · exact .tree (before_swap_right w.wf h1 h2 h3 hab)
  · exact .attr (attrBefore_swap_right w.wf h1 h2 h3 hab)

theorem nodup_index {l : List Nat} (hn : l.Nodup) {i j a : Nat} (hi : l[i]? = some a)
    (hj : l[j]? = some a) : i = j := by
  obtain ⟨hi', e1⟩ := List.getElem?_eq_some_iff.1 hi
  obtain ⟨hj', e2⟩ := List.getElem?_eq_some_iff.1 hj
  exact (List.getElem_inj hn).1 (e1.trans e2.symm)

theorem attr_unique (w : DocWF d r) {e e' a : Nat} (h1 : a ∈ d.attrs e) (h2 : a ∈ d.attrs e') :
    e = e' := by
  have h3 := (w.attr _ _ h1).2
  rw [(w.attr _ _ h2).2] at h3; cases h3; rfl

theorem ns_unique (w : DocWF d r) {e e' a : Nat} (h1 : a ∈ d.nss e) (h2 : a ∈ d.nss e') :
    e = e' := by
  have h3 := (w.ns _ _ h1).2
  rw [(w.ns _ _ h2).2] at h3; cases h3; rfl

theorem attr_not_ns (w : DocWF d r) {e e' a : Nat} (h1 : a ∈ d.attrs e) (h2 : a ∈ d.nss e') : False := by
  have h3 := (w.attr _ _ h1).1
  rw [(w.ns _ _ h2).1] at h3; cases h3

theorem tieBefore_trans (w : DocWF d r) {a b c : Nat} (h1 : TieBefore d a b) (h2 : TieBefore d b c) :
    TieBefore d a c := by
  cases h1 with
  | attrs e i j hi hj hij =>
    cases h2 with
    | attrs e' i' j' hi' hj' hij' =>
      have := attr_unique w (List.mem_of_getElem? hj) (List.mem_of_getElem? hi'); subst this
      have := nodup_index (w.attr_nodup e) hj hi'
      exact .attrs e i j' hi hj' (by omega)
    | nss e' i' j' hi' hj' hij' =>
      exact (attr_not_ns w (List.mem_of_getElem? hj) (List.mem_of_getElem? hi')).elim
    | mixed e' hi' hj' => exact (attr_not_ns w (List.mem_of_getElem? hj) hi').elim
  | nss e i j hi hj hij =>
    cases h2 with
    | nss e' i' j' hi' hj' hij' =>
      have := ns_unique w (List.mem_of_getElem? hj) (List.mem_of_getElem? hi'); subst this
      have := nodup_index (w.ns_nodup e) hj hi'
      exact .nss e i j' hi hj' (by omega)
    | attrs e' i' j' hi' hj' hij' =>
      exact (attr_not_ns w (List.mem_of_getElem? hi') (List.mem_of_getElem? hj)).elim
    | mixed e' hi' hj' =>
      have := ns_unique w (List.mem_of_getElem? hj) hi'; subst this
      exact .mixed e (List.mem_of_getElem? hi) hj'
  | mixed e hi hj =>
    cases h2 with
    | nss e' i' j' hi' hj' hij' => exact (attr_not_ns w hj (List.mem_of_getElem? hi')).elim
    | attrs e' i' j' hi' hj' hij' =>
      have := attr_unique w hj (List.mem_of_getElem? hi'); subst this
      exact .mixed e hi (List.mem_of_getElem? hj')
    | mixed e' hi' hj' => exact (attr_not_ns w hj hi').elim

theorem docBefore_trans (w : DocWF d r) {a b c : Nat} (h1 : DocBefore d a b) (h2 : DocBefore d b c) :
    DocBefore d a c := by
  cases h1 with
  | tree h1 =>
    cases h2 with
    | tree h2 => exact .tree (before_trans w.wf h1 h2)
    | attr h2 => exact .tree (before_attrBefore w.wf h1 h2)
    | tie h2 => exact docBefore_tied_right w (.inl h1) (w.tied h2)
  | attr h1 =>
    cases h2 with
    | tree h2 =>
      rcases attrBefore_before w.wf h1 h2 with h3 | h3
      · exact .tree h3
      · exact .attr h3
    | attr h2 => exact .attr (attrBefore_trans w.wf h1 h2)
    | tie h2 => exact docBefore_tied_right w (.inr h1) (w.tied h2)
  | tie h1 =>
    cases h2 with
    | tree h2 => exact docBefore_tied_left w (w.tied h1) (.inl h2)
    | attr h2 => exact docBefore_tied_left w (w.tied h1) (.inr h2)
    | tie h2 => exact .tie (tieBefore_trans w h1 h2)

theorem docBefore_irrefl (w : DocWF d r) {a : Nat} : ¬ DocBefore d a a := by
  intro h1
  cases h1 with
  | tree h1 => exact before_irrefl w.wf h1
  | attr h1 => exact (attrBefore_facts w.wf h1).1 rfl
  | tie h1 =>
    cases h1 with
    | attrs e i j hi hj hij => have := nodup_index (w.attr_nodup e) hi hj; omega
    | nss e i j hi hj hij => have := nodup_index (w.ns_nodup e) hi hj; omega
    | mixed e hi hj => exact attr_not_ns w hj hi

theorem docBefore_asymm (w : DocWF d r) {a b : Nat} (h1 : DocBefore d a b) : ¬ DocBefore d b a :=
  fun h2 => docBefore_irrefl w (docBefore_trans w h1 h2)

/-- Two lists in the same strict order with the same members are equal. -/
theorem pairwise_unique {R : Nat → Nat → Prop} (as : ∀ a b, R a b → ¬ R b a) {l m : List Nat}
    (hl : l.Pairwise R) (hm : m.Pairwise R) (hlm : ∀ x, x ∈ l ↔ x ∈ m) : l = m := by
  induction l generalizing m with
  | nil =>
    cases m with
    | nil => rfl
    | cons b m => exact absurd ((hlm b).2 (by simp)) (by simp)
  | cons a l ih =>
    cases m with
    | nil => exact absurd ((hlm a).1 (by simp)) (by simp)
    | cons b m =>
      rw [List.pairwise_cons] at hl hm
      have hab : a = b := by
        have h1 := (hlm a).1 (by simp)
        have h2 := (hlm b).2 (by simp)
        rcases List.mem_cons.1 h1 with h1 | h1
        · exact h1
        · rcases List.mem_cons.1 h2 with h2 | h2
          · exact h2.symm
          · exact absurd (hm.1 a h1) (as _ _ (hl.1 b h2))
      subst hab
      congr 1
      refine ih hl.2 hm.2 (fun x => ?_)
      have := hlm x
      simp only [List.mem_cons] at this
      constructor
      · intro hx
        rcases this.1 (.inr hx) with h1 | h1
        · subst h1; exact absurd (hl.1 _ hx) (fun h => as _ _ h h)
        · exact h1
      · intro hx
        rcases this.2 (.inr hx) with h1 | h1
        · subst h1; exact absurd (hm.1 _ hx) (fun h => as _ _ h h)
        · exact h1

theorem sorted_det (w : DocWF d r) {l m : List Nat} (hl : Sorted d l) (hm : Sorted d m)
    (hlm : ∀ x, x ∈ l ↔ x ∈ m) : l = m :=
  pairwise_unique (fun _ _ => docBefore_asymm w) hl hm hlm

theorem sorted_nodup (w : DocWF d r) {l : List Nat} (hl : Sorted d l) : l.Nodup :=
  by
    unfold List.Nodup
    refine List.Pairwise.imp ?_ hl
    rintro a b h1 rfl
    exact docBefore_irrefl w h1

/-- `<` on two nodes of the document. -/
theorem nodeLt_iff (w : DocWF d r) {a b : Nat} (ha : Root d.h r a) (hb : Root d.h r b) :
    nodeLt d a b = true ↔ (Before d.h a b ∨ AttrBefore d.h a b) := by
  by_cases ht : a = b ∨ ¬ Tied d.h a b
  · obtain ⟨v, h1, h2⟩ := nodeCompare_spec w.wf d.index ha hb .lt ht
    simp only [nodeLt, h1]; exact h2
  · rw [not_or] at ht
    obtain ⟨hne, ht⟩ := ht
    have ht := Classical.byContradiction ht
    have hnot : ¬ (Before d.h a b ∨ AttrBefore d.h a b) := by
      obtain ⟨e, h1, h2, h3, h4⟩ := ht
      rintro (h5 | h5)
      · exact before_irrefl w.wf (before_swap_right w.wf h2 h1 h4 h5)
      · exact (attrBefore_facts w.wf (attrBefore_swap_right w.wf h2 h1 h4 h5)).1 rfl
    simp only [hnot, iff_false, Bool.not_eq_true]
    obtain ⟨e, h1, h2, h3, h4⟩ := ht
    obtain ⟨depth, hd, h0, hsz⟩ := exists_depth w.wf
    obtain ⟨ta, c1, c2⟩ := climb_spec hd h0 (d.h.size + 1) a (by have := hsz a; omega)
    obtain ⟨tb, d1, d2⟩ := climb_spec hd h0 (d.h.size + 1) b (by have := hsz b; omega)
    have := root_unique c2 ha; subst this
    have := root_unique d2 hb; subst this
    have e1 := hd _ _ h1
    have e2 := hd _ _ h2
    have na : ∀ x, isChildKind (d.h.kind x) = false → lastIdx (d.h.kids e) x = none := by
      intro x hx; rw [lastIdx_none]; intro hm
      have := w.wf.child_kind _ _ hm; simp [hx] at this
    obtain ⟨p1, p2⟩ := positions_spec hne (d.h.kids e) (w.wf.nodup e) 0 (-1) (-1)
    have p1 : (positions a b (d.h.kids e) 0 (-1, -1)).1 = _ := p1
    have p2 : (positions a b (d.h.kids e) 0 (-1, -1)).2 = _ := p2
    have hm : meet d.h (d.h.size + 1) a b = some (e, a, b) := by simp [meet, h1, h2]
    have ho : orderKeys d.h a b (depth a) (depth b) = some (positions a b (d.h.kids e) 0 (-1, -1)) := by
      unfold orderKeys
      rw [e1, e2]
      simp [up, hne, hm]
    have : nodeCompare d.h d.index .lt a b = some false := by
      unfold nodeCompare
      simp only [if_neg hne, c1, d1, ho, ne_eq, not_true_eq_false, and_false, if_false]
      rw [← Prod.eta (positions a b (d.h.kids e) 0 (-1, -1))]
      simp only [p1, p2, na a h3, na b h4, Rel.on]
      simp
    simp [nodeLt, this]

/-- Comparable by `<`, or a tie in the right order. -/
def TieOk (d : Doc) (a b : Nat) : Prop :=
  (Before d.h a b ∨ AttrBefore d.h a b) ∨ (Before d.h b a ∨ AttrBefore d.h b a) ∨ DocBefore d a b

theorem insertNode_mem (x : Nat) (l : List Nat) (y : Nat) :
    y ∈ insertNode d x l ↔ y = x ∨ y ∈ l := by
  induction l with
  | nil => simp [insertNode]
  | cons z l ih =>
    unfold insertNode
    split
    · simp only [List.mem_cons, ih]
      constructor
      · rintro (h | h | h) <;> simp [h]
      · rintro (h | h | h) <;> simp [h]
    · simp

theorem sortNodes_mem (l : List Nat) (y : Nat) : y ∈ sortNodes d l ↔ y ∈ l := by
  induction l with
  | nil => simp [sortNodes]
  | cons x l ih => simp [sortNodes, insertNode_mem, ih]

theorem insertNode_sorted (w : DocWF d r) {x : Nat} {l : List Nat} (hx : Root d.h r x)
    (hl : ∀ y ∈ l, Root d.h r y) (ht : ∀ y ∈ l, TieOk d x y) (hs : Sorted d l) :
    Sorted d (insertNode d x l) := by
  induction l with
  | nil => simp [insertNode, Sorted]
  | cons y l ih =>
    have hs' := List.pairwise_cons.1 hs
    unfold insertNode
    split
    · rename_i hlt
      rw [nodeLt_iff w (hl y (by simp)) hx] at hlt
      refine List.pairwise_cons.2 ⟨?_, ih (fun z hz => hl z (by simp [hz])) (fun z hz => ht z (by simp [hz])) hs'.2⟩
      intro z hz
      rcases (insertNode_mem x l z).1 hz with rfl | hz
      · rcases hlt with h1 | h1
        · exact .tree h1
        · exact .attr h1
      · exact hs'.1 z hz
    · rename_i hlt
      rw [nodeLt_iff w (hl y (by simp)) hx] at hlt
      have hxy : DocBefore d x y := by
        rcases ht y (by simp) with (h1 | h1) | h1 | h1
        · exact .tree h1
        · exact .attr h1
        · exact absurd h1 hlt
        · exact h1
      refine List.pairwise_cons.2 ⟨?_, hs⟩
      intro z hz
      rcases List.mem_cons.1 hz with rfl | hz
      · exact hxy
      · exact docBefore_trans w hxy (hs'.1 z hz)

/-- A list without repetitions, with ties in the right order, gets sorted. -/
theorem sortNodes_sorted (w : DocWF d r) {l : List Nat} (hl : ∀ y ∈ l, Root d.h r y)
    (ht : l.Pairwise (TieOk d)) : Sorted d (sortNodes d l) := by
  induction l with
  | nil => simp [sortNodes, Sorted]
  | cons x l ih =>
    have ht' := List.pairwise_cons.1 ht
    refine insertNode_sorted w (hl x (by simp)) (fun y hy => ?_) (fun y hy => ?_)
      (ih (fun y hy => hl y (by simp [hy])) ht'.2)
    · exact hl y (by simp [(sortNodes_mem l y).1 hy])
    · exact ht'.1 y ((sortNodes_mem l y).1 hy)

/-- The sort puts every list of nodes in an order in which no node comes after a later one. -/
theorem insertNode_weak (w : DocWF d r) {x : Nat} {l : List Nat} (hx : Root d.h r x)
    (hl : ∀ y ∈ l, Root d.h r y)
    (hs : l.Pairwise (fun a b => ¬ (Before d.h b a ∨ AttrBefore d.h b a))) :
    (insertNode d x l).Pairwise (fun a b => ¬ (Before d.h b a ∨ AttrBefore d.h b a)) := by
  have as : ∀ a b, (Before d.h a b ∨ AttrBefore d.h a b) → ¬ (Before d.h b a ∨ AttrBefore d.h b a) := by
    intro a b h1 h2
    have k1 : DocBefore d a b := h1.elim .tree .attr
    have k2 : DocBefore d b a := h2.elim .tree .attr
    exact docBefore_asymm w k1 k2
  induction l with
  | nil => simp [insertNode]
  | cons y l ih =>
    have hs' := List.pairwise_cons.1 hs
    unfold insertNode
    split
    · rename_i hlt
      rw [nodeLt_iff w (hl y (by simp)) hx] at hlt
      refine List.pairwise_cons.2 ⟨?_, ih (fun z hz => hl z (by simp [hz])) hs'.2⟩
      intro z hz
      rcases (insertNode_mem x l z).1 hz with rfl | hz
      · exact as _ _ hlt
      · exact hs'.1 z hz
    · rename_i hlt
      rw [nodeLt_iff w (hl y (by simp)) hx] at hlt
      refine List.pairwise_cons.2 ⟨?_, hs⟩
      intro z hz hzx
      rcases List.mem_cons.1 hz with rfl | hz
      · exact hlt hzx
      · -- z before x, not z before y, and not y before x: y is x or a tie of x
        have hzr := hl z (by simp [hz])
        have hyr := hl y (by simp)
        by_cases hyx : y = x
        · subst hyx; exact hs'.1 z hz hzx
        · by_cases hty : Tied d.h x y
          · have : DocBefore d z y := docBefore_tied_right w hzx hty
            obtain ⟨e, h1, h2, h3, h4⟩ := hty
            rcases hzx with h5 | h5
            · exact hs'.1 z hz (.inl (before_swap_right w.wf h1 h2 h3 h5))
            · exact hs'.1 z hz (.inr (attrBefore_swap_right w.wf h1 h2 h3 h5))
          · obtain ⟨depth, hd, h0, hsz⟩ := exists_depth w.wf
            obtain ⟨ka, kb, _, hlt2⟩ := orderKeys_spec w.wf hd h0 hsz hx hyr (fun e => hyx e.symm) hty
            rcases hlt2 with ⟨_, h2⟩ | ⟨_, h2⟩
            · -- x before y, so z before y
              have hzy : (Before d.h z y ∨ AttrBefore d.h z y) := by
                rcases hzx with h3 | h3 <;> rcases h2 with h4 | h4
                · exact .inl (before_trans w.wf h3 h4)
                · exact .inl (before_attrBefore w.wf h3 h4)
                · exact attrBefore_before w.wf h3 h4
                · exact .inr (attrBefore_trans w.wf h3 h4)
              exact hs'.1 z hz hzy
            · exact hlt h2

theorem sortNodes_weak (w : DocWF d r) {l : List Nat} (hl : ∀ y ∈ l, Root d.h r y) :
    (sortNodes d l).Pairwise (fun a b => ¬ (Before d.h b a ∨ AttrBefore d.h b a)) := by
  induction l with
  | nil => simp [sortNodes]
  | cons x l ih =>
    exact insertNode_weak w (hl x (by simp)) (fun y hy => hl y (by simp [(sortNodes_mem l y).1 hy]))
      (ih (fun y hy => hl y (by simp [hy])))

theorem insertNode_perm (x : Nat) (l : List Nat) : (insertNode d x l).Perm (x :: l) := by
  induction l with
  | nil => exact .refl _
  | cons y l ih =>
    unfold insertNode
    split
    · exact (ih.cons y).trans (.swap x y l)
    · exact .refl _

theorem sortNodes_perm (l : List Nat) : (sortNodes d l).Perm l := by
  induction l with
  | nil => exact .refl _
  | cons x l ih => exact (insertNode_perm x _).trans (ih.cons x)

theorem dictKeys_mem (l : List Nat) (y : Nat) : y ∈ dictKeys l ↔ y ∈ l := by
  induction l with
  | nil => simp [dictKeys]
  | cons x l ih =>
    simp only [dictKeys, List.mem_cons, List.mem_filter, ih, decide_eq_true_eq, ne_eq]
    by_cases hy : y = x <;> simp [hy]

theorem dictKeys_nodup (l : List Nat) : (dictKeys l).Nodup := by
  induction l with
  | nil => exact .nil
  | cons x l ih =>
    refine List.nodup_cons.2 ⟨by simp, ih.sublist List.filter_sublist⟩

/-- Two nodes of the document that are not tied are in order one way or the other. -/
theorem tieOk_of_not_tied (w : DocWF d r) {a b : Nat} (ha : Root d.h r a) (hb : Root d.h r b)
    (hab : a ≠ b) (ht : ¬ Tied d.h a b) : TieOk d a b := by
  obtain ⟨depth, hd, h0, hsz⟩ := exists_depth w.wf
  obtain ⟨ka, kb, _, hlt2⟩ := orderKeys_spec w.wf hd h0 hsz ha hb hab ht
  rcases hlt2 with ⟨_, h2⟩ | ⟨_, h2⟩
  · exact .inl h2
  · exact .inr (.inl h2)

/-- Document order is total on the nodes of a document. -/
theorem docBefore_total (w : DocWF d r) {a b : Nat} (ha : InDoc d r a) (hb : InDoc d r b)
    (hab : a ≠ b) : DocBefore d a b ∨ DocBefore d b a := by
  by_cases ht : Tied d.h a b
  · obtain ⟨e, h1, h2, h3, h4⟩ := ht
    have nt : ∀ x, d.h.parent x = some e → isChildKind (d.h.kind x) = false → ¬ TreeNode d.h x :=
      fun x hx hk hT => by rw [childKind_of w.wf hx hT] at hk; cases hk
    have owner : ∀ x, InDoc d r x → d.h.parent x = some e → isChildKind (d.h.kind x) = false →
        x ∈ d.attrs e ∨ x ∈ d.nss e := by
      intro x hx hp hk
      rcases hx.2 with h5 | ⟨e', h5 | h5⟩
      · exact absurd h5 (nt x hp hk)
      · have := (w.attr _ _ h5).2; rw [hp] at this; cases this; exact .inl h5
      · have := (w.ns _ _ h5).2; rw [hp] at this; cases this; exact .inr h5
    rcases owner a ha h1 h3 with h5 | h5 <;> rcases owner b hb h2 h4 with h6 | h6
    · obtain ⟨i, hi⟩ := List.getElem?_of_mem h5
      obtain ⟨j, hj⟩ := List.getElem?_of_mem h6
      rcases Nat.lt_trichotomy i j with h7 | h7 | h7
      · exact .inl (.tie (.attrs e i j hi hj h7))
      · subst h7; rw [hi] at hj; cases hj; exact absurd rfl hab
      · exact .inr (.tie (.attrs e j i hj hi h7))
    · exact .inr (.tie (.mixed e h6 h5))
    · exact .inl (.tie (.mixed e h5 h6))
    · obtain ⟨i, hi⟩ := List.getElem?_of_mem h5
      obtain ⟨j, hj⟩ := List.getElem?_of_mem h6
      rcases Nat.lt_trichotomy i j with h7 | h7 | h7
      · exact .inl (.tie (.nss e i j hi hj h7))
      · subst h7; rw [hi] at hj; cases hj; exact absurd rfl hab
      · exact .inr (.tie (.nss e j i hj hi h7))
  · rcases tieOk_of_not_tied w ha.1 hb.1 hab ht with (h1 | h1) | (h1 | h1) | h1
    · exact .inl (.tree h1)
    · exact .inl (.attr h1)
    · exact .inr (.tree h1)
    · exact .inr (.attr h1)
    · exact .inl h1

/-- Every finite set of nodes of the document can be listed in document order. -/
theorem exists_sorted (w : DocWF d r) (l : List Nat) (hl : ∀ x ∈ l, InDoc d r x) :
    ∃ m, Sorted d m ∧ ∀ x, x ∈ m ↔ x ∈ l := by
  have ins : ∀ (x : Nat) (m : List Nat), InDoc d r x → (∀ y ∈ m, InDoc d r y) → Sorted d m →
      ∃ m', Sorted d m' ∧ ∀ y, y ∈ m' ↔ y = x ∨ y ∈ m := by
    intro x m hx
    induction m with
    | nil => intro _ _; exact ⟨[x], by simp [Sorted], by simp⟩
    | cons y m ih =>
      intro hm hs
      have hs' := List.pairwise_cons.1 hs
      by_cases hxy : x = y
      · subst hxy; exact ⟨x :: m, hs, by simp⟩
      · rcases docBefore_total w hx (hm y (by simp)) hxy with h1 | h1
        · refine ⟨x :: y :: m, List.pairwise_cons.2 ⟨?_, hs⟩, by simp⟩
          intro z hz
          rcases List.mem_cons.1 hz with rfl | hz
          · exact h1
          · exact docBefore_trans w h1 (hs'.1 z hz)
        · obtain ⟨m', h2, h3⟩ := ih (fun z hz => hm z (by simp [hz])) hs'.2
          refine ⟨y :: m', List.pairwise_cons.2 ⟨?_, h2⟩, ?_⟩
          · intro z hz
            rcases (h3 z).1 hz with rfl | hz
            · exact h1
            · exact hs'.1 z hz
          · intro z
            simp only [List.mem_cons, h3]
            constructor
            · rintro (h | h | h) <;> simp [h]
            · rintro (h | h | h) <;> simp [h]
  induction l with
  | nil => exact ⟨[], .nil, by simp⟩
  | cons x l ih =>
    obtain ⟨m, h1, h2⟩ := ih (fun y hy => hl y (by simp [hy]))
    obtain ⟨m', h3, h4⟩ := ins x m (hl x (by simp)) (fun y hy => hl y (by simp [(h2 y).1 hy])) h1
    exact ⟨m', h3, fun y => by rw [h4, h2, List.mem_cons]⟩

end Verif.Eval
