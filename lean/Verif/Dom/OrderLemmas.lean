import Verif.Dom.HeapLemmas

/-
Document order is a strict order, total on the tree nodes of one tree.
-/
namespace Verif.Dom
open Spec

variable {h : Heap} {a b c p r : NodeId}

theorem kid_parent (w : WF h) {i : Nat} (hi : (h.kids p)[i]? = some c) : h.parent c = some p :=
  w.kids_parent _ _ (List.mem_of_getElem? hi)

theorem kid_index (w : WF h) {i j : Nat} (hi : (h.kids p)[i]? = some c)
    (hj : (h.kids p)[j]? = some c) : i = j := by
  have h1 := lastIdx_eq (w.nodup p) hi
  have h2 := lastIdx_eq (w.nodup p) hj
  rw [h1] at h2; simpa using h2

theorem sib_not_anc (w : WF h) {i j : Nat} {c d : NodeId} (hi : (h.kids p)[i]? = some c)
    (hj : (h.kids p)[j]? = some d) (hij : i ≠ j) (ha : AncS h c a) (hb : AncS h d b) :
    ¬ AncS h a b := by
  intro hab
  have hcd := child_unique w (kid_parent w hi) (kid_parent w hj) (ha.trans hab) hb
  subst hcd
  exact hij (kid_index w hi hj)

theorem before_irrefl (w : WF h) : ¬ Before h a a := by
  intro hb
  cases hb with
  | anc h1 => exact w.acyclic a h1
  | sib p i j c d hi hj hij h1 h2 => exact sib_not_anc w hi hj (by omega) h1 h2 AncS.refl

theorem before_trans (w : WF h) (h1 : Before h a b) (h2 : Before h b c) : Before h a c := by
  cases h1 with
  | anc h1 =>
    cases h2 with
    | anc h2 => exact .anc (h1.trans h2)
    | sib p i j x y hi hj hij hx hy =>
      rcases AncS.comparable (.inr h1) hx with h3 | h3
      · rcases h3 with rfl | h3
        · exact .sib p i j _ y hi hj hij AncS.refl hy
        · obtain ⟨q, hq, h4⟩ := anc_iff.1 h3
          rw [kid_parent w hi] at hq; cases hq
          exact .anc (h4.anc (anc_cons (kid_parent w hj) hy))
      · exact .sib p i j x y hi hj hij h3 hy
  | sib p i j x y hi hj hij hx hy =>
    cases h2 with
    | anc h2 => exact .sib p i j x y hi hj hij hx (hy.trans (.inr h2))
    | sib q k l u v hk hl hkl hu hv =>
      rcases AncS.comparable hy hu with h3 | h3
      · rcases h3 with rfl | h3
        · have hpq : p = q := by
            have := kid_parent w hj; rw [kid_parent w hk] at this; simpa using this.symm
          subst hpq
          have := kid_index w hj hk
          subst this
          exact .sib p i l x v hi hl (by omega) hx hv
        · -- `y` is above `u`: it is above `q`, hence above `v`
          obtain ⟨q', hq', h4⟩ := anc_iff.1 h3
          rw [kid_parent w hk] at hq'; cases hq'
          exact .sib p i j x y hi hj hij hx (h4.trans (.inr (anc_cons (kid_parent w hl) hv)))
      · rcases h3 with rfl | h3
        · have hpq : p = q := by
            have := kid_parent w hj; rw [kid_parent w hk] at this; simpa using this.symm
          subst hpq
          have := kid_index w hj hk
          subst this
          exact .sib p i l x v hi hl (by omega) hx hv
        · obtain ⟨p', hp', h4⟩ := anc_iff.1 h3
          rw [kid_parent w hj] at hp'; cases hp'
          exact .sib q k l u v hk hl hkl (h4.trans (.inr (anc_cons (kid_parent w hi) hx))) hv

theorem before_asymm (w : WF h) (h1 : Before h a b) : ¬ Before h b a :=
  fun h2 => before_irrefl w (before_trans w h1 h2)

/-- Two nodes of one tree: one is the other, one is above the other, or they are in different
branches below a common node. -/
theorem branch (w : WF h) (ha : AncS h r a) (hb : AncS h r b) :
    AncS h a b ∨ AncS h b a ∨ ∃ p c d, h.parent c = some p ∧ h.parent d = some p ∧ c ≠ d ∧
      AncS h c a ∧ AncS h d b := by
  obtain ⟨depth, hd, _, hbd⟩ := exists_depth w
  induction hn : h.size - depth r using Nat.strongRecOn generalizing r with
  | _ n ih =>
    rcases ha with rfl | ha
    · exact .inl hb
    · rcases hb with rfl | hb
      · exact .inr (.inl (.inr ha))
      · obtain ⟨c, hc, hca⟩ := ha.child
        obtain ⟨d, hdp, hdb⟩ := hb.child
        by_cases hcd : c = d
        · subst hcd
          refine ih (h.size - depth c) ?_ hca hdb rfl
          have := hd _ _ hc
          have := hbd c
          omega
        · exact .inr (.inr ⟨r, c, d, hc, hdp, hcd, hca, hdb⟩)

/-- Attributes and namespace nodes have no descendants. -/
theorem anc_container (w : WF h) (h1 : Anc h a b) : isContainer (h.kind a) = true := by
  obtain ⟨c, hc, _⟩ := h1.child
  exact w.parent_kind _ _ hc

theorem childKind_of (w : WF h) (hp : h.parent c = some p) (ht : TreeNode h c) :
    isChildKind (h.kind c) = true := by
  cases hk : h.kind c <;> simp_all [TreeNode, isChildKind]
  have := w.entity_root c hk
  simp [this] at hp

/-- A node above (or equal to) a tree node is a tree node. -/
theorem treeNode_up (w : WF h) (ht : TreeNode h b) (h1 : AncS h a b) : TreeNode h a := by
  rcases h1 with rfl | h1
  · exact ht
  · have := anc_container w h1
    constructor <;> (intro hk; simp [hk, isContainer] at this)

theorem before_total (w : WF h) (ha : AncS h r a) (hb : AncS h r b) (hta : TreeNode h a)
    (htb : TreeNode h b) : a = b ∨ Before h a b ∨ Before h b a := by
  rcases branch w ha hb with h1 | h1 | ⟨p, c, d, hc, hd, hcd, hca, hdb⟩
  · rcases h1 with h1 | h1
    · exact .inl h1
    · exact .inr (.inl (.anc h1))
  · rcases h1 with h1 | h1
    · exact .inl h1.symm
    · exact .inr (.inr (.anc h1))
  · have kc := w.parent_kids _ _ hc (childKind_of w hc (treeNode_up w hta hca))
    have kd := w.parent_kids _ _ hd (childKind_of w hd (treeNode_up w htb hdb))
    obtain ⟨i, hi⟩ := List.getElem?_of_mem kc
    obtain ⟨j, hj⟩ := List.getElem?_of_mem kd
    rcases Nat.lt_trichotomy i j with h1 | h1 | h1
    · exact .inr (.inl (.sib p i j c d hi hj h1 hca hdb))
    · subst h1; rw [hi] at hj; simp only [Option.some.injEq] at hj; exact absurd hj hcd
    · exact .inr (.inr (.sib p j i d c hj hi h1 hdb hca))

/-- Every node is in a tree. -/
theorem exists_root (w : WF h) (n : NodeId) : ∃ r, Root h r n := by
  obtain ⟨depth, hd, _, _⟩ := exists_depth w
  induction hn : depth n using Nat.strongRecOn generalizing n with
  | _ k ih =>
    cases hp : h.parent n with
    | none => exact ⟨n, AncS.refl, hp⟩
    | some p =>
      obtain ⟨r, h1, h2⟩ := ih (depth p) (by have := hd _ _ hp; omega) p rfl
      exact ⟨r, h1.trans (.inr (.parent hp)), h2⟩

theorem root_unique (h1 : Root h r a) (h2 : Root h p a) : r = p := by
  have key : ∀ {x y}, h.parent y = none → AncS h x y → x = y := by
    rintro x y hy (h3 | h3)
    · exact h3
    · obtain ⟨q, hq, _⟩ := anc_iff.1 h3; simp [hy] at hq
  rcases AncS.comparable h1.1 h2.1 with h3 | h3
  · exact key h2.2 h3
  · exact (key h1.2 h3).symm

end Verif.Dom
