import Verif.Dom.Order
import Verif.Dom.OrderLemmas
import Verif.Dom.EditProps

/-
C15: comparison of nodes is document order.
-/
namespace Verif.Dom.Spec
open Verif.Dom

/-- Attributes and namespace nodes come before the children of their element (XPath 1.0, 5). -/
def AttrBefore (h : Heap) (a b : NodeId) : Prop :=
  ∃ e d, h.parent a = some e ∧ isChildKind (h.kind a) = false ∧ d ∈ h.kids e ∧ AncS h d b

/-- What each operator means for a strict order `lt` with equality of nodes. -/
def RelMeaning (lt : NodeId → NodeId → Prop) (a b : NodeId) : Rel → Prop
  | .lt => lt a b
  | .le => lt a b ∨ a = b
  | .eq => a = b
  | .ne => a ≠ b
  | .gt => lt b a
  | .ge => lt b a ∨ a = b

end Verif.Dom.Spec

namespace Verif.Dom
open Spec

theorem climb_spec {h : Heap} {depth : NodeId → Nat}
    (hd : ∀ c p, h.parent c = some p → depth c = depth p + 1)
    (h0 : ∀ c, h.parent c = none → depth c = 0) (f : Nat) (n : NodeId) (hf : depth n < f) :
    ∃ top, climb h f n = some (top, depth n) ∧ Root h top n := by
  induction f generalizing n with
  | zero => omega
  | succ f ih =>
    unfold climb
    cases hp : h.parent n with
    | none => exact ⟨n, by simp [h0 n hp], AncS.refl, hp⟩
    | some p =>
      obtain ⟨top, h1, h2⟩ := ih p (by have := hd _ _ hp; omega)
      exact ⟨top, by simp [h1, hd _ _ hp], h2.1.trans (.inr (.parent hp)), h2.2⟩

theorem up_spec {h : Heap} {depth : NodeId → Nat}
    (hd : ∀ c p, h.parent c = some p → depth c = depth p + 1)
    (h0 : ∀ c, h.parent c = none → depth c = 0) (k : Nat) (n : NodeId) (hk : k ≤ depth n) :
    AncS h (up h k n) n ∧ depth (up h k n) = depth n - k := by
  induction k generalizing n with
  | zero => exact ⟨AncS.refl, rfl⟩
  | succ k ih =>
    unfold up
    cases hp : h.parent n with
    | none => have := h0 n hp; omega
    | some p =>
      have := hd _ _ hp
      obtain ⟨h1, h2⟩ := ih p (by omega)
      exact ⟨h1.trans (.inr (.parent hp)), by simp only [h2]; omega⟩

theorem meet_spec {h : Heap} {depth : NodeId → Nat}
    (hd : ∀ c p, h.parent c = some p → depth c = depth p + 1)
    (h0 : ∀ c, h.parent c = none → depth c = 0) {r : NodeId} (f : Nat) (a b : NodeId) (hf : depth a < f)
    (hab : depth a = depth b) (hne : a ≠ b) (ha : Root h r a) (hb : Root h r b) :
    ∃ p c d, meet h f a b = some (p, c, d) ∧ h.parent c = some p ∧ h.parent d = some p ∧ c ≠ d ∧
      AncS h c a ∧ AncS h d b := by
  induction f generalizing a b with
  | zero => omega
  | succ f ih =>
    have noroot : ∀ x, Root h r x → h.parent x = none → x = r := by
      intro x hx hp
      rcases hx.1 with h1 | h1
      · exact h1.symm
      · obtain ⟨q, hq, _⟩ := anc_iff.1 h1; simp [hp] at hq
    unfold meet
    cases hpa : h.parent a with
    | none =>
      have h1 := noroot a ha hpa
      have hb0 : depth b = 0 := by rw [← hab]; exact h0 a hpa
      cases hpb : h.parent b with
      | none => exact absurd (h1.trans (noroot b hb hpb).symm) hne
      | some pb => have := hd _ _ hpb; omega
    | some pa =>
      have := hd _ _ hpa
      cases hpb : h.parent b with
      | none => have := h0 b hpb; omega
      | some pb =>
        have := hd _ _ hpb
        by_cases hpp : pa = pb
        · subst hpp
          exact ⟨pa, a, b, by simp, hpa, hpb, hne, AncS.refl, AncS.refl⟩
        · have up1 : ∀ x p, h.parent x = some p → Root h r x → Root h r p := by
            intro x p hx hr
            rcases hr.1 with h1 | h1
            · subst h1; have := hr.2; simp [hx] at this
            · obtain ⟨q, hq, h2⟩ := anc_iff.1 h1
              rw [hx] at hq; cases hq
              exact ⟨h2, hr.2⟩
          obtain ⟨p, c, d, h1, h2, h3, h4, h5, h6⟩ := ih pa pb (by omega) (by omega) hpp
            (up1 _ _ hpa ha) (up1 _ _ hpb hb)
          exact ⟨p, c, d, by simp [hpp, h1], h2, h3, h4, h5.trans (.inr (.parent hpa)),
            h6.trans (.inr (.parent hpb))⟩

theorem positions_spec {c d : NodeId} (hcd : c ≠ d) (l : List NodeId) (hn : l.Nodup) (k : Nat)
    (da db : Int) :
    ((positions c d l k (da, db)).1 = match lastIdx l c with
      | some i => ((k + i : Nat) : Int)
      | none => da) ∧
    ((positions c d l k (da, db)).2 = match lastIdx l d with
      | some i => ((k + i : Nat) : Int)
      | none => db) := by
  induction l generalizing k da db with
  | nil => simp [positions, lastIdx]
  | cons x xs ih =>
    rw [List.nodup_cons] at hn
    unfold positions
    have hk : ((k : Int) + 1) = ((k + 1 : Nat) : Int) := by omega
    have step : ∀ y i, lastIdx xs y = some i → lastIdx (x :: xs) y = some (i + 1) := by
      intro y i hy; simp [lastIdx, hy]
    have stepn : ∀ y, lastIdx xs y = none → lastIdx (x :: xs) y = if x = y then some 0 else none := by
      intro y hy; simp [lastIdx, hy]
    rw [hk]
    by_cases hxc : x = c
    · subst hxc
      have h1 := lastIdx_none.2 hn.1
      obtain ⟨e1, e2⟩ := ih hn.2 (k + 1) k db
      simp only [if_true, e1, e2, h1, stepn _ h1]
      refine ⟨by simp, ?_⟩
      cases hd : lastIdx xs d with
      | none => simp [stepn _ hd, hcd]
      | some j => simp only [step _ _ hd]; congr 1; omega
    · by_cases hxd : x = d
      · subst hxd
        have h1 := lastIdx_none.2 hn.1
        obtain ⟨e1, e2⟩ := ih hn.2 (k + 1) da k
        simp only [if_neg hxc, if_true, e1, e2, h1, stepn _ h1]
        refine ⟨?_, by simp⟩
        cases hd : lastIdx xs c with
        | none => simp [stepn _ hd, hxc]
        | some j => simp only [step _ _ hd]; congr 1; omega
      · obtain ⟨e1, e2⟩ := ih hn.2 (k + 1) da db
        simp only [if_neg hxc, if_neg hxd, e1, e2]
        constructor
        · cases hd : lastIdx xs c with
          | none => simp [stepn _ hd, hxc]
          | some j => simp only [step _ _ hd]; congr 1; omega
        · cases hd : lastIdx xs d with
          | none => simp [stepn _ hd, hxd]
          | some j => simp only [step _ _ hd]; congr 1; omega

theorem attrBefore_facts {h : Heap} (w : WF h) {a b : NodeId} (hab : AttrBefore h a b) :
    a ≠ b ∧ ¬ Before h b a ∧ ¬ AttrBefore h b a := by
  obtain ⟨e, d, ha, hk, hd, hdb⟩ := hab
  have hpd := w.kids_parent _ _ hd
  have hda : ¬ AncS h d a := fun hda => by
    have := child_unique w hpd ha hda AncS.refl
    subst this
    have := w.child_kind _ _ hd; simp [hk] at this
  have had : ¬ AncS h a d := fun h1 => by
    have := child_unique w ha hpd h1 AncS.refl
    subst this
    have := w.child_kind _ _ hd; simp [hk] at this
  have heb : Anc h e b := anc_cons hpd hdb
  have hsub : ∀ x, AncS h x a → x = a ∨ AncS h x e := by
    rintro x (h1 | h1)
    · exact .inl h1
    · obtain ⟨q, hq, h2⟩ := anc_iff.1 h1; rw [ha] at hq; cases hq; exact .inr h2
  refine ⟨?_, ?_, ?_⟩
  · rintro rfl; exact hda hdb
  · intro hb
    cases hb with
    | anc h1 =>
      rcases hsub b (.inr h1) with h2 | h2
      · subst h2; exact w.acyclic _ h1
      · exact w.acyclic e (heb.ancS h2)
    | sib p i j c f hi hj hij h1 h2 =>
      rcases hsub f h2 with h3 | h3
      · subst h3
        have := w.child_kind _ _ (List.mem_of_getElem? hj); simp [hk] at this
      · -- then `f` is above `b` too
        have := child_unique w (kid_parent w hi) (kid_parent w hj) h1 (h3.trans (.inr heb))
        subst this
        have := kid_index w hi hj; omega
  · rintro ⟨e', d', hb, hk', hd', hda'⟩
    have hpd' := w.kids_parent _ _ hd'
    rcases hsub d' hda' with h1 | h1
    · subst h1; have := w.child_kind _ _ hd'; simp [hk] at this
    · have h2 : AncS h d' b := h1.trans (.inr heb)
      have := child_unique w hpd' hb h2 AncS.refl
      subst this
      have := w.child_kind _ _ hd'; simp [hk'] at this

/-- The keys compared at the end decide the order. -/
theorem orderKeys_spec {h : Heap} (w : WF h) {depth : NodeId → Nat}
    (hd : ∀ c p, h.parent c = some p → depth c = depth p + 1)
    (h0 : ∀ c, h.parent c = none → depth c = 0) (hsz : ∀ c, depth c ≤ h.size)
    {r a b : NodeId} (ha : Root h r a) (hb : Root h r b) (hab : a ≠ b)
    (hna : ¬ ∃ e, h.parent a = some e ∧ h.parent b = some e ∧ isChildKind (h.kind a) = false ∧
      isChildKind (h.kind b) = false) :
    ∃ ka kb, orderKeys h a b (depth a) (depth b) = some (ka, kb) ∧
      ((ka < kb ∧ (Before h a b ∨ AttrBefore h a b)) ∨ (kb < ka ∧ (Before h b a ∨ AttrBefore h b a))) := by
  have noroot : ∀ x, Root h r x → depth x = 0 → x = r := by
    intro x hx hp
    rcases hx.1 with h1 | h1
    · exact h1.symm
    · obtain ⟨q, hq, _⟩ := anc_iff.1 h1; have := hd _ _ hq; omega
  have pos : ∀ x, depth x ≠ 0 ∨ h.parent x = none := by
    intro x
    cases hx : h.parent x with
    | none => exact .inr rfl
    | some p => left; have := hd _ _ hx; omega
  unfold orderKeys
  by_cases hz : depth a > 0 ∧ depth b > 0
  · simp only [if_pos hz]
    obtain ⟨a1, a2⟩ := up_spec hd h0 (depth a - depth b) a (by omega)
    obtain ⟨b1, b2⟩ := up_spec hd h0 (depth b - depth a) b (by omega)
    generalize up h (depth a - depth b) a = a' at *
    generalize up h (depth b - depth a) b = b' at *
    by_cases he : a' = b'
    · subst he
      simp only [ne_eq, not_true_eq_false, if_false]
      refine ⟨_, _, rfl, ?_⟩
      rcases Nat.lt_trichotomy (depth a) (depth b) with h1 | h1 | h1
      · left
        refine ⟨by omega, .inl (.anc ?_)⟩
        have : a' = a := by
          rcases a1 with a1 | a1
          · exact a1
          · obtain ⟨q, hq, h3⟩ := anc_iff.1 a1
            exfalso
            have : ∀ x y, AncS h x y → depth x ≤ depth y := by
              rintro x y (rfl | h4)
              · exact Nat.le_refl _
              · induction h4 with
                | parent hp => have := hd _ _ hp; omega
                | step _ hp ih => have := hd _ _ hp; omega
            have := this _ _ h3; have := hd _ _ hq; omega
        subst this
        rcases b1 with b1 | b1
        · exact absurd b1 hab
        · exact b1
      · exfalso
        have le : ∀ x y, Anc h x y → depth x < depth y := by
          intro x y h4
          induction h4 with
          | parent hp => have := hd _ _ hp; omega
          | step _ hp ih => have := hd _ _ hp; omega
        have e1 : a' = a := by
          rcases a1 with a1 | a1
          · exact a1
          · have := le _ _ a1; omega
        have e2 : a' = b := by
          rcases b1 with b1 | b1
          · exact b1
          · have := le _ _ b1; omega
        exact hab (e1.symm.trans e2)
      · right
        refine ⟨by omega, .inl (.anc ?_)⟩
        have le : ∀ x y, Anc h x y → depth x < depth y := by
          intro x y h4
          induction h4 with
          | parent hp => have := hd _ _ hp; omega
          | step _ hp ih => have := hd _ _ hp; omega
        have : a' = b := by
          rcases b1 with b1 | b1
          · exact b1
          · have := le _ _ b1; omega
        subst this
        rcases a1 with a1 | a1
        · exact absurd a1.symm hab
        · exact a1
    · simp only [ne_eq, he, not_false_eq_true, if_true]
      have rootUp : ∀ x y, Root h r y → AncS h x y → Root h r x := by
        intro x y hy hxy
        refine ⟨?_, hy.2⟩
        rcases AncS.comparable hy.1 hxy with h1 | h1
        · exact h1
        · rcases h1 with rfl | h1
          · exact AncS.refl
          · obtain ⟨q, hq, _⟩ := anc_iff.1 h1; have := hy.2; simp [this] at hq
      obtain ⟨p, c, d, h1, h2, h3, h4, h5, h6⟩ := meet_spec hd h0 (h.size + 1) a' b'
        (by have := hsz a'; omega) (by omega) he (rootUp _ _ ha a1) (rootUp _ _ hb b1)
      simp only [h1]
      refine ⟨_, _, rfl, ?_⟩
      obtain ⟨e1, e2⟩ := positions_spec h4 (h.kids p) (w.nodup p) 0 (-1) (-1)
      have e1 : (positions c d (h.kids p) 0 (-1, -1)).1 = _ := e1
      have e2 : (positions c d (h.kids p) 0 (-1, -1)).2 = _ := e2
      rw [e1, e2]
      have hca := h5.trans a1
      have hdb := h6.trans b1
      -- a node not listed by its parent is an attribute, and is the compared node itself
      have leaf : ∀ x y, h.parent x = some p → lastIdx (h.kids p) x = none → AncS h x y →
          x = y ∧ isChildKind (h.kind x) = false := by
        intro x y hx hl hxy
        have hk : isChildKind (h.kind x) = false := by
          cases hk : isChildKind (h.kind x) with
          | false => rfl
          | true => exact absurd (w.parent_kids _ _ hx hk) (lastIdx_none.1 hl)
        refine ⟨?_, hk⟩
        rcases hxy with hxy | hxy
        · exact hxy
        · have := anc_container w hxy
          have hr := w.entity_root x
          cases hkx : h.kind x <;> simp_all [isChildKind, isContainer]
      cases hc : lastIdx (h.kids p) c with
      | none =>
        obtain ⟨rfl, hk⟩ := leaf c a h2 hc hca
        cases hdi : lastIdx (h.kids p) d with
        | none =>
          obtain ⟨rfl, hk'⟩ := leaf d b h3 hdi hdb
          exact absurd ⟨p, h2, h3, hk, hk'⟩ hna
        | some j =>
          left
          refine ⟨by simp only []; omega, .inr ⟨p, d, h2, hk, ?_, hdb⟩⟩
          exact List.mem_of_getElem? (lastIdx_some hdi)
      | some i =>
        cases hdi : lastIdx (h.kids p) d with
        | none =>
          obtain ⟨rfl, hk'⟩ := leaf d b h3 hdi hdb
          right
          refine ⟨by simp only []; omega, .inr ⟨p, c, h3, hk', ?_, hca⟩⟩
          exact List.mem_of_getElem? (lastIdx_some hc)
        | some j =>
          have hi := lastIdx_some hc
          have hj := lastIdx_some hdi
          have hij : i ≠ j := by
            rintro rfl; rw [hi] at hj; exact h4 (by simpa using hj)
          rcases Nat.lt_or_gt_of_ne hij with hlt | hlt
          · left; exact ⟨by simp only []; omega, .inl (.sib p i j c d hi hj hlt hca hdb)⟩
          · right; exact ⟨by simp only []; omega, .inl (.sib p j i d c hj hi hlt hdb hca)⟩
  · simp only [if_neg hz]
    refine ⟨_, _, rfl, ?_⟩
    by_cases hza : depth a = 0
    · left
      have := noroot a ha hza
      subst this
      rcases hb.1 with h1 | h1
      · exact absurd h1 hab
      · have : depth b ≠ 0 := fun hz => hab (noroot b hb hz).symm
        exact ⟨by omega, .inl (.anc h1)⟩
    · right
      have hzb : depth b = 0 := by omega
      have := noroot b hb hzb
      subst this
      rcases ha.1 with h1 | h1
      · exact absurd h1.symm hab
      · exact ⟨by omega, .inl (.anc h1)⟩

/-- The comparison of two nodes of one tree that are not both attributes (or namespaces) of the same
element. -/
theorem nodeCompare_spec {h : Heap} (w : WF h) (index : NodeId → Nat) {r a b : NodeId}
    (ha : Root h r a) (hb : Root h r b) (op : Rel)
    (hna : a = b ∨ ¬ ∃ e, h.parent a = some e ∧ h.parent b = some e ∧ isChildKind (h.kind a) = false ∧
      isChildKind (h.kind b) = false) :
    ∃ v, nodeCompare h index op a b = some v ∧
      (v = true ↔ RelMeaning (fun x y => Before h x y ∨ AttrBefore h x y) a b op) := by
  have irr : ∀ x, ¬ (Before h x x ∨ AttrBefore h x x) := by
    rintro x (h1 | h1)
    · exact before_irrefl w h1
    · exact (attrBefore_facts w h1).1 rfl
  unfold nodeCompare
  by_cases hab : a = b
  · subst hab
    refine ⟨_, by rw [if_pos rfl], ?_⟩
    cases op <;> simp [Rel.on, RelMeaning, irr]
  · simp only [if_neg hab]
    obtain ⟨depth, hd, h0, hsz⟩ := exists_depth w
    obtain ⟨ta, c1, c2⟩ := climb_spec hd h0 (h.size + 1) a (by have := hsz a; omega)
    obtain ⟨tb, d1, d2⟩ := climb_spec hd h0 (h.size + 1) b (by have := hsz b; omega)
    have := root_unique c2 ha; subst this
    have := root_unique d2 hb; subst this
    obtain ⟨ka, kb, hk, hlt⟩ := orderKeys_spec w hd h0 hsz ha hb hab (by
      rcases hna with hna | hna
      · exact absurd hna hab
      · exact hna)
    simp only [c1, d1, hk, ne_eq, not_true_eq_false, and_false, if_false]
    refine ⟨_, rfl, ?_⟩
    have as : ∀ x y, (Before h x y ∨ AttrBefore h x y) → ¬ (Before h y x ∨ AttrBefore h y x) := by
      rintro x y (h1 | h1) (h2 | h2)
      · exact before_asymm w h1 h2
      · exact (attrBefore_facts w h2).2.1 h1
      · exact (attrBefore_facts w h1).2.1 h2
      · exact (attrBefore_facts w h1).2.2 h2
    rcases hlt with ⟨h1, h2⟩ | ⟨h1, h2⟩ <;>
      (have h3 := as _ _ h2; cases op <;> simp [Rel.on, RelMeaning, hab, h2, h3] <;> omega)

/-- C15: comparing two tree nodes (everything but attributes and namespace nodes) of one tree with
`<`, `<=`, `==`, `!=`, `>`, `>=` is document order. -/
theorem C15_document_order {h : Heap} (w : WF h) (index : NodeId → Nat) {r a b : NodeId}
    (ha : Root h r a) (hb : Root h r b) (hta : TreeNode h a) (htb : TreeNode h b) (op : Rel) :
    ∃ v, nodeCompare h index op a b = some v ∧ (v = true ↔ RelMeaning (Before h) a b op) := by
  have noattr : ∀ x y, TreeNode h x → (AttrBefore h x y ↔ False) := by
    intro x y hx
    refine ⟨?_, False.elim⟩
    rintro ⟨e, d, h1, h2, _⟩
    rw [childKind_of w h1 hx] at h2; cases h2
  obtain ⟨v, h1, h2⟩ := nodeCompare_spec w index ha hb op (.inr (by
    rintro ⟨e, h1, _, h2, _⟩
    rw [childKind_of w h1 hta] at h2; cases h2))
  refine ⟨v, h1, h2.trans ?_⟩
  cases op <;> simp [RelMeaning, noattr a b hta, noattr b a htb]

/-- C15: document order is a strict total order on the tree nodes of one tree. -/
theorem C15_strict_total {h : Heap} (w : WF h) :
    (∀ a, ¬ Before h a a) ∧ (∀ a b c, Before h a b → Before h b c → Before h a c) ∧
    (∀ r a b, Root h r a → Root h r b → TreeNode h a → TreeNode h b →
      a = b ∨ Before h a b ∨ Before h b a) :=
  ⟨fun _ => before_irrefl w, fun _ _ _ => before_trans w,
    fun _ _ _ ha hb => before_total w ha.1 hb.1⟩

/-- C15, with attributes: they come after their element and before its children.  Missing: two
attributes of one element, which compare equal. -/
theorem C15_attributes_partial {h : Heap} (w : WF h) (index : NodeId → Nat) {r a b : NodeId}
    (ha : Root h r a) (hb : Root h r b) (op : Rel)
    (hna : a = b ∨ ¬ ∃ e, h.parent a = some e ∧ h.parent b = some e ∧ isChildKind (h.kind a) = false ∧
      isChildKind (h.kind b) = false) :
    ∃ v, nodeCompare h index op a b = some v ∧
      (v = true ↔ RelMeaning (fun x y => Before h x y ∨ AttrBefore h x y) a b op) :=
  nodeCompare_spec w index ha hb op hna

/-- C15: nodes of different documents compare as the documents' creation indices. -/
theorem C15_documents {h : Heap} (w : WF h) (index : NodeId → Nat) {r s a b : NodeId}
    (ha : Root h r a) (hb : Root h s b) (hrs : r ≠ s) (hr : h.kind r = .entity)
    (hs : h.kind s = .entity) (op : Rel) :
    nodeCompare h index op a b = some (op.on (index r) (index s)) := by
  have hab : a ≠ b := by
    rintro rfl; exact hrs (root_unique ha hb)
  obtain ⟨depth, hd, h0, hsz⟩ := exists_depth w
  obtain ⟨ta, c1, c2⟩ := climb_spec hd h0 (h.size + 1) a (by have := hsz a; omega)
  obtain ⟨tb, d1, d2⟩ := climb_spec hd h0 (h.size + 1) b (by have := hsz b; omega)
  have := root_unique c2 ha; subst this
  have := root_unique d2 hb; subst this
  simp [nodeCompare, hab, c1, d1, hr, hs, hrs, docKey]

/-- The sample with two attributes (6, 7) on element 1. -/
def builtAttrs : Heap :=
  (((built.alloc .attr).alloc .attr).setOwner 1 6).setOwner 1 7

theorem builtAttrs_reach : Reach builtAttrs :=
  .owner (.owner (.new _ (.new _ built_reach)) (by decide) (by decide) (by decide) (by decide))
    (by decide) (by decide) (by decide) (by decide)

/-- Non-vacuity of C15: nodes 2 and 4 of the sample, in that order. -/
example : Root built 0 2 ∧ Root built 0 4 ∧ TreeNode built 2 ∧ TreeNode built 4 ∧
    Before built 2 4 ∧ nodeCompare built id .lt 2 4 = some true ∧
    nodeCompare built id .lt 4 3 = some false := by
  have p2 : built.parent 2 = some 1 := by decide
  have p4 : built.parent 4 = some 1 := by decide
  have p1 : built.parent 1 = some 0 := by decide
  refine ⟨⟨.inr (.step (.parent p1) p2), by decide⟩, ⟨.inr (.step (.parent p1) p4), by decide⟩,
    ⟨by decide, by decide⟩, ⟨by decide, by decide⟩,
    .sib 1 0 2 2 4 (by decide) (by decide) (by decide) AncS.refl AncS.refl, by decide, by decide⟩

example : nodeCompare builtAttrs id .lt 1 6 = some true ∧ nodeCompare builtAttrs id .lt 6 2 = some true ∧
    nodeCompare builtAttrs id .gt 4 7 = some true := by decide

/-- C15 for attributes is refuted: two different attributes of one element compare `==`. -/
theorem C15_refuted : Reach builtAttrs ∧ (6 : Nat) ≠ 7 ∧ builtAttrs.parent 6 = some 1 ∧
    builtAttrs.parent 7 = some 1 ∧ nodeCompare builtAttrs id .eq 6 7 = some true :=
  ⟨builtAttrs_reach, by decide, by decide, by decide, by decide⟩

end Verif.Dom
