import Verif.Dom.HeapSpec

/-
Lemmas about ancestors, and about the two elementary changes all edits are made of: taking a node out
of its parent, and putting a free node into a parent.
-/
namespace Verif.Dom
open Spec

theorem lastIdx_some {α : Type} [DecidableEq α] {l : List α} {c : α} {i : Nat}
    (h : lastIdx l c = some i) : l[i]? = some c := by
  induction l generalizing i with
  | nil => simp [lastIdx] at h
  | cons x xs ih =>
    unfold lastIdx at h
    cases hx : lastIdx xs c with
    | some j =>
      simp only [hx, Option.some.injEq] at h
      subst h; simpa using ih hx
    | none =>
      simp only [hx] at h
      split at h
      · cases h; simp_all
      · simp at h

theorem lastIdx_none {α : Type} [DecidableEq α] {l : List α} {c : α} :
    lastIdx l c = none ↔ c ∉ l := by
  induction l with
  | nil => simp [lastIdx]
  | cons x xs ih =>
    unfold lastIdx
    cases hx : lastIdx xs c with
    | some j =>
      have : c ∈ xs := Classical.byContradiction fun hn => by simp [ih.2 hn] at hx
      simp [this]
    | none =>
      have := ih.1 hx
      by_cases hc : x = c <;> simp [hc, this]
      exact fun h => hc h.symm

theorem lastIdx_eq {α : Type} [DecidableEq α] {l : List α} {c : α} {i : Nat} (hn : l.Nodup)
    (h : l[i]? = some c) : lastIdx l c = some i := by
  cases hx : lastIdx l c with
  | none => exact absurd (List.mem_of_getElem? h) (lastIdx_none.1 hx)
  | some j =>
    have hj := lastIdx_some hx
    rw [List.getElem?_eq_some_iff] at h hj
    obtain ⟨h1, h2⟩ := h
    obtain ⟨h3, h4⟩ := hj
    have := (List.getElem_inj (h₀ := h1) (h₁ := h3) hn).1 (h2.trans h4.symm)
    rw [this]

section Anc
variable {h : Heap} {a b c p : NodeId}

theorem _root_.Verif.Dom.Spec.Anc.trans (h1 : Anc h a b) (h2 : Anc h b c) : Anc h a c := by
  induction h2 with
  | parent h => exact .step h1 h
  | step _ h ih => exact .step ih h

theorem _root_.Verif.Dom.Spec.AncS.refl : AncS h a a := .inl rfl

theorem _root_.Verif.Dom.Spec.AncS.trans (h1 : AncS h a b) (h2 : AncS h b c) : AncS h a c := by
  rcases h1 with rfl | h1
  · exact h2
  · rcases h2 with rfl | h2
    · exact .inr h1
    · exact .inr (h1.trans h2)

theorem _root_.Verif.Dom.Spec.AncS.anc (h1 : AncS h a b) (h2 : Anc h b c) : Anc h a c := by
  rcases h1 with rfl | h1
  · exact h2
  · exact h1.trans h2

theorem _root_.Verif.Dom.Spec.Anc.ancS (h1 : Anc h a b) (h2 : AncS h b c) : Anc h a c := by
  rcases h2 with rfl | h2
  · exact h1
  · exact h1.trans h2

theorem anc_iff : Anc h a b ↔ ∃ p, h.parent b = some p ∧ AncS h a p := by
  constructor
  · intro h1
    cases h1 with
    | parent h => exact ⟨a, h, .inl rfl⟩
    | step h1 h2 => exact ⟨_, h2, .inr h1⟩
  · rintro ⟨p, h1, rfl | h2⟩
    · exact .parent h1
    · exact .step h2 h1

theorem anc_cons (h1 : h.parent b = some a) (h2 : AncS h b c) : Anc h a c := by
  rcases h2 with rfl | h2
  · exact .parent h1
  · exact (Anc.parent h1).trans h2

/-- Two ancestors of one node are related. -/
theorem _root_.Verif.Dom.Spec.AncS.comparable (h1 : AncS h a c) (h2 : AncS h b c) : AncS h a b ∨ AncS h b a := by
  rcases h1 with rfl | h1
  · exact .inr h2
  · induction h1 with
    | parent hp =>
      rcases h2 with rfl | h2
      · exact .inl (.inr (.parent hp))
      · obtain ⟨q, hq, hb⟩ := anc_iff.1 h2
        rw [hp] at hq; cases hq
        exact .inr hb
    | step hx hp ih =>
      rcases h2 with rfl | h2
      · exact .inl (.inr (.step hx hp))
      · obtain ⟨q, hq, hb⟩ := anc_iff.1 h2
        rw [hp] at hq; cases hq
        exact ih hb

/-- The child of `a` on the way to `b`. -/
theorem _root_.Verif.Dom.Spec.Anc.child (h1 : Anc h a b) : ∃ c, h.parent c = some a ∧ AncS h c b := by
  induction h1 with
  | parent h => exact ⟨_, h, .inl rfl⟩
  | step _ h ih =>
    obtain ⟨c, h1, h2⟩ := ih
    exact ⟨c, h1, .inr (anc_iff.2 ⟨_, h, h2⟩)⟩

theorem _root_.Verif.Dom.Spec.AncS.antisymm (w : WF h) (h1 : AncS h a b) (h2 : AncS h b a) : a = b := by
  rcases h1 with rfl | h1
  · rfl
  · exact absurd (h1.ancS h2) (w.acyclic a)

/-- The child of a node on the way to a given descendant is unique. -/
theorem child_unique (w : WF h) (hb : h.parent b = some p) (hc : h.parent c = some p)
    (h1 : AncS h b a) (h2 : AncS h c a) : b = c := by
  rcases AncS.comparable h1 h2 with h3 | h3
  · rcases h3 with h3 | h3
    · exact h3
    · obtain ⟨q, hq, h4⟩ := anc_iff.1 h3
      rw [hc] at hq; cases hq
      exact absurd (anc_cons hb h4) (w.acyclic p)
  · rcases h3 with h3 | h3
    · exact h3.symm
    · obtain ⟨q, hq, h4⟩ := anc_iff.1 h3
      rw [hb] at hq; cases hq
      exact absurd (anc_cons hc h4) (w.acyclic p)

end Anc

/-- The heap after `c` has been taken out of the children of `s`. -/
def unlink (h : Heap) (s c : NodeId) : Heap :=
  (h.setParent c none).setKids s ((h.kids s).filter (· ≠ c))

/-- The heap after the free node `c` has been put into the children of `s`, which are now `l`. -/
def link (h : Heap) (s : NodeId) (l : List NodeId) (c : NodeId) : Heap :=
  (h.setKids s l).setParent c (some s)

theorem anc_of_unlink {h : Heap} {s c a b : NodeId} (h1 : Anc (unlink h s c) a b) : Anc h a b := by
  have key : ∀ x y, (unlink h s c).parent x = some y → h.parent x = some y := by
    intro x y; simp only [unlink, Heap.setParent, Heap.setKids]; split <;> simp
  induction h1 with
  | parent hp => exact .parent (key _ _ hp)
  | step _ hp ih => exact .step ih (key _ _ hp)

theorem wf_unlink {h : Heap} (w : WF h) {s c : NodeId} (hc : h.parent c = some s) :
    WF (unlink h s c) := by
  have key : ∀ x y, (unlink h s c).parent x = some y ↔ (x ≠ c ∧ h.parent x = some y) := by
    intro x y; simp only [unlink, Heap.setParent, Heap.setKids]; split <;> simp_all
  have kk : ∀ x p, x ∈ (unlink h s c).kids p ↔ (x ≠ c ∧ x ∈ h.kids p) := by
    intro x p
    simp only [unlink, Heap.setParent, Heap.setKids]
    split
    · subst p; simp [and_comm]
    · refine ⟨fun hx => ⟨?_, hx⟩, fun hx => hx.2⟩
      rintro rfl
      have := w.kids_parent _ _ hx
      rw [hc] at this; simp_all
  refine ⟨?_, ?_, ?_, ?_, ?_, ?_, ?_, ?_⟩
  · intro p x hx; rw [kk] at hx; rw [key]; exact ⟨hx.1, w.kids_parent _ _ hx.2⟩
  · intro p x hx hk; rw [key] at hx; rw [kk]; exact ⟨hx.1, w.parent_kids _ _ hx.2 hk⟩
  · intro p
    simp only [unlink, Heap.setParent, Heap.setKids]
    split
    · exact (w.nodup s).filter _
    · exact w.nodup p
  · intro p x hx; rw [kk] at hx; exact w.child_kind _ _ hx.2
  · intro p x hx; rw [key] at hx; exact w.parent_kind _ _ hx.2
  · intro x hx
    have := w.entity_root x hx
    simp only [unlink, Heap.setParent, Heap.setKids]; split <;> simp_all
  · intro a ha; exact w.acyclic a (anc_of_unlink ha)
  · intro p x hx; rw [key] at hx; exact w.bounded _ _ hx.2

theorem anc_link {h : Heap} {s c : NodeId} {l : List NodeId} (hfree : h.parent c = none)
    (hns : ¬ AncS h c s) {a b : NodeId} (h1 : Anc (link h s l c) a b) :
    Anc h a b ∨ (AncS h a s ∧ AncS h c b) := by
  have key : ∀ x y, (link h s l c).parent x = some y → (x = c ∧ y = s) ∨ (x ≠ c ∧ h.parent x = some y) := by
    intro x y; simp only [link, Heap.setParent, Heap.setKids]; split <;> simp_all
  induction h1 with
  | parent hp =>
    rcases key _ _ hp with ⟨rfl, rfl⟩ | ⟨_, hp⟩
    · exact .inr ⟨.inl rfl, .inl rfl⟩
    · exact .inl (.parent hp)
  | step _ hp ih =>
    rcases key _ _ hp with ⟨rfl, rfl⟩ | ⟨_, hp⟩
    · rcases ih with ih | ⟨_, ih⟩
      · exact .inr ⟨.inr ih, .inl rfl⟩
      · exact absurd ih hns
    · rcases ih with ih | ⟨ih1, ih2⟩
      · exact .inl (.step ih hp)
      · exact .inr ⟨ih1, .inr (anc_iff.2 ⟨_, hp, ih2⟩)⟩

theorem wf_link {h : Heap} (w : WF h) {s c : NodeId} {l1 l2 : List NodeId} (hfree : h.parent c = none)
    (hns : ¬ AncS h c s) (hk : isChildKind (h.kind c) = true) (hs : isContainer (h.kind s) = true)
    (hl : h.kids s = l1 ++ l2) (hcs : c < h.size) (hss : s < h.size) :
    WF (link h s (l1 ++ c :: l2) c) := by
  have nk : ∀ p, c ∉ h.kids p := fun p hp => by
    have := w.kids_parent _ _ hp; simp [hfree] at this
  have key : ∀ x y, (link h s (l1 ++ c :: l2) c).parent x = some y ↔
      (x = c ∧ y = s) ∨ (x ≠ c ∧ h.parent x = some y) := by
    intro x y; simp only [link, Heap.setParent, Heap.setKids]; split <;> simp_all
    exact eq_comm
  have kk : ∀ x p, x ∈ (link h s (l1 ++ c :: l2) c).kids p ↔
      (x = c ∧ p = s) ∨ (x ≠ c ∧ x ∈ h.kids p) := by
    intro x p
    have := nk p
    simp only [link, Heap.setParent, Heap.setKids]
    split
    · subst p
      by_cases hx : x = c
      · simp [hx]
      · simp [hl, hx]
    · by_cases hx : x = c
      · subst hx; simp_all
      · simp_all
  refine ⟨?_, ?_, ?_, ?_, ?_, ?_, ?_, ?_⟩
  · intro p x hx; rw [kk] at hx; rw [key]
    rcases hx with hx | hx
    · exact .inl hx
    · exact .inr ⟨hx.1, w.kids_parent _ _ hx.2⟩
  · intro p x hx hk; rw [key] at hx; rw [kk]
    rcases hx with hx | hx
    · exact .inl hx
    · exact .inr ⟨hx.1, w.parent_kids _ _ hx.2 hk⟩
  · intro p
    simp only [link, Heap.setParent, Heap.setKids]
    split
    · have hn := w.nodup s
      have hc := nk s
      rw [hl] at hn hc
      rw [List.nodup_append] at hn ⊢
      simp only [List.mem_append, not_or] at hc
      refine ⟨hn.1, List.nodup_cons.2 ⟨hc.2, hn.2.1⟩, ?_⟩
      intro a ha b hb
      rcases List.mem_cons.1 hb with rfl | hb
      · rintro rfl; exact hc.1 ha
      · exact hn.2.2 a ha b hb
    · exact w.nodup p
  · intro p x hx; rw [kk] at hx
    rcases hx with ⟨rfl, rfl⟩ | hx
    · exact hk
    · exact w.child_kind _ _ hx.2
  · intro p x hx; rw [key] at hx
    rcases hx with ⟨rfl, rfl⟩ | hx
    · exact hs
    · exact w.parent_kind _ _ hx.2
  · intro x hx
    have hx : h.kind x = .entity := hx
    have := w.entity_root x hx
    simp only [link, Heap.setParent, Heap.setKids]; split
    · subst x; simp [hx, isChildKind] at hk
    · exact this
  · intro a ha
    rcases anc_link hfree hns ha with h1 | ⟨h1, h2⟩
    · exact w.acyclic a h1
    · exact hns (h2.trans h1)
  · intro p x hx; rw [key] at hx
    rcases hx with ⟨rfl, rfl⟩ | hx
    · exact ⟨hcs, hss⟩
    · exact w.bounded _ _ hx.2

theorem eraseIdx_eq_filter {l : List NodeId} (hn : l.Nodup) {i : Nat} {c : NodeId} (h : l[i]? = some c) :
    l.eraseIdx i = l.filter (· ≠ c) := by
  induction l generalizing i with
  | nil => simp at h
  | cons x xs ih =>
    rw [List.nodup_cons] at hn
    cases i with
    | zero =>
      simp only [List.getElem?_cons_zero, Option.some.injEq] at h
      subst h
      simp only [List.eraseIdx_cons_zero, List.filter_cons, ne_eq, not_true_eq_false, decide_false,
        Bool.false_eq_true, if_false]
      symm
      rw [List.filter_eq_self]
      intro a ha
      have : a ≠ x := fun h => hn.1 (h ▸ ha)
      simpa using this
    | succ i =>
      simp only [List.getElem?_cons_succ] at h
      have : x ≠ c := fun hx => hn.1 (hx ▸ List.mem_of_getElem? h)
      simp [this, ih hn.2 h]

theorem containerRemove_ok {h : Heap} (w : WF h) {s c : NodeId} (hc : c ∈ h.kids s) :
    containerRemove h s c = .ok (unlink h s c) := by
  obtain ⟨i, hi⟩ := List.getElem?_of_mem hc
  have hs := w.parent_kind _ _ (w.kids_parent _ _ hc)
  simp only [containerRemove, hs, if_true, lastIdx_eq (w.nodup s) hi]
  rw [eraseIdx_eq_filter (w.nodup s) hi]
  rfl

/-- Lists without repetition of numbers below `n` have at most `n` members. -/
theorem nodup_length_le {n : Nat} {l : List Nat} (hn : l.Nodup) (hb : ∀ x ∈ l, x < n) :
    l.length ≤ n := by
  induction n generalizing l with
  | zero => cases l with
    | nil => simp
    | cons x xs => exact absurd (hb x (by simp)) (by omega)
  | succ n ih =>
    have h1 := ih (l := l.filter (· ≠ n)) (hn.filter _) (by
      intro x hx
      simp only [List.mem_filter, ne_eq, decide_eq_true_eq] at hx
      have := hb x hx.1; have := hx.2; omega)
    by_cases hx : n ∈ l
    · obtain ⟨i, hi⟩ := List.getElem?_of_mem hx
      rw [← eraseIdx_eq_filter hn hi, List.length_eraseIdx] at h1
      split at h1 <;> omega
    · rw [List.filter_eq_self.2 (by intro a ha; simp; rintro rfl; exact hx ha)] at h1
      omega

/-- Every node has a finite depth, less than the number of nodes, and it is one more than that of its
parent. -/
theorem exists_depth {h : Heap} (w : WF h) : ∃ depth : NodeId → Nat,
    (∀ c p, h.parent c = some p → depth c = depth p + 1) ∧
    (∀ c, h.parent c = none → depth c = 0) ∧ (∀ c, depth c ≤ h.size) := by
  -- the chain of ancestors found with a given number of steps
  let chain : Nat → NodeId → List NodeId := fun f => Nat.rec (fun _ => []) (fun _ r n =>
    match h.parent n with
    | none => []
    | some p => p :: r p) f
  have chS : ∀ f n, chain (f + 1) n = match h.parent n with
      | none => []
      | some p => p :: chain f p := fun _ _ => rfl
  have mem : ∀ f n x, x ∈ chain f n → Anc h x n := by
    intro f
    induction f with
    | zero => intro n x hx; cases hx
    | succ f ih =>
      intro n x hx
      rw [chS] at hx
      cases hp : h.parent n with
      | none => simp [hp] at hx
      | some p =>
        simp only [hp, List.mem_cons] at hx
        rcases hx with rfl | hx
        · exact .parent hp
        · exact .step (ih _ _ hx) hp
  have nd : ∀ f n, (chain f n).Nodup := by
    intro f
    induction f with
    | zero => intro n; exact List.nodup_nil
    | succ f ih =>
      intro n
      rw [chS]
      cases hp : h.parent n with
      | none => simp
      | some p =>
        simp only [List.nodup_cons]
        exact ⟨fun hx => w.acyclic p (mem _ _ _ hx), ih p⟩
  have lt : ∀ f n x, x ∈ chain f n → x < h.size := by
    intro f n x hx
    have := mem f n x hx
    obtain ⟨c, hc, _⟩ := this.child
    exact (w.bounded _ _ hc).2
  have le : ∀ f n, (chain f n).length ≤ h.size := fun f n => nodup_length_le (nd f n) (lt f n)
  -- enough fuel: more does not change the length
  have stab : ∀ f n, (chain f n).length < f → chain (f + 1) n = chain f n := by
    intro f
    induction f with
    | zero => intro n hn; omega
    | succ f ih =>
      intro n hn
      rw [chS (f + 1), chS f]
      rw [chS] at hn
      cases hp : h.parent n with
      | none => rfl
      | some p =>
        simp only [hp, List.length_cons] at hn
        simp only [ih p (by omega)]
  refine ⟨fun n => (chain (h.size + 1) n).length, ?_, ?_, fun c => le (h.size + 1) c⟩
  · intro c p hp
    show (chain (h.size + 1) c).length = _
    rw [← stab (h.size + 1) c (by have := le (h.size + 1) c; omega), chS (h.size + 1), hp]
    rfl
  · intro c hp
    show (chain (h.size + 1) c).length = _
    rw [chS, hp]; rfl

end Verif.Dom
