import Verif.Dom.HeapLemmas

/-
What the editing functions do, in terms of taking a node out and putting a free node in.
-/
namespace Verif.Dom
open Spec

theorem onChain_spec {h : Heap} {c : NodeId} {depth : NodeId → Nat}
    (hd : ∀ c p, h.parent c = some p → depth c = depth p + 1) (f : Nat) (s : NodeId)
    (hf : depth s < f) : ∃ b, onChain h c f s = some b ∧ (b = true ↔ AncS h c s) := by
  induction f generalizing s with
  | zero => omega
  | succ f ih =>
    unfold onChain
    by_cases hc : c = s
    · exact ⟨true, by simp [hc], by simp [hc, AncS]⟩
    · cases hp : h.parent s with
      | none =>
        refine ⟨false, by simp [hc], ?_⟩
        constructor
        · simp
        · rintro (h1 | h1)
          · exact absurd h1 hc
          · obtain ⟨q, hq, _⟩ := anc_iff.1 h1; simp [hp] at hq
      | some p =>
        obtain ⟨b, hb, hb'⟩ := ih p (by have := hd _ _ hp; omega)
        refine ⟨b, by simp [hc, hb], hb'.trans ?_⟩
        constructor
        · exact fun h1 => .inr (anc_iff.2 ⟨p, hp, h1⟩)
        · rintro (h1 | h1)
          · exact absurd h1 hc
          · obtain ⟨q, hq, h2⟩ := anc_iff.1 h1; rw [hp] at hq; cases hq; exact h2

/-- `ensure_hierarchy` answers, and accepts exactly the child kinds that are not ancestors. -/
theorem ensureHierarchy_spec {h : Heap} (w : WF h) (s c : NodeId) :
    (∃ e, ensureHierarchy h s c = some (some e) ∧
      (isContainer (h.kind s) = false ∨ isChildKind (h.kind c) = false ∨ AncS h c s)) ∨
    (ensureHierarchy h s c = some none ∧ isContainer (h.kind s) = true ∧
      isChildKind (h.kind c) = true ∧ ¬ AncS h c s) := by
  unfold ensureHierarchy
  cases hs : isContainer (h.kind s) with
  | false => exact .inl ⟨_, rfl, .inl rfl⟩
  | true =>
    cases hc : isChildKind (h.kind c) with
    | false => exact .inl ⟨_, rfl, .inr (.inl rfl)⟩
    | true =>
      obtain ⟨depth, hd, _, hb⟩ := exists_depth w
      obtain ⟨b, hb1, hb2⟩ := onChain_spec (c := c) hd (h.size + 1) s (by have := hb s; omega)
      simp only [Bool.not_true, Bool.false_eq_true, if_false, hb1]
      cases b with
      | true => exact .inl ⟨_, rfl, .inr (.inr (hb2.1 rfl))⟩
      | false => exact .inr ⟨rfl, trivial, trivial, fun h1 => by simpa using hb2.2 h1⟩

theorem allSome_map (l : List NodeId) : allSome (l.map some) = some l := by
  induction l with
  | nil => rfl
  | cons x xs ih => simp [allSome, ih]

theorem allSome_eq {l : List Slot} {m : List NodeId} (h : l = m.map some) : allSome l = some m :=
  h ▸ allSome_map m

/-- The heap in which `c` is free. -/
def freed (h : Heap) (c : NodeId) : Heap :=
  match h.parent c with
  | none => h
  | some q => unlink h q c

theorem freed_parent (h : Heap) (c : NodeId) : (freed h c).parent c = none := by
  unfold freed
  cases hp : h.parent c with
  | none => exact hp
  | some q => simp [unlink, Heap.setParent, Heap.setKids]

theorem freed_wf {h : Heap} (w : WF h) (c : NodeId) : WF (freed h c) := by
  unfold freed
  cases hp : h.parent c with
  | none => exact w
  | some q => exact wf_unlink w hp

theorem freed_anc {h : Heap} {c a b : NodeId} (h1 : Anc (freed h c) a b) : Anc h a b := by
  unfold freed at h1
  cases hp : h.parent c with
  | none => simpa [hp] using h1
  | some q => rw [hp] at h1; exact anc_of_unlink h1

theorem freed_ancS {h : Heap} {c a b : NodeId} (h1 : AncS (freed h c) a b) : AncS h a b := by
  rcases h1 with h1 | h1
  · exact .inl h1
  · exact .inr (freed_anc h1)

theorem freed_kind (h : Heap) (c : NodeId) : (freed h c).kind = h.kind := by
  unfold freed; split <;> rfl

theorem freed_size (h : Heap) (c : NodeId) : (freed h c).size = h.size := by
  unfold freed; split <;> rfl

theorem freed_kids {h : Heap} (w : WF h) (c p : NodeId) :
    (freed h c).kids p = (h.kids p).filter (· ≠ c) := by
  have other : ∀ p, c ∉ h.kids p → h.kids p = (h.kids p).filter (· ≠ c) := by
    intro p hp
    symm; rw [List.filter_eq_self]
    intro a ha; simp; rintro rfl; exact hp ha
  unfold freed
  cases hp : h.parent c with
  | none =>
    exact other p fun hc => by have := w.kids_parent _ _ hc; simp [hp] at this
  | some q =>
    simp only [unlink, Heap.setParent, Heap.setKids]
    split
    · rename_i hpq; rw [hpq]
    · rename_i hpq
      exact other p fun hc => by
        have := w.kids_parent _ _ hc; rw [hp] at this; simp at this; exact hpq this.symm

theorem freed_parent_ne {h : Heap} {c x : NodeId} (hx : x ≠ c) :
    (freed h c).parent x = h.parent x := by
  unfold freed
  cases hp : h.parent c with
  | none => rfl
  | some q => simp [unlink, Heap.setParent, Heap.setKids, hx]

theorem kids_of_foreign {h : Heap} (w : WF h) {s c : NodeId} (hc : h.parent c ≠ some s) :
    (h.kids s).filter (· ≠ c) = h.kids s := by
  rw [List.filter_eq_self]
  intro a ha; simp; rintro rfl; exact hc (w.kids_parent _ _ ha)

/-- Detaching a child that is in another container (or in none). -/
theorem detach_foreign {h : Heap} (w : WF h) {s c : NodeId} (hc : h.parent c ≠ some s)
    (hk : isChildKind (h.kind c) = true) (nodes : List Slot) :
    detach h s nodes c = .ok (freed h c) nodes := by
  unfold detach freed
  cases hp : h.parent c with
  | none => rfl
  | some q =>
    have hq : q ≠ s := fun hq => hc (by rw [hp, hq])
    simp only [if_neg hq, containerRemove_ok w (w.parent_kids _ _ hp hk)]

theorem freed_container {h : Heap} {c s : NodeId} (hs : isContainer (h.kind s) = true) :
    isContainer ((freed h c).kind s) = true := by rw [freed_kind]; exact hs

theorem append_ok {h : Heap} (w : WF h) {s c : NodeId} (hc : h.parent c ≠ some s)
    (hs : isContainer (h.kind s) = true) (hk : isChildKind (h.kind c) = true)
    (hns : ¬ AncS h c s) :
    containerAppend h s c = .ok (link (freed h c) s (h.kids s ++ [c]) c) := by
  have he : ensureHierarchy h s c = some none := by
    rcases ensureHierarchy_spec w s c with ⟨e, _, h1 | h1 | h1⟩ | h1
    · simp [hs] at h1
    · simp [hk] at h1
    · exact absurd h1 hns
    · exact h1.1
  simp only [containerAppend, he, detach_foreign w hc hk]
  have : ((h.kids s).map some ++ [none]).set (h.kids s).length (some c) =
      (h.kids s ++ [c]).map some := by
    rw [List.set_append_right _ _ (by simp)]; simp
  simp only [commit, allSome_eq this, link]

theorem clampWhere_le (i : Int) (n : Nat) : clampWhere i n ≤ n := by
  unfold clampWhere; split <;> (try split) <;> omega

theorem mem_take {l : List NodeId} {z : List Slot} {k : Nat} (hk : k ≤ l.length) :
    (l.map some ++ z).take k = (l.take k).map some := by
  rw [List.take_append_of_le_length (by simpa using hk), List.map_take]

theorem mem_drop {l : List NodeId} {z : List Slot} {k : Nat} (hk : k ≤ l.length) :
    (l.map some ++ z).drop k = (l.drop k).map some ++ z := by
  rw [List.drop_append_of_le_length (by simpa using hk), List.map_drop]

theorem mem_insert {l : List NodeId} {z : List Slot} {k n m : Nat} {c : NodeId} (hk : k ≤ l.length)
    (hm : m = l.length + 1) (hn : l.length - k ≤ n) :
    (((l.map some ++ z).take k ++ some c :: ((l.map some ++ z).drop k).take n).take m) =
      (l.take k ++ c :: l.drop k).map some := by
  rw [mem_take hk, mem_drop hk, List.take_append]
  rw [List.take_of_length_le (l := List.map some (List.take k l)) (by simp; omega)]
  rw [show m - (List.map some (List.take k l)).length = (l.length - k) + 1 by simp; omega]
  rw [List.take_succ_cons, List.take_take, Nat.min_eq_left hn, List.take_append_of_le_length (by simp),
    List.take_of_length_le (l := List.map some (List.drop k l)) (by simp)]
  simp

theorem map_some_eraseIdx (l : List NodeId) (j : Nat) :
    (l.map some).eraseIdx j = ((l.eraseIdx j).map some : List Slot) := by
  induction l generalizing j with
  | nil => simp
  | cons x xs ih => cases j <;> simp [ih]

/-- `Container_Insert` of a child that is in another container (or in none). -/
theorem insert_foreign {h : Heap} (w : WF h) {s c : NodeId} {i : Int} (hc : h.parent c ≠ some s)
    (hs : isContainer (h.kind s) = true) (hk : isChildKind (h.kind c) = true)
    (hns : ¬ AncS h c s) :
    containerInsert h s i c = .ok (link (freed h c) s
      ((h.kids s).take (clampWhere i (h.kids s).length) ++ c ::
        (h.kids s).drop (clampWhere i (h.kids s).length)) c) := by
  have he : ensureHierarchy h s c = some none := by
    rcases ensureHierarchy_spec w s c with ⟨e, _, h1 | h1 | h1⟩ | h1
    · simp [hs] at h1
    · simp [hk] at h1
    · exact absurd h1 hns
    · exact h1.1
  have hw := clampWhere_le i (h.kids s).length
  simp only [containerInsert, he, detach_foreign w hc hk]
  generalize clampWhere i (h.kids s).length = k at hw
  generalize h.kids s = l at *
  have := mem_insert (l := l) (z := [none] ++ List.replicate (l.length + 1 -
    (l.map some ++ [none] : List Slot).length) none) (k := k) (n := l.length - k)
    (m := (l.map some ++ [none] : List Slot).length) (c := c) hw (by simp) (by omega)
  rw [← List.append_assoc] at this
  simp only [commit, allSome_eq this, link]

theorem set_eq_map {l : List NodeId} (hn : l.Nodup) {i : Nat} {o : NodeId} (h : l[i]? = some o) (n : NodeId) :
    l.set i n = l.map (fun x => if x = o then n else x) := by
  induction l generalizing i with
  | nil => simp at h
  | cons x xs ih =>
    rw [List.nodup_cons] at hn
    cases i with
    | zero =>
      simp only [List.getElem?_cons_zero, Option.some.injEq] at h
      subst h
      simp only [List.set_cons_zero, List.map_cons, if_true]
      congr 1
      symm
      rw [List.map_congr_left (g := id), List.map_id]
      intro a ha
      have hax : a ≠ x := by rintro rfl; exact hn.1 ha
      rw [if_neg hax]; rfl
    | succ i =>
      simp only [List.getElem?_cons_succ] at h
      have : x ≠ o := fun hx => hn.1 (hx ▸ List.mem_of_getElem? h)
      simp [this, ih hn.2 h]

/-- Taking out later members does not change an index. -/
theorem filter_getElem {l : List NodeId} {i : Nat} {o n : NodeId} (h : l[i]? = some o) (hon : o ≠ n)
    (hl : ¬ ∃ k j : Nat, k < j ∧ l[k]? = some n ∧ l[j]? = some o) :
    (l.filter (· ≠ n))[i]? = some o := by
  induction l generalizing i with
  | nil => simp at h
  | cons x xs ih =>
    cases i with
    | zero =>
      simp only [List.getElem?_cons_zero, Option.some.injEq] at h
      subst h; simp [hon]
    | succ i =>
      simp only [List.getElem?_cons_succ] at h
      have hx : x ≠ n := fun hx => hl ⟨0, i + 1, by omega, by simp [hx], by simpa using h⟩
      simp only [List.filter_cons, ne_eq, hx, not_false_eq_true, decide_true, if_true,
        List.getElem?_cons_succ]
      refine ih h ?_
      rintro ⟨k, j, h1, h2, h3⟩
      exact hl ⟨k + 1, j + 1, by omega, by simpa using h2, by simpa using h3⟩

theorem replace_ok {h : Heap} (w : WF h) {s o n : NodeId} (ho : o ∈ h.kids s) (hon : o ≠ n)
    (hk : isChildKind (h.kind n) = true)
    (hl : ¬ ∃ k j : Nat, k < j ∧ (h.kids s)[k]? = some n ∧ (h.kids s)[j]? = some o) :
    containerReplace h s o n = .ok (link (unlink (freed h n) s o) s
      (((h.kids s).filter (· ≠ n)).map (fun x => if x = o then n else x)) n) ∧
    ∃ l1 l2, (unlink (freed h n) s o).kids s = l1 ++ l2 ∧
      ((h.kids s).filter (· ≠ n)).map (fun x => if x = o then n else x) = l1 ++ n :: l2 := by
  obtain ⟨i, hi⟩ := List.getElem?_of_mem ho
  have hi2 := filter_getElem hi hon hl
  have hset := set_eq_map ((w.nodup s).filter (· ≠ n)) hi2 n
  have hil := (List.getElem?_eq_some_iff.1 hi2).1
  have fin : ((((freed h n).setParent o none).setKids s (((freed h n).kids s).set i n)).setParent
      n (some s)) = link (unlink (freed h n) s o) s
      (((h.kids s).filter (· ≠ n)).map (fun x => if x = o then n else x)) n := by
    rw [freed_kids w, hset]
    unfold link unlink
    simp only [Heap.setParent, Heap.setKids]
    congr 1
    funext m; split <;> rfl
  constructor
  · rw [← fin]
    unfold containerReplace
    simp only [lastIdx_eq (w.nodup s) hi, if_neg hon]
    cases hp : h.parent n with
    | none => simp only [freed, hp]
    | some q =>
      simp only [containerRemove_ok w (w.parent_kids _ _ hp hk), freed, hp]
  · refine ⟨((h.kids s).filter (· ≠ n)).take i, ((h.kids s).filter (· ≠ n)).drop (i + 1), ?_, ?_⟩
    · have : (unlink (freed h n) s o).kids s = ((freed h n).kids s).filter (· ≠ o) := by
        simp [unlink, Heap.setKids]
      rw [this, freed_kids w, ← eraseIdx_eq_filter ((w.nodup s).filter _) hi2, List.eraseIdx_eq_take_drop_succ]
    · rw [← hset, List.set_eq_take_append_cons_drop, if_pos hil]

theorem wf_alloc {h : Heap} (w : WF h) (k : Kind) : WF (h.alloc k) := by
  have key : ∀ x y, (h.alloc k).parent x = some y ↔ h.parent x = some y := by
    intro x y
    simp only [Heap.alloc]
    split
    · rename_i hx; subst hx
      constructor
      · simp
      · intro hp; exact absurd (w.bounded _ _ hp).1 (by omega)
    · rfl
  have lt : ∀ x y, h.parent x = some y → x ≠ h.size ∧ y ≠ h.size := fun x y hp => by
    have := w.bounded _ _ hp; omega
  have kk : ∀ p, (h.alloc k).kids p = h.kids p := by
    intro p
    simp only [Heap.alloc]
    split
    · rename_i hx; subst hx
      cases hl : h.kids h.size with
      | nil => rfl
      | cons x xs => exact absurd rfl (lt _ _ (w.kids_parent h.size x (by simp [hl]))).2
    · rfl
  have kd : ∀ x, x ≠ h.size → (h.alloc k).kind x = h.kind x := fun x hx => by simp [Heap.alloc, hx]
  have an : ∀ a b, Anc (h.alloc k) a b → Anc h a b := by
    intro a b h1
    induction h1 with
    | parent hp => exact .parent ((key _ _).1 hp)
    | step _ hp ih => exact .step ih ((key _ _).1 hp)
  refine ⟨?_, ?_, ?_, ?_, ?_, ?_, ?_, ?_⟩
  · intro p c hc; rw [kk] at hc; rw [key]; exact w.kids_parent _ _ hc
  · intro p c hp hk; rw [key] at hp; rw [kk]
    rw [kd c (lt _ _ hp).1] at hk
    exact w.parent_kids _ _ hp hk
  · intro p; rw [kk]; exact w.nodup p
  · intro p c hc; rw [kk] at hc
    rw [kd c (lt _ _ (w.kids_parent _ _ hc)).1]; exact w.child_kind _ _ hc
  · intro p c hp; rw [key] at hp; rw [kd p (lt _ _ hp).2]; exact w.parent_kind _ _ hp
  · intro c hc
    by_cases hx : c = h.size
    · simp [Heap.alloc, hx]
    · rw [kd c hx] at hc
      have := w.entity_root c hc
      simp [Heap.alloc, hx, this]
  · intro a ha; exact w.acyclic a (an _ _ ha)
  · intro p c hp; rw [key] at hp
    have := w.bounded _ _ hp
    simp only [Heap.alloc]; omega

theorem wf_empty : WF Heap.empty := by
  refine ⟨?_, ?_, ?_, ?_, ?_, ?_, ?_, ?_⟩ <;> simp [Heap.empty]
  intro a ha
  cases ha <;> simp_all

theorem wf_owner {h : Heap} (w : WF h) {e a : NodeId} (he : h.kind e = .element)
    (ha : h.kind a = .attr ∨ h.kind a = .ns) (hes : e < h.size) (has : a < h.size) :
    WF (h.setOwner e a) := by
  have hac : isContainer (h.kind a) = false := by rcases ha with ha | ha <;> simp [ha, isContainer]
  have hak : isChildKind (h.kind a) = false := by rcases ha with ha | ha <;> simp [ha, isChildKind]
  have key : ∀ x y, (h.setOwner e a).parent x = some y →
      (x = a ∧ y = e) ∨ (x ≠ a ∧ h.parent x = some y) := by
    intro x y; simp only [Heap.setOwner, Heap.setParent]; split <;> simp_all
  have nota : ∀ x, h.parent x ≠ some a := fun x hx => by
    have := w.parent_kind _ _ hx; simp [hac] at this
  have an : ∀ x b, Anc (h.setOwner e a) x b → x ≠ a ∧ (b = a ∨ Anc h x b) := by
    intro x b h1
    induction h1 with
    | parent hp =>
      rcases key _ _ hp with ⟨rfl, rfl⟩ | ⟨_, hp⟩
      · exact ⟨by rintro rfl; simp [he] at ha, .inl rfl⟩
      · exact ⟨by rintro rfl; exact nota _ (by assumption), .inr (.parent (by assumption))⟩
    | step _ hp ih =>
      rcases key _ _ hp with ⟨rfl, rfl⟩ | ⟨_, hp⟩
      · exact ⟨ih.1, .inl rfl⟩
      · refine ⟨ih.1, .inr ?_⟩
        rcases ih.2 with h2 | h2
        · subst h2; exact absurd (by assumption) (nota _)
        · exact .step h2 hp
  refine ⟨?_, ?_, ?_, ?_, ?_, ?_, ?_, ?_⟩
  · intro p c hc
    have hc : c ∈ h.kids p := hc
    have hne : c ≠ a := by rintro rfl; have := w.child_kind _ _ hc; simp [hak] at this
    simp only [Heap.setOwner, Heap.setParent, if_neg hne]
    exact w.kids_parent _ _ hc
  · intro p c hp hk
    have hk : isChildKind (h.kind c) = true := hk
    rcases key _ _ hp with ⟨rfl, rfl⟩ | ⟨_, hp⟩
    · exact absurd (hak.symm.trans hk) (by decide)
    · exact w.parent_kids _ _ hp hk
  · exact w.nodup
  · exact w.child_kind
  · intro p c hp
    rcases key _ _ hp with ⟨rfl, rfl⟩ | ⟨_, hp⟩
    · show isContainer (h.kind p) = true
      simp [he, isContainer]
    · exact w.parent_kind _ _ hp
  · intro c hc
    have hc : h.kind c = .entity := hc
    have hne : c ≠ a := by
      intro hca; rw [← hca, hc] at ha; simp at ha
    simp only [Heap.setOwner, Heap.setParent, if_neg hne]
    exact w.entity_root c hc
  · intro x hx
    have := an x x hx
    rcases this.2 with h2 | h2
    · exact this.1 h2
    · exact w.acyclic x h2
  · intro p c hp
    rcases key _ _ hp with ⟨rfl, rfl⟩ | ⟨_, hp⟩
    · exact ⟨has, hes⟩
    · exact w.bounded _ _ hp

end Verif.Dom
