import Verif.XUpdate.Insert

/-
C71, the other commands: remove, update, rename.
-/
namespace Verif.XUpdate
open Verif Verif.Dom Verif.Dom.Spec Verif.XUpdate.Spec

/-! ### remove -/

/-- The nodes of `P` have been removed. -/
structure Removed (s s' : St) (ts : List NodeId) : Prop where
  size : s'.h.size = s.h.size
  kind : s'.h.kind = s.h.kind
  name : s'.name = s.name
  val : s'.val = s.val
  kids : ∀ p, s'.h.kids p = (s.h.kids p).filter (· ∉ ts)
  attrs : ∀ p, s'.attrs p = (s.attrs p).filter (· ∉ ts)
  parent : ∀ x, s'.h.parent x = if x ∈ ts then none else s.h.parent x

theorem wf_dropAttr {h : Heap} (w : WF h) {a : NodeId} (ha : h.kind a = .attr) : WF (h.setParent a none) := by
  have key : ∀ x y, (h.setParent a none).parent x = some y → h.parent x = some y := by
    intro x y hxy
    simp only [Heap.setParent] at hxy
    split at hxy
    · cases hxy
    · exact hxy
  have anc : ∀ {x y}, Anc (h.setParent a none) x y → Anc h x y := by
    intro x y hxy
    induction hxy with
    | parent hp => exact .parent (key _ _ hp)
    | step _ hp ih => exact .step ih (key _ _ hp)
  refine ⟨?_, ?_, w.nodup, w.child_kind, fun p c hc => w.parent_kind p c (key _ _ hc), ?_, ?_, ?_⟩
  · intro p c hc
    have hca : c ≠ a := by
      rintro rfl
      have := w.child_kind p c hc
      rw [ha] at this
      cases this
    simp only [Heap.setParent, if_neg hca]
    exact w.kids_parent p c hc
  · exact fun p c hc hk => w.parent_kids p c (key _ _ hc) hk
  · intro c hc
    simp only [Heap.setParent]
    split
    · rfl
    · exact w.entity_root c hc
  · exact fun x hx => w.acyclic x (anc hx)
  · exact fun p c hc => w.bounded p c (key _ _ hc)

theorem filter_keep {l : List NodeId} {t : NodeId} (h : t ∉ l) : l.filter (· ∉ [t]) = l := by
  rw [List.filter_eq_self]
  intro a ha
  simp
  rintro rfl
  exact h ha

theorem removeOne_spec {s : St} (o : Ok s) {t : NodeId} (hk : s.h.kind t ≠ .ns) :
    ∃ s', removeOne s t = .ok s' ∧ Ok s' ∧ Removed s s' [t] := by
  cases hp : s.h.parent t with
  | none =>
    refine ⟨s, by rw [removeOne, hp], o, rfl, rfl, rfl, rfl, ?_, ?_, ?_⟩
    · intro p
      refine (filter_keep fun h => ?_).symm
      rw [o.wf.kids_parent _ _ h] at hp
      cases hp
    · intro p
      refine (filter_keep fun h => ?_).symm
      rw [((o.attr _ _).mp h).2] at hp
      cases hp
    · intro x
      by_cases hx : x = t
      · subst hx; simp [hp]
      · simp [hx]
  | some p =>
    by_cases ha : s.h.kind t = .attr
    · refine ⟨delAttr s p t, by rw [removeOne, hp]; simp only [ha, if_true], ⟨wf_dropAttr o.wf ha, ?_, ?_⟩, rfl, rfl, rfl,
        rfl, ?_, ?_, ?_⟩
      · intro e a
        simp only [delAttr, Heap.setParent]
        have := o.attr e a
        by_cases hat : a = t
        · subst hat
          rw [if_pos rfl]
          constructor
          · intro h
            split at h
            · simp at h
            · rename_i hep
              rw [this, hp] at h
              injection h.2 with h
              exact absurd h.symm hep
          · rintro ⟨_, h⟩; cases h
        · rw [if_neg hat, ← this]
          split
          · simp [hat]
          · rfl
      · intro e
        simp only [delAttr]
        split
        · exact (o.nodup e).filter _
        · exact o.nodup e
      · intro q
        refine (filter_keep fun h => ?_).symm
        have := o.wf.child_kind _ _ h
        rw [ha] at this
        cases this
      · intro q
        simp only [delAttr]
        split
        · apply List.filter_congr; intro x _; simp
        · rename_i hq
          refine (filter_keep fun h => ?_).symm
          rw [((o.attr _ _).mp h).2] at hp
          injection hp with hp
          exact hq hp
      · intro x
        by_cases hx : x = t
        · subst hx; simp [delAttr, Heap.setParent]
        · simp [delAttr, Heap.setParent, hx]
    · have hck : isChildKind (s.h.kind t) = true := by
        cases hkk : s.h.kind t with
        | attr => exact absurd hkk ha
        | ns => exact absurd hkk hk
        | entity => rw [o.wf.entity_root t hkk] at hp; cases hp
        | _ => rfl
      have hm := o.wf.parent_kids _ _ hp hck
      obtain ⟨e1, o1⟩ := unlink_ok o hm
      refine ⟨_, by rw [removeOne, hp]; simp only [ha, if_false]; exact e1, o1, rfl, rfl, rfl, rfl, ?_, ?_, ?_⟩
      · intro q
        simp only [unlink, Heap.setParent, Heap.setKids]
        split
        · rename_i hq
          subst hq
          apply List.filter_congr; intro x _; simp
        · rename_i hq
          refine (filter_keep fun h => ?_).symm
          rw [o.wf.kids_parent _ _ h] at hp
          injection hp with hp
          exact hq hp
      · intro q
        refine (filter_keep fun h => ?_).symm
        exact ha ((o.attr _ _).mp h).1
      · intro x
        by_cases hx : x = t
        · subst hx; simp [unlink, Heap.setParent, Heap.setKids]
        · simp [unlink, Heap.setParent, Heap.setKids, hx]

theorem remove_all : ∀ (ts : List NodeId) {s : St}, Ok s → (∀ t ∈ ts, s.h.kind t ≠ .ns) →
    ∃ s', forEach removeOne ts s = .ok s' ∧ Ok s' ∧ Removed s s' ts := by
  intro ts
  induction ts with
  | nil =>
    intro s o _
    refine ⟨s, rfl, o, rfl, rfl, rfl, rfl, ?_, ?_, ?_⟩
    · exact fun x => (List.filter_eq_self.mpr (by simp)).symm
    · exact fun x => (List.filter_eq_self.mpr (by simp)).symm
    · intro x; simp
  | cons t ts ih =>
    intro s o hk
    obtain ⟨s1, e1, o1, r1⟩ := removeOne_spec o (hk t (.head _))
    obtain ⟨s2, e2, o2, r2⟩ := ih o1 (fun x hx => by rw [r1.kind]; exact hk x (.tail _ hx))
    refine ⟨s2, by rw [forEach, e1]; exact e2, o2, r2.size.trans r1.size, r2.kind.trans r1.kind, r2.name.trans r1.name,
      r2.val.trans r1.val, ?_, ?_, ?_⟩
    · intro p
      rw [r2.kids, r1.kids, List.filter_filter]
      apply List.filter_congr
      intro x _
      by_cases h1 : x = t <;> by_cases h2 : x ∈ ts <;> simp [h1, h2]
    · intro p
      rw [r2.attrs, r1.attrs, List.filter_filter]
      apply List.filter_congr
      intro x _
      by_cases h1 : x = t <;> by_cases h2 : x ∈ ts <;> simp [h1, h2]
    · intro x
      rw [r2.parent, r1.parent]
      by_cases h1 : x = t <;> by_cases h2 : x ∈ ts <;> simp [h1, h2]

/-! ### update -/

/-- What an update of `ts` with the text `v` changes, but for the children of elements. -/
structure Updated (s s' : St) (ts : List NodeId) (v : Str) : Prop where
  size : s.h.size ≤ s'.h.size
  kind : ∀ x, x < s.h.size → s'.h.kind x = s.h.kind x
  name : ∀ x, x < s.h.size → s'.name x = s.name x
  attrs : ∀ x, x < s.h.size → s'.attrs x = s.attrs x
  val : ∀ x, x < s.h.size → s'.val x = if x ∈ ts ∧ s.h.kind x ≠ .element then v else s.val x
  kids : ∀ x, x < s.h.size → x ∉ ts → s'.h.kids x = s.h.kids x
  gone : ∀ t ∈ ts, ∀ x ∈ s.h.kids t, s'.h.parent x = none
  parent : ∀ x, x < s.h.size → (∀ t ∈ ts, x ∉ s.h.kids t) → s'.h.parent x = s.h.parent x

/-- The kinds of nodes that can be updated. -/
def updatable : Kind → Bool
  | .element | .attr | .comment | .text => true
  | _ => false

theorem updateOne_spec {s : St} (o : Ok s) {items : List Item} (hv : ValidAll (trees items)) {t : NodeId}
    (ht : t < s.h.size) (hk : updatable (s.h.kind t) = true) {content : Content} {str : St → Except Err Str}
    (hcont : content s = .ok items) {c : Char} {v : Str} (hstr : str s = .ok (c :: v)) :
    ∃ s', updateOne content str s t = .ok s' ∧ Ok s' ∧ Updated s s' [t] (c :: v) ∧
      (s.h.kind t = .element → HoldsAllR s.h.size s'.h.size s' (trees items) (s'.h.kids t)) := by
  have leaf : ∀ (_ : s.h.kind t ≠ .element) (_ : isContainer (s.h.kind t) = false),
      Ok (s.setVal t (c :: v)) ∧ Updated s (s.setVal t (c :: v)) [t] (c :: v) := by
    intro h1 h2
    have hkids : s.h.kids t = [] := by
      cases hk : s.h.kids t with
      | nil => rfl
      | cons x l =>
        have := o.wf.parent_kind _ _ (o.wf.kids_parent t x (by rw [hk]; exact .head _))
        rw [h2] at this; cases this
    refine ⟨⟨o.wf, o.attr, o.nodup⟩, Nat.le_refl _, fun _ _ => rfl, fun _ _ => rfl, fun _ _ => rfl, ?_, fun _ _ _ => rfl,
      ?_, fun _ _ _ => rfl⟩
    · intro x _
      simp only [St.setVal]
      by_cases hx : x = t
      · subst hx; simp [h1]
      · simp [hx]
    · intro u hu x hx
      simp at hu
      subst hu
      rw [hkids] at hx
      cases hx
  cases hkk : s.h.kind t with
  | entity => rw [hkk] at hk; cases hk
  | pi => rw [hkk] at hk; cases hk
  | ns => rw [hkk] at hk; cases hk
  | attr =>
    obtain ⟨a, b⟩ := leaf (by rw [hkk]; nofun) (by rw [hkk]; rfl)
    exact ⟨_, by rw [updateOne, hkk]; dsimp only; rw [hstr], a, b, nofun⟩
  | comment =>
    obtain ⟨a, b⟩ := leaf (by rw [hkk]; nofun) (by rw [hkk]; rfl)
    exact ⟨_, by rw [updateOne, hkk]; dsimp only; rw [hstr], a, b, nofun⟩
  | text =>
    obtain ⟨a, b⟩ := leaf (by rw [hkk]; nofun) (by rw [hkk]; rfl)
    exact ⟨_, by rw [updateOne, hkk]; dsimp only; rw [hstr], a, b, nofun⟩
  | element =>
    obtain ⟨s1, new, e1, o1, k1, kk, hz, ke, kn, ho⟩ := fragment_spec o items hv
    have hr := HoldsAllR.range ho
    obtain ⟨s2, e2, o2, c2⟩ := clear_spec (t := t) (s1.h.kids t) (f := (s1.h.kids t).length + 1) o1 rfl (by omega)
    have hne : s.h.size ≠ t := Nat.ne_of_gt ht
    have hkn2 : s2.h.kids s.h.size = new := by rw [c2.kids _ hne]; exact kn
    have hcsmall : ∀ x ∈ s1.h.kids t, x < s.h.size := by
      intro x hx
      rw [kk t ht] at hx
      exact (o.wf.bounded _ _ (o.wf.kids_parent _ _ hx)).1
    obtain ⟨s', r1, r2, r3, r4⟩ := moveAll_spec (p := t) (tr := s.h.size) (ref := none) (fun x => x < s.h.size) hne ht
      new (s := s2) (l1 := []) (l2 := []) (f := (s2.h.kids s.h.size).length + 1) o2 hkn2 c2.empty rfl
      (by rw [c2.size]; omega) (by rw [c2.kind, k1.kind t ht, hkk]; rfl)
      (by
        intro x y hx hxy
        by_cases hxc : x ∈ s1.h.kids t
        · rw [c2.removed x hxc] at hxy; cases hxy
        · rw [c2.parent x hxc, k1.parent x hx] at hxy
          exact (o.wf.bounded _ _ hxy).2)
      (fun x hx => by have := hr x hx; omega) (by rw [hkn2]; omega)
    refine ⟨s', ?_, r2, ⟨?_, ?_, ?_, ?_, ?_, ?_, ?_, ?_⟩, ?_⟩
    · rw [updateOne, hkk]
      dsimp only
      rw [hcont]
      dsimp only
      rw [e1]
      dsimp only
      rw [e2]
      exact r1
    · rw [r3.size, c2.size]; exact k1.size
    · intro x hx; rw [r3.kind, c2.kind]; exact k1.kind x hx
    · intro x hx; rw [r3.name, c2.name]; exact k1.name x hx
    · intro x hx; rw [r3.attrs, c2.attrs]; exact k1.attrs x hx
    · intro x hx
      rw [r3.val, c2.val, k1.val x hx]
      by_cases hxt : x = t
      · subst hxt; simp [hkk]
      · simp [hxt]
    · intro x hx hxt
      simp at hxt
      rw [r3.kids x hxt (Nat.ne_of_lt hx), c2.kids x hxt]
      exact kk x hx
    · intro u hu x hx
      simp at hu
      subst hu
      rw [← kk u ht] at hx
      have := hcsmall x hx
      rw [r3.parent x (fun h => by have := hr x h; omega)]
      exact c2.removed x hx
    · intro x hx hxt
      have hxc : x ∉ s1.h.kids t := by rw [kk t ht]; exact hxt t (.head _)
      rw [r3.parent x (fun h => by have := hr x h; omega), c2.parent x hxc]
      exact k1.parent x hx
    · intro _
      rw [r4]
      simp only [List.nil_append, List.append_nil]
      refine HoldsAllR.congr (by omega) (by rw [r3.size, c2.size]; exact Nat.le_refl _) ?_ ho
      intro x hx1 hx2
      exact ⟨by rw [r3.kind, c2.kind], by rw [r3.name, c2.name], by rw [r3.val, c2.val], by rw [r3.attrs, c2.attrs],
        by rw [r3.kids x (by omega) (by omega), c2.kids x (by omega)]⟩

theorem update_all {items : List Item} (hv : ValidAll (trees items)) {content : Content} {str : St → Except Err Str}
    (hcont : ∀ s, content s = .ok items) {c : Char} {v : Str} (hstr : ∀ s, str s = .ok (c :: v)) :
    ∀ (ts : List NodeId) {s : St}, Ok s → ts.Nodup → (∀ t ∈ ts, t < s.h.size ∧ updatable (s.h.kind t) = true) →
    ∃ s', forEach (updateOne content str) ts s = .ok s' ∧ Ok s' ∧ Updated s s' ts (c :: v) ∧
      (∀ t ∈ ts, s.h.kind t = .element → HoldsAllR s.h.size s'.h.size s' (trees items) (s'.h.kids t)) := by
  intro ts
  induction ts with
  | nil =>
    intro s o _ _
    refine ⟨s, rfl, o, ⟨Nat.le_refl _, fun _ _ => rfl, fun _ _ => rfl, fun _ _ => rfl, fun _ _ => by simp, fun _ _ _ => rfl,
      nofun, fun _ _ _ => rfl⟩, nofun⟩
  | cons t ts ih =>
    intro s o hn hts
    obtain ⟨hn1, hn2⟩ := List.nodup_cons.mp hn
    obtain ⟨ht, hk⟩ := hts t (.head _)
    obtain ⟨s1, e1, o1, u1, h1⟩ := updateOne_spec o hv ht hk (hcont s) (hstr s)
    have z1 := u1.size
    obtain ⟨s2, e2, o2, u2, h2⟩ := ih o1 hn2 (fun x hx => by
      obtain ⟨a, b⟩ := hts x (.tail _ hx)
      exact ⟨by omega, by rw [u1.kind x a]; exact b⟩)
    have z2 := u2.size
    have ne : ∀ x ∈ ts, x ≠ t := by rintro x hx rfl; exact hn1 hx
    have k1 : ∀ x ∈ ts, s1.h.kids x = s.h.kids x := fun x hx =>
      u1.kids x (hts x (.tail _ hx)).1 (by simp [ne x hx])
    have small : ∀ p x, x ∈ s.h.kids p → x < s.h.size := fun p x hx =>
      (o.wf.bounded _ _ (o.wf.kids_parent _ _ hx)).1
    refine ⟨s2, by rw [forEach, e1]; exact e2, o2, ⟨by omega, ?_, ?_, ?_, ?_, ?_, ?_, ?_⟩, ?_⟩
    · intro x hx; rw [u2.kind x (by omega), u1.kind x hx]
    · intro x hx; rw [u2.name x (by omega), u1.name x hx]
    · intro x hx; rw [u2.attrs x (by omega), u1.attrs x hx]
    · intro x hx
      rw [u2.val x (by omega), u1.val x hx, u1.kind x hx]
      by_cases d : s.h.kind x = .element
      · simp [d]
      · by_cases a : x = t
        · subst a; simp [d]
        · by_cases b : x ∈ ts <;> simp [a, b, d]
    · intro x hx hxt
      rw [List.mem_cons, not_or] at hxt
      rw [u2.kids x (by omega) hxt.2, u1.kids x hx (by simp [hxt.1])]
    · intro u hu x hx
      rcases List.mem_cons.mp hu with h | h
      · subst h
        have a := u1.gone u (.head _) x hx
        -- removed by the first step; a later one does not give it a parent again
        have hns : ∀ w ∈ ts, x ∉ s1.h.kids w := by
          intro w hw hxw
          rw [k1 w hw] at hxw
          have b := o.wf.kids_parent _ _ hxw
          rw [o.wf.kids_parent _ _ hx] at b
          injection b with b
          exact ne w hw b.symm
        rw [u2.parent x (by have := small u x hx; omega) hns]
        exact a
      · exact u2.gone u h x (by rw [k1 u h]; exact hx)
    · intro x hx hxt
      rw [u2.parent x (by omega) (fun w hw hxw => hxt w (.tail _ hw) (by rw [← k1 w hw]; exact hxw)),
        u1.parent x hx (fun w hw => by
          simp at hw
          subst hw
          exact hxt w (.head _))]
    · intro x hx hxe
      rcases List.mem_cons.mp hx with h | h
      · subst h
        rw [u2.kids x (by omega) hn1]
        refine HoldsAllR.congr (Nat.le_refl _) z2 ?_ (h1 hxe)
        intro y hy1 hy2
        have hyt : y ∉ ts := fun h => by have := (hts y (.tail _ h)).1; omega
        exact ⟨u2.kind y hy2, u2.name y hy2, by rw [u2.val y hy2]; simp [hyt], u2.attrs y hy2, u2.kids y hy2 hyt⟩
      · have := h2 x h (by rw [u1.kind x (hts x hx).1]; exact hxe)
        exact HoldsAllR.congr z1 (Nat.le_refl _) (fun _ _ _ => ⟨rfl, rfl, rfl, rfl, rfl⟩) this

end Verif.XUpdate
