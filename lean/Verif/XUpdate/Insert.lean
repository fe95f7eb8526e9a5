import Verif.XUpdate.Move

/-
C71, the commands that add nodes: append, insert-before, insert-after.
-/
namespace Verif.XUpdate
open Verif Verif.Dom Verif.Dom.Spec Verif.XUpdate.Spec

/-- Content put between `l1` and `l2` in the children of `p`. -/
theorem put_spec {s : St} (o : Ok s) {items : List Item} (hv : ValidAll (trees items)) {p : NodeId}
    (hp : p < s.h.size) (hc : isContainer (s.h.kind p) = true) {l1 l2 : List NodeId}
    (hl : s.h.kids p = l1 ++ l2) :
    ∃ s1 s' new, fragment s items = .ok s1 ∧ s1.h.kids p = l1 ++ l2 ∧ Ok s1 ∧ Keeps s s1 ∧
      moveAll (insertAt p l2.head?) s.h.size ((s1.h.kids s.h.size).length + 1) s1 = .ok s' ∧
      s1.h.kids s.h.size = new ∧
      Ok s' ∧ Written s s' p ∧ s'.h.kids p = l1 ++ (new ++ l2) ∧
      HoldsAllR s.h.size s'.h.size s' (trees items) new := by
  obtain ⟨s1, new, e1, o1, k1, kk, hz, ke, kn, ho⟩ := fragment_spec o items hv
  have hne : s.h.size ≠ p := Nat.ne_of_gt hp
  have hr := HoldsAllR.range ho
  obtain ⟨s', r1, r2, r3, r4⟩ := moveAll_spec (p := p) (tr := s.h.size) (ref := l2.head?)
    (fun x => x < s.h.size) hne hp new (s := s1) (l1 := l1) (l2 := l2)
    (f := (s1.h.kids s.h.size).length + 1) o1 kn (by rw [kk p hp]; exact hl) rfl (by omega)
    (by rw [k1.kind p hp]; exact hc)
    (fun x y hx hxy => (o.wf.bounded y x (by rw [← k1.parent x hx]; exact hxy)).2)
    (fun c hcn => by have := hr c hcn; omega) (by rw [kn]; omega)
  refine ⟨s1, s', new, e1, by rw [kk p hp]; exact hl, o1, k1, r1, kn, r2, ⟨⟨?_, ?_, ?_, ?_, ?_, ?_⟩, ?_⟩, r4, ?_⟩
  · rw [r3.size]; exact k1.size
  · intro x hx; rw [r3.kind]; exact k1.kind x hx
  · intro x hx
    rw [r3.parent x (fun h => by have := hr x h; omega)]
    exact k1.parent x hx
  · intro x hx; rw [r3.name]; exact k1.name x hx
  · intro x hx; rw [r3.val]; exact k1.val x hx
  · intro x hx; rw [r3.attrs]; exact k1.attrs x hx
  · intro x hx hxp
    rw [r3.kids x hxp (Nat.ne_of_lt hx)]
    exact kk x hx
  · refine HoldsAllR.congr (by omega) (by rw [r3.size]; exact Nat.le_refl _) ?_ ho
    intro x hx1 hx2
    exact ⟨by rw [r3.kind], by rw [r3.name], by rw [r3.val], by rw [r3.attrs],
      r3.kids x (by omega) (by omega)⟩

end Verif.XUpdate

namespace Verif.XUpdate.Spec
open Verif Verif.Dom Verif.XUpdate

/-- The number of children that come before the content, for the `child` attribute (if there is one)
and a target with `n` children. -/
def slot : Option Int → Nat → Option Nat
  | none, n => some n
  | some i, n =>
    if (n : Int) ≤ i then some n
    else if 0 ≤ i then some i.toNat
    else if 0 ≤ i + n then some (i + n).toNat
    else none

end Verif.XUpdate.Spec

namespace Verif.XUpdate
open Verif Verif.Dom Verif.Dom.Spec Verif.XUpdate.Spec

theorem childAt_spec {l : List NodeId} {i : Int} {k : Nat} (h : slot (some i) l.length = some k) :
    k ≤ l.length ∧ childAt l i = .ok (l.drop k).head? := by
  have hd : ∀ k, (l.drop k).head? = l[k]? := by intro k; rw [List.head?_drop]
  rw [slot] at h
  unfold childAt
  split at h
  · rename_i h1
    injection h with h
    subst h
    refine ⟨Nat.le_refl _, ?_⟩
    rw [if_neg (by omega)]; simp
  · rename_i h1
    rw [if_pos (by omega), hd]
    split at h
    · rename_i h2
      injection h with h
      subst h
      refine ⟨by omega, ?_⟩
      rw [if_pos h2]
    · rename_i h2
      rw [if_neg h2]
      split at h
      · rename_i h3
        injection h with h
        subst h
        refine ⟨by omega, ?_⟩
        rw [if_pos h3]
      · cases h

/-- The `child` attribute as a function of the state. -/
def constChild (child : Option Int) : Option (St → NodeId → Except Err Int) :=
  child.map fun i _ _ => .ok i

theorem appendTo_spec {s : St} (o : Ok s) {items : List Item} (hv : ValidAll (trees items)) {t : NodeId}
    (ht : t < s.h.size) (hc : isContainer (s.h.kind t) = true) {content : Content}
    (hcont : content s = .ok items) {child : Option Int} {k : Nat}
    (hk : slot child (s.h.kids t).length = some k) :
    ∃ s' new, appendTo content (constChild child) s t = .ok s' ∧ Ok s' ∧ Written s s' t ∧
      s'.h.kids t = (s.h.kids t).take k ++ (new ++ (s.h.kids t).drop k) ∧
      HoldsAllR s.h.size s'.h.size s' (trees items) new := by
  obtain ⟨s1, s', new, e1, k1, _, _, r1, kn, r2, r3, r4, r5⟩ := put_spec o hv ht hc
    (l1 := (s.h.kids t).take k) (l2 := (s.h.kids t).drop k) (List.take_append_drop _ _).symm
  refine ⟨s', new, ?_, r2, r3, r4, r5⟩
  have href : refNode (constChild child) s1 t = .ok ((s.h.kids t).drop k).head? := by
    cases child with
    | none =>
      unfold slot at hk
      injection hk with hk
      subst hk
      simp [refNode, constChild]
    | some i =>
      show childAt (s1.h.kids t) i = _
      rw [k1, List.take_append_drop]
      exact (childAt_spec hk).2
  rw [appendTo, hcont]
  dsimp only
  rw [e1]
  dsimp only
  rw [href]
  exact r1

theorem append_all {items : List Item} (hv : ValidAll (trees items)) {content : Content}
    (hcont : ∀ s, content s = .ok items) (child : Option Int) : ∀ (ts : List NodeId) {s : St}, Ok s → ts.Nodup →
    (∀ t ∈ ts, t < s.h.size ∧ isContainer (s.h.kind t) = true ∧
      (slot child (s.h.kids t).length).isSome = true) →
    ∃ s', forEach (appendTo content (constChild child)) ts s = .ok s' ∧ Ok s' ∧ Keeps s s' ∧
      (∀ t ∈ ts, ∃ k new, slot child (s.h.kids t).length = some k ∧
        s'.h.kids t = (s.h.kids t).take k ++ (new ++ (s.h.kids t).drop k) ∧
        HoldsAllR s.h.size s'.h.size s' (trees items) new) ∧
      (∀ x, x < s.h.size → x ∉ ts → s'.h.kids x = s.h.kids x) := by
  intro ts
  induction ts with
  | nil =>
    intro s o _ _
    exact ⟨s, rfl, o, Keeps.refl s, nofun, fun _ _ _ => rfl⟩
  | cons t ts ih =>
    intro s o hn hts
    obtain ⟨hn1, hn2⟩ := List.nodup_cons.mp hn
    obtain ⟨ht, hc, hk⟩ := hts t (.head _)
    obtain ⟨k, hk⟩ := Option.isSome_iff_exists.mp hk
    obtain ⟨s1, new, e1, o1, w1, k1, h1⟩ := appendTo_spec o hv ht hc (hcont s) hk
    have z1 := w1.keeps.size
    obtain ⟨s', e2, o2, w2, k2, k3⟩ := ih o1 hn2 (fun x hx => by
      obtain ⟨a, b, c⟩ := hts x (.tail _ hx)
      have hxt : x ≠ t := by rintro rfl; exact hn1 hx
      exact ⟨by omega, by rw [w1.keeps.kind x a]; exact b, by rw [w1.kids x a hxt]; exact c⟩)
    have z2 := w2.size
    refine ⟨s', by rw [forEach, e1]; exact e2, o2, Keeps.trans w1.keeps w2, ?_, ?_⟩
    · intro x hx
      rcases List.mem_cons.mp hx with h | h
      · subst h
        refine ⟨k, new, hk, by rw [k3 x (by omega) hn1]; exact k1, ?_⟩
        refine HoldsAllR.congr (Nat.le_refl _) z2 ?_ h1
        intro y hy1 hy2
        refine ⟨w2.kind y hy2, w2.name y hy2, w2.val y hy2, w2.attrs y hy2, k3 y hy2 ?_⟩
        intro hy
        have := (hts y (.tail _ hy)).1
        omega
      · obtain ⟨a, _, _⟩ := hts x hx
        have hxt : x ≠ t := by rintro rfl; exact hn1 h
        obtain ⟨k', new', b1, b2, b3⟩ := k2 x h
        rw [w1.kids x a hxt] at b1 b2
        exact ⟨k', new', b1, b2, HoldsAllR.congr z1 (Nat.le_refl _) (fun _ _ _ => ⟨rfl, rfl, rfl, rfl, rfl⟩) b3⟩
    · intro x hx hxt
      rw [List.mem_cons, not_or] at hxt
      rw [k3 x (by omega) hxt.2, w1.kids x hx hxt.1]

/-! ### insert-before, insert-after -/

theorem flatMap_self {l : List NodeId} {f : NodeId → List NodeId} (h : ∀ x ∈ l, f x = [x]) : l.flatMap f = l := by
  induction l with
  | nil => rfl
  | cons a l ih =>
    rw [List.flatMap_cons, h a (.head _), ih (fun x hx => h x (.tail _ hx))]
    rfl

/-- Where the content goes: in front of or behind the target. -/
def around (back : Bool) (new : List NodeId) (t : NodeId) : List NodeId :=
  if back then t :: new else new ++ [t]

theorem mem_around {back : Bool} {new : List NodeId} {t x : NodeId} (h : x ∈ around back new t) :
    x ∈ new ∨ x = t := by
  unfold around at h
  split at h
  · rcases List.mem_cons.mp h with h | h
    · exact .inr h
    · exact .inl h
  · simpa using h

/-- The two commands. -/
def besideRef (back : Bool) : Heap → NodeId → Except Err (Option NodeId) :=
  if back then after else fun _ t => .ok (some t)

theorem beside_spec {s : St} (o : Ok s) {items : List Item} (hv : ValidAll (trees items)) {t p : NodeId}
    (ht : t ∈ s.h.kids p) {content : Content} (hcont : content s = .ok items) (back : Bool) :
    ∃ s' new, beside content (besideRef back) s t = .ok s' ∧ Ok s' ∧ Written s s' p ∧
      s'.h.kids p = (s.h.kids p).flatMap (fun k => if k = t then around back new k else [k]) ∧
      HoldsAllR s.h.size s'.h.size s' (trees items) new := by
  obtain ⟨l1, l2, hl⟩ := List.append_of_mem ht
  have hpar := o.wf.kids_parent _ _ ht
  obtain ⟨hts, hps⟩ := o.wf.bounded _ _ hpar
  have hpc := o.wf.parent_kind _ _ hpar
  have hnd := o.wf.nodup p
  rw [hl, List.nodup_append, List.nodup_cons] at hnd
  have hm1 : ∀ x ∈ l1, x ≠ t := fun x hx => hnd.2.2 x hx t (.head _)
  have hm2 : ∀ x ∈ l2, x ≠ t := fun x hx h => hnd.2.1.1 (h ▸ hx)
  have hflat : ∀ new, (s.h.kids p).flatMap (fun k => if k = t then around back new k else [k]) =
      l1 ++ (around back new t ++ l2) := by
    intro new
    rw [hl, List.flatMap_append, List.flatMap_cons, if_pos rfl,
      flatMap_self (fun x hx => if_neg (hm1 x hx)), flatMap_self (fun x hx => if_neg (hm2 x hx))]
  cases back with
  | false =>
    obtain ⟨s1, s', new, e1, k1, _, kp, r1, kn, r2, r3, r4, r5⟩ := put_spec o hv hps hpc (l1 := l1) (l2 := t :: l2) hl
    refine ⟨s', new, ?_, r2, r3, ?_, r5⟩
    · rw [beside, hcont]
      dsimp only
      rw [e1]
      simp only [besideRef, Bool.false_eq_true, if_false]
      rw [kp.parent t hts, hpar]
      exact r1
    · rw [hflat, r4]; simp [around]
  | true =>
    obtain ⟨s1, s', new, e1, k1, o1, kp, r1, kn, r2, r3, r4, r5⟩ := put_spec o hv hps hpc (l1 := l1 ++ [t]) (l2 := l2)
      (by rw [hl]; simp)
    refine ⟨s', new, ?_, r2, r3, ?_, r5⟩
    · have hf : after s1.h t = .ok l2.head? := by
        rw [after, followingSibling_eq o1.wf (p := p) (pre := l1) (post := l2) (by rw [k1]; simp)]
      rw [beside, hcont]
      dsimp only
      rw [e1]
      simp only [besideRef, if_true]
      rw [hf]
      dsimp only
      rw [kp.parent t hts, hpar]
      exact r1
    · rw [hflat, r4]; simp [around]

theorem beside_all {items : List Item} (hv : ValidAll (trees items)) {content : Content}
    (hcont : ∀ s, content s = .ok items) (back : Bool) : ∀ (ts : List NodeId) {s : St}, Ok s → ts.Nodup →
    (∀ t ∈ ts, ∃ p, t ∈ s.h.kids p) →
    ∃ (s' : St) (new : NodeId → List NodeId), forEach (beside content (besideRef back)) ts s = .ok s' ∧ Ok s' ∧
      Keeps s s' ∧
      (∀ p, p < s.h.size → s'.h.kids p =
        (s.h.kids p).flatMap (fun k => if k ∈ ts then around back (new k) k else [k])) ∧
      (∀ t ∈ ts, HoldsAllR s.h.size s'.h.size s' (trees items) (new t)) := by
  intro ts
  induction ts with
  | nil =>
    intro s o _ _
    refine ⟨s, fun _ => [], rfl, o, Keeps.refl s, ?_, nofun⟩
    intro p _
    exact (flatMap_self (fun x _ => if_neg (by simp))).symm
  | cons t ts ih =>
    intro s o hn hts
    obtain ⟨hn1, hn2⟩ := List.nodup_cons.mp hn
    obtain ⟨p, hp⟩ := hts t (.head _)
    have hps := (o.wf.bounded _ _ (o.wf.kids_parent _ _ hp)).2
    obtain ⟨s1, nw, e1, o1, w1, k1, h1⟩ := beside_spec o hv hp (hcont s) back
    have z1 := w1.keeps.size
    have small : ∀ x ∈ t :: ts, x < s.h.size := fun x hx => by
      obtain ⟨q, hq⟩ := hts x hx
      exact (o.wf.bounded _ _ (o.wf.kids_parent _ _ hq)).1
    have hkids1 : ∀ q, q < s.h.size → s1.h.kids q =
        (s.h.kids q).flatMap (fun k => if k = t then around back nw k else [k]) := by
      intro q hq
      by_cases hqp : q = p
      · rw [hqp]; exact k1
      · rw [w1.kids q hq hqp]
        refine (flatMap_self fun x hx => if_neg ?_).symm
        rintro rfl
        have a := o.wf.kids_parent _ _ hx
        rw [o.wf.kids_parent _ _ hp] at a
        injection a with a
        exact hqp a.symm
    obtain ⟨s', new, e2, o2, w2, k2, k3⟩ := ih o1 hn2 (fun x hx => by
      obtain ⟨q, hq⟩ := hts x (.tail _ hx)
      refine ⟨q, ?_⟩
      rw [hkids1 q (o.wf.bounded _ _ (o.wf.kids_parent _ _ hq)).2, List.mem_flatMap]
      refine ⟨x, hq, ?_⟩
      rw [if_neg (by rintro rfl; exact hn1 hx)]
      exact .head _)
    have z2 := w2.size
    have hrange := HoldsAllR.range h1
    refine ⟨s', fun k => if k = t then nw else new k, by rw [forEach, e1]; exact e2, o2, Keeps.trans w1.keeps w2, ?_, ?_⟩
    · intro q hq
      rw [k2 q (by omega), hkids1 q hq, List.flatMap_assoc]
      congr 1
      funext k
      by_cases hk : k = t
      · subst hk
        rw [if_pos rfl, if_pos (.head _)]
        dsimp only
        rw [if_pos rfl]
        refine flatMap_self fun x hx => if_neg ?_
        rcases mem_around hx with h | h
        · intro hxt
          have := small x (.tail _ hxt)
          have := hrange x h
          omega
        · subst h; exact hn1
      · rw [if_neg hk]
        dsimp only
        rw [if_neg hk, List.flatMap_cons, List.flatMap_nil, List.append_nil]
        simp [hk]
    · intro x hx
      rcases List.mem_cons.mp hx with h | h
      · subst h
        dsimp only
        rw [if_pos rfl]
        refine HoldsAllR.congr (Nat.le_refl _) z2 ?_ h1
        intro y hy1 hy2
        refine ⟨w2.kind y hy2, w2.name y hy2, w2.val y hy2, w2.attrs y hy2, ?_⟩
        rw [k2 y hy2]
        refine flatMap_self fun z hz => if_neg ?_
        intro hzt
        -- a child of a new node is not a target: its parent is new
        have a := o1.wf.kids_parent _ _ hz
        obtain ⟨q, hq⟩ := hts z (.tail _ hzt)
        have b := o.wf.kids_parent _ _ hq
        have c := (o.wf.bounded _ _ b)
        rw [w1.keeps.parent z c.1, b] at a
        injection a with a
        omega
      · have hxt : x ≠ t := by rintro rfl; exact hn1 h
        dsimp only
        rw [if_neg hxt]
        exact HoldsAllR.congr z1 (Nat.le_refl _) (fun _ _ _ => ⟨rfl, rfl, rfl, rfl, rfl⟩) (k3 x h)

end Verif.XUpdate
