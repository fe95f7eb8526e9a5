import Verif.XUpdate.Spec
import Verif.Dom.EditProps

/-
Lemmas for C71: the tree writer, and moving nodes.
-/
namespace Verif.XUpdate
open Verif Verif.Dom Verif.Dom.Spec Verif.XUpdate.Spec

theorem _root_.Verif.XUpdate.Spec.Keeps.refl (s : St) : Keeps s s :=
  ⟨Nat.le_refl _, fun _ _ => rfl, fun _ _ => rfl, fun _ _ => rfl, fun _ _ => rfl, fun _ _ => rfl⟩

theorem _root_.Verif.XUpdate.Spec.Keeps.trans {a b c : St} (h1 : Keeps a b) (h2 : Keeps b c) : Keeps a c :=
  ⟨Nat.le_trans h1.size h2.size,
   fun x hx => (h2.kind x (Nat.lt_of_lt_of_le hx h1.size)).trans (h1.kind x hx),
   fun x hx => (h2.parent x (Nat.lt_of_lt_of_le hx h1.size)).trans (h1.parent x hx),
   fun x hx => (h2.name x (Nat.lt_of_lt_of_le hx h1.size)).trans (h1.name x hx),
   fun x hx => (h2.val x (Nat.lt_of_lt_of_le hx h1.size)).trans (h1.val x hx),
   fun x hx => (h2.attrs x (Nat.lt_of_lt_of_le hx h1.size)).trans (h1.attrs x hx)⟩

mutual
/-- `Holds`, with all nodes in a range of addresses. -/
def HoldsR (lo hi : Nat) (s : St) : Tree → NodeId → Prop
  | .node k nm v as ts, n =>
    lo ≤ n ∧ n < hi ∧ s.h.kind n = k ∧ s.name n = nm ∧ s.val n = v ∧
    (s.attrs n).map (fun a => (s.name a, s.val a)) = as ∧ (∀ a ∈ s.attrs n, lo ≤ a ∧ a < hi) ∧
    HoldsAllR lo hi s ts (s.h.kids n)
def HoldsAllR (lo hi : Nat) (s : St) : List Tree → List NodeId → Prop
  | [], ns => ns = []
  | t :: ts, ns => ∃ n l, ns = n :: l ∧ HoldsR lo hi s t n ∧ HoldsAllR lo hi s ts l
end

mutual
theorem HoldsR.holds {lo hi : Nat} {s : St} : ∀ {t : Tree} {n : NodeId}, HoldsR lo hi s t n → Holds s t n
  | .node _ _ _ _ _, _, h => by
    rw [HoldsR] at h
    obtain ⟨_, _, h1, h2, h3, h4, _, h5⟩ := h
    rw [Holds]
    exact ⟨h1, h2, h3, h4, HoldsAllR.holds h5⟩
theorem HoldsAllR.holds {lo hi : Nat} {s : St} :
    ∀ {ts : List Tree} {l : List NodeId}, HoldsAllR lo hi s ts l → HoldsAll s ts l
  | [], _, h => by rw [HoldsAllR] at h; rw [HoldsAll]; exact h
  | _ :: _, _, h => by
    rw [HoldsAllR] at h
    obtain ⟨n, l, h1, h2, h3⟩ := h
    rw [HoldsAll]
    exact ⟨n, l, h1, HoldsR.holds h2, HoldsAllR.holds h3⟩
end

/-- Two states agree on what `Holds` looks at. -/
structure Same (s s' : St) (x : NodeId) : Prop where
  kind : s'.h.kind x = s.h.kind x
  name : s'.name x = s.name x
  val : s'.val x = s.val x
  attrs : s'.attrs x = s.attrs x
  kids : s'.h.kids x = s.h.kids x

mutual
theorem HoldsR.congr {lo hi lo' hi' : Nat} {s s' : St} (h1 : lo' ≤ lo) (h2 : hi ≤ hi')
    (h : ∀ x, lo ≤ x → x < hi → Same s s' x) :
    ∀ {t : Tree} {n : NodeId}, HoldsR lo hi s t n → HoldsR lo' hi' s' t n
  | .node _ _ _ _ _, n, hh => by
    rw [HoldsR] at hh
    obtain ⟨a1, a2, a3, a4, a5, a6, a7, a8⟩ := hh
    have e := h n a1 a2
    rw [HoldsR]
    refine ⟨by omega, by omega, e.kind.trans a3, e.name.trans a4, e.val.trans a5, ?_, ?_, ?_⟩
    · rw [e.attrs, ← a6]
      apply List.map_congr_left
      intro a ha
      have := a7 a ha
      rw [(h a this.1 this.2).name, (h a this.1 this.2).val]
    · intro a ha
      rw [e.attrs] at ha
      have := a7 a ha
      omega
    · rw [e.kids]
      exact HoldsAllR.congr h1 h2 h a8
theorem HoldsAllR.congr {lo hi lo' hi' : Nat} {s s' : St} (h1 : lo' ≤ lo) (h2 : hi ≤ hi')
    (h : ∀ x, lo ≤ x → x < hi → Same s s' x) :
    ∀ {ts : List Tree} {l : List NodeId}, HoldsAllR lo hi s ts l → HoldsAllR lo' hi' s' ts l
  | [], _, hh => by rw [HoldsAllR] at hh ⊢; exact hh
  | _ :: _, _, hh => by
    rw [HoldsAllR] at hh ⊢
    obtain ⟨n, l, b1, b2, b3⟩ := hh
    exact ⟨n, l, b1, HoldsR.congr h1 h2 h b2, HoldsAllR.congr h1 h2 h b3⟩
end

theorem HoldsAllR.range {lo hi : Nat} {s : St} : ∀ {ts : List Tree} {l : List NodeId},
    HoldsAllR lo hi s ts l → ∀ n ∈ l, lo ≤ n ∧ n < hi
  | [], _, h, n, hn => by rw [HoldsAllR] at h; subst h; cases hn
  | .node _ _ _ _ _ :: _, _, h, n, hn => by
    rw [HoldsAllR] at h
    obtain ⟨m, l, h1, h2, h3⟩ := h
    subst h1
    rcases List.mem_cons.mp hn with e | e
    · subst e; rw [HoldsR] at h2; exact ⟨h2.1, h2.2.1⟩
    · exact HoldsAllR.range h3 n e

/-! ### New nodes -/

theorem kids_big {h : Heap} (w : WF h) {x : NodeId} (hx : h.size ≤ x) : h.kids x = [] := by
  cases hk : h.kids x with
  | nil => rfl
  | cons c l =>
    have := w.bounded _ _ (w.kids_parent x c (by rw [hk]; exact .head _))
    omega

theorem parent_big {h : Heap} (w : WF h) {x : NodeId} (hx : h.size ≤ x) : h.parent x = none := by
  cases hk : h.parent x with
  | none => rfl
  | some c => have := w.bounded _ _ hk; omega

theorem attrs_big {s : St} (o : Ok s) {x : NodeId} (hx : s.h.size ≤ x) : s.attrs x = [] := by
  cases hk : s.attrs x with
  | nil => rfl
  | cons c l =>
    have := o.wf.bounded _ _ ((o.attr x c).mp (by rw [hk]; exact .head _)).2
    omega

theorem new_ok {s : St} (o : Ok s) (k : Kind) (nm : Name) (v : Str) : Ok (s.new k nm v) := by
  have hb := fun (p c : NodeId) (h : s.h.parent c = some p) => o.wf.bounded p c h
  refine ⟨wf_alloc o.wf k, ?_, ?_⟩
  · intro e a
    simp only [St.new, Heap.alloc]
    by_cases he : e = s.h.size
    · subst he
      rw [if_pos rfl]
      constructor
      · intro h; cases h
      · rintro ⟨_, h⟩
        split at h
        · cases h
        · have := hb _ _ h; omega
    · rw [if_neg he, o.attr]
      by_cases ha : a = s.h.size
      · subst ha
        rw [if_pos rfl, if_pos rfl, parent_big o.wf (Nat.le_refl _)]
        simp
      · rw [if_neg ha, if_neg ha]
  · intro e
    simp only [St.new]
    split
    · exact List.nodup_nil
    · exact o.nodup e

theorem new_keeps (s : St) (k : Kind) (nm : Name) (v : Str) : Keeps s (s.new k nm v) := by
  refine ⟨Nat.le_succ _, ?_, ?_, ?_, ?_, ?_⟩ <;> intro x hx <;>
    simp only [St.new, Heap.alloc, if_neg (Nat.ne_of_lt hx)]

theorem new_kids (s : St) (k : Kind) (nm : Name) (v : Str) (x : NodeId) (hx : x < s.h.size) :
    (s.new k nm v).h.kids x = s.h.kids x := by
  simp only [St.new, Heap.alloc, if_neg (Nat.ne_of_lt hx)]

theorem addAttr_ok {s : St} (o : Ok s) {e : NodeId} (he : s.h.kind e = .element) (hs : e < s.h.size)
    (nm : Name) (v : Str) : Ok (s.addAttr e nm v) := by
  have o1 := new_ok o .attr nm v
  have hne : e ≠ s.h.size := Nat.ne_of_lt hs
  refine ⟨?_, ?_, ?_⟩
  · exact wf_owner o1.wf (by simp only [St.new, Heap.alloc, if_neg hne]; exact he)
      (.inl (by simp [St.new, Heap.alloc])) (by simp only [St.new, Heap.alloc]; omega)
      (by simp only [St.new, Heap.alloc]; omega)
  · intro e' a
    have h1 := o1.attr e' a
    simp only [St.addAttr, Heap.setOwner, Heap.setParent]
    by_cases ha : a = s.h.size
    · subst ha
      rw [if_pos rfl]
      have hk : (s.new .attr nm v).h.kind s.h.size = .attr := by simp [St.new, Heap.alloc]
      have hn : s.h.size ∉ (s.new .attr nm v).attrs e' := by
        rw [h1]
        rintro ⟨_, h⟩
        simp [St.new, Heap.alloc] at h
      by_cases hee : e' = e
      · subst hee; simp [hk]
      · rw [if_neg hee]
        constructor
        · intro h; exact absurd h hn
        · rintro ⟨_, h⟩; injection h with h; exact absurd h.symm hee
    · rw [if_neg ha, ← h1]
      split
      · simp [ha]
      · rfl
  · intro e'
    simp only [St.addAttr]
    split
    · rename_i hee
      subst hee
      rw [List.nodup_append]
      refine ⟨o1.nodup e', by simp, ?_⟩
      rintro a ha b hb rfl
      simp at hb
      subst hb
      have := (o1.attr e' s.h.size).mp ha
      simp [St.new, Heap.alloc] at this
    · exact o1.nodup e'

/-- What new attributes change. -/
structure Added (s s' : St) (e : NodeId) (as : List (Name × Str)) : Prop where
  size : s.h.size ≤ s'.h.size
  kind : ∀ x, x < s.h.size → s'.h.kind x = s.h.kind x
  parent : ∀ x, x < s.h.size → s'.h.parent x = s.h.parent x
  name : ∀ x, x < s.h.size → s'.name x = s.name x
  val : ∀ x, x < s.h.size → s'.val x = s.val x
  kids : ∀ x, x < s.h.size → s'.h.kids x = s.h.kids x
  attrs : ∀ x, x < s.h.size → x ≠ e → s'.attrs x = s.attrs x
  new : ∃ l, s'.attrs e = s.attrs e ++ l ∧ l.map (fun a => (s'.name a, s'.val a)) = as ∧
    ∀ a ∈ l, s.h.size ≤ a ∧ a < s'.h.size

theorem addAttrs_spec (as : List (Name × Str)) : ∀ {s : St} (_ : Ok s) {e : NodeId}
    (_ : s.h.kind e = .element) (_ : e < s.h.size), Ok (s.addAttrs e as) ∧ Added s (s.addAttrs e as) e as := by
  induction as with
  | nil =>
    intro s o e he hs
    exact ⟨o, Nat.le_refl _, fun _ _ => rfl, fun _ _ => rfl, fun _ _ => rfl, fun _ _ => rfl, fun _ _ => rfl,
      fun _ _ _ => rfl, [], by simp [St.addAttrs], rfl, by simp⟩
  | cons a as ih =>
    obtain ⟨nm, v⟩ := a
    intro s o e he hs
    have hne : e ≠ s.h.size := Nat.ne_of_lt hs
    have o1 := addAttr_ok o he hs nm v
    have hsz : (s.addAttr e nm v).h.size = s.h.size + 1 := rfl
    obtain ⟨o2, d⟩ := ih (s := s.addAttr e nm v) o1 (e := e)
      (by simp only [St.addAttr, St.new, Heap.setOwner, Heap.setParent, Heap.alloc, if_neg hne]; exact he)
      (by rw [hsz]; omega)
    obtain ⟨l, l1, l2, l3⟩ := d.new
    refine ⟨o2, ?_⟩
    rw [hsz] at l3
    have up : ∀ x, x < s.h.size → x < (s.addAttr e nm v).h.size := fun x hx => by rw [hsz]; omega
    have dsz := d.size
    rw [hsz] at dsz
    refine ⟨Nat.le_trans (Nat.le_succ _) dsz, ?_, ?_, ?_, ?_, ?_, ?_, s.h.size :: l, ?_, ?_, ?_⟩
    · intro x hx
      refine (d.kind x (up x hx)).trans ?_
      simp only [St.addAttr, St.new, Heap.setOwner, Heap.setParent, Heap.alloc, if_neg (Nat.ne_of_lt hx)]
    · intro x hx
      refine (d.parent x (up x hx)).trans ?_
      simp only [St.addAttr, St.new, Heap.setOwner, Heap.setParent, Heap.alloc, if_neg (Nat.ne_of_lt hx)]
    · intro x hx
      refine (d.name x (up x hx)).trans ?_
      simp only [St.addAttr, St.new, if_neg (Nat.ne_of_lt hx)]
    · intro x hx
      refine (d.val x (up x hx)).trans ?_
      simp only [St.addAttr, St.new, if_neg (Nat.ne_of_lt hx)]
    · intro x hx
      refine (d.kids x (up x hx)).trans ?_
      simp only [St.addAttr, St.new, Heap.setOwner, Heap.setParent, Heap.alloc, if_neg (Nat.ne_of_lt hx)]
    · intro x hx hxe
      refine (d.attrs x (up x hx) hxe).trans ?_
      simp only [St.addAttr, St.new, if_neg (Nat.ne_of_lt hx), if_neg hxe]
    · rw [St.addAttrs, l1]
      simp only [St.addAttr, St.new, if_pos, if_neg hne, List.append_assoc, List.singleton_append]
    · rw [List.map_cons, St.addAttrs, l2, d.name _ (by rw [hsz]; omega), d.val _ (by rw [hsz]; omega)]
      simp [St.addAttr, St.new]
    · intro a ha
      rw [St.addAttrs]
      rcases List.mem_cons.mp ha with h | h
      · subst h; omega
      · have := l3 a h; omega

/-! ### The tree writer -/

/-- What writing under `p` changes. -/
structure Written (s s' : St) (p : NodeId) : Prop where
  keeps : Keeps s s'
  kids : ∀ x, x < s.h.size → x ≠ p → s'.h.kids x = s.h.kids x

theorem anc_small {h : Heap} (w : WF h) {a b : NodeId} (h1 : Anc h a b) : a < h.size := by
  induction h1 with
  | parent hp => exact (w.bounded _ _ hp).2
  | step _ _ ih => exact ih

theorem attach {s : St} (o : Ok s) {p : NodeId} (hp : p < s.h.size) (hc : isContainer (s.h.kind p) = true)
    (k : Kind) (hk : isChildKind k = true) (nm : Name) (v : Str) :
    ∃ s1, lift (s.new k nm v) (containerAppend (s.new k nm v).h p s.h.size) = .ok s1 ∧ Ok s1 ∧
      Written s s1 p ∧ s1.h.size = s.h.size + 1 ∧ s1.h.kids p = s.h.kids p ++ [s.h.size] ∧
      s1.h.kids s.h.size = [] ∧ s1.h.kind s.h.size = k ∧ s1.name s.h.size = nm ∧ s1.val s.h.size = v ∧
      s1.attrs s.h.size = [] := by
  have o0 := new_ok o k nm v
  have hne : p ≠ s.h.size := Nat.ne_of_lt hp
  have hpar : (s.new k nm v).h.parent s.h.size = none := by simp [St.new, Heap.alloc]
  have hkind : (s.new k nm v).h.kind s.h.size = k := by simp [St.new, Heap.alloc]
  have hkp : (s.new k nm v).h.kind p = s.h.kind p := by simp [St.new, Heap.alloc, hne]
  have hkids : (s.new k nm v).h.kids p = s.h.kids p := new_kids s k nm v p hp
  have hns : ¬ AncS (s.new k nm v).h s.h.size p := by
    rintro (h | h)
    · exact hne h.symm
    · have key : ∀ {a b}, Anc (s.new k nm v).h a b → Anc s.h a b := by
        intro a b hab
        have step : ∀ x y, (s.new k nm v).h.parent x = some y → s.h.parent x = some y := by
          intro x y hxy
          simp only [St.new, Heap.alloc] at hxy
          split at hxy
          · cases hxy
          · exact hxy
        induction hab with
        | parent hp => exact .parent (step _ _ hp)
        | step _ hp ih => exact .step ih (step _ _ hp)
      have := anc_small o.wf (key h)
      omega
  have ha := append_ok o0.wf (s := p) (c := s.h.size) (by rw [hpar]; simp) (by rw [hkp]; exact hc)
    (by rw [hkind]; exact hk) hns
  have hfree : freed (s.new k nm v).h s.h.size = (s.new k nm v).h := by rw [freed, hpar]
  rw [hfree, hkids] at ha
  have hwf : WF (link (s.new k nm v).h p (s.h.kids p ++ [s.h.size]) s.h.size) := by
    have := wf_link o0.wf (s := p) (c := s.h.size) (l1 := s.h.kids p) (l2 := []) hpar hns
      (by rw [hkind]; exact hk) (by rw [hkp]; exact hc) (by rw [hkids]; simp)
      (by simp only [St.new, Heap.alloc]; omega) (by simp only [St.new, Heap.alloc]; omega)
    simpa using this
  refine ⟨{ s.new k nm v with h := link (s.new k nm v).h p (s.h.kids p ++ [s.h.size]) s.h.size },
    by rw [ha]; rfl, ⟨hwf, ?_, o0.nodup⟩, ⟨⟨?_, ?_, ?_, ?_, ?_, ?_⟩, ?_⟩, rfl, ?_, ?_, ?_, ?_, ?_, ?_⟩
  · intro e a
    simp only [link, Heap.setParent, Heap.setKids]
    have := o0.attr e a
    rw [this]
    by_cases haa : a = s.h.size
    · subst haa
      rw [if_pos rfl, hpar, hkind]
      constructor
      · rintro ⟨_, h⟩; cases h
      · rintro ⟨h, _⟩; rw [h] at hk; cases hk
    · rw [if_neg haa]
  · simp only [link, Heap.setParent, Heap.setKids, St.new, Heap.alloc]; omega
  · intro x hx; simp only [link, Heap.setParent, Heap.setKids, St.new, Heap.alloc, if_neg (Nat.ne_of_lt hx)]
  · intro x hx; simp only [link, Heap.setParent, Heap.setKids, St.new, Heap.alloc, if_neg (Nat.ne_of_lt hx)]
  · intro x hx; simp only [St.new, if_neg (Nat.ne_of_lt hx)]
  · intro x hx; simp only [St.new, if_neg (Nat.ne_of_lt hx)]
  · intro x hx; simp only [St.new, if_neg (Nat.ne_of_lt hx)]
  · intro x hx hxp
    simp only [link, Heap.setParent, Heap.setKids, St.new, Heap.alloc, if_neg (Nat.ne_of_lt hx), if_neg hxp]
  · simp [link, Heap.setParent, Heap.setKids]
  · simp [link, Heap.setParent, Heap.setKids, St.new, Heap.alloc, Ne.symm hne]
  · simp [link, Heap.setParent, Heap.setKids, St.new, Heap.alloc]
  · simp [St.new]
  · simp [St.new]
  · simp [St.new]

mutual
theorem write_spec : ∀ (t : Tree) {s : St} (_ : Ok s) {p : NodeId} (_ : p < s.h.size)
    (_ : isContainer (s.h.kind p) = true) (_ : Valid t),
    ∃ s', write s p t = .ok s' ∧ Ok s' ∧ Written s s' p ∧ s'.h.kids p = s.h.kids p ++ [s.h.size] ∧
      HoldsR s.h.size s'.h.size s' t s.h.size
  | .node k nm v as ts, s, o, p, hp, hc, hv => by
    rw [Valid] at hv
    obtain ⟨hv1, hv2⟩ := hv
    have hk : isChildKind k = true := by
      rcases hv1 with h | h
      · rw [h]; rfl
      · exact h.1
    obtain ⟨s1, e1, o1, w1, z1, k1, k2, k3, k4, k5, k6⟩ := attach o hp hc k hk nm v
    have hlt : s.h.size < s1.h.size := by omega
    -- the attributes
    have hattr : Ok (s1.addAttrs s.h.size as) ∧ Added s1 (s1.addAttrs s.h.size as) s.h.size as := by
      rcases hv1 with h | ⟨_, h, _⟩
      · exact addAttrs_spec as o1 (by rw [k3]; exact h) hlt
      · subst h
        exact ⟨o1, Nat.le_refl _, fun _ _ => rfl, fun _ _ => rfl, fun _ _ => rfl, fun _ _ => rfl,
          fun _ _ => rfl, fun _ _ _ => rfl, [], by simp [St.addAttrs], rfl, by simp⟩
    obtain ⟨o2, d⟩ := hattr
    generalize hs2 : s1.addAttrs s.h.size as = s2 at *
    have z2 := d.size
    -- the content
    have hcont : ∃ s' new, writeAll s2 s.h.size ts = .ok s' ∧ Ok s' ∧ Written s2 s' s.h.size ∧
        s'.h.kids s.h.size = s2.h.kids s.h.size ++ new ∧
        HoldsAllR s2.h.size s'.h.size s' ts new := by
      rcases hv1 with h | ⟨_, _, h⟩
      · exact writeAll_spec ts o2 (by omega) (by rw [d.kind _ hlt, k3, h]; rfl) hv2
      · subst h
        exact ⟨s2, [], rfl, o2, ⟨Keeps.refl _, fun _ _ _ => rfl⟩, by simp, by rw [HoldsAllR]⟩
    obtain ⟨s', new, e2, o3, w3, k7, k8⟩ := hcont
    have z3 := w3.keeps.size
    refine ⟨s', ?_, o3, ⟨⟨by omega, ?_, ?_, ?_, ?_, ?_⟩, ?_⟩, ?_, ?_⟩
    · rw [write, e1]; dsimp only; rw [hs2, e2]
    · intro x hx; rw [w3.keeps.kind x (by omega), d.kind x (by omega), w1.keeps.kind x hx]
    · intro x hx; rw [w3.keeps.parent x (by omega), d.parent x (by omega), w1.keeps.parent x hx]
    · intro x hx; rw [w3.keeps.name x (by omega), d.name x (by omega), w1.keeps.name x hx]
    · intro x hx; rw [w3.keeps.val x (by omega), d.val x (by omega), w1.keeps.val x hx]
    · intro x hx
      rw [w3.keeps.attrs x (by omega), d.attrs x (by omega) (Nat.ne_of_lt hx), w1.keeps.attrs x hx]
    · intro x hx hxp
      rw [w3.kids x (by omega) (Nat.ne_of_lt hx), d.kids x (by omega), w1.kids x hx hxp]
    · rw [w3.kids p (by omega) (Nat.ne_of_lt hp), d.kids p (by omega), k1]
    · rw [HoldsR]
      obtain ⟨l, l1, l2, l3⟩ := d.new
      rw [k6, List.nil_append] at l1
      refine ⟨Nat.le_refl _, by omega, ?_, ?_, ?_, ?_, ?_, ?_⟩
      · rw [w3.keeps.kind _ (by omega), d.kind _ hlt, k3]
      · rw [w3.keeps.name _ (by omega), d.name _ hlt, k4]
      · rw [w3.keeps.val _ (by omega), d.val _ hlt, k5]
      · rw [w3.keeps.attrs _ (by omega), l1, ← l2]
        apply List.map_congr_left
        intro a ha
        have := l3 a ha
        rw [w3.keeps.name a (by omega), w3.keeps.val a (by omega)]
      · rw [w3.keeps.attrs _ (by omega), l1]
        intro a ha
        have := l3 a ha
        omega
      · rw [k7, d.kids _ hlt, k2, List.nil_append]
        exact HoldsAllR.congr (by omega) (Nat.le_refl _) (fun _ _ _ => ⟨rfl, rfl, rfl, rfl, rfl⟩) k8
theorem writeAll_spec : ∀ (ts : List Tree) {s : St} (_ : Ok s) {p : NodeId} (_ : p < s.h.size)
    (_ : isContainer (s.h.kind p) = true) (_ : ValidAll ts),
    ∃ s' new, writeAll s p ts = .ok s' ∧ Ok s' ∧ Written s s' p ∧ s'.h.kids p = s.h.kids p ++ new ∧
      HoldsAllR s.h.size s'.h.size s' ts new
  | [], s, o, p, hp, hc, hv =>
    ⟨s, [], rfl, o, ⟨Keeps.refl _, fun _ _ _ => rfl⟩, by simp, by rw [HoldsAllR]⟩
  | t :: ts, s, o, p, hp, hc, hv => by
    rw [ValidAll] at hv
    obtain ⟨s1, e1, o1, w1, k1, k2⟩ := write_spec t o hp hc hv.1
    have z1 := w1.keeps.size
    obtain ⟨s2, new, e2, o2, w2, k3, k4⟩ := writeAll_spec ts o1 (p := p) (by omega)
      (by rw [w1.keeps.kind p hp]; exact hc) hv.2
    have z2 := w2.keeps.size
    refine ⟨s2, s.h.size :: new, by rw [writeAll, e1]; exact e2, o2, ⟨Keeps.trans w1.keeps w2.keeps, ?_⟩, ?_, ?_⟩
    · intro x hx hxp
      rw [w2.kids x (by omega) hxp, w1.kids x hx hxp]
    · rw [k3, k1]; simp
    · rw [HoldsAllR]
      refine ⟨_, _, rfl, HoldsR.congr (Nat.le_refl _) z2 ?_ k2,
        HoldsAllR.congr (by omega) (Nat.le_refl _) (fun _ _ _ => ⟨rfl, rfl, rfl, rfl, rfl⟩) k4⟩
      intro x hx1 hx2
      have hxp : x ≠ p := by omega
      exact ⟨w2.keeps.kind x hx2, w2.keeps.name x hx2, w2.keeps.val x hx2, w2.keeps.attrs x hx2,
        w2.kids x hx2 hxp⟩
end

/-- The fragment: a new document with the trees as children. -/
theorem fragment_spec {s : St} (o : Ok s) (items : List Item) (hv : ValidAll (trees items)) :
    ∃ s' new, fragment s items = .ok s' ∧ Ok s' ∧ Keeps s s' ∧
      (∀ x, x < s.h.size → s'.h.kids x = s.h.kids x) ∧ s.h.size < s'.h.size ∧
      s'.h.kind s.h.size = .entity ∧ s'.h.kids s.h.size = new ∧
      HoldsAllR (s.h.size + 1) s'.h.size s' (trees items) new := by
  have o0 := new_ok o .entity (none, []) []
  have hsz : (s.new .entity (none, []) []).h.size = s.h.size + 1 := rfl
  have hkind : (s.new .entity (none, []) []).h.kind s.h.size = .entity := by simp [St.new, Heap.alloc]
  obtain ⟨s', new, e, o1, w, k1, k2⟩ := writeAll_spec (trees items) o0 (p := s.h.size) (by rw [hsz]; omega)
    (by rw [hkind]; rfl) hv
  have z := w.keeps.size
  rw [hsz] at z k2
  refine ⟨s', new, e, o1, Keeps.trans (new_keeps s _ _ _) w.keeps, ?_, by omega, ?_, ?_, k2⟩
  · intro x hx
    rw [w.kids x (by rw [hsz]; omega) (Nat.ne_of_lt hx), new_kids s _ _ _ x hx]
  · rw [w.keeps.kind _ (by rw [hsz]; omega), hkind]
  · rw [k1]; simp [St.new, Heap.alloc]

end Verif.XUpdate
