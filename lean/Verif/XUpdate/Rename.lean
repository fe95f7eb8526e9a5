import Verif.XUpdate.Change

/-
C71, the command rename on elements.
-/
namespace Verif.XUpdate
open Verif Verif.Dom Verif.Dom.Spec Verif.XUpdate.Spec

/-- What renaming the elements `ts` does; `ν` gives the node that is in the place of a node now. -/
structure Renamed (s s' : St) (ts : List NodeId) (nm : Name) (ν : NodeId → NodeId) : Prop where
  size : s.h.size ≤ s'.h.size
  inside : ∀ x, x < s.h.size → ν x < s'.h.size
  fresh : ∀ x ∈ ts, s.h.size ≤ ν x
  same : ∀ x, x < s.h.size → x ∉ ts → ν x = x
  inj : ∀ x y, x < s.h.size → y < s.h.size → ν x = ν y → x = y
  kind : ∀ x, x < s.h.size → s'.h.kind (ν x) = s.h.kind x
  name : ∀ x, x < s.h.size → s'.name (ν x) = if x ∈ ts then nm else s.name x
  val : ∀ x, x < s.h.size → x ∉ ts → s'.val x = s.val x
  attrs : ∀ x, x < s.h.size → (s'.attrs (ν x)).map (fun a => (s'.name a, s'.val a)) =
    (s.attrs x).map (fun a => (s.name a, s.val a))
  kids : ∀ x, x < s.h.size → s'.h.kids (ν x) = (s.h.kids x).map ν
  parent : ∀ x, x < s.h.size → isChildKind (s.h.kind x) = true → s'.h.parent (ν x) = (s.h.parent x).map ν

theorem renameOne_spec {s : St} (o : Ok s) {t p : NodeId} (hk : s.h.kind t = .element)
    (hp : s.h.parent t = some p) (nm : Name) :
    ∃ s' ν, renameOne nm s t = .ok s' ∧ Ok s' ∧ Renamed s s' [t] nm ν := by
  obtain ⟨ht, hps⟩ := o.wf.bounded _ _ hp
  have htk : isChildKind (s.h.kind t) = true := by rw [hk]; rfl
  have htm := o.wf.parent_kids _ _ hp htk
  have hpt : p ≠ t := by rintro rfl; exact o.wf.acyclic p (.parent hp)
  have hnt : s.h.size ≠ t := Nat.ne_of_gt ht
  have hnp : s.h.size ≠ p := Nat.ne_of_gt hps
  -- the new element
  have o0 := new_ok o .element nm []
  have kp0 := new_keeps s .element nm []
  have sz0 : (s.new .element nm []).h.size = s.h.size + 1 := rfl
  have kind0 : (s.new .element nm []).h.kind s.h.size = .element := by simp [St.new, Heap.alloc]
  have par0 : (s.new .element nm []).h.parent s.h.size = none := by simp [St.new, Heap.alloc]
  have kids0 : (s.new .element nm []).h.kids s.h.size = [] := by simp [St.new, Heap.alloc]
  have name0 : (s.new .element nm []).name s.h.size = nm := by simp [St.new]
  have attrs0 : (s.new .element nm []).attrs s.h.size = [] := by simp [St.new]
  have asmall : ∀ x a, a ∈ s.attrs x → a < s.h.size := fun x a ha =>
    (o.wf.bounded _ _ ((o.attr _ _).mp ha).2).1
  have hcopy : (((s.new .element nm []).attrs t).map fun a => ((s.new .element nm []).name a, (s.new .element nm []).val a)) =
      (s.attrs t).map fun a => (s.name a, s.val a) := by
    rw [kp0.attrs t ht]
    apply List.map_congr_left
    intro a ha
    rw [kp0.name a (asmall t a ha), kp0.val a (asmall t a ha)]
  have hkids0 : ∀ x, x < s.h.size → (s.new .element nm []).h.kids x = s.h.kids x := new_kids s _ _ _
  have hs1 : copyAttrs (s.new .element nm []) s.h.size t =
      (s.new .element nm []).addAttrs s.h.size ((s.attrs t).map fun a => (s.name a, s.val a)) := by
    rw [copyAttrs, hcopy]
  obtain ⟨o1, d⟩ := addAttrs_spec ((s.attrs t).map fun a => (s.name a, s.val a)) o0 (e := s.h.size) kind0
    (by rw [sz0]; omega)
  have er : renameOne nm s t = match moveAll (insertAt s.h.size none) t
      ((((s.new .element nm []).addAttrs s.h.size ((s.attrs t).map fun a => (s.name a, s.val a))).h.kids t).length + 1)
      ((s.new .element nm []).addAttrs s.h.size ((s.attrs t).map fun a => (s.name a, s.val a))) with
    | .error e => .error e
    | .ok s2 => match s2.h.parent t with
      | none => .error .attribute
      | some p => lift s2 (containerReplace s2.h p t s.h.size) := by
    rw [renameOne.eq_def, hk]
    dsimp only
    rw [hs1]
    rfl
  rw [er]
  clear er
  generalize (s.new .element nm []).addAttrs s.h.size ((s.attrs t).map fun a => (s.name a, s.val a)) = s1 at *
  generalize s.new .element nm [] = s0 at *
  have z1 := d.size
  rw [sz0] at z1
  have up : ∀ x, x < s.h.size → x < s0.h.size := fun x hx => by rw [sz0]; omega
  have n0 : s.h.size < s0.h.size := by rw [sz0]; omega
  have kids1 : ∀ x, x < s.h.size → s1.h.kids x = s.h.kids x := fun x hx => by
    rw [d.kids x (up x hx), hkids0 x hx]
  have par1 : ∀ x, x < s.h.size → s1.h.parent x = s.h.parent x := fun x hx => by
    rw [d.parent x (up x hx), kp0.parent x hx]
  have kind1 : ∀ x, x < s.h.size → s1.h.kind x = s.h.kind x := fun x hx => by
    rw [d.kind x (up x hx), kp0.kind x hx]
  -- the children
  obtain ⟨s2, e2, o2, m2, k2⟩ := moveAll_spec (p := s.h.size) (tr := t) (ref := none) (fun x => x = s.h.size)
    (Ne.symm hnt) rfl (s.h.kids t) (s := s1) (l1 := []) (l2 := []) (f := (s1.h.kids t).length + 1) o1 (kids1 t ht)
    (by rw [d.kids _ n0, kids0]; rfl) rfl (by omega) (by rw [d.kind _ n0, kind0]; rfl)
    (by
      rintro x y rfl hxy
      rw [d.parent _ n0, par0] at hxy
      cases hxy)
    (fun x hx => by
      have := (o.wf.bounded _ _ (o.wf.kids_parent _ _ hx)).1
      omega)
    (by rw [kids1 t ht]; omega)
  simp only [List.nil_append, List.append_nil] at k2
  have cn : s.h.size ∉ s.h.kids t := fun h => by
    have := (o.wf.bounded _ _ (o.wf.kids_parent _ _ h)).1
    omega
  have ct : t ∉ s.h.kids t := fun h => o.wf.acyclic t (.parent (o.wf.kids_parent _ _ h))
  have part : s2.h.parent t = some p := by rw [m2.parent t ct, par1 t ht]; exact hp
  have parn : s2.h.parent s.h.size = none := by rw [m2.parent _ cn, d.parent _ n0]; exact par0
  have kp2 : s2.h.kids p = s.h.kids p := by rw [m2.kids p (Ne.symm hnp) hpt, kids1 p hps]
  have nk : ∀ q, s.h.size ∉ s2.h.kids q := fun q h => by
    rw [o2.wf.kids_parent _ _ h] at parn
    cases parn
  -- nothing below the new element is above `t`
  have below : ∀ x, Anc s2.h s.h.size x → Anc s.h t x ∨ s.h.size ≤ x := by
    intro x hx
    have one : ∀ x y, s2.h.parent x = some y → (x ∈ s.h.kids t ∧ y = s.h.size) ∨ s.h.size ≤ x ∨ s.h.parent x = some y := by
      intro x y hxy
      by_cases hc : x ∈ s.h.kids t
      · rw [m2.moved x hc] at hxy
        injection hxy with hxy
        exact .inl ⟨hc, hxy.symm⟩
      · rw [m2.parent x hc] at hxy
        by_cases hxs : x < s.h.size
        · rw [par1 x hxs] at hxy; exact .inr (.inr hxy)
        · exact .inr (.inl (by omega))
    induction hx with
    | parent hq =>
      rcases one _ _ hq with h | h | h
      · exact .inl (.parent (o.wf.kids_parent _ _ h.1))
      · exact .inr h
      · have := (o.wf.bounded _ _ h).2; omega
    | step hq hq2 ih =>
      rcases one _ _ hq2 with h | h | h
      · exact .inl (.parent (o.wf.kids_parent _ _ h.1))
      · exact .inr h
      · rcases ih with ih | ih
        · exact .inl (.step ih h)
        · have := (o.wf.bounded _ _ h).2; omega
  have hlegal : Legal s2.h (.replace p t s.h.size) := by
    refine ⟨by rw [m2.size]; omega, by rw [m2.size]; omega, by rw [m2.kind, d.kind _ n0, kind0]; rfl, ?_, ?_⟩
    · rintro (h | h)
      · exact hnp h
      · rcases below p h with h | h
        · exact o.wf.acyclic t (.step h hp)
        · omega
    · rintro ⟨i, j, _, h, _⟩
      exact nk p (List.mem_of_getElem? h)
  have htm2 : t ∈ s2.h.kids p := by rw [kp2]; exact htm
  obtain ⟨h3, e3, q1, q2, q3, q4, q5, q6, q7⟩ := C14_replace_partial o2.wf htm2 (Ne.symm hnt) hlegal
  have w3 : WF h3 := by
    rcases legal_step o2.wf _ hlegal with ⟨h', a, b⟩ | ⟨_, a⟩
    · rw [e3] at a; injection a with a; subst a; exact b
    · rw [e3] at a; cases a
  have hfil : ∀ q, (s2.h.kids q).filter (· ≠ s.h.size) = s2.h.kids q := by
    intro q
    rw [List.filter_eq_self]
    intro a ha
    simp
    rintro rfl
    exact nk q ha
  rw [hfil] at q1
  have o3 : Ok { s2 with h := h3 } := ok_with o2 w3 q5 fun a ha => q6 a
    (by rintro rfl; rw [m2.kind, d.kind _ n0, kind0] at ha; cases ha)
    (by rintro rfl; rw [m2.kind, kind1 _ ht, hk] at ha; cases ha)
  obtain ⟨l, l1, l2, l3⟩ := d.new
  rw [attrs0, List.nil_append] at l1
  have hid : ∀ l : List NodeId, t ∉ l → l.map (fun x => if x = t then s.h.size else x) = l := by
    intro l hl
    conv => rhs; rw [← List.map_id l]
    apply List.map_congr_left
    intro a ha
    rw [if_neg (by rintro rfl; exact hl ha)]
    rfl
  refine ⟨{ s2 with h := h3 }, fun x => if x = t then s.h.size else x, ?_, o3, ⟨?_, ?_, ?_, ?_, ?_, ?_, ?_, ?_, ?_, ?_, ?_⟩⟩
  · rw [e2]
    try dsimp only
    rw [part]
    try dsimp only
    simp only [Edit.run] at e3
    rw [e3]
    rfl
  · show s.h.size ≤ h3.size
    rw [q4, m2.size]; omega
  · intro x hx
    show _ < h3.size
    try dsimp only
    rw [q4, m2.size]
    split <;> omega
  · intro x hx
    simp at hx
    try dsimp only
    rw [if_pos hx]
    exact Nat.le_refl _
  · intro x _ hx
    simp at hx
    exact if_neg hx
  · intro x y hx hy hxy
    try dsimp only at hxy
    split at hxy <;> split at hxy <;> omega
  · intro x hx
    show h3.kind _ = _
    try dsimp only
    rw [q5, m2.kind]
    split
    · rename_i h; subst h; rw [d.kind _ n0, kind0, hk]
    · exact kind1 x hx
  · intro x hx
    show s2.name _ = _
    try dsimp only
    rw [m2.name]
    by_cases h : x = t
    · subst h; simp [d.name _ n0, name0]
    · simp [h, d.name x (up x hx), kp0.name x hx]
  · intro x hx _
    show s2.val x = _
    rw [m2.val, d.val x (up x hx), kp0.val x hx]
  · intro x hx
    show (s2.attrs _).map (fun a => (s2.name a, s2.val a)) = _
    try dsimp only
    rw [m2.attrs, m2.name, m2.val]
    split
    · rename_i h; subst h; rw [l1, l2]
    · rw [d.attrs x (up x hx) (Nat.ne_of_lt hx), kp0.attrs x hx]
      apply List.map_congr_left
      intro a ha
      have := asmall x a ha
      rw [d.name a (up a this), kp0.name a this, d.val a (up a this), kp0.val a this]
  · intro x hx
    show h3.kids _ = _
    try dsimp only
    by_cases h : x = t
    · subst h
      rw [if_pos rfl, q7 _ hnp, hfil, k2, hid _ ct]
    · rw [if_neg h]
      by_cases hxp : x = p
      · subst hxp; rw [q1, kp2]
      · rw [q7 x hxp, hfil, m2.kids x (Nat.ne_of_lt hx) h, kids1 x hx, hid]
        intro hm
        have := o.wf.kids_parent _ _ hm
        rw [hp] at this
        injection this with this
        exact hxp this.symm
  · intro x hx hck
    show h3.parent _ = _
    try dsimp only
    by_cases h : x = t
    · subst h
      rw [if_pos rfl, q2, hp, Option.map_some, if_neg hpt]
    · rw [if_neg h, q6 x (Nat.ne_of_lt hx) h]
      by_cases hxc : x ∈ s.h.kids t
      · rw [m2.moved x hxc, o.wf.kids_parent _ _ hxc, Option.map_some, if_pos rfl]
      · rw [m2.parent x hxc, par1 x hx]
        cases hpx : s.h.parent x with
        | none => rfl
        | some y =>
          rw [Option.map_some, if_neg]
          rintro rfl
          exact hxc (o.wf.parent_kids _ _ hpx hck)

theorem rename_all (nm : Name) : ∀ (ts : List NodeId) {s : St}, Ok s → ts.Nodup →
    (∀ t ∈ ts, s.h.kind t = .element ∧ (s.h.parent t).isSome = true) →
    ∃ s' ν, forEach (renameOne nm) ts s = .ok s' ∧ Ok s' ∧ Renamed s s' ts nm ν := by
  intro ts
  induction ts with
  | nil =>
    intro s o _ _
    exact ⟨s, fun x => x, rfl, o, Nat.le_refl _, fun _ h => h, nofun, fun _ _ _ => rfl, fun _ _ _ _ h => h, fun _ _ => rfl,
      fun _ _ => by simp, fun _ _ _ => rfl, fun _ _ => rfl, fun _ _ => by simp, fun _ _ _ => by simp⟩
  | cons t ts ih =>
    intro s o hn hts
    obtain ⟨hn1, hn2⟩ := List.nodup_cons.mp hn
    obtain ⟨hk, hp⟩ := hts t (.head _)
    obtain ⟨p, hp⟩ := Option.isSome_iff_exists.mp hp
    have small : ∀ x ∈ t :: ts, x < s.h.size := fun x hx => by
      obtain ⟨q, hq⟩ := Option.isSome_iff_exists.mp (hts x hx).2
      exact (o.wf.bounded _ _ hq).1
    have ne : ∀ x ∈ ts, x ∉ [t] := by
      intro x hx h
      simp at h
      subst h
      exact hn1 hx
    obtain ⟨s1, ν1, e1, o1, r1⟩ := renameOne_spec o hk hp nm
    have z1 := r1.size
    obtain ⟨s2, ν2, e2, o2, r2⟩ := ih o1 hn2 (fun x hx => by
      obtain ⟨a, b⟩ := hts x (.tail _ hx)
      have hxs := small x (.tail _ hx)
      have hx1 := r1.same x hxs (ne x hx)
      have h1 := r1.kind x hxs
      have h2 := r1.parent x hxs (by rw [a]; rfl)
      rw [hx1] at h1 h2
      exact ⟨h1.trans a, by rw [h2, Option.isSome_map]; exact b⟩)
    have z2 := r2.size
    have hnot : ∀ x, x < s.h.size → x ∉ ts → ν1 x ∉ ts := by
      intro x hx hxt
      by_cases h : x = t
      · subst h
        have := r1.fresh x (.head _)
        intro hm
        have := small _ (.tail _ hm)
        omega
      · rw [r1.same x hx (by simpa using h)]; exact hxt
    have hmem : ∀ x, x < s.h.size → (ν1 x ∈ ts ↔ x ∈ ts) := by
      intro x hx
      constructor
      · intro h
        by_cases hc : x ∈ ts
        · exact hc
        · exact absurd h (hnot x hx hc)
      · intro h; rw [r1.same x hx (ne x h)]; exact h
    refine ⟨s2, fun x => ν2 (ν1 x), by rw [forEach, e1]; exact e2, o2, by omega, ?_, ?_, ?_, ?_, ?_, ?_, ?_, ?_, ?_, ?_⟩
    · exact fun x hx => r2.inside _ (r1.inside x hx)
    · intro x hx
      have hxs := small x hx
      rcases List.mem_cons.mp hx with h | h
      · try dsimp only
        rw [r2.same _ (r1.inside x hxs) (hnot x hxs (h ▸ hn1))]
        exact r1.fresh x (by simp [h])
      · try dsimp only
        rw [r1.same x hxs (ne x h)]
        have := r2.fresh x h
        omega
    · intro x hx hxt
      rw [List.mem_cons, not_or] at hxt
      try dsimp only
      rw [r2.same _ (r1.inside x hx) (hnot x hx hxt.2), r1.same x hx (by simp [hxt.1])]
    · intro x y hx hy hxy
      exact r1.inj x y hx hy (r2.inj _ _ (r1.inside x hx) (r1.inside y hy) hxy)
    · intro x hx; rw [r2.kind _ (r1.inside x hx), r1.kind x hx]
    · intro x hx
      rw [r2.name _ (r1.inside x hx), r1.name x hx]
      have := hmem x hx
      by_cases a : x ∈ ts
      · simp [a, this]
      · by_cases b : x = t
        · subst b; simp
        · simp [a, b, this]
    · intro x hx hxt
      rw [List.mem_cons, not_or] at hxt
      rw [r2.val x (by omega) hxt.2, r1.val x hx (by simp [hxt.1])]
    · intro x hx; rw [r2.attrs _ (r1.inside x hx), r1.attrs x hx]
    · intro x hx; rw [r2.kids _ (r1.inside x hx), r1.kids x hx, List.map_map]; rfl
    · intro x hx hck
      rw [r2.parent _ (r1.inside x hx) (by rw [r1.kind x hx]; exact hck), r1.parent x hx hck, Option.map_map]; rfl

end Verif.XUpdate
