import Verif.Bind.Inv
/-
The invariant holds in all states that programs reach.
-/
namespace Verif.Bind
open Verif.Dom Verif.Dom.Spec Spec

variable {U : Cls → Desc → Prop}

/-! ### Edits -/

/-- What an edit inserts, and where. -/
def insertedAt : Edit → Option (Nat × Nat)
  | .append s c => some (s, c)
  | .insert s _ c => some (s, c)
  | .remove _ _ => none
  | .replace s o n => if o = n then none else some (s, n)

theorem edit_effect {h h' : Heap} (w : WF h) {ed : Edit} (hl : Legal h ed) (hr : ed.run h = .ok h') :
    WF h' ∧ h'.size = h.size ∧ h'.kind = h.kind ∧
      ∀ p c, c ∈ h'.kids p → c ∈ h.kids p ∨ insertedAt ed = some (p, c) := by
  have hw : WF h' := by
    rcases legal_step w ed hl with ⟨h2, e2, w2⟩ | ⟨err, e2⟩
    · rw [hr] at e2; cases e2; exact w2
    · rw [hr] at e2; cases e2
  refine ⟨hw, ?_⟩
  cases ed with
  | append s c =>
    rcases ensureHierarchy_spec w s c with ⟨e, h4, _⟩ | ⟨_, h5, h6, h7⟩
    · simp only [Edit.run, containerAppend, h4] at hr; cases hr
    · obtain ⟨h2, e2, hk, _, o⟩ := C14_append_partial w hl.2.2 h5 h6 h7
      rw [hr] at e2; cases e2
      refine ⟨o.size, o.kind, fun p x hx => ?_⟩
      by_cases hp : p = s
      · subst hp
        rw [hk] at hx
        rcases List.mem_append.mp hx with hx | hx
        · exact .inl hx
        · rw [List.mem_singleton] at hx; subst hx; exact .inr rfl
      · rw [o.kids p hp] at hx; exact .inl (List.mem_filter.mp hx).1
  | insert s i c =>
    rcases ensureHierarchy_spec w s c with ⟨e, h4, _⟩ | ⟨_, h5, h6, h7⟩
    · simp only [Edit.run, containerInsert, h4] at hr; cases hr
    · obtain ⟨h2, l1, l2, e2, hf, _, hk, _, o⟩ := C14_insert_partial w hl.2.2 h5 h6 h7
      rw [hr] at e2; cases e2
      refine ⟨o.size, o.kind, fun p x hx => ?_⟩
      by_cases hp : p = s
      · subst hp
        rw [hk] at hx
        have : x ∈ l1 ++ l2 ∨ x = c := by simp at hx ⊢; rcases hx with h | h | h <;> simp [h]
        rcases this with hx | hx
        · rw [← hf] at hx; exact .inl hx
        · subst hx; exact .inr rfl
      · rw [o.kids p hp] at hx; exact .inl (List.mem_filter.mp hx).1
  | remove s c =>
    by_cases hs : isContainer (h.kind s) = true
    · obtain ⟨hr1, hr2⟩ := C14_remove (c := c) w hs
      by_cases hc : c ∈ h.kids s
      · obtain ⟨h2, e2, hk, _, o⟩ := hr1 hc
        rw [hr] at e2; cases e2
        refine ⟨o.size, o.kind, fun p x hx => ?_⟩
        by_cases hp : p = s
        · subst hp; rw [hk] at hx; exact .inl (List.mem_filter.mp hx).1
        · rw [o.kids p hp] at hx; exact .inl (List.mem_filter.mp hx).1
      · rw [hr2 hc] at hr; cases hr
    · simp only [Edit.run, containerRemove, if_neg hs] at hr
      cases hr
  | replace s o n =>
    by_cases ho : o ∈ h.kids s
    · by_cases hon : o = n
      · subst hon
        rw [(C14_replace_trivial w s o o).1 ho] at hr
        cases hr
        exact ⟨rfl, rfl, fun p c hc => .inl hc⟩
      · obtain ⟨h2, e2, hk, _, _, h3, h4, _, h6⟩ := C14_replace_partial w ho hon hl
        rw [hr] at e2; cases e2
        refine ⟨h3, h4, fun p x hx => ?_⟩
        by_cases hp : p = s
        · subst hp
          rw [hk] at hx
          obtain ⟨y, hy, rfl⟩ := List.mem_map.mp hx
          split
          · exact .inr (by simp [insertedAt, hon])
          · exact .inl (List.mem_filter.mp hy).1
        · rw [h6 p hp] at hx; exact .inl (List.mem_filter.mp hx).1
    · rw [(C14_replace_trivial w s o n).2 ho] at hr; cases hr

/-- The heap changes, with all children old ones. -/
theorem Inv.heap {O : Nat → Prop} {st : State} (i : Inv U O st) {h' : Heap} (w : WF h')
    (hs : h'.size = st.h.size) (hk : h'.kind = st.h.kind)
    (hc : ∀ p c, ¬ O p → c ∈ h'.kids p → c ∈ st.h.kids p) : Inv U O { st with h := h' } := by
  refine ⟨w, i.dict, i.cache, ?_, ?_, ?_⟩
  · intro e he c h1 h2
    exact i.kids e he c (hc e c he h1) (hk ▸ h2)
  · intro e he h2
    exact i.attrs e (hs ▸ he) (hk ▸ h2)
  · intro e he h2
    dsimp only at he h2 ⊢
    rw [hs, hk]
    exact i.cls e (hs ▸ he) (hk ▸ h2)

theorem edit_eq {st st' : State} {ed : Edit} (h : edit st ed = .ok st') :
    ∃ h', ed.run st.h = .ok h' ∧ st' = match insertedAt ed with
      | some (s, c) => childInserted { st with h := h' } s c
      | none => { st with h := h' } := by
  unfold edit edited at h
  generalize ed.run st.h = r at h ⊢
  cases r with
  | ok h' =>
    refine ⟨h', rfl, ?_⟩
    cases ed with
    | append s c => injection h with h; exact h.symm
    | insert s k c => injection h with h; exact h.symm
    | remove s c => injection h with h; exact h.symm
    | replace s o n =>
      simp only [insertedAt] at h ⊢
      split at h
      · rename_i hon; injection h with h; rw [if_pos hon]; exact h.symm
      · rename_i hon; injection h with h; rw [if_neg hon]; exact h.symm
  | raised e => exact (nomatch h)
  | undefined => exact (nomatch h)

/-- A child that is in the vocabulary is inserted. -/
theorem inserted_inv {O : Nat → Prop} {st : State} (i : Inv U O st) {h' : Heap} {s c : Nat} (w : WF h')
    (hs : h'.size = st.h.size) (hk : h'.kind = st.h.kind)
    (hc : ∀ p x, x ∈ h'.kids p → x ∈ st.h.kids p ∨ (s, c) = (p, x))
    (hu : st.h.kind c = .element → U (st.cls s) (.elem (st.name c))) :
    Inv U O (childInserted { st with h := h' } s c) := by
  have i1 : Inv U (fun e => O e ∨ e = s) { st with h := h' } := by
    refine (i.open fun e he => .inl he).heap w hs hk fun p x hp hx => ?_
    rcases hc p x hx with h | h
    · exact h
    · cases h; exact absurd (.inr rfl) hp
  obtain ⟨i2, kn⟩ := childInserted_inv (s := s) (c := c) i1 (by rw [hk]; exact hu)
  have x := childInserted_ext { st with h := h' } s c
  refine ⟨i2.wf, i2.dict, i2.cache, fun e he y hy hky => ?_, i2.attrs, i2.cls⟩
  by_cases hes : e = s
  · subst hes
    rw [x.h] at hy hky
    rw [x.cls, x.name]
    dsimp only at hy hky ⊢
    rcases hc e y hy with h | h
    · have := i.kids e he y h (hk ▸ hky)
      exact Known.ext x (st := { st with h := h' }) this
    · cases h; exact kn hky
  · exact i2.kids e (fun h => h.elim he hes) y hy hky

theorem edit_inv {O : Nat → Prop} {st st' : State} {ed : Edit} (i : Inv U O st) (hl : Legal st.h ed)
    (hu : Inserts U st ed) (h : edit st ed = .ok st') : Inv U O st' := by
  obtain ⟨h', hr, rfl⟩ := edit_eq h
  obtain ⟨w, hs, hk, hc⟩ := edit_effect i.wf hl hr
  cases ed with
  | append s c =>
    exact inserted_inv i w hs hk (fun p x hx => (hc p x hx).imp_right fun h => by injection h) hu
  | insert s k c =>
    exact inserted_inv i w hs hk (fun p x hx => (hc p x hx).imp_right fun h => by injection h) hu
  | remove s c =>
    exact i.heap w hs hk fun p x _ hx => (hc p x hx).resolve_right nofun
  | replace s o n =>
    simp only [insertedAt] at hc ⊢
    by_cases hon : o = n
    · simp only [if_pos hon] at hc ⊢
      exact i.heap w hs hk fun p x _ hx => (hc p x hx).resolve_right nofun
    · simp only [if_neg hon] at hc ⊢
      exact inserted_inv i w hs hk (fun p x hx => (hc p x hx).imp_right fun h => by injection h) hu

/-! ### Parsing -/

theorem old_anc {st st' : State} (w : WF st.h) (hp : ∀ x, x < st.h.size → st'.h.parent x = st.h.parent x)
    {a b : Nat} (h : Anc st'.h a b) : b < st.h.size → a < st.h.size := by
  induction h with
  | parent h1 => intro hb; rw [hp _ hb] at h1; exact (w.bounded _ _ h1).2
  | step _ h1 ih => intro hb; rw [hp _ hb] at h1; exact ih (w.bounded _ _ h1).2

/-- What parsing the children of `e` leaves alone. -/
structure Kept (st st' : State) (e : Nat) : Prop where
  size : st.h.size ≤ st'.h.size
  old : ∀ x, x < st.h.size → st'.h.parent x = st.h.parent x ∧ (x ≠ e → st'.h.kids x = st.h.kids x) ∧
    st'.h.kind x = st.h.kind x ∧ st'.name x = st.name x ∧ st'.cls x = st.cls x
  exclude : st'.exclude = st.exclude

theorem Kept.refl (st : State) (e : Nat) : Kept st st e :=
  ⟨Nat.le_refl _, fun _ _ => ⟨rfl, fun _ => rfl, rfl, rfl, rfl⟩, rfl⟩

theorem Kept.trans {a b c : State} {e : Nat} (h1 : Kept a b e) (h2 : Kept b c e) : Kept a c e :=
  ⟨Nat.le_trans h1.size h2.size, fun x hx => by
    obtain ⟨p1, p2, p3, p4, p5⟩ := h1.old x hx
    obtain ⟨q1, q2, q3, q4, q5⟩ := h2.old x (Nat.lt_of_lt_of_le hx h1.size)
    exact ⟨q1.trans p1, fun h => (q2 h).trans (p2 h), q3.trans p3, q4.trans p4, q5.trans p5⟩,
    h2.exclude.trans h1.exclude⟩

theorem addAttributes_inv {O : Nat → Prop} {e : Nat} : ∀ (l : List (Name × Str)) (st : State), Inv U O st →
    e < st.h.size → st.h.kind e = .element → (∀ n v, (n, v) ∈ l → U (st.cls e) (.attr n)) →
    Inv U O (addAttributes st e l) ∧ (addAttributes st e l).h = st.h ∧
      (addAttributes st e l).name = st.name ∧ (addAttributes st e l).cls = st.cls ∧
      (addAttributes st e l).exclude = st.exclude
  | [], st, i, _, _, _ => ⟨i, rfl, rfl, rfl, rfl⟩
  | (n, v) :: l, st, i, he, hk, hu => by
    have i1 := setAttribute_inv i v he hk (hu n v List.mem_cons_self)
    have x := setAttribute_ext (st := st) e n v
    obtain ⟨h1, h2, h3, h4, h5⟩ := addAttributes_inv l (setAttribute st e n v) i1
      (by rw [x.h]; exact he) (by rw [x.h]; exact hk)
      (by rw [x.cls]; exact fun n v h => hu n v (List.mem_cons_of_mem _ h))
    exact ⟨h1, h2.trans x.h, h3.trans x.name, h4.trans x.cls, h5.trans x.exclude⟩

theorem fastAppend_inv {O : Nat → Prop} {st : State} {e n : Nat} (i : Inv U (fun x => O x ∨ x = e) st)
    (he : e < st.h.size) (hk : isContainer (st.h.kind e) = true) (hn : n < st.h.size)
    (hp : st.h.parent n = none) (hc : isChildKind (st.h.kind n) = true) (ha : ¬ AncS st.h n e) :
    Inv U (fun x => O x ∨ x = e) (fastAppend st e n) := by
  have w : WF (fastAppend st e n).h :=
    wf_link (l1 := st.h.kids e) (l2 := []) i.wf hp ha hc hk (by simp) hn he
  refine i.heap w rfl rfl fun p x hp hx => ?_
  have hpe : p ≠ e := fun h => hp (.inr h)
  simpa [fastAppend, Heap.setParent, Heap.setKids, hpe] using hx

mutual
theorem parseNode_inv (ent : Nat) : (x : Xml) → ∀ (O : Nat → Prop) (st st' : State) (n : Nat), Inv U O st →
    ent < st.h.size → st.h.kind ent = .entity → Uses U ent x → parseNode st ent x = .ok (st', n) →
    Inv U O st' ∧ Fresh st st' n ∧
      ∀ c, Below U c x → st'.h.kind n = .element → U c (.elem (st'.name n))
  | .text s, O, st, st', n, i, _, _, _, h => by
    rw [parseNode] at h
    injection h with h
    have h1 : (newText st s).1 = st' := by rw [h]
    have h2 : (newText st s).2 = n := by rw [h]
    subst h1 h2
    refine ⟨newText_inv i s, newText_fresh i.wf s, fun _ _ hk => ?_⟩
    simp [newText, Heap.alloc] at hk
  | .elem ns q as ks, O, st, st', n, i, hent, hek, hu, h => by
    rw [parseNode] at h
    rw [Uses] at hu
    split at h
    · exact (nomatch h)
    · rename_i st1 e hnew
      obtain ⟨i1, f1, hname, hcls, hkind, hkids⟩ := newElement_inv i hent hek hnew
      obtain ⟨i2, a1, a2, a3, a4⟩ := addAttributes_inv as st1 i1 f1.size.2 hkind (by rw [hcls]; exact hu.1)
      have hent1 := f1.old ent hent
      split at h
      · exact (nomatch h)
      · rename_i st2 hk
        injection h with h
        injection h with h1 h2
        subst h2
        obtain ⟨i3, hkids2, kp⟩ := parseKids_inv ent ks O (addAttributes st1 e as) st2 e
          (i2.open fun _ h => .inl h) (by rw [a1]; have := f1.size; omega)
          (by rw [a1, hent1.2.2.1]; exact hek) (by rw [a1]; exact f1.size.2)
          (by rw [a1, hkind]; rfl) (by rw [a1, hkids]; exact nofun)
          (by rw [a3, hcls]; exact hu.2) hk
        have x := insertedAll_ext e (st2.h.kids e) st2
        have hold := kp.old e (by rw [a1]; exact f1.size.2)
        subst h1
        refine ⟨close_inv i3 hkids2, ⟨?_, ?_, ?_, ?_, ?_⟩, ?_⟩
        · rw [x.h]
          have := kp.size
          rw [a1] at this
          exact ⟨f1.size.1, Nat.lt_of_lt_of_le f1.size.2 this⟩
        · rw [x.h, hold.1, a1]; exact f1.parent
        · rw [x.h, hold.2.2.1, a1]; exact f1.child
        · intro y hy
          obtain ⟨p1, p2, p3, p4, p5⟩ := f1.old y hy
          obtain ⟨q1, q2, q3, q4, q5⟩ := kp.old y (by rw [a1]; have := f1.size; omega)
          rw [x.h, x.name, x.cls, q1, q2 (by have := f1.size; omega), q3, q4, q5, a1, a2, a3]
          exact ⟨p1, p2, p3, p4, p5⟩
        · exact x.exclude.trans (kp.exclude.trans (a4.trans f1.exclude))
        · intro c hb _
          rw [x.name, hold.2.2.2.1, a2, hname]
          exact hb
theorem parseKids_inv (ent : Nat) : (ks : Xmls) → ∀ (O : Nat → Prop) (st st' : State) (e : Nat),
    Inv U (fun x => O x ∨ x = e) st → ent < st.h.size → st.h.kind ent = .entity →
    e < st.h.size → isContainer (st.h.kind e) = true →
    (∀ c ∈ st.h.kids e, st.h.kind c = .element → U (st.cls e) (.elem (st.name c))) →
    UsesAll U ent (st.cls e) ks → parseKids st ent e ks = .ok st' →
    Inv U (fun x => O x ∨ x = e) st' ∧
      (∀ c ∈ st'.h.kids e, st'.h.kind c = .element → U (st'.cls e) (.elem (st'.name c))) ∧
      Kept st st' e
  | .nil, O, st, st', e, i, _, _, _, _, hc, _, h => by
    rw [parseKids] at h
    injection h with h
    subst h
    exact ⟨i, hc, .refl _ _⟩
  | .cons k ks, O, st, st', e, i, hent, hek, he, hke, hc, hu, h => by
    rw [parseKids] at h
    rw [UsesAll] at hu
    split at h
    · exact (nomatch h)
    · rename_i st1 n hn
      obtain ⟨i1, f1, hb⟩ := parseNode_inv ent k _ st st1 n i hent hek hu.2.1 hn
      obtain ⟨o1, o2, o3, o4, o5⟩ := f1.old e he
      have hes : e < st1.h.size := by have := f1.size; omega
      have hne : n ≠ e := by have := f1.size; omega
      have ha : ¬ AncS st1.h n e := by
        rintro (h1 | h1)
        · exact hne h1
        · have := old_anc i.wf (fun x hx => (f1.old x hx).1) h1 he
          have := f1.size
          omega
      have i2 := fastAppend_inv i1 hes (by rw [o3]; exact hke) f1.size.2 f1.parent f1.child ha
      have hkids : (fastAppend st1 e n).h.kids e = st.h.kids e ++ [n] := by
        simp [fastAppend, Heap.setParent, Heap.setKids, o2]
      have kp1 : Kept st (fastAppend st1 e n) e := by
        refine ⟨by have := f1.size; show st.h.size ≤ st1.h.size; omega, fun x hx => ?_, f1.exclude⟩
        obtain ⟨p1, p2, p3, p4, p5⟩ := f1.old x hx
        have hxn : x ≠ n := by have := f1.size; omega
        refine ⟨?_, fun hxe => ?_, p3, p4, p5⟩
        · simp [fastAppend, Heap.setParent, Heap.setKids, hxn, p1]
        · simp [fastAppend, Heap.setParent, Heap.setKids, hxe, p2]
      obtain ⟨i3, hc3, kp⟩ := parseKids_inv ent ks O (fastAppend st1 e n) st' e i2
        (by have := f1.size; show ent < st1.h.size; omega)
        (by show st1.h.kind ent = _; rw [(f1.old ent hent).2.2.1]; exact hek) hes
        (by show isContainer (st1.h.kind e) = _; rw [o3]; exact hke)
        (by
          intro c hcm hck
          rw [hkids] at hcm
          show U (st1.cls e) (.elem (st1.name c))
          rw [o5]
          rcases List.mem_append.mp hcm with hcm | hcm
          · have hlt := (kid_lt i.wf hcm).1
            obtain ⟨p1, p2, p3, p4, p5⟩ := f1.old c hlt
            rw [p4]
            exact hc c hcm (by rw [← p3]; exact hck)
          · rw [List.mem_singleton] at hcm
            subst hcm
            exact hb _ hu.1 hck)
        (by show UsesAll U ent (st1.cls e) ks; rw [o5]; exact hu.2.2) h
      exact ⟨i3, hc3, kp1.trans kp⟩
end

theorem parse_inv {st st' : State} {ks : Xmls} {n : Nat} (i : Inv U (fun _ => False) st)
    (hu : UsesAll U st.h.size (st.h.size, none) ks) (h : parse st ks = .ok (st', n)) :
    Inv U (fun _ => False) st' := by
  unfold parse at h
  split at h
  · exact (nomatch h)
  · rename_i st2 hk
    injection h with h
    injection h with h1 h2
    subst h1
    have i1 := newEntity_inv i
    obtain ⟨i3, hc, _⟩ := parseKids_inv _ ks (fun _ => False) (newEntity st).1 st2 (newEntity st).2
      (i1.open fun _ h => .inl h) (by simp [newEntity, Heap.alloc]) (by simp [newEntity, Heap.alloc])
      (by simp [newEntity, Heap.alloc]) (by simp [newEntity, Heap.alloc, isContainer])
      (by simp [newEntity, Heap.alloc]) (by simp only [newEntity, upd_same]; exact hu) hk
    exact close_inv i3 hc

end Verif.Bind
