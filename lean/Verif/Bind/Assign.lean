import Verif.Bind.Reach
/-
What assignments and deletions do; with this, the invariant holds in all states that programs reach.
-/
namespace Verif.Bind.Spec
open Verif.Dom Verif.Dom.Spec Verif.Bind

/-- All nodes there were have the names, attributes and texts they had, and the children they had, except
perhaps `t`. -/
def Keeps (st st' : State) (t : Nat) : Prop :=
  st.h.size ≤ st'.h.size ∧ ∀ x, x < st.h.size → st'.h.kind x = st.h.kind x ∧ st'.name x = st.name x ∧
    st'.qname x = st.qname x ∧ st'.attrs x = st.attrs x ∧ st'.val x = st.val x ∧
    (x ≠ t → st'.h.kids x = st.h.kids x)

/-- The content of `t` is the text `s`. -/
def Content (st : State) (t : Nat) (s : Str) : Prop :=
  ∃ n, st.h.kids t = [n] ∧ st.h.kind n = .text ∧ st.val n = s ∧ st.h.parent n = some t

end Verif.Bind.Spec

namespace Verif.Bind
open Verif.Dom Verif.Dom.Spec Spec

variable {U : Cls → Desc → Prop} {O : Nat → Prop}

theorem remove_kids {st : State} (i : Inv U O st) {t c : Nat} (hc : c ∈ st.h.kids t) :
    ∃ h', edit st (.remove t c) = .ok { st with h := h' } ∧ Inv U O { st with h := h' } ∧
      h'.kids t = (st.h.kids t).filter (· ≠ c) ∧ h'.parent c = none ∧
      (∀ x, x ≠ c → h'.parent x = st.h.parent x) ∧ (∀ x, x ≠ t → h'.kids x = st.h.kids x) ∧
      h'.kind = st.h.kind ∧ h'.size = st.h.size := by
  have hp := i.wf.kids_parent _ _ hc
  obtain ⟨h', e, hk, hpc, o⟩ := (C14_remove (c := c) i.wf (i.wf.parent_kind _ _ hp)).1 hc
  have he : edit st (.remove t c) = .ok { st with h := h' } := by simp only [edit, e, edited]
  refine ⟨h', he, edit_inv (ed := .remove t c) i trivial trivial he, hk, hpc, o.parent, fun x hx => ?_, o.kind, o.size⟩
  rw [o.kids x hx]
  apply List.filter_eq_self.mpr
  intro y hy
  have : y ≠ c := by
    rintro rfl
    have := i.wf.kids_parent _ _ hy
    rw [hp] at this
    exact hx (Option.some.inj this).symm
  simp [this]

theorem removeAll_ok {t : Nat} : ∀ (l : List Nat) (st : State), Inv U O st → st.h.kids t = l →
    ∃ h', removeAll st t l = .ok { st with h := h' } ∧ Inv U O { st with h := h' } ∧
      h'.kids t = [] ∧ (∀ x, x ∈ l → h'.parent x = none) ∧
      (∀ x, x ∉ l → h'.parent x = st.h.parent x) ∧ (∀ x, x ≠ t → h'.kids x = st.h.kids x) ∧
      h'.kind = st.h.kind ∧ h'.size = st.h.size
  | [], st, i, hk => ⟨st.h, rfl, i, hk, nofun, fun _ _ => rfl, fun _ _ => rfl, rfl, rfl⟩
  | c :: l, st, i, hk => by
    obtain ⟨h1, e1, i1, k1, p1, o1, q1, kd1, s1⟩ := remove_kids (t := t) (c := c) i (by rw [hk]; exact List.mem_cons_self)
    have hn : (c :: l).Nodup := hk ▸ i.wf.nodup t
    have hcl : c ∉ l := (List.nodup_cons.mp hn).1
    have hl : h1.kids t = l := by
      rw [k1, hk, List.filter_cons]
      simp only [ne_eq, not_true_eq_false, decide_false, Bool.false_eq_true, if_false]
      apply List.filter_eq_self.mpr
      intro y hy
      have : y ≠ c := fun h => hcl (h ▸ hy)
      simp [this]
    obtain ⟨h2, e2, i2, k2, p2, o2, q2, kd2, s2⟩ := removeAll_ok l { st with h := h1 } i1 hl
    refine ⟨h2, ?_, i2, k2, ?_, ?_, fun x hx => (q2 x hx).trans (q1 x hx), kd2.trans kd1, s2.trans s1⟩
    · rw [removeAll, e1]; exact e2
    · intro x hx
      rcases List.mem_cons.mp hx with rfl | hx
      · rw [o2 x hcl]; exact p1
      · exact p2 x hx
    · intro x hx
      rw [o2 x fun h => hx (List.mem_cons_of_mem _ h)]
      exact o1 x fun h => hx (h ▸ List.mem_cons_self)

/-- A text is appended. -/
theorem appendText_ok {st : State} (i : Inv U O st) {t : Nat} (ht : t < st.h.size)
    (hk : isContainer (st.h.kind t) = true) (s : Str) :
    ∃ st', appendText st t s = .ok st' ∧ Inv U O st' ∧ Keeps st st' t ∧ st'.h.size = st.h.size + 1 ∧
      st'.h.kids t = st.h.kids t ++ [st.h.size] ∧ st'.h.kind st.h.size = .text ∧
      st'.val st.h.size = s ∧ st'.h.parent st.h.size = some t ∧
      (∀ x, x < st.h.size → st'.h.parent x = st.h.parent x) ∧ st'.cls = st.cls ∧ st'.dict = st.dict ∧
      st'.exclude = st.exclude := by
  have i1 := newText_inv i s
  have f := newText_fresh i.wf s
  obtain ⟨o1, o2, o3, o4, o5⟩ := f.old t ht
  have hkn : (newText st s).1.h.kind st.h.size = .text := by simp [newText, Heap.alloc]
  have ha : ¬ AncS (newText st s).1.h (newText st s).2 t := by
    rintro (h1 | h1)
    · have := f.size.1; omega
    · have := old_anc i.wf (fun x hx => (f.old x hx).1) h1 ht
      have := f.size.1; omega
  have hp : (newText st s).1.h.parent (newText st s).2 ≠ some t := by rw [f.parent]; exact nofun
  obtain ⟨h', e, hkids, hpar, o⟩ := C14_append_partial i1.wf hp (by rw [o3]; exact hk) f.child ha
  have he : edit (newText st s).1 (.append t (newText st s).2) = .ok { (newText st s).1 with h := h' } := by
    simp only [edit, e, edited, childInserted]
    rw [if_neg]
    rw [o.kind]
    show ¬ (newText st s).1.h.kind st.h.size = _
    rw [hkn]; exact nofun
  have i2 := edit_inv (ed := .append t (newText st s).2) i1 ⟨by have := f.size; omega, f.size.2, hp⟩ (show Inserts U _ (.append _ _) from fun h => by
    rw [show (newText st s).1.h.kind (newText st s).2 = .text from hkn] at h; cases h) he
  have hsz : (newText st s).1.h.size = st.h.size + 1 := rfl
  refine ⟨_, he, i2, ⟨?_, fun x hx => ?_⟩, ?_, ?_, ?_, ?_, ?_, ?_, rfl, rfl, rfl⟩
  · show st.h.size ≤ h'.size
    rw [o.size, hsz]; omega
  · obtain ⟨p1, p2, p3, p4, p5⟩ := f.old x hx
    have hxn : x ≠ st.h.size := by omega
    refine ⟨?_, p4, rfl, rfl, ?_, fun hxt => ?_⟩
    · show h'.kind x = _
      rw [o.kind]; exact p3
    · simp [newText, upd, hxn]
    · show h'.kids x = _
      rw [o.kids x hxt, p2]
      apply List.filter_eq_self.mpr
      intro y hy
      have := (kid_lt i.wf hy).1
      have : y ≠ (newText st s).2 := by show y ≠ st.h.size; omega
      simp [this]
  · show h'.size = _
    rw [o.size, hsz]
  · show h'.kids t = _
    rw [hkids, o2]; rfl
  · show h'.kind _ = _
    rw [o.kind]; exact hkn
  · simp [newText]
  · exact hpar
  · intro x hx
    show h'.parent x = _
    rw [o.parent x (by show x ≠ st.h.size; omega)]
    exact (f.old x hx).1

theorem replaceContent_ok {st : State} (i : Inv U O st) {t : Nat} (ht : t < st.h.size)
    (hk : isContainer (st.h.kind t) = true) (s : Str) :
    ∃ st', replaceContent st t s = .ok st' ∧ Inv U O st' ∧ Keeps st st' t ∧ Content st' t s ∧
      (∀ x, x < st.h.size → x ∉ st.h.kids t → st'.h.parent x = st.h.parent x) ∧
      (∀ x, x ∈ st.h.kids t → st'.h.parent x = none) ∧ st'.cls = st.cls ∧ st'.dict = st.dict ∧
      st'.exclude = st.exclude := by
  obtain ⟨h1, e1, i1, k1, p1, o1, q1, kd1, s1⟩ := removeAll_ok (t := t) _ st i rfl
  obtain ⟨st', e2, i2, kp, sz, k2, kd2, v2, pp2, par2, c2, d2, x2⟩ := appendText_ok i1 (t := t)
    (by show t < h1.size; rw [s1]; exact ht) (by show isContainer (h1.kind t) = true; rw [kd1]; exact hk) s
  refine ⟨st', by simp only [replaceContent, e1, e2], i2, ⟨?_, fun x hx => ?_⟩, ⟨h1.size, ?_, kd2, v2, pp2⟩, ?_, ?_,
    c2, d2, x2⟩
  · have := kp.1
    dsimp only at this
    omega
  · obtain ⟨a1, a2, a3, a4, a5, a6⟩ := kp.2 x (by show x < h1.size; rw [s1]; exact hx)
    exact ⟨a1.trans (by show h1.kind x = _; rw [kd1]), a2, a3, a4, a5, fun h => (a6 h).trans (q1 x h)⟩
  · rw [k2]; show h1.kids t ++ _ = _; rw [k1]; rfl
  · intro x hx hxk
    exact (par2 x (by show x < h1.size; rw [s1]; exact hx)).trans (o1 x hxk)
  · intro x hx
    exact (par2 x (by show x < h1.size; rw [s1]; exact (kid_lt i.wf hx).1)).trans (p1 x hx)

/-- A new element with a text is appended, if an object for it can be made. -/
theorem appendNew_ok {st : State} (i : Inv U O st) {e : Nat} (he : e < st.h.size)
    (hk : isContainer (st.h.kind e) = true) {n : Name} (hn : localOf n.loc = n.loc)
    (hu : U (st.cls e) (.elem n)) (s : Str)
    (hf : get "factory_entity".toList (st.dict ((st.cls e).1, some n)) = none) :
    ∃ st', appendNew st e n s = .ok st' ∧ Inv U O st' ∧ Keeps st st' e ∧ 
      st'.h.kids e = st.h.kids e ++ [st.h.size] ∧ Named st' n st.h.size ∧ st'.attrs st.h.size = [] ∧
      Content st' st.h.size s ∧ st'.h.parent st.h.size = some e ∧
      (∀ x, x < st.h.size → st'.h.parent x = st.h.parent x) ∧ st'.exclude = st.exclude ∧
      (∀ x, x < st.h.size → st'.cls x = st.cls x) ∧
      (∀ c p d, get p (st.dict c) = some d → get p (st'.dict c) = some d) := by
  obtain ⟨hent, hentk⟩ := i.cls e he hk
  have hname : (⟨n.ns, localOf n.loc⟩ : Name) = n := by rw [hn]
  obtain ⟨st1, hnew⟩ : ∃ st1, newElement st (st.cls e).1 n.ns n.loc = .ok (st1, st.h.size) := by
    unfold newElement
    dsimp only
    rw [mapping_dict, (mapping_ext _ _ _).h, hname, hf]
    exact ⟨_, rfl⟩
  obtain ⟨i1, f1, nm1, cl1, kd1, ks1⟩ := newElement_inv i hent hentk hnew
  have same : st1.qname = upd st.qname st.h.size n.loc ∧ st1.attrs = upd st.attrs st.h.size [] ∧
      st1.val = st.val ∧ st1.dict = st.dict ∧ st1.h.size = st.h.size + 1 := by
    obtain ⟨_, _, rfl⟩ := newElement_ok hnew
    have x := mapping_ext st ((st.cls e).1, none) ⟨n.ns, localOf n.loc⟩
    exact ⟨by rw [← x.qname], by rw [← x.attrs], x.val, mapping_dict _ _ _, rfl⟩
  rw [hname] at nm1
  obtain ⟨st2, e2, i2, kp2, sz2, ks2, kd2, v2, pp2, par2, c2, d2, x2⟩ := appendText_ok i1 (t := st.h.size)
    f1.size.2 (by rw [kd1]; rfl) s
  have hold : ∀ x, x < st.h.size → x < st1.h.size := fun x hx => by have := f1.size; omega
  have hes := hold e he
  have hpn : st2.h.parent st.h.size = none := by rw [par2 _ f1.size.2]; exact f1.parent
  have ha : ¬ AncS st2.h st.h.size e := by
    rintro (h1 | h1)
    · omega
    · have := old_anc i.wf (fun x hx => (par2 x (hold x hx)).trans (f1.old x hx).1) h1 he
      omega
  have hkn : st2.h.kind st.h.size = .element := by rw [(kp2.2 _ f1.size.2).1]; exact kd1
  have hke2 : st2.h.kind e = st.h.kind e := by rw [(kp2.2 _ hes).1]; exact (f1.old e he).2.2.1
  obtain ⟨h', ea, ka, pa, o⟩ := C14_append_partial (s := e) (c := st.h.size) i2.wf
    (by rw [hpn]; exact nofun) (by rw [hke2]; exact hk)
    (by rw [hkn]; rfl) ha
  have hsz : st2.h.size = st.h.size + 2 := by have := same.2.2.2.2; omega
  have hee : edit st2 (.append e st.h.size) = .ok (childInserted { st2 with h := h' } e st.h.size) := by
    simp only [edit, ea, edited]
  have hnm2 : st2.name st.h.size = n := by rw [(kp2.2 _ f1.size.2).2.1]; exact nm1
  have hcls2 : st2.cls e = st.cls e := by rw [c2]; exact (f1.old e he).2.2.2.2
  have i3 := edit_inv i2 (ed := .append e st.h.size) ⟨by omega, by omega, by rw [hpn]; exact nofun⟩
    (by intro _; rw [hcls2, hnm2]; exact hu) hee
  have x := childInserted_ext { st2 with h := h' } e st.h.size
  refine ⟨_, ?_, i3, ⟨?_, fun y hy => ?_⟩, ?_, ⟨?_, ?_⟩, ?_, ⟨st1.h.size, ?_, ?_, ?_, ?_⟩, ?_, fun y hy => ?_,
    ?_, fun y hy => ?_, fun c p d hd => x.dict c p d (?_)⟩
  · simp only [appendNew, hnew, e2, hee]
  · rw [x.h]; show _ ≤ h'.size; rw [o.size]; omega
  · obtain ⟨b1, b2, b3, b4, b5⟩ := f1.old y hy
    obtain ⟨a1, a2, a3, a4, a5, a6⟩ := kp2.2 y (hold y hy)
    have hyn : y ≠ st.h.size := by omega
    refine ⟨?_, ?_, ?_, ?_, ?_, fun hye => ?_⟩
    · rw [x.h]; show h'.kind y = _; rw [o.kind]; exact a1.trans b3
    · rw [x.name]; exact a2.trans b4
    · rw [x.qname]; refine Eq.trans a3 ?_; rw [same.1, upd_ne hyn]
    · rw [x.attrs]; refine Eq.trans a4 ?_; rw [same.2.1, upd_ne hyn]
    · rw [x.val]; refine Eq.trans a5 ?_; rw [same.2.2.1]
    · rw [x.h]
      show h'.kids y = _
      rw [o.kids y hye, a6 hyn, b2]
      apply List.filter_eq_self.mpr
      intro z hz
      have := (kid_lt i.wf hz).1
      have : z ≠ st.h.size := by omega
      simp [this]
  · rw [x.h]
    show h'.kids e = _
    rw [ka, (kp2.2 e hes).2.2.2.2.2 (by omega), (f1.old e he).2.1]
  · rw [x.h]; show h'.kind _ = _; rw [o.kind]; exact hkn
  · rw [x.name]; exact hnm2
  · rw [x.attrs]; refine Eq.trans (kp2.2 _ f1.size.2).2.2.2.1 ?_; rw [same.2.1, upd_same]
  · rw [x.h]
    show h'.kids _ = _
    rw [o.kids _ (by omega), ks2, ks1]
    have := same.2.2.2.2
    simp [this]
  · rw [x.h]; show h'.kind _ = _; rw [o.kind]; exact kd2
  · rw [x.val]; exact v2
  · rw [x.h]
    show h'.parent _ = _
    rw [o.parent _ (by have := same.2.2.2.2; omega)]
    exact pp2
  · rw [x.h]; exact pa
  · rw [x.h]
    show h'.parent _ = _
    rw [o.parent _ (by omega), par2 y (hold y hy)]
    exact (f1.old y hy).1
  · rw [x.exclude]; exact x2.trans f1.exclude
  · rw [x.cls]
    show st2.cls y = _
    rw [c2]; exact (f1.old y hy).2.2.2.2
  · show get p (st2.dict c) = _
    rw [d2, same.2.2.2.1]; exact hd

theorem findChild_some {st : State} {e t : Nat} {n : Name} :
    findChild st e n = some t ↔ FirstNamed st e n t := by
  unfold findChild FirstNamed
  rw [List.find?_eq_some_iff_append]
  constructor
  · rintro ⟨h1, l1, l2, h2, h3⟩
    refine ⟨l1, l2, h2, by simpa [isNamed, Named] using h1, fun x hx hn => ?_⟩
    have := h3 x hx
    simp [isNamed, hn.1, hn.2] at this
  · rintro ⟨l1, l2, h2, h1, h3⟩
    refine ⟨by simpa [isNamed, Named] using h1, l1, l2, h2, fun x hx => ?_⟩
    have := h3 x hx
    simp only [Named] at this
    simp only [isNamed, Bool.not_eq_eq_eq_not, Bool.not_true, Bool.and_eq_false_iff, decide_eq_false_iff_not]
    by_cases hk : st.h.kind x = .element
    · exact .inr fun h => this ⟨hk, h⟩
    · exact .inl hk

theorem findChild_none {st : State} {e : Nat} {n : Name} :
    findChild st e n = none ↔ ∀ x ∈ st.h.kids e, ¬ Named st n x := by
  unfold findChild
  simp [List.find?_eq_none, isNamed, Named]

theorem Spec.FirstNamed.mem {st : State} {e t : Nat} {n : Name} (h : FirstNamed st e n t) :
    t ∈ st.h.kids e ∧ Named st n t := by
  obtain ⟨l1, l2, h1, h2, _⟩ := h
  rw [h1]
  exact ⟨by simp, h2⟩

theorem localOf_plain {l : Str} (h : ':' ∉ l) : localOf l = l := by
  cases l with
  | nil => rfl
  | cons c l =>
    unfold localOf
    have : (c :: l).dropWhile (· ≠ ':') = [] := by
      have hall : ∀ m : Str, ':' ∉ m → m.dropWhile (· ≠ ':') = [] := by
        intro m
        induction m with
        | nil => intro _; rfl
        | cons x m ih =>
          intro hm
          simp only [List.mem_cons, not_or] at hm
          rw [List.dropWhile_cons_of_pos (by simp only [ne_eq, decide_not, Bool.not_eq_eq_eq_not, Bool.not_true, decide_eq_false_iff_not]; exact fun h => hm.1 h.symm)]
          exact ih hm.2
      exact hall _ h
    show (match (c :: l).dropWhile (· ≠ ':') with | _ :: l => l | [] => c :: l) = _
    rw [this]

/-- The local names of elements have no colon. -/
def Spec.Plain (U : Cls → Desc → Prop) : Prop := ∀ c n, U c (.elem n) → ':' ∉ n.loc

theorem setAttr_inv (hp : Plain U) {st st' : State} {e : Nat} {p s : Str} (i : Inv U O st)
    (he : e < st.h.size) (hk : isContainer (st.h.kind e) = true)
    (h : setAttr st e p s = .ok st') : Inv U O st' := by
  unfold setAttr at h
  split at h
  · injection h with h; exact h ▸ i
  · rename_i n hd
    obtain ⟨hu, _⟩ := i.dict _ _ _ hd
    unfold setElement at h
    split at h
    · rename_i t ht
      obtain ⟨hm, hn⟩ := FirstNamed.mem (findChild_some.mp ht)
      obtain ⟨st2, e2, i2, _⟩ := replaceContent_ok i (kid_lt i.wf hm).1 (by rw [hn.1]; rfl) s
      rw [h] at e2; cases e2; exact i2
    · have hl := localOf_plain (hp _ _ hu)
      cases hf : get "factory_entity".toList (st.dict ((st.cls e).1, some n)) with
      | none =>
        obtain ⟨st2, e2, i2, _⟩ := appendNew_ok i he hk hl hu s hf
        rw [h] at e2; cases e2; exact i2
      | some d =>
        simp only [appendNew, newElement, mapping_dict, hl] at h
        rw [hf] at h
        exact (nomatch h)
  · rename_i n hd
    obtain ⟨hu, _⟩ := i.dict _ _ _ hd
    split at h
    · rename_i hke
      injection h with h
      subst h
      exact setAttribute_inv i s he hke hu
    · exact (nomatch h)

theorem get_drop {n m : Name} {l : List (Name × Str)} :
    get m (drop n l) = if m = n then none else get m l := by
  induction l with
  | nil => simp [drop, get]
  | cons a l ih =>
    obtain ⟨k, v⟩ := a
    unfold drop at ih ⊢
    rw [List.filter_cons]
    by_cases hk : k = n
    · simp only [hk, ne_eq, not_true_eq_false, decide_false, Bool.false_eq_true, if_false, ih]
      by_cases hm : m = n
      · simp [hm]
      · simp [hm, get]
    · simp only [ne_eq, hk, not_false_eq_true, decide_true, if_true, get, ih]
      by_cases hm : m = n
      · have : n ≠ k := fun h => hk h.symm
        simp [hm, this]
      · simp [hm]

theorem delAttr_inv {st st' : State} {e : Nat} {p : Str} (i : Inv U O st)
    (h : delAttr st e p = .ok st') : Inv U O st' := by
  unfold delAttr at h
  split at h
  · exact (nomatch h)
  · split at h
    · exact edit_inv (ed := .remove _ _) i trivial trivial h
    · exact (nomatch h)
  · rename_i n hd
    split at h
    · injection h with h
      subst h
      refine ⟨i.wf, i.dict, i.cache, i.kids, ?_, i.cls⟩
      intro x hx hkx m hm
      refine i.attrs x hx hkx m ?_
      dsimp only at hm
      by_cases hxe : x = e
      · subst hxe
        rw [upd_same, get_drop] at hm
        split at hm
        · exact (nomatch hm)
        · exact hm
      · rw [upd_ne hxe] at hm; exact hm
    · exact (nomatch h)

theorem reach_inv (hp : Plain U) {st : State} (r : Reach U st) : Inv U (fun _ => False) st := by
  induction r with
  | start x =>
    exact ⟨wf_empty, nofun, nofun, fun _ _ _ h => (nomatch h), fun _ h => (nomatch h), fun _ h => (nomatch h)⟩
  | entity _ ih => exact newEntity_inv ih
  | text s _ ih => exact newText_inv ih s
  | element _ h1 h2 h3 ih => exact (newElement_inv ih h1 h2 h3).1
  | «attribute» v _ h1 h2 h3 ih => exact setAttribute_inv ih v h1 h2 h3
  | edit _ h1 h2 h3 ih => exact edit_inv ih h1 h2 h3
  | parse _ h1 h2 ih => exact parse_inv ih h1 h2
  | assign _ h1 h2 h3 ih => exact setAttr_inv hp ih h1 h2 h3
  | delete _ h1 ih => exact delAttr_inv ih h1

end Verif.Bind
