import Verif.Bind.Assign
/-
C67: Python names of bindery nodes.
-/
namespace Verif.Bind
open Verif.Dom Verif.Dom.Spec Spec

variable {U : Cls → Desc → Prop}

/-! ### Python names -/

theorem avoid_not_mem (bad : List Str) : ∀ (k : Nat) (p : Str) (left : List Str), left.length ≤ k →
    (∀ x ∈ bad, p.length ≤ x.length → x ∈ left) → avoid bad k p ∉ bad
  | 0, p, left, hl, hb => by
    intro h
    have := hb p h (Nat.le_refl _)
    rw [List.length_eq_zero_iff.mp (Nat.le_zero.mp hl)] at this
    exact (nomatch this)
  | k + 1, p, left, hl, hb => by
    unfold avoid
    split
    · rename_i h
      have hp := hb p h (Nat.le_refl _)
      refine avoid_not_mem bad k (p ++ ['_']) (left.erase p) ?_ ?_
      · rw [List.length_erase_of_mem hp]; omega
      · intro x hx hlen
        simp only [List.length_append, List.length_singleton] at hlen
        refine (List.mem_erase_of_ne ?_).mpr (hb x hx (by omega))
        rintro rfl
        omega
    · rename_i h; exact h

theorem avoid_identifier (bad : List Str) : ∀ (k : Nat) (p : Str), Identifier p → Identifier (avoid bad k p)
  | 0, _, h => h
  | k + 1, p, h => by
    unfold avoid
    split
    · refine avoid_identifier bad k _ ⟨?_, ?_⟩
      · intro c hc
        rcases List.mem_append.mp hc with hc | hc
        · exact h.1 c hc
        · rw [List.mem_singleton] at hc; exact .inr hc
      · obtain ⟨c, cs, rfl, hd⟩ := h.2
        exact ⟨c, cs ++ ['_'], rfl, hd⟩
    · exact h

theorem avoid_prefix (bad : List Str) : ∀ (k : Nat) (p : Str), ∃ j, avoid bad k p = p ++ List.replicate j '_'
  | 0, p => ⟨0, by simp [avoid]⟩
  | k + 1, p => by
    unfold avoid
    split
    · obtain ⟨j, hj⟩ := avoid_prefix bad k (p ++ ['_'])
      exact ⟨j + 1, by rw [hj, List.append_assoc]; rfl⟩
    · exact ⟨0, by simp⟩

theorem isWord_iff (c : Char) : isWord c = true ↔ c.isAlphanum ∨ c = '_' := by
  simp only [isWord, Char.isAlphanum, Char.isAlpha, Char.isUpper, Char.isLower, Char.isDigit, Bool.or_eq_true,
    Bool.and_eq_true, decide_eq_true_eq, ge_iff_le, UInt32.le_iff_toNat_le]
  exact Iff.rfl

/-- C67: The Python name of an element or attribute is a Python identifier, and no keyword nor
reserved or excluded name; it is the name itself if that is one already. -/
theorem C67_identifier (exclude : List Str) (c : Char) (l : Str) (hc : ¬ c.isDigit) :
    Identifier (pythonName exclude (c :: l)) ∧ pythonName exclude (c :: l) ∉ reserved ∧
      pythonName exclude (c :: l) ∉ exclude ∧
      (Identifier (c :: l) → c :: l ∉ reserved → c :: l ∉ exclude → pythonName exclude (c :: l) = c :: l) := by
  have hb := avoid_not_mem (reserved ++ exclude) (reserved ++ exclude).length (underscores (c :: l))
    (reserved ++ exclude) (Nat.le_refl _) (fun x hx _ => hx)
  refine ⟨avoid_identifier _ _ _ ⟨?_, ?_⟩, fun h => hb (List.mem_append_left _ h),
    fun h => hb (List.mem_append_right _ h), fun hi h1 h2 => ?_⟩
  · intro x hx
    obtain ⟨y, _, hy⟩ := List.mem_flatMap.mp hx
    split at hy
    · rename_i hw
      rw [List.mem_singleton] at hy
      subst hy
      exact (isWord_iff x).mp hw
    · exact .inr (List.eq_of_mem_replicate hy)
  · unfold underscores
    rw [List.flatMap_cons]
    split
    · exact ⟨c, _, rfl, hc⟩
    · obtain ⟨k, hk⟩ : ∃ k, c.utf8Size = k + 1 := ⟨c.utf8Size - 1, by have := c.utf8Size_pos; omega⟩
      rw [hk, List.replicate_succ]
      exact ⟨'_', _, rfl, by decide⟩
  · have hu : ∀ m : Str, (∀ x ∈ m, isWord x = true) → underscores m = m := by
      intro m
      induction m with
      | nil => intro _; rfl
      | cons x m ih =>
        intro h
        unfold underscores at ih ⊢
        rw [List.flatMap_cons, if_pos (h x List.mem_cons_self), ih fun y hy => h y (List.mem_cons_of_mem _ hy)]
        rfl
    unfold pythonName
    rw [hu _ fun x hx => (isWord_iff x).mpr (hi.1 x hx)]
    have : c :: l ∉ reserved ++ exclude := fun h => (List.mem_append.mp h).elim h1 h2
    cases (reserved ++ exclude).length with
    | zero => rfl
    | succ k => rw [avoid, if_neg this]

/-- `class` is a keyword, and its name has an underscore more; `xml:lang`, `a-b`, `é`. -/
example : pythonName [] "class".toList = "class_".toList ∧ pythonName [] "a-b".toList = "a_b".toList ∧
    pythonName [] "é".toList = "__".toList ∧
    pythonName ["a_".toList, "a".toList, "a__".toList] "a".toList = "a___".toList := by decide +kernel

/-! ### Reading -/

theorem classKeys_internal {p : Str} (h : p ∈ classKeys) : Internal p := by
  simp only [classKeys, List.mem_cons, List.not_mem_nil, or_false] at h
  rcases h with rfl | rfl | rfl | rfl | rfl
  · exact .inr (.inl ⟨_, rfl⟩)
  · exact .inr (.inl ⟨_, rfl⟩)
  · exact .inl ⟨_, _, _, _, rfl, .inl rfl, .inl rfl, .inl rfl⟩
  · exact .inl ⟨_, _, _, _, rfl, .inl rfl, .inl rfl, .inl rfl⟩
  · exact .inl ⟨_, _, _, _, rfl, .inl rfl, .inl rfl, .inl rfl⟩

theorem known_dict {O : Nat → Prop} {st : State} (i : Inv U O st) (hn : NoClash U st.exclude) {c : Cls} {d : Desc}
    (k : Known U st c d) (hi : ¬ Internal (pythonName st.exclude d.name.loc)) :
    get (pythonName st.exclude d.name.loc) (st.dict c) = some d := by
  rcases k with ⟨hu, h | h⟩
  · exact absurd (classKeys_internal h) hi
  · obtain ⟨d', hd⟩ := Option.isSome_iff_exists.mp h
    obtain ⟨hu', hp, _⟩ := i.dict _ _ _ hd
    rw [hd, hn c d' d hu' hu hp.symm]

/-- C67: if the things that elements of a class have in all their history have different Python names,
then the Python name of a child element gives the first child with the name of that element, however
the document was made: parsed, edited, assigned to or deleted from. -/
theorem C67_names_partial (hp : Plain U) {st : State} (r : Reach U st) (hn : NoClash U st.exclude) {e c : Nat}
    (hc : c ∈ st.h.kids e) (hk : st.h.kind c = .element)
    (hi : ¬ Internal (pythonName st.exclude (st.name c).loc)) :
    ∃ f, getAttr st e (pythonName st.exclude (st.name c).loc) = .node f ∧ FirstNamed st e (st.name c) f := by
  have i := reach_inv hp r
  have hd : get (pythonName st.exclude (st.name c).loc) (st.dict (st.cls e)) = some (.elem (st.name c)) :=
    known_dict i hn (d := .elem (st.name c)) (i.kids e nofun c hc hk) hi
  cases hf : findChild st e (st.name c) with
  | none => exact absurd ⟨hk, rfl⟩ (findChild_none.mp hf c hc)
  | some f =>
    refine ⟨f, ?_, findChild_some.mp hf⟩
    rw [getAttr, hd]
    simp only [hf]

/-- C67: and the Python name of an attribute gives its value. -/
theorem C67_attribute_partial (hp : Plain U) {st : State} (r : Reach U st) (hn : NoClash U st.exclude) {e : Nat}
    {n : Name} {v : Str} (he : e < st.h.size) (hk : st.h.kind e = .element) (hv : get n (st.attrs e) = some v)
    (hi : ¬ Internal (pythonName st.exclude n.loc)) :
    getAttr st e (pythonName st.exclude n.loc) = .value v := by
  have i := reach_inv hp r
  have hd : get (pythonName st.exclude n.loc) (st.dict (st.cls e)) = some (.attr n) :=
    known_dict i hn (d := .attr n) (i.attrs e he hk n (by rw [hv]; rfl)) hi
  rw [getAttr, hd]
  simp only [hv]

/-- C67: whatever the names, a node that is given is the first child of its name, and a value is that of an
attribute, and the name asked for is the Python name of this child or attribute. -/
theorem C67_sound (hp : Plain U) {st : State} (r : Reach U st) (e : Nat) (p : Str) :
    (∀ c, getAttr st e p = .node c →
      FirstNamed st e (st.name c) c ∧ p = pythonName st.exclude (st.name c).loc) ∧
    (∀ v, getAttr st e p = .value v →
      ∃ n, get n (st.attrs e) = some v ∧ p = pythonName st.exclude n.loc) := by
  have i := reach_inv hp r
  unfold getAttr
  constructor
  · intro c h
    split at h
    · exact (nomatch h)
    · rename_i n hd
      split at h
      · rename_i f hf
        injection h with h
        subst h
        have hf := findChild_some.mp hf
        have hnm := hf.mem.2.2
        rw [hnm]
        exact ⟨hf, (i.dict _ _ _ hd).2.1⟩
      · exact (nomatch h)
    · split at h <;> exact (nomatch h)
  · intro v h
    split at h
    · exact (nomatch h)
    · split at h <;> exact (nomatch h)
    · rename_i n hd
      split at h
      · rename_i w hw
        injection h with h
        subst h
        exact ⟨n, hw, (i.dict _ _ _ hd).2.1⟩
      · exact (nomatch h)

/-! ### An element as the sequence of its namesakes -/

/-- C67: if `r.a` is an element then `list(r.a)` are the children of `r` with its name, in document
order, of which it is the first; for an element without a prefix `len(r.a)` is their number and `r.a[k]`
is that with index `k`, counted from the end if `k` is negative. -/
theorem C67_sequence (hp : Plain U) {st : State} (r : Reach U st) {e f : Nat} {p : Str}
    (h : getAttr st e p = .node f) :
    ∃ l, elements st f = .ok l ∧ l.Sublist (st.h.kids e) ∧
      (∀ x, x ∈ l ↔ x ∈ st.h.kids e ∧ Named st (st.name f) x) ∧ l.head? = some f ∧
      (st.qname f = (st.name f).loc → len st f = .ok l.length ∧
        (∀ (k : Nat) (hk : k < l.length), item st f k = .ok l[k]) ∧
        (∀ (k : Nat) (hk : k < l.length), item st f (-1 - (k : Int)) = .ok (l.reverse[k]'(by simpa using hk))) ∧
        (∀ k : Int, l.length ≤ k ∨ k < -l.length → item st f k = .error .index)) := by
  have i := reach_inv hp r
  obtain ⟨hf, _⟩ := (C67_sound hp r e p).1 f h
  have hpar := i.wf.kids_parent _ _ hf.mem.1
  refine ⟨iterNamed st e (st.name f), by simp only [elements, hpar], List.filter_sublist, fun x => ?_, ?_, fun hq => ?_⟩
  · simp [iterNamed, isNamed, Named]
  · have := findChild_some.mpr hf
    rw [findChild] at this
    rw [iterNamed, List.head?_filter]
    exact this
  · have hnm : (⟨(st.name f).ns, st.qname f⟩ : Name) = st.name f := by rw [hq]
    simp only [len, item, hpar, hnm]
    generalize iterNamed st e (st.name f) = l
    refine ⟨trivial, fun k hk => ?_, fun k hk => ?_, fun k hk => ?_⟩
    · rw [pyIndex, if_pos (by omega)]
      simp [hk]
    · rw [pyIndex, if_neg (by omega), if_pos (by omega)]
      have : (-1 - (k : Int) + (l.length : Int)).toNat = l.length - 1 - k := by omega
      rw [this, List.getElem?_eq_getElem (by omega)]
      simp
    · rcases hk with hk | hk
      · rw [pyIndex, if_pos (by omega), List.getElem?_eq_none (by omega)]
      · rw [pyIndex, if_neg (by omega), if_neg (by omega)]

/-! ### Assigning and deleting -/

theorem find?_congr' {α : Type} {f g : α → Bool} : ∀ {l : List α}, (∀ x ∈ l, f x = g x) → l.find? f = l.find? g
  | [], _ => rfl
  | a :: l, h => by
    rw [List.find?_cons, List.find?_cons, h a List.mem_cons_self,
      find?_congr' fun x hx => h x (List.mem_cons_of_mem _ hx)]

theorem getAttr_node {st : State} {e f : Nat} {p : Str} (h : getAttr st e p = .node f) :
    ∃ n, get p (st.dict (st.cls e)) = some (.elem n) ∧ findChild st e n = some f := by
  unfold getAttr at h
  split at h
  · exact (nomatch h)
  · rename_i n hd
    split at h
    · rename_i c hc; injection h with h; subst h; exact ⟨n, hd, hc⟩
    · exact (nomatch h)
  · split at h <;> exact (nomatch h)

theorem getAttr_value {st : State} {e : Nat} {p v : Str} (h : getAttr st e p = .value v) :
    ∃ n, get p (st.dict (st.cls e)) = some (.attr n) ∧ get n (st.attrs e) = some v := by
  unfold getAttr at h
  split at h
  · exact (nomatch h)
  · split at h <;> exact (nomatch h)
  · rename_i n hd
    split at h
    · rename_i c hc; injection h with h; subst h; exact ⟨n, hd, hc⟩
    · exact (nomatch h)

/-- C67: after an assignment to `e.p`, where that was an element, the content of this element is the text, and nothing else has
changed; it is still `e.p`.  The former content is without a parent. -/
theorem C67_assign_element (hp : Plain U) {st : State} (r : Reach U st) {e f : Nat} {p : Str} (s : Str)
    (h : getAttr st e p = .node f) :
    ∃ st', setAttr st e p s = .ok st' ∧ Reach U st' ∧ Content st' f s ∧ Keeps st st' f ∧
      getAttr st' e p = .node f ∧ ∀ x ∈ st.h.kids f, st'.h.parent x = none := by
  have i := reach_inv hp r
  obtain ⟨n, hd, hf⟩ := getAttr_node h
  obtain ⟨hm, hnm⟩ := (findChild_some.mp hf).mem
  have hpar := i.wf.kids_parent _ _ hm
  obtain ⟨hfs, hes⟩ := i.wf.bounded _ _ hpar
  have hef : e ≠ f := by
    rintro rfl
    exact i.wf.acyclic _ (.parent hpar)
  obtain ⟨st', e2, i2, kp, ct, p1, p2, c2, d2, x2⟩ := replaceContent_ok i hfs (by rw [hnm.1]; rfl) s
  have hset : setAttr st e p s = .ok st' := by simp only [setAttr, hd, setElement, hf, e2]
  refine ⟨st', hset, .assign r hes (i.wf.parent_kind _ _ hpar) hset, ct, kp, ?_, p2⟩
  have hk : st'.h.kids e = st.h.kids e := (kp.2 e hes).2.2.2.2.2 hef
  have hf' : findChild st' e n = some f := by
    rw [← hf]
    unfold findChild
    rw [hk]
    apply find?_congr'
    intro x hx
    obtain ⟨a1, a2, _⟩ := kp.2 x (kid_lt i.wf hx).1
    simp only [isNamed, a1, a2]
  rw [getAttr, c2, d2, hd]
  simp only [hf']

/-- C67: where `e.p` was an attribute the assignment sets its value, and nothing else changes. -/
theorem C67_assign_attribute {st : State} (r : Reach U st) {e : Nat} {p v : Str} (s : Str)
    (he : e < st.h.size) (hk : st.h.kind e = .element) (h : getAttr st e p = .value v) :
    ∃ st' n, setAttr st e p s = .ok st' ∧ Reach U st' ∧ getAttr st' e p = .value s ∧ st'.h = st.h ∧
      st'.val = st.val ∧ st'.name = st.name ∧ st'.qname = st.qname ∧ (∀ x, x ≠ e → st'.attrs x = st.attrs x) ∧
      get n (st.attrs e) = some v ∧ get n (st'.attrs e) = some s ∧
      (∀ m, m ≠ n → get m (st'.attrs e) = get m (st.attrs e)) ∧
      (st'.attrs e).map (·.1) = (st.attrs e).map (·.1) := by
  obtain ⟨n, hd, hv⟩ := getAttr_value h
  have x := setAttribute_ext (st := st) e n s
  have hset : setAttr st e p s = .ok (setAttribute st e n s) := by simp only [setAttr, hd, if_pos hk]
  have ha : (setAttribute st e n s).attrs e = put n s (st.attrs e) := by rw [x.attrs]; simp
  have hg : get n ((setAttribute st e n s).attrs e) = some s := by rw [ha, get_put, if_pos rfl]
  refine ⟨_, n, hset, .assign r he (by rw [hk]; rfl) hset, ?_, x.h, x.val, x.name, x.qname, fun y hy => ?_, hv, hg, fun m hm => ?_, ?_⟩
  · have := x.dict (st.cls e) p (.attr n) hd
    rw [getAttr, x.cls, this]
    simp only [hg]
  · rw [x.attrs]; exact upd_ne hy
  · rw [ha, get_put, if_neg hm]
  · rw [ha]
    have : ∀ l : List (Name × Str), (get n l).isSome → (put n s l).map (·.1) = l.map (·.1) := by
      intro l
      induction l with
      | nil => intro h; exact (nomatch h)
      | cons a l ih =>
        intro h
        obtain ⟨k, w⟩ := a
        simp only [put, get] at h ⊢
        split
        · rename_i hk; simp [hk]
        · rename_i hk
          rw [if_neg hk] at h
          simp [ih h]
    exact this _ (by rw [hv]; rfl)

/-- C67: where `e.p` is None, because other elements of the class have a child of this name, the
assignment appends such a child with the text, and `e.p` is this child; or it adds such an attribute, which is `e.p` then. -/
theorem C67_assign_new (hp : Plain U) {st : State} (r : Reach U st) {e : Nat} {p : Str} (s : Str)
    (he : e < st.h.size) (hk : isContainer (st.h.kind e) = true) (h : getAttr st e p = .none)
    (hf : ∀ c, get "factory_entity".toList (st.dict c) = none) :
    (∃ st' n c, setAttr st e p s = .ok st' ∧ Reach U st' ∧ p = pythonName st.exclude n.loc ∧
      st'.h.kids e = st.h.kids e ++ [c] ∧ st.h.size ≤ c ∧ Named st' n c ∧ st'.attrs c = [] ∧ Content st' c s ∧
      Keeps st st' e ∧ getAttr st' e p = .node c) ∨
    (st.h.kind e = .element → ∃ st' n, setAttr st e p s = .ok st' ∧ Reach U st' ∧
      p = pythonName st.exclude n.loc ∧ st'.h = st.h ∧ st'.attrs e = st.attrs e ++ [(n, s)] ∧
      (∀ x, x ≠ e → st'.attrs x = st.attrs x) ∧ getAttr st' e p = .value s) := by
  have i := reach_inv hp r
  unfold getAttr at h
  split at h
  · exact (nomatch h)
  · rename_i n hd
    left
    split at h
    · exact (nomatch h)
    · rename_i hfc
      obtain ⟨hu, hpn, _⟩ := i.dict _ _ _ hd
      obtain ⟨st', e2, i2, kp, k2, nm2, a2, ct, pp, par, x2, c2, d2⟩ :=
        appendNew_ok i he hk (localOf_plain (hp _ _ hu)) hu s (hf _)
      have hset : setAttr st e p s = .ok st' := by simp only [setAttr, hd, setElement, hfc, e2]
      refine ⟨st', n, st.h.size, hset, .assign r he hk hset, hpn, k2, Nat.le_refl _, nm2, a2, ct, kp, ?_⟩
      have hf' : findChild st' e n = some st.h.size := by
        rw [findChild_some]
        refine ⟨_, [], k2, nm2, fun x hx hn => ?_⟩
        obtain ⟨b1, b2, _⟩ := kp.2 x (kid_lt i.wf hx).1
        exact findChild_none.mp hfc x hx ⟨b1 ▸ hn.1, b2 ▸ hn.2⟩
      rw [getAttr, c2 e he, d2 _ _ _ hd]
      simp only [hf']
  · rename_i n hd
    right
    intro hke
    split at h
    · exact (nomatch h)
    · rename_i hv
      have x := setAttribute_ext (st := st) e n s
      have hset : setAttr st e p s = .ok (setAttribute st e n s) := by simp only [setAttr, hd, if_pos hke]
      have hg : get n ((setAttribute st e n s).attrs e) = some s := by
        rw [x.attrs]; simp only [upd_same]; rw [get_put, if_pos rfl]
      refine ⟨_, n, hset, .assign r he hk hset, (i.dict _ _ _ hd).2.1, x.h, ?_, fun y hy => ?_, ?_⟩
      · rw [x.attrs]
        simp only [upd_same]
        generalize st.attrs e = l at hv
        clear hg hset x
        induction l with
        | nil => rfl
        | cons a l ih =>
          obtain ⟨k, w⟩ := a
          simp only [get] at hv
          split at hv
          · exact (nomatch hv)
          · rename_i hk; simp only [put, if_neg hk, ih hv]; rfl
      · rw [x.attrs]; exact upd_ne hy
      · rw [getAttr, x.cls, x.dict _ _ _ hd]
        simp only [hg]

/-- C67: `del e.p` removes the child `e.p` and nothing else; or the attribute. -/
theorem C67_delete (hp : Plain U) {st : State} (r : Reach U st) (e : Nat) (p : Str) :
    (∀ f, getAttr st e p = .node f → ∃ st', delAttr st e p = .ok st' ∧ Reach U st' ∧
      st'.h.kids e = (st.h.kids e).filter (· ≠ f) ∧ st'.h.parent f = none ∧ Keeps st st' e ∧
      ∀ x, x ≠ f → st'.h.parent x = st.h.parent x) ∧
    (∀ v, getAttr st e p = .value v → ∃ st' n, delAttr st e p = .ok st' ∧ Reach U st' ∧
      get n (st.attrs e) = some v ∧ get n (st'.attrs e) = none ∧
      (∀ m, m ≠ n → get m (st'.attrs e) = get m (st.attrs e)) ∧ st'.h = st.h ∧
      (∀ x, x ≠ e → st'.attrs x = st.attrs x) ∧ getAttr st' e p = .none) := by
  have i := reach_inv hp r
  constructor
  · intro f h
    obtain ⟨n, hd, hf⟩ := getAttr_node h
    obtain ⟨hm, hnm⟩ := (findChild_some.mp hf).mem
    obtain ⟨h', e1, i1, k1, p1, o1, q1, kd1, s1⟩ := remove_kids i hm
    have hdel : delAttr st e p = .ok { st with h := h' } := by simp only [delAttr, hd, hf, e1]
    refine ⟨_, hdel, .delete r hdel, k1, p1, ⟨by show _ ≤ h'.size; omega, fun x hx => ?_⟩, o1⟩
    exact ⟨by show h'.kind x = _; rw [kd1], rfl, rfl, rfl, rfl, q1 x⟩
  · intro v h
    obtain ⟨n, hd, hv⟩ := getAttr_value h
    have hdel : delAttr st e p = .ok { st with attrs := upd st.attrs e (drop n (st.attrs e)) } := by
      simp only [delAttr, hd, hv, Option.isSome_some, if_true]
    have hg : get n (upd st.attrs e (drop n (st.attrs e)) e) = none := by rw [upd_same, get_drop, if_pos rfl]
    refine ⟨_, n, hdel, .delete r hdel, hv, hg, fun m hm => ?_, rfl, fun x hx => upd_ne hx, ?_⟩
    · show get m (upd st.attrs e (drop n (st.attrs e)) e) = _
      rw [upd_same, get_drop, if_neg hm]
    · rw [getAttr]
      dsimp only
      rw [hd]
      dsimp only
      rw [hg]

/-! ### `xml_fixup` -/

theorem anc_mono {h h0 : Heap} (hs : ∀ x q, h.parent x = some q → h0.parent x = some q) {a b : Nat}
    (k : Anc h a b) : Anc h0 a b := by
  induction k with
  | parent h1 => exact .parent (hs _ _ h1)
  | step _ h1 ih => exact .step ih (hs _ _ h1)

theorem appendAll_ok {h0 : Heap} (w0 : WF h0) {e : Nat} : ∀ (l : List Nat) (st : State), Inv U (fun _ => False) st →
    (∀ x q, st.h.parent x = some q → h0.parent x = some q) → (∀ x ∈ l, x ∈ h0.kids e) → l.Nodup →
    (∀ x ∈ l, st.h.parent x = none) → st.h.kind = h0.kind → st.h.size = h0.size →
    (∀ x ∈ l, st.h.kind x = .element → U (st.cls e) (.elem (st.name x))) →
    ∃ st', appendAll st e l = .ok st' ∧ Inv U (fun _ => False) st' ∧ st'.h.kids e = st.h.kids e ++ l ∧
      (∀ x, x ≠ e → st'.h.kids x = st.h.kids x) ∧ (∀ x ∈ l, st'.h.parent x = some e) ∧
      (∀ x, x ∉ l → st'.h.parent x = st.h.parent x) ∧ st'.h.kind = st.h.kind ∧ st'.h.size = st.h.size ∧
      st'.name = st.name ∧ st'.qname = st.qname ∧ st'.attrs = st.attrs ∧ st'.val = st.val
  | [], st, i, _, _, _, _, _, _, _ =>
    ⟨st, rfl, i, by simp, fun _ _ => rfl, nofun, fun _ _ => rfl, rfl, rfl, rfl, rfl, rfl, rfl⟩
  | c :: l, st, i, hs, hm, hn, hnone, hk, hz, hu => by
    have hc0 := hm c List.mem_cons_self
    have hp0 := w0.kids_parent _ _ hc0
    have hpc := hnone c List.mem_cons_self
    have hcl : c ∉ l := (List.nodup_cons.mp hn).1
    have hpne : st.h.parent c ≠ some e := by rw [hpc]; exact nofun
    have ha : ¬ AncS st.h c e := by
      rintro (h1 | h1)
      · subst h1; exact w0.acyclic _ (.parent hp0)
      · exact w0.acyclic _ ((anc_mono hs h1).trans (.parent hp0))
    obtain ⟨h', e1, k1, p1, o⟩ := C14_append_partial i.wf hpne (by rw [hk]; exact w0.parent_kind _ _ hp0)
      (by rw [hk]; exact w0.child_kind _ _ hc0) ha
    have hee : edit st (.append e c) = .ok (childInserted { st with h := h' } e c) := by
      simp only [edit, e1, edited]
    have i1 := edit_inv (ed := .append e c) i ⟨by rw [hz]; exact (w0.bounded _ _ hp0).2, by rw [hz]; exact (w0.bounded _ _ hp0).1, hpne⟩
      (hu c List.mem_cons_self) hee
    have x := childInserted_ext { st with h := h' } e c
    have nofree : ∀ y, (st.h.kids y).filter (· ≠ c) = st.h.kids y := by
      intro y
      apply List.filter_eq_self.mpr
      intro z hz
      have : z ≠ c := by
        rintro rfl
        rw [i.wf.kids_parent _ _ hz] at hpc
        exact (nomatch hpc)
      simp [this]
    obtain ⟨st', e2, i2, k2, q2, pl2, pn2, kd2, s2, b1, b2, b3, b4⟩ := appendAll_ok w0 l (childInserted { st with h := h' } e c) i1
      (by
        rw [x.h]
        intro y q hy
        dsimp only at hy
        by_cases hyc : y = c
        · subst hyc; rw [p1] at hy; rw [← hy]; exact hp0
        · rw [o.parent y hyc] at hy; exact hs y q hy)
      (fun y hy => hm y (List.mem_cons_of_mem _ hy)) (List.nodup_cons.mp hn).2
      (by
        rw [x.h]
        intro y hy
        dsimp only
        rw [o.parent y fun h => hcl (h ▸ hy)]
        exact hnone y (List.mem_cons_of_mem _ hy))
      (by rw [x.h]; exact o.kind.trans hk) (by rw [x.h]; exact o.size.trans hz)
      (by
        rw [x.h, x.cls, x.name]
        intro y hy hky
        exact hu y (List.mem_cons_of_mem _ hy) (by rw [← o.kind]; exact hky))
    refine ⟨st', by rw [appendAll, hee]; exact e2, i2, ?_, ?_, ?_, ?_, ?_, ?_, b1.trans x.name, b2.trans x.qname,
      b3.trans x.attrs, b4.trans x.val⟩
    · rw [k2, x.h]
      show h'.kids e ++ l = _
      rw [k1, List.append_assoc]
      rfl
    · intro y hy
      rw [q2 y hy, x.h]
      show h'.kids y = _
      rw [o.kids y hy, nofree]
    · intro y hy
      rcases List.mem_cons.mp hy with rfl | hy
      · rw [pn2 y hcl, x.h]; exact p1
      · exact pl2 y hy
    · intro y hy
      rw [pn2 y fun h => hy (List.mem_cons_of_mem _ h), x.h]
      exact o.parent y fun h => hy (h ▸ List.mem_cons_self)
    · rw [kd2, x.h]; exact o.kind
    · rw [s2, x.h]; exact o.size

/-- C67: `xml_fixup()` takes all children out and puts them back: the tree is as it was. -/
theorem C67_fixup (hp : Plain U) {st : State} (r : Reach U st) (e : Nat) :
    ∃ st', fixup st e = .ok st' ∧ st'.h.kids = st.h.kids ∧ st'.h.parent = st.h.parent ∧
      st'.h.kind = st.h.kind ∧ st'.h.size = st.h.size ∧ st'.name = st.name ∧ st'.attrs = st.attrs ∧
      st'.val = st.val := by
  have i := reach_inv hp r
  obtain ⟨h1, e1, i1, k1, p1, o1, q1, kd1, s1⟩ := removeAll_ok (t := e) _ st i rfl
  obtain ⟨st', e2, i2, k2, q2, pl2, pn2, kd2, s2, b1, b2, b3, b4⟩ := appendAll_ok i.wf (e := e) (st.h.kids e)
    { st with h := h1 } i1
    (by
      intro x q hx
      dsimp only at hx
      by_cases hxk : x ∈ st.h.kids e
      · rw [p1 x hxk] at hx; exact (nomatch hx)
      · rw [o1 x hxk] at hx; exact hx)
    (fun _ h => h) (i.wf.nodup e) p1 kd1 s1
    (by
      intro x hx hk
      dsimp only at hk
      rw [kd1] at hk
      exact (i.kids e nofun x hx hk).1)
  refine ⟨st', by simp only [fixup, e1, e2], funext fun x => ?_, funext fun x => ?_, kd2.trans kd1, s2.trans s1, b1, b3, b4⟩
  · by_cases hx : x = e
    · subst hx
      rw [k2]
      show h1.kids x ++ _ = _
      rw [k1]
      rfl
    · rw [q2 x hx]; exact q1 x hx
  · by_cases hx : x ∈ st.h.kids e
    · rw [pl2 x hx, i.wf.kids_parent _ _ hx]
    · rw [pn2 x hx]; exact o1 x hx

/-! ### An example -/

/-- Elements from their children. -/
def Xmls.of : List Xml → Xmls
  | [] => .nil
  | x :: l => .cons x (Xmls.of l)

/-- An element with no namespace. -/
def el (n : String) (as : List (String × String)) (ks : List Xml) : Xml :=
  .elem none n.toList (as.map fun (n, v) => (⟨none, n.toList⟩, v.toList)) (Xmls.of ks)

/-- The state after a document is parsed, or the error. -/
def parsed (ks : List Xml) : Except Err State :=
  match parse (start []) (Xmls.of ks) with
  | .ok (st, _) => .ok st
  | .error e => .error e

/-- What is asked of the state after `e.p = s`. -/
def after (st : State) (e : Nat) (p s : String) {α : Type} (f : State → α) : Except Err α :=
  match setAttr st e p.toList s.toList with
  | .ok st => .ok (f st)
  | .error x => .error x

/-- The result of a question about a parsed document. -/
def ask {α : Type} (ks : List Xml) (f : State → α) : Except Err α :=
  match parsed ks with
  | .ok st => .ok (f st)
  | .error e => .error e

/-- `<r><item id="1"><class/></item>t<item id="2"/><x-y/></r>` -/
def sample : List Xml :=
  [el "r" [] [el "item" [("id", "1")] [el "class" [] []], .text "t".toList, el "item" [("id", "2")] [], el "x-y" [] []]]

/-- The vocabulary of that document. -/
def sampleVocabulary : List (Cls × Desc) :=
  [((0, none), .elem ⟨none, "r".toList⟩), ((0, some ⟨none, "r".toList⟩), .elem ⟨none, "item".toList⟩),
    ((0, some ⟨none, "r".toList⟩), .elem ⟨none, "x-y".toList⟩),
    ((0, some ⟨none, "item".toList⟩), .attr ⟨none, "id".toList⟩),
    ((0, some ⟨none, "item".toList⟩), .elem ⟨none, "class".toList⟩)]

def sampleU (c : Cls) (d : Desc) : Prop := (c, d) ∈ sampleVocabulary

theorem sample_plain : Plain sampleU := by
  have key : ∀ x ∈ sampleVocabulary, ':' ∉ x.2.name.loc := by decide +kernel
  exact fun c n h => key _ h

theorem sample_noClash : NoClash sampleU [] := by
  have key : ∀ x ∈ sampleVocabulary, ∀ y ∈ sampleVocabulary, x.1 = y.1 →
      pythonName [] x.2.name.loc = pythonName [] y.2.name.loc → x.2 = y.2 := by decide +kernel
  intro c d d' h h' e
  exact key (c, d) h (c, d') h' rfl e

theorem ask_ok {α : Type} {ks : List Xml} {f : State → α} {v : α} (h : ask ks f = .ok v) :
    ∃ st n, parse (start []) (Xmls.of ks) = .ok (st, n) ∧ f st = v := by
  unfold ask parsed at h
  cases hp : parse (start []) (Xmls.of ks) with
  | error e => rw [hp] at h; exact (nomatch h)
  | ok r =>
    rw [hp] at h
    injection h with h
    exact ⟨r.1, r.2, rfl, h⟩

theorem sample_uses : UsesAll sampleU 0 (0, none) (Xmls.of sample) := by
  have key : ∀ x ∈ sampleVocabulary, sampleU x.1 x.2 := fun _ h => h
  simp only [sample, el, Xmls.of, UsesAll, Uses, Below, List.map, List.mem_cons, List.not_mem_nil, or_false,
    Prod.mk.injEq, false_implies, implies_true, true_and, and_true]
  repeat' apply And.intro
  any_goals
    intro n v h
    obtain ⟨rfl, _⟩ := h
  all_goals
    refine key (_, _) ?_
    decide +kernel

/-- The document can be parsed, and meets the hypotheses of the theorems. -/
example : ∃ st, Reach sampleU st ∧ Plain sampleU ∧ NoClash sampleU st.exclude ∧
    getAttr st 1 "item".toList = .node 2 ∧ getAttr st 2 "id".toList = .value "1".toList ∧
    getAttr st 5 "class_".toList = .none ∧ elements st 2 = .ok [2, 5] ∧ item st 2 (-1) = .ok 5 := by
  obtain ⟨st, n, h1, h2⟩ := ask_ok (ks := sample) (f := fun st => (st.exclude, getAttr st 1 "item".toList,
    getAttr st 2 "id".toList, getAttr st 5 "class_".toList))
    (v := ([], .node 2, .value "1".toList, .none)) (by decide +kernel)
  obtain ⟨st', n', h1', h2'⟩ := ask_ok (ks := sample) (f := fun st => (elements st 2, item st 2 (-1)))
    (v := (.ok [2, 5], .ok 5)) (by decide +kernel)
  rw [h1] at h1'
  cases h1'
  simp only [Prod.mk.injEq] at h2 h2'
  obtain ⟨h3, h4, h5, h6⟩ := h2
  exact ⟨st, .parse (.start []) sample_uses h1, sample_plain, h3 ▸ sample_noClash, h4, h5, h6, h2'.1, h2'.2⟩

/-- `r.item.class_ = 'new'`, `r.item = 'new'`, and a new `class` in the second item. -/
example : ask sample (fun st => after st 2 "class_" "new" fun st => (st.h.kids 3, st.val 7)) =
      .ok (.ok ([7], "new".toList)) ∧
    ask sample (fun st => after st 1 "item" "new" fun st => (st.h.kids 2, st.val 7, st.h.parent 3)) =
      .ok (.ok ([7], "new".toList, none)) ∧
    ask sample (fun st => after st 5 "class_" "new" fun st => (st.h.kids 5, getAttr st 5 "class_".toList, st.h.kids 7)) =
      .ok (.ok ([7], .node 7, [8])) := ⟨by decide +kernel, by decide +kernel, by decide +kernel⟩

example : ask sample (fun st => (itemNamed st 2 .any ⟨none, "id".toList⟩, itemNamed st 1 .any ⟨none, "item".toList⟩,
    itemNamed st 2 .element ⟨none, "id".toList⟩, itemNamed st 1 .attribute ⟨none, "item".toList⟩)) =
      .ok (.ok (.value "1".toList), .ok (.node 2), .ok .none, .error .key) := by decide +kernel

/-! ### What is wrong -/

/-- C67, refuted: the meaning of a name depends on other elements.  In `<r><a b="1"/></r>` the attribute is `a.b`;
in `<r><a><b/></a><a b="1"/></r>` it is not, and neither is a child element in
`<r><a b="1"/><a><b/></a></r>`. -/
theorem C67_refuted_clash :
    ask [el "r" [] [el "a" [("b", "1")] []]] (fun st => (st.attrs 2, getAttr st 2 "b".toList)) =
      .ok ([(⟨none, "b".toList⟩, "1".toList)], .value "1".toList) ∧
    ask [el "r" [] [el "a" [] [el "b" [] []], el "a" [("b", "1")] []]]
      (fun st => (st.attrs 4, getAttr st 4 "b".toList)) = .ok ([(⟨none, "b".toList⟩, "1".toList)], .none) ∧
    ask [el "r" [] [el "a" [("b", "1")] [], el "a" [] [el "b" [] []]]]
      (fun st => (st.h.kids 3, st.name 4, getAttr st 3 "b".toList)) = .ok ([4], ⟨none, "b".toList⟩, .none) :=
  ⟨by decide +kernel, by decide +kernel, by decide +kernel⟩

/-- C67, refuted: of `<r><a-b/><a.b/></r>` or of two elements with the same local name in different
namespaces, only the first is an attribute of `r`. -/
theorem C67_refuted_namesakes :
    ask [el "r" [] [el "a-b" [] [], el "a.b" [] []]] (fun st => (st.h.kids 1, getAttr st 1 "a_b".toList, st.dict (st.cls 1))) =
      .ok ([2, 3], .node 2, [("a_b".toList, .elem ⟨none, "a-b".toList⟩)]) ∧
    ask [el "r" [] [.elem (some "n".toList) "a".toList [] .nil, el "a" [] []]]
      (fun st => (st.h.kids 1, getAttr st 1 "a".toList, st.dict (st.cls 1))) =
      .ok ([2, 3], .node 2, [("a".toList, .elem ⟨some "n".toList, "a".toList⟩)]) :=
  ⟨by decide +kernel, by decide +kernel⟩

/-- C67, refuted: an element with a prefix has length 0 and not even itself at index 0; and so it is
false. -/
theorem C67_refuted_prefix :
    ask [el "r" [] [.elem (some "n".toList) "p:a".toList [] .nil]]
      (fun st => (getAttr st 1 "a".toList, elements st 2, len st 2, item st 2 0)) =
      .ok (.node 2, .ok [2], .ok 0, .error .index) := by decide +kernel

/-- C67, refuted: an element without a parent has no length. -/
theorem C67_refuted_root (st : State) (e : Nat) (h : st.h.parent e = none) :
    len st e = .error .attribute ∧ elements st e = .error .attribute := by
  simp only [len, elements, h, and_self]

/-- C67: `e[ns, local]` is the value of the attribute with that name, or if there is none the first child
with that name, or None; with a type only attributes or only children are looked for, and what is
not found is a KeyError for attributes and None for children. -/
theorem C67_item (st : State) (e : Nat) (f : Force) (n : Name) :
    (∀ v, itemNamed st e f n = .ok (.value v) ↔ (f = .any ∨ f = .attribute) ∧ get n (st.attrs e) = some v) ∧
    (∀ c, itemNamed st e f n = .ok (.node c) ↔
      (f = .element ∨ f = .any ∧ get n (st.attrs e) = none) ∧ FirstNamed st e n c) ∧
    (itemNamed st e f n = .ok .none ↔
      (f = .element ∨ f = .any ∧ get n (st.attrs e) = none) ∧ ∀ c ∈ st.h.kids e, ¬ Named st n c) ∧
    (∀ x, itemNamed st e f n = .error x ↔
      x = .key ∧ (f = .other ∨ f = .attribute ∧ get n (st.attrs e) = none)) := by
  have h1 := fun c => (findChild_some (st := st) (e := e) (n := n) (t := c)).symm
  have h2 := (findChild_none (st := st) (e := e) (n := n)).symm
  simp only [h1, h2]
  cases f <;> cases ha : get n (st.attrs e) <;> cases hc : findChild st e n <;>
    simp [itemNamed, ha, hc, eq_comm]

/-- C67, refuted: `del e[name]` never deletes an attribute, also if it is told to. -/
theorem C67_refuted_delete_item (st st' : State) (e : Nat) (f : Force) (n : Name)
    (h : delItem st e f n = .ok st') : st'.attrs = st.attrs ∧ f ≠ .attribute := by
  unfold delItem at h
  split at h
  · rename_i hf
    refine ⟨?_, fun h => by subst h; simp at hf⟩
    split at h
    · obtain ⟨h', _, rfl⟩ := edit_eq h; rfl
    · injection h with h; rw [h]
  · exact (nomatch h)

/-- C67, refuted: `e[name] = text` is documented to change the child of that name; it makes an
attribute. -/
theorem C67_refuted_set_item (st : State) (e : Nat) (n : Name) (s : Str) (h : st.h.kind e = .element) :
    setItem st e .any n s = .ok (setAttribute st e n s) ∧ (setAttribute st e n s).h = st.h := by
  refine ⟨by simp [setItem, h], (setAttribute_ext e n s).h⟩

/-- C67, refuted: `<r><a><factory_entity/></a><a/></r>` cannot be parsed. -/
theorem C67_refuted_parse :
    ask [el "r" [] [el "a" [] [el "factory_entity" [] []], el "a" [] []]] (fun _ => ()) = .error .attribute := by decide +kernel

end Verif.Bind
