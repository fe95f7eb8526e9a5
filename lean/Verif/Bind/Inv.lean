import Verif.Bind.Spec
import Verif.Dom.EditProps
/-
An invariant of all programs: what has been bound, and that every child and attribute is.
-/
namespace Verif.Bind
open Verif.Dom Verif.Dom.Spec Spec

variable {U : Cls → Desc → Prop}

/-- This is in the vocabulary, and the class has something of its Python name. -/
def Known (U : Cls → Desc → Prop) (st : State) (c : Cls) (d : Desc) : Prop :=
  U c d ∧ (pythonName st.exclude d.name.loc ∈ classKeys ∨
    (get (pythonName st.exclude d.name.loc) (st.dict c)).isSome)

/-- The invariant; `O` are the elements that are being parsed, whose children are not bound yet. -/
structure Inv (U : Cls → Desc → Prop) (O : Nat → Prop) (st : State) : Prop where
  wf : WF st.h
  dict : ∀ c p d, get p (st.dict c) = some d →
    U c d ∧ p = pythonName st.exclude d.name.loc ∧ p ∉ classKeys
  cache : ∀ c n p, get n (st.cache c) = some p → p = pythonName st.exclude n.loc
  kids : ∀ e, ¬ O e → ∀ c, c ∈ st.h.kids e → st.h.kind c = .element →
    Known U st (st.cls e) (.elem (st.name c))
  attrs : ∀ e, e < st.h.size → st.h.kind e = .element → ∀ n, (get n (st.attrs e)).isSome →
    Known U st (st.cls e) (.attr n)
  cls : ∀ e, e < st.h.size → isContainer (st.h.kind e) = true →
    (st.cls e).1 < st.h.size ∧ st.h.kind (st.cls e).1 = .entity

/-- The states differ in the class dictionaries and caches only, and no descriptor is lost. -/
structure Ext (st st' : State) : Prop where
  h : st'.h = st.h
  val : st'.val = st.val
  qname : st'.qname = st.qname
  name : st'.name = st.name
  attrs : st'.attrs = st.attrs
  cls : st'.cls = st.cls
  exclude : st'.exclude = st.exclude
  dict : ∀ c p d, get p (st.dict c) = some d → get p (st'.dict c) = some d

theorem Ext.refl (st : State) : Ext st st := ⟨rfl, rfl, rfl, rfl, rfl, rfl, rfl, fun _ _ _ h => h⟩

theorem Ext.trans {a b c : State} (h1 : Ext a b) (h2 : Ext b c) : Ext a c :=
  ⟨h2.h.trans h1.h, h2.val.trans h1.val, h2.qname.trans h1.qname, h2.name.trans h1.name,
    h2.attrs.trans h1.attrs, h2.cls.trans h1.cls, h2.exclude.trans h1.exclude,
    fun _ _ _ h => h2.dict _ _ _ (h1.dict _ _ _ h)⟩

theorem Known.ext {st st' : State} (x : Ext st st') {c : Cls} {l : Desc} (h : Known U st c l) :
    Known U st' c l := by
  refine ⟨h.1, ?_⟩
  replace h := h.2
  rcases h with h | h
  · exact .inl (x.exclude ▸ h)
  · obtain ⟨d, hd⟩ := Option.isSome_iff_exists.mp h
    refine .inr ?_
    rw [x.exclude, x.dict _ _ _ hd]
    rfl

@[simp] theorem upd_same {α β : Type} [DecidableEq α] (f : α → β) (a : α) (b : β) : upd f a b a = b := by
  simp [upd]

theorem upd_ne {α β : Type} [DecidableEq α] {f : α → β} {a x : α} {b : β} (h : x ≠ a) :
    upd f a b x = f x := by
  simp [upd, h]

theorem mapping_snd {O : Nat → Prop} {st : State} (i : Inv U O st) (c : Cls) (n : Name) :
    (mapping st c n).2 = pythonName st.exclude n.loc := by
  unfold mapping
  split
  · rename_i p h
    exact i.cache _ _ _ h
  · rfl

theorem mapping_ext (st : State) (c : Cls) (n : Name) : Ext st (mapping st c n).1 := by
  unfold mapping
  split
  · exact .refl _
  · exact ⟨rfl, rfl, rfl, rfl, rfl, rfl, rfl, fun _ _ _ h => h⟩

theorem mapping_dict (st : State) (c : Cls) (n : Name) : (mapping st c n).1.dict = st.dict := by
  unfold mapping
  split <;> rfl

/-- The invariant holds if the dictionaries only grow by proper descriptors. -/
theorem Inv.ext {O : Nat → Prop} {st st' : State} (i : Inv U O st) (x : Ext st st')
    (hd : ∀ c p d, get p (st'.dict c) = some d →
      U c d ∧ p = pythonName st.exclude d.name.loc ∧ p ∉ classKeys)
    (hc : ∀ c n p, get n (st'.cache c) = some p → p = pythonName st.exclude n.loc) :
    Inv U O st' := by
  constructor
  · rw [x.h]; exact i.wf
  · rw [x.exclude]; exact hd
  · rw [x.exclude]; exact hc
  · rw [x.h, x.cls, x.name]; exact fun e he c h1 h2 => (i.kids e he c h1 h2).ext x
  · rw [x.h, x.cls, x.attrs]; exact fun e he hk n h => (i.attrs e he hk n h).ext x
  · rw [x.h, x.cls]; exact i.cls

theorem mapping_inv {O : Nat → Prop} {st : State} (i : Inv U O st) (c : Cls) (n : Name) :
    Inv U O (mapping st c n).1 := by
  refine i.ext (mapping_ext st c n) ?_ ?_
  · rw [mapping_dict]; exact i.dict
  · unfold mapping
    split
    · exact i.cache
    · intro c' n' p h
      by_cases hc : c' = c
      · subst hc
        simp only [upd_same, get] at h
        split at h
        · rename_i he; subst he; injection h with h; exact h.symm
        · exact i.cache _ _ _ h
      · dsimp only at h; rw [upd_ne hc] at h; exact i.cache _ _ _ h

theorem bind_ext (st : State) (c : Cls) (d : Desc) (p : Str) : Ext st (bind st c d p) := by
  unfold bind
  split
  · exact .refl _
  · rename_i h
    refine ⟨rfl, rfl, rfl, rfl, rfl, rfl, rfl, fun c' p' d' hg => ?_⟩
    by_cases hc : c' = c
    · subst hc
      simp only [upd_same, get]
      split
      · rename_i he
        subst he
        exact absurd (.inr (by rw [hg]; rfl)) h
      · exact hg
    · show get p' (upd st.dict c _ c') = some d'
      rw [upd_ne hc]; exact hg

theorem newMapping_ext (st : State) (c : Cls) (d : Desc) : Ext st (newMapping st c d) :=
  (mapping_ext st c d.name).trans (bind_ext _ _ _ _)

theorem newMapping_inv {O : Nat → Prop} {st : State} (i : Inv U O st) {c : Cls} {d : Desc}
    (hu : U c d) : Inv U O (newMapping st c d) ∧ Known U (newMapping st c d) c d := by
  have hm := mapping_inv i c d.name
  have hp := mapping_snd i c d.name
  have hx := (mapping_ext st c d.name).exclude
  unfold newMapping
  generalize mapping st c d.name = m at hm hp hx
  obtain ⟨s, p⟩ := m
  dsimp only at hm hp hx ⊢
  rw [← hx] at hp
  constructor
  · refine hm.ext (bind_ext _ _ _ _) ?_ ?_
    · unfold bind
      split
      · exact hm.dict
      · rename_i h
        intro c' p' d' hg
        by_cases hc : c' = c
        · subst hc
          simp only [upd_same, get] at hg
          split at hg
          · rename_i he
            subst he
            injection hg with hg
            subst hg
            exact ⟨hu, hp, fun hh => h (.inl hh)⟩
          · exact hm.dict _ _ _ hg
        · dsimp only at hg; rw [upd_ne hc] at hg; exact hm.dict _ _ _ hg
    · unfold bind
      split <;> exact hm.cache
  · refine ⟨hu, ?_⟩
    unfold bind
    subst hp
    split
    · rename_i h; exact h
    · refine .inr ?_
      simp only [upd_same, get, if_true, Option.isSome_some]

theorem childInserted_ext (st : State) (s c : Nat) : Ext st (childInserted st s c) := by
  unfold childInserted
  split
  · exact newMapping_ext _ _ _
  · exact .refl _

theorem childInserted_inv {O : Nat → Prop} {st : State} (i : Inv U O st) {s c : Nat}
    (hu : st.h.kind c = .element → U (st.cls s) (.elem (st.name c))) :
    Inv U O (childInserted st s c) ∧
      (st.h.kind c = .element → Known U (childInserted st s c) (st.cls s) (.elem (st.name c))) := by
  unfold childInserted
  split
  · rename_i h
    obtain ⟨h1, h2⟩ := newMapping_inv i (hu h)
    exact ⟨h1, fun _ => h2⟩
  · rename_i h
    exact ⟨i, fun hh => absurd hh h⟩

/-- Opening an element. -/
theorem Inv.open {O O' : Nat → Prop} {st : State} (i : Inv U O st) (h : ∀ e, O e → O' e) : Inv U O' st :=
  ⟨i.wf, i.dict, i.cache, fun e he => i.kids e fun hh => he (h e hh), i.attrs, i.cls⟩

theorem insertedAll_ext (s : Nat) : ∀ (l : List Nat) (st : State), Ext st (insertedAll st s l)
  | [], st => .refl st
  | c :: l, st => (childInserted_ext st s c).trans (insertedAll_ext s l _)

theorem insertedAll_inv {O : Nat → Prop} {s : Nat} : ∀ (l : List Nat) (st : State), Inv U O st →
    (∀ c ∈ l, st.h.kind c = .element → U (st.cls s) (.elem (st.name c))) →
    Inv U O (insertedAll st s l) ∧
      ∀ c ∈ l, st.h.kind c = .element → Known U (insertedAll st s l) (st.cls s) (.elem (st.name c))
  | [], st, i, _ => ⟨i, nofun⟩
  | c :: l, st, i, hu => by
    obtain ⟨h1, h2⟩ := childInserted_inv i (hu c List.mem_cons_self)
    have x := childInserted_ext st s c
    have ih := insertedAll_inv (O := O) (s := s) l (childInserted st s c) h1
      (by rw [x.h, x.cls, x.name]; exact fun c hc => hu c (List.mem_cons_of_mem _ hc))
    refine ⟨ih.1, fun c' hc hk => ?_⟩
    rcases List.mem_cons.mp hc with rfl | hc
    · exact (h2 hk).ext (insertedAll_ext s l _)
    · have := ih.2 c' hc (by rw [x.h]; exact hk)
      rw [x.cls, x.name] at this
      exact this

/-- Closing an element: the loop over its children. -/
theorem close_inv {O : Nat → Prop} {st : State} {s : Nat} (i : Inv U (fun e => O e ∨ e = s) st)
    (hu : ∀ c ∈ st.h.kids s, st.h.kind c = .element → U (st.cls s) (.elem (st.name c))) :
    Inv U O (insertedAll st s (st.h.kids s)) := by
  obtain ⟨h1, h2⟩ := insertedAll_inv _ st i hu
  have x := insertedAll_ext s (st.h.kids s) st
  refine ⟨h1.wf, h1.dict, h1.cache, fun e he c hc hk => ?_, h1.attrs, h1.cls⟩
  by_cases hs : e = s
  · subst hs
    rw [x.h] at hc hk
    rw [x.cls, x.name]
    exact h2 c hc hk
  · exact h1.kids e (fun h => h.elim he hs) c hc hk

/-! ### New nodes -/

theorem alloc_kids {h : Heap} (w : WF h) (k : Kind) (p : Nat) : (h.alloc k).kids p = h.kids p := by
  simp only [Heap.alloc]
  split
  · rename_i hx
    subst hx
    cases hl : h.kids h.size with
    | nil => rfl
    | cons x xs =>
      have := (w.bounded _ _ (w.kids_parent h.size x (by simp [hl]))).2
      omega
  · rfl

theorem kid_lt {h : Heap} (w : WF h) {p c : Nat} (hc : c ∈ h.kids p) : c < h.size ∧ p < h.size :=
  w.bounded _ _ (w.kids_parent _ _ hc)

theorem alloc_kind {h : Heap} {k : Kind} {x : Nat} (hx : x < h.size) : (h.alloc k).kind x = h.kind x := by
  simp only [Heap.alloc]
  rw [if_neg (by omega)]

theorem newText_inv {O : Nat → Prop} {st : State} (i : Inv U O st) (s : Str) :
    Inv U O (newText st s).1 := by
  have w := i.wf
  refine ⟨wf_alloc w _, i.dict, i.cache, ?_, ?_, ?_⟩
  · intro e he c hc hk
    simp only [newText] at hc hk
    rw [alloc_kids w] at hc
    rw [alloc_kind (kid_lt w hc).1] at hk
    exact i.kids e he c hc hk
  · intro e he hk n hn
    simp only [newText] at he hk hn
    by_cases hs : e = st.h.size
    · subst hs; simp [Heap.alloc] at hk
    · have he : e < st.h.size := by simp only [Heap.alloc] at he; omega
      rw [alloc_kind he] at hk
      exact i.attrs e he hk n hn
  · intro e he hk
    simp only [newText] at he hk ⊢
    by_cases hs : e = st.h.size
    · subst hs; simp [Heap.alloc, isContainer] at hk
    · have he : e < st.h.size := by simp only [Heap.alloc] at he; omega
      rw [alloc_kind he] at hk
      obtain ⟨h1, h2⟩ := i.cls e he hk
      rw [alloc_kind h1]
      exact ⟨by simp only [Heap.alloc]; omega, h2⟩

theorem newEntity_inv {O : Nat → Prop} {st : State} (i : Inv U O st) : Inv U O (newEntity st).1 := by
  have w := i.wf
  have known : ∀ e, e < st.h.size → isContainer (st.h.kind e) = true → ∀ l,
      Known U st (st.cls e) l → Known U (newEntity st).1 (st.cls e) l := by
    intro e he hk l h
    refine ⟨h.1, ?_⟩
    replace h := h.2
    rcases h with h | h
    · exact .inl h
    · refine .inr ?_
      show (get _ (upd st.dict (st.h.size, none) [] (st.cls e))).isSome
      rw [upd_ne]
      · exact h
      · intro hh
        have := (i.cls e he hk).1
        rw [hh] at this
        exact absurd this (Nat.lt_irrefl _)
  refine ⟨wf_alloc w _, ?_, ?_, ?_, ?_, ?_⟩
  · intro c p d h
    simp only [newEntity, upd] at h
    split at h
    · exact (nomatch h)
    · exact i.dict c p d h
  · intro c n p h
    simp only [newEntity, upd] at h
    split at h
    · exact (nomatch h)
    · exact i.cache c n p h
  · intro e he c hc hk
    have hc : c ∈ st.h.kids e := by rw [← alloc_kids w .entity]; exact hc
    have hk : st.h.kind c = .element := by rw [← alloc_kind (k := .entity) (kid_lt w hc).1]; exact hk
    have hcls : (newEntity st).1.cls e = st.cls e := by
      simp only [newEntity]
      exact upd_ne (by have := (kid_lt w hc).2; omega)
    rw [hcls]
    exact known e (kid_lt w hc).2 (w.parent_kind _ _ (w.kids_parent _ _ hc)) _ (i.kids e he c hc hk)
  · intro e he hk n hn
    simp only [newEntity] at he hk hn
    by_cases hs : e = st.h.size
    · subst hs; simp [Heap.alloc] at hk
    · have he : e < st.h.size := by simp only [Heap.alloc] at he; omega
      rw [alloc_kind he] at hk
      rw [upd_ne hs] at hn
      have hcls : (newEntity st).1.cls e = st.cls e := by
        simp only [newEntity]
        exact upd_ne hs
      rw [hcls]
      exact known e he (by rw [hk]; rfl) _ (i.attrs e he hk n hn)
  · intro e he hk
    simp only [newEntity] at he hk ⊢
    by_cases hs : e = st.h.size
    · subst hs
      rw [upd_same]
      exact ⟨by simp [Heap.alloc], by simp [Heap.alloc]⟩
    · have he : e < st.h.size := by simp only [Heap.alloc] at he; omega
      rw [alloc_kind he] at hk
      rw [upd_ne hs]
      obtain ⟨h1, h2⟩ := i.cls e he hk
      rw [alloc_kind h1]
      exact ⟨by simp only [Heap.alloc]; omega, h2⟩

/-- What is known of a new element. -/
structure Fresh (st st' : State) (n : Nat) : Prop where
  size : st.h.size ≤ n ∧ n < st'.h.size
  parent : st'.h.parent n = none
  child : isChildKind (st'.h.kind n) = true
  old : ∀ x, x < st.h.size → st'.h.parent x = st.h.parent x ∧ st'.h.kids x = st.h.kids x ∧
    st'.h.kind x = st.h.kind x ∧ st'.name x = st.name x ∧ st'.cls x = st.cls x
  exclude : st'.exclude = st.exclude

theorem newElement_ok {st : State} {ent : Nat} {ns : Option Str} {q : Str} {st' : State} {n : Nat}
    (h : newElement st ent ns q = .ok (st', n)) :
    let m := (mapping st (ent, none) ⟨ns, localOf q⟩).1
    n = st.h.size ∧ get "factory_entity".toList (st.dict (ent, some ⟨ns, localOf q⟩)) = none ∧
      st' = { m with
        h := st.h.alloc .element
        qname := upd m.qname st.h.size q
        name := upd m.name st.h.size ⟨ns, localOf q⟩
        attrs := upd m.attrs st.h.size []
        cls := upd m.cls st.h.size (ent, some ⟨ns, localOf q⟩)
        cache := upd m.cache (ent, some ⟨ns, localOf q⟩) [] } := by
  intro m
  have hh : m.h = st.h := (mapping_ext st (ent, none) ⟨ns, localOf q⟩).h
  have hd : m.dict = st.dict := mapping_dict _ _ _
  unfold newElement at h
  dsimp only at h
  split at h
  · exact (nomatch h)
  · rename_i hf
    injection h with h
    injection h with h1 h2
    refine ⟨?_, ?_, ?_⟩
    · rw [← h2]; show (m.h.alloc .element).size - 1 = _; rw [hh]; simp [Heap.alloc]
    · rw [← hd]; simpa using hf
    · rw [← h1, ← hh]

theorem newElement_inv {O : Nat → Prop} {st : State} (i : Inv U O st) {ent : Nat} {ns : Option Str}
    {q : Str} {st' : State} {n : Nat} (he : ent < st.h.size) (hk : st.h.kind ent = .entity)
    (h : newElement st ent ns q = .ok (st', n)) : Inv U O st' ∧ Fresh st st' n ∧
      st'.name n = ⟨ns, localOf q⟩ ∧ st'.cls n = (ent, some ⟨ns, localOf q⟩) ∧
      st'.h.kind n = .element ∧ st'.h.kids n = [] := by
  obtain ⟨rfl, _, rfl⟩ := newElement_ok h
  have w := i.wf
  have im := mapping_inv i (ent, none) ⟨ns, localOf q⟩
  have x := mapping_ext st (ent, none) ⟨ns, localOf q⟩
  generalize (mapping st (ent, none) ⟨ns, localOf q⟩).1 = m at im x
  have sz : st.h.size = m.h.size := by rw [x.h]
  refine ⟨⟨?_, im.dict, ?_, ?_, ?_, ?_⟩, ⟨?_, ?_, ?_, ?_, x.exclude⟩, ?_, ?_, ?_, ?_⟩
  · exact wf_alloc w _
  · intro c n p h
    simp only [upd] at h
    split at h
    · exact (nomatch h)
    · exact im.cache c n p h
  · intro e he c hc hk
    simp only at hc hk ⊢
    rw [alloc_kids w] at hc
    rw [alloc_kind (kid_lt w hc).1] at hk
    rw [upd_ne (by have := (kid_lt w hc).2; omega), upd_ne (by have := (kid_lt w hc).1; omega)]
    exact im.kids e he c (x.h ▸ hc) (x.h ▸ hk)
  · intro e he hk n hn
    simp only at he hk hn ⊢
    by_cases hs : e = st.h.size
    · subst hs; rw [upd_same] at hn; exact (nomatch hn)
    · have he : e < st.h.size := by simp only [Heap.alloc] at he; omega
      rw [alloc_kind he] at hk
      rw [upd_ne hs] at hn ⊢
      exact im.attrs e (sz ▸ he) (x.h ▸ hk) n hn
  · intro e he' hk'
    simp only at he' hk' ⊢
    by_cases hs : e = st.h.size
    · subst hs
      rw [upd_same]
      refine ⟨?_, ?_⟩
      · simp only [Heap.alloc]; omega
      · show (st.h.alloc .element).kind ent = _
        rw [alloc_kind he]; exact hk
    · have he' : e < st.h.size := by simp only [Heap.alloc] at he'; omega
      rw [alloc_kind he'] at hk'
      rw [upd_ne hs]
      obtain ⟨h1, h2⟩ := im.cls e (sz ▸ he') (x.h ▸ hk')
      rw [alloc_kind (sz ▸ h1)]
      exact ⟨by simp only [Heap.alloc]; omega, by rw [← x.h]; exact h2⟩
  · simp [Heap.alloc]
  · simp [Heap.alloc]
  · simp [Heap.alloc, isChildKind]
  · intro y hy
    refine ⟨by simp only [Heap.alloc]; rw [if_neg (by omega)], alloc_kids w _ _, alloc_kind hy, ?_, ?_⟩
    · show upd m.name _ _ y = _
      rw [upd_ne (by omega), x.name]
    · show upd m.cls _ _ y = _
      rw [upd_ne (by omega), x.cls]
  · simp
  · simp
  · simp [Heap.alloc]
  · simp [Heap.alloc]

theorem newText_fresh {st : State} (w : WF st.h) (s : Str) : Fresh st (newText st s).1 (newText st s).2 := by
  refine ⟨?_, ?_, ?_, ?_, rfl⟩
  · simp [newText, Heap.alloc]
  · simp [newText, Heap.alloc]
  · simp [newText, Heap.alloc, isChildKind]
  · intro y hy
    exact ⟨by simp only [newText, Heap.alloc]; rw [if_neg (by omega)], alloc_kids w _ _, alloc_kind hy, rfl, rfl⟩

theorem setAttribute_ext {st : State} (e : Nat) (n : Name) (v : Str) :
    Ext { st with attrs := upd st.attrs e (put n v (st.attrs e)) } (setAttribute st e n v) :=
  newMapping_ext _ _ _

theorem newMapping_attrs (st : State) (a : Nat → List (Name × Str)) (c : Cls) (d : Desc) :
    newMapping { st with attrs := a } c d = { newMapping st c d with attrs := a } := by
  unfold newMapping mapping
  dsimp only
  generalize get d.name (st.cache c) = o
  cases o <;>
  · dsimp only
    unfold bind
    dsimp only
    split <;> rfl

theorem get_put {n m : Name} {v : Str} {l : List (Name × Str)} :
    get m (put n v l) = if m = n then some v else get m l := by
  induction l with
  | nil => simp [put, get]
  | cons a l ih =>
    obtain ⟨k, w⟩ := a
    simp only [put]
    by_cases h : n = k
    · subst h
      simp only [if_true, get]
      split <;> rfl
    · simp only [if_neg h, get, ih]
      by_cases hm : m = n
      · subst hm; simp [h]
      · simp [hm]

theorem setAttribute_inv {O : Nat → Prop} {st : State} (i : Inv U O st) {e : Nat} {n : Name} (v : Str)
    (he : e < st.h.size) (hk : st.h.kind e = .element)
    (hu : U (st.cls e) (.attr n)) : Inv U O (setAttribute st e n v) := by
  -- with the new attribute left out of the invariant
  have x := setAttribute_ext (st := st) e n v
  obtain ⟨i1, kn⟩ := newMapping_inv i hu
  have hd : (setAttribute st e n v).dict = (newMapping st (st.cls e) (.attr n)).dict := by
    rw [setAttribute, newMapping_attrs]
  have hc : (setAttribute st e n v).cache = (newMapping st (st.cls e) (.attr n)).cache := by
    rw [setAttribute, newMapping_attrs]
  have y := newMapping_ext st (st.cls e) (.attr n)
  have hx : (setAttribute st e n v).exclude = (newMapping st (st.cls e) (.attr n)).exclude :=
    x.exclude.trans y.exclude.symm
  have known : ∀ c l, Known U (newMapping st (st.cls e) (.attr n)) c l → Known U (setAttribute st e n v) c l := by
    intro c l h
    unfold Known at h ⊢
    rw [hx, hd]; exact h
  have hh : (setAttribute st e n v).h = (newMapping st (st.cls e) (.attr n)).h := x.h.trans y.h.symm
  have hcl : (setAttribute st e n v).cls = (newMapping st (st.cls e) (.attr n)).cls := x.cls.trans y.cls.symm
  have hnm : (setAttribute st e n v).name = (newMapping st (st.cls e) (.attr n)).name := x.name.trans y.name.symm
  refine ⟨hh ▸ i1.wf, ?_, ?_, ?_, ?_, ?_⟩
  · rw [hd, hx]; exact i1.dict
  · rw [hc, hx]; exact i1.cache
  · rw [hh, hcl, hnm]; exact fun e he c h1 h2 => known _ _ (i1.kids e he c h1 h2)
  · rw [hh, hcl, x.attrs]
    intro e' he' hk' m hm
    simp only [upd] at hm
    split at hm
    · rename_i heq
      subst heq
      rw [get_put] at hm
      split at hm
      · rename_i hmn
        subst hmn
        rw [y.cls]
        exact known _ _ kn
      · rw [← y.attrs] at hm
        exact known _ _ (i1.attrs _ he' hk' m hm)
    · rw [← y.attrs] at hm
      exact known _ _ (i1.attrs _ he' hk' m hm)
  · rw [hh, hcl]; exact i1.cls

end Verif.Bind
