import Verif.Dom.BuildLemmas

/-
The builder's steps.
-/
namespace Verif.Dom.Build
open Verif.Dom Verif.Dom.Spec

theorem Rep.malloc {m h cnt F W} (r : Rep m h cnt F W) (cells : List Slot) :
    Rep (m.malloc cells).2 h cnt ((m.brk, cells.length) :: F) W := by
  have harr : ∀ p, p < m.brk → (m.malloc cells).2.arr p = m.arr p := by
    intro p hp
    have : p ≠ m.brk := by omega
    simp [Mem.malloc, Mem.setArr, this]
  have hcs : ∀ x, (m.malloc cells).2.cells x = m.cells x := by
    intro x
    unfold Mem.cells
    show (match (m.node x).nodes with | none => [] | some p => ((m.malloc cells).2.arr p).getD []) = _
    cases hp : (m.node x).nodes with
    | none => rfl
    | some p => simp only [harr p (r.live x p hp).1]
  constructor
  · exact r.size
  · exact r.kind
  · exact r.parent
  · exact r.count
  · intro x; rw [hcs]; exact r.len x
  · intro x; rw [hcs]; exact r.cells x
  · exact r.cap
  · intro x p hp
    have := r.live x p hp
    refine ⟨?_, by rw [harr p this.1]; exact this.2⟩
    show p < m.brk + 1
    omega
  · exact r.inj
  · intro f hf
    rcases List.mem_cons.1 hf with rfl | hf
    · refine ⟨?_, cells, by simp [Mem.malloc, Mem.setArr], rfl⟩
      show m.brk < m.brk + 1
      omega
    · obtain ⟨h1, c, h2, h3⟩ := r.free_live f hf
      refine ⟨?_, c, by rw [harr f.1 h1]; exact h2, h3⟩
      show f.1 < m.brk + 1
      omega
  · intro f hf x e
    rcases List.mem_cons.1 hf with rfl | hf
    · have := (r.live x _ e).1
      simp at this
    · exact r.free_off f hf x e
  · simp only [List.map_cons, List.nodup_cons]
    refine ⟨?_, r.free_nodup⟩
    intro hm
    obtain ⟨f, hf, e⟩ := List.mem_map.1 hm
    have := (r.free_live f hf).1
    omega
  · exact r.work

/-- A spare array is given to a node without children. -/
theorem Rep.setWorking {m h F W} {p : Ptr} {k : Nat} (r : Rep m h (lens h) ((p, k) :: F) W) {n : NodeId}
    (hn : h.kids n = []) : Rep (setWorking m n p k) h (lens h) F (n :: W) := by
  obtain ⟨hp, cells, hc, hlen⟩ := r.free_live (p, k) List.mem_cons_self
  simp only at hp hc hlen
  have hoff := r.free_off (p, k) List.mem_cons_self
  simp only at hoff
  let c : CNode := { m.node n with nodes := some p, allocated := k, frozen := false }
  have hself : (Build.setWorking m n p k).node n = c := by simp [Build.setWorking, Mem.setNode, c]
  have hother : ∀ x, x ≠ n → (Build.setWorking m n p k).node x = m.node x := by
    intro x hx; simp [Build.setWorking, Mem.setNode, hx]
  have hcn : (Build.setWorking m n p k).cells n = cells := by
    unfold Mem.cells; rw [hself]; simp [c, Build.setWorking, Mem.setNode, hc]
  have hcx : ∀ x, x ≠ n → (Build.setWorking m n p k).cells x = m.cells x := fun x hx => cells_setNode_other hx
  constructor
  · exact r.size
  · intro x; by_cases hx : x = n
    · subst hx; rw [hself]; exact r.kind _
    · rw [hother x hx]; exact r.kind x
  · intro x; by_cases hx : x = n
    · subst hx; rw [hself]; exact r.parent _
    · rw [hother x hx]; exact r.parent x
  · intro x; by_cases hx : x = n
    · subst hx; rw [hself]; exact r.count _
    · rw [hother x hx]; exact r.count x
  · intro x; by_cases hx : x = n
    · subst hx; rw [hself, hcn]; exact hlen
    · rw [hother x hx, hcx x hx]; exact r.len x
  · intro x; by_cases hx : x = n
    · subst hx; simp [hn]
    · rw [hcx x hx]; exact r.cells x
  · intro x; by_cases hx : x = n
    · subst hx; simp [lens, hn]
    · rw [hother x hx]; exact r.cap x
  · intro x q hq
    by_cases hx : x = n
    · subst hx; rw [hself] at hq; simp only [c, Option.some.injEq] at hq; subst hq
      exact ⟨hp, by show m.arr p ≠ none; rw [hc]; simp⟩
    · rw [hother x hx] at hq; exact r.live x q hq
  · intro a b q ha hb
    by_cases hx : a = n <;> by_cases hy : b = n
    · rw [hx, hy]
    · subst hx; rw [hself] at ha; rw [hother b hy] at hb
      simp only [c, Option.some.injEq] at ha; subst ha
      exact absurd hb (hoff b)
    · subst hy; rw [hself] at hb; rw [hother a hx] at ha
      simp only [c, Option.some.injEq] at hb; subst hb
      exact absurd ha (hoff a)
    · rw [hother a hx] at ha; rw [hother b hy] at hb; exact r.inj a b q ha hb
  · intro f hf; exact r.free_live f (List.mem_cons_of_mem _ hf)
  · intro f hf x
    by_cases hx : x = n
    · subst hx; rw [hself]
      intro e; simp only [c, Option.some.injEq] at e
      have := r.free_nodup
      simp only [List.map_cons, List.nodup_cons] at this
      exact this.1 (List.mem_map.2 ⟨f, hf, e.symm⟩)
    · rw [hother x hx]; exact r.free_off f (List.mem_cons_of_mem _ hf) x
  · have := r.free_nodup
    simp only [List.map_cons, List.nodup_cons] at this
    exact this.2
  · intro x hx
    by_cases hxn : x = n
    · subst hxn; rw [hself]; simp [c]
    · rw [hother x hxn]
      rcases List.mem_cons.1 hx with e | hx
      · exact absurd e hxn
      · exact r.work x hx

/-- A spare array is freed. -/
theorem Rep.free {m h cnt F W} {f : Ptr × Nat} (r : Rep m h cnt (f :: F) W) : Rep (m.free f.1) h cnt F W := by
  have hoff := r.free_off f List.mem_cons_self
  have harr : ∀ p, p ≠ f.1 → (m.free f.1).arr p = m.arr p := by
    intro p hp; simp [Mem.free, Mem.setArr, hp]
  have hne : ∀ x p, (m.node x).nodes = some p → p ≠ f.1 := fun x p hp e => hoff x (by rw [hp, e])
  have hcs : ∀ x, (m.free f.1).cells x = m.cells x := by
    intro x
    unfold Mem.cells
    show (match (m.node x).nodes with | none => [] | some p => ((m.free f.1).arr p).getD []) = _
    cases hp : (m.node x).nodes with
    | none => rfl
    | some p => simp only [harr p (hne x p hp)]
  have hnd := r.free_nodup
  simp only [List.map_cons, List.nodup_cons] at hnd
  constructor
  · exact r.size
  · exact r.kind
  · exact r.parent
  · exact r.count
  · intro x; rw [hcs]; exact r.len x
  · intro x; rw [hcs]; exact r.cells x
  · exact r.cap
  · intro x p hp
    exact ⟨(r.live x p hp).1, by rw [harr p (hne x p hp)]; exact (r.live x p hp).2⟩
  · exact r.inj
  · intro g hg
    obtain ⟨h1, c, h2, h3⟩ := r.free_live g (List.mem_cons_of_mem _ hg)
    refine ⟨h1, c, ?_, h3⟩
    rw [harr g.1 (fun e => hnd.1 (List.mem_map.2 ⟨g, hg, e⟩))]; exact h2
  · intro g hg; exact r.free_off g (List.mem_cons_of_mem _ hg)
  · exact hnd.2
  · exact r.work

theorem Rep.weaken {m h cnt F W W'} (r : Rep m h cnt F W) (hw : ∀ n ∈ W', n ∈ W) : Rep m h cnt F W' :=
  { r with work := fun n hn => r.work n (hw n hn) }

/-- The children of a complete element are copied, and its array is spare. -/
theorem Rep.freeze {m h F W} (r : Rep m h (lens h) F W) {n : NodeId} {p : Ptr} (hp : (m.node n).nodes = some p) :
    ∃ m', freeze m n = some m' ∧ Rep m' h (lens h) ((p, (m.node n).allocated) :: F) W := by
  have hcount : (m.node n).count = (h.kids n).length := r.count n
  unfold Build.freeze
  dsimp only
  rw [hcount, if_pos (r.fits n)]
  refine ⟨_, rfl, ?_⟩
  let cs := (m.cells n).take (h.kids n).length
  let c : CNode := { m.node n with nodes := some m.brk, count := (h.kids n).length, allocated := (h.kids n).length,
                                   frozen := true }
  let m' : Mem := (m.malloc cs).2.setNode n c
  show Rep m' h (lens h) ((p, (m.node n).allocated) :: F) W
  have hself : m'.node n = c := by simp [m', Mem.setNode]
  have hother : ∀ x, x ≠ n → m'.node x = m.node x := by
    intro x hx; simp [m', Mem.setNode, hx]; rfl
  have harr : ∀ q, q < m.brk → m'.arr q = m.arr q := by
    intro q hq
    have : q ≠ m.brk := by omega
    simp [m', Mem.setNode, Mem.malloc, Mem.setArr, this]
  have hnew : m'.arr m.brk = some cs := by simp [m', Mem.setNode, Mem.malloc, Mem.setArr]
  have hcn : m'.cells n = cs := by
    unfold Mem.cells; rw [hself]; simp [c, hnew]
  have hcx : ∀ x, x ≠ n → m'.cells x = m.cells x := by
    intro x hx
    unfold Mem.cells; rw [hother x hx]
    cases hq : (m.node x).nodes with
    | none => rfl
    | some q => simp only [harr q (r.live x q hq).1]
  have hcl : cs.length = (h.kids n).length := by
    have := r.fits n; simp [cs]; omega
  constructor
  · exact r.size
  · intro x; by_cases hx : x = n
    · subst hx; rw [hself]; exact r.kind _
    · rw [hother x hx]; exact r.kind x
  · intro x; by_cases hx : x = n
    · subst hx; rw [hself]; exact r.parent _
    · rw [hother x hx]; exact r.parent x
  · intro x; by_cases hx : x = n
    · subst hx; rw [hself]; rfl
    · rw [hother x hx]; exact r.count x
  · intro x; by_cases hx : x = n
    · subst hx; rw [hself, hcn]; exact hcl
    · rw [hother x hx, hcx x hx]; exact r.len x
  · intro x; by_cases hx : x = n
    · subst hx; rw [hcn]; simp only [cs, List.take_take, Nat.min_self]; exact r.cells _
    · rw [hcx x hx]; exact r.cells x
  · intro x; by_cases hx : x = n
    · subst hx; rw [hself]; simp [lens, c]
    · rw [hother x hx]; exact r.cap x
  · intro x q hq
    show q < m.brk + 1 ∧ _
    by_cases hx : x = n
    · subst hx; rw [hself] at hq; simp only [c, Option.some.injEq] at hq; subst hq
      exact ⟨by omega, by rw [hnew]; simp⟩
    · rw [hother x hx] at hq
      have := r.live x q hq
      exact ⟨by omega, by rw [harr q this.1]; exact this.2⟩
  · intro a b q ha hb
    by_cases hx : a = n <;> by_cases hy : b = n
    · rw [hx, hy]
    · subst hx; rw [hself] at ha; rw [hother b hy] at hb
      simp only [c, Option.some.injEq] at ha; subst ha
      have := (r.live b _ hb).1; omega
    · subst hy; rw [hself] at hb; rw [hother a hx] at ha
      simp only [c, Option.some.injEq] at hb; subst hb
      have := (r.live a _ ha).1; omega
    · rw [hother a hx] at ha; rw [hother b hy] at hb; exact r.inj a b q ha hb
  · intro f hf
    show f.1 < m.brk + 1 ∧ _
    rcases List.mem_cons.1 hf with rfl | hf
    · have h1 := r.live n p hp
      refine ⟨by simp only; omega, m.cells n, ?_, r.len n⟩
      rw [harr p h1.1]
      cases ha : m.arr p with
      | none => exact absurd ha h1.2
      | some cells => simp [Mem.cells, hp, ha]
    · obtain ⟨h1, c, h2, h3⟩ := r.free_live f hf
      exact ⟨by omega, c, by rw [harr f.1 h1]; exact h2, h3⟩
  · intro f hf x
    rcases List.mem_cons.1 hf with rfl | hf'
    · simp only
      by_cases hx : x = n
      · subst hx; rw [hself]; intro e; simp only [c, Option.some.injEq] at e
        have := (r.live _ p hp).1; omega
      · rw [hother x hx]; intro e; exact hx (r.inj x n p e hp)
    · by_cases hx : x = n
      · subst hx; rw [hself]; intro e; simp only [c, Option.some.injEq] at e
        have := (r.free_live f hf').1; omega
      · rw [hother x hx]; exact r.free_off f hf' x
  · simp only [List.map_cons, List.nodup_cons]
    refine ⟨?_, r.free_nodup⟩
    intro hm
    obtain ⟨f, hf, e⟩ := List.mem_map.1 hm
    exact r.free_off f hf n (by rw [hp, e])
  · intro x hx
    by_cases hxn : x = n
    · subst hxn; rw [hself]; simp [c]
    · rw [hother x hxn]; exact r.work x hx

/-- `_Container_FastAppend`. -/
theorem Rep.fastAppend {m h F W} (r : Rep m h (lens h) F W) (p c : NodeId) :
    ∃ m', fastAppend m p c = some m' ∧ Rep m' (addChild h p c) (lens (addChild h p c)) F W := by
  have hcount : (m.node p).count = (h.kids p).length := r.count p
  have key : ∀ m1, Rep m1 h (lens h) F W → (h.kids p).length < (m1.node p).allocated →
      ∃ m', (match m1.store p ((h.kids p).length + 1 - 1) c with
        | none => none
        | some m2 => some ((m2.setCount p ((h.kids p).length + 1)).setParent c (some p))) = some m' ∧
        Rep m' (addChild h p c) (lens (addChild h p c)) F W := by
    intro m1 r1 hroom
    have hroom' : (h.kids p).length < (m1.cells p).length := by rw [r1.len]; exact hroom
    rw [Nat.add_sub_cancel, Mem.store, if_pos hroom']
    refine ⟨_, rfl, ?_⟩
    have r2 := r1.setCells (n := p) (cells := (m1.cells p).set (h.kids p).length (some c)) (l := h.kids p ++ [c])
      (by simp) (set_last (r1.cells p) hroom')
    have halloc : ((m1.setCells p ((m1.cells p).set (h.kids p).length (some c))).node p).allocated =
        (m1.node p).allocated := by
      unfold Mem.setCells; split <;> rfl
    have r3 := (r2.setCount (n := p) (k := (h.kids p).length + 1) (by rw [halloc]; omega)).setParent c (some p)
    have he : upd (lens h) p ((h.kids p).length + 1) = lens (addChild h p c) := by
      refine upd_lens (by simp [addChild, Heap.setParent, Heap.setKids]) ?_
      intro x hx; simp [addChild, Heap.setParent, Heap.setKids, hx]
    rw [he] at r3
    exact r3
  unfold Build.fastAppend
  dsimp only
  rw [hcount]
  by_cases hg : (h.kids p).length + 1 ≥ (m.node p).allocated
  · rw [if_pos hg]
    obtain ⟨q, m', h1, h2⟩ := r.realloc (n := p) (k := 2 * ((h.kids p).length + 1)) (by omega) (h.kids p).length
      (by omega)
    rw [h1]
    have he : upd (lens h) p (h.kids p).length = lens h := by
      funext x; simp only [upd, lens]; split
      · rename_i e; rw [e]
      · rfl
    rw [he] at h2
    rw [← hcount] at h2
    have hc : ({ m.node p with nodes := some q, count := (m.node p).count, allocated := 2 * ((m.node p).count + 1) } : CNode) =
        { m.node p with nodes := some q, allocated := 2 * ((m.node p).count + 1) } := rfl
    rw [hc] at h2
    rw [← hcount] at key ⊢
    refine key _ h2 ?_
    simp [Mem.setNode]; omega
  · rw [if_neg hg]
    exact key m r (by omega)

theorem unlink_wf_parent {h : Heap} {c n : NodeId} (hn : h.parent n = none) : (freed h c).parent n = none := by
  by_cases hx : n = c
  · subst hx; exact freed_parent h n
  · rw [freed_parent_ne hx]; exact hn

/-- An edit keeps the trees well formed, and the open elements free. -/
theorem edited_keeps {opened : List NodeId} {h h' : Heap} {e : Edit} (w : WF h) (he : Edited opened h e h') :
    WF h' ∧ h'.size = h.size ∧ h'.kind = h.kind ∧
      ∀ n ∈ opened, h.parent n = none → h'.parent n = none := by
  cases he with
  | refused _ _ _ => exact ⟨w, rfl, rfl, fun n _ hn => hn⟩
  | done hl hm hr =>
    have hw : WF h' := by
      rcases legal_step w e hl with ⟨h2, e2, w2⟩ | ⟨err, e2⟩
      · rw [hr] at e2; cases e2; exact w2
      · rw [hr] at e2; cases e2
    refine ⟨hw, ?_⟩
    cases e with
    | append s c =>
      rcases ensureHierarchy_spec w s c with ⟨e, h4, _⟩ | ⟨_, h5, h6, h7⟩
      · simp only [Edit.run, containerAppend, h4] at hr; cases hr
      · obtain ⟨h2, e2, _, _, o⟩ := C14_append_partial w hl.2.2 h5 h6 h7
        rw [hr] at e2; cases e2
        refine ⟨o.size, o.kind, fun n hn hp => ?_⟩
        rw [o.parent n (fun e => hm c rfl (e ▸ hn))]; exact hp
    | insert s i c =>
      rcases ensureHierarchy_spec w s c with ⟨e, h4, _⟩ | ⟨_, h5, h6, h7⟩
      · simp only [Edit.run, containerInsert, h4] at hr; cases hr
      · obtain ⟨h2, l1, l2, e2, _, _, _, _, o⟩ := C14_insert_partial (i := i) w hl.2.2 h5 h6 h7
        rw [hr] at e2; cases e2
        refine ⟨o.size, o.kind, fun n hn hp => ?_⟩
        rw [o.parent n (fun e => hm c rfl (e ▸ hn))]; exact hp
    | remove s c =>
      simp only [Edit.run, containerRemove] at hr
      split at hr
      · split at hr
        · cases hr
        · cases hr
          refine ⟨rfl, rfl, fun n _ hp => ?_⟩
          simp only [Heap.setParent, Heap.setKids]
          split
          · rfl
          · exact hp
      · cases hr
    | replace s o n =>
      by_cases ho : o ∈ h.kids s
      · by_cases hon : o = n
        · subst hon
          rw [(C14_replace_trivial w s o o).1 ho] at hr; cases hr
          exact ⟨rfl, rfl, fun n _ hn => hn⟩
        · obtain ⟨h2, e2, _, _, ho2, hs2, hk2, hp2, _⟩ := C14_replace_partial w ho hon hl
          rw [hr] at e2; cases e2
          refine ⟨hs2, hk2, fun x hx hp => ?_⟩
          by_cases hxo : x = o
          · rw [hxo]; exact ho2
          · rw [hp2 x (fun e => hm n rfl (e ▸ hx)) hxo]; exact hp
      · rw [(C14_replace_trivial w s o n).2 ho] at hr; cases hr

theorem Rep.edited {m h h' F W opened} {e : Edit} (r : Rep m h (lens h) F W) (w : WF h)
    (he : Edited opened h e h') :
    ∃ m', (editM m e = .ok m' ∨ ∃ err, editM m e = .raised err m') ∧ Rep m' h' (lens h') F W := by
  cases he with
  | done hl _ hr =>
    have := r.edit w e hl
    rw [hr] at this
    obtain ⟨m', h1, h2⟩ := this
    exact ⟨m', .inl h1, h2⟩
  | refused hl _ hr =>
    have := r.edit w e hl
    rw [hr] at this
    exact ⟨m, .inr ⟨_, this.1⟩, this.2⟩

theorem Rep.editeds {h h' opened es} (he : Editeds opened h es h') : ∀ {m F W}, Rep m h (lens h) F W → WF h →
    (∀ n ∈ opened, h.parent n = none) →
    (∃ m', editsM m es = some m' ∧ Rep m' h' (lens h') F W) ∧ WF h' ∧ h'.size = h.size ∧ h'.kind = h.kind ∧
      ∀ n ∈ opened, h'.parent n = none := by
  induction he with
  | nil => intro m F W r w ho; exact ⟨⟨m, rfl, r⟩, w, rfl, rfl, ho⟩
  | cons he _ ih =>
    intro m F W r w ho
    obtain ⟨m1, h1, r1⟩ := r.edited w he
    obtain ⟨w1, s1, k1, o1⟩ := edited_keeps w he
    obtain ⟨⟨m2, h2, r2⟩, w2, s2, k2, o2⟩ := ih r1 w1 (fun n hn => o1 n hn (ho n hn))
    refine ⟨⟨m2, ?_, r2⟩, w2, s2.trans s1, k2.trans k1, o2⟩
    rcases h1 with h1 | ⟨err, h1⟩
    · simp only [editsM, h1]; exact h2
    · simp only [editsM, h1]; exact h2

/-- The state of the builder stands for a partial tree. -/
structure Inv (st : BState) (t : Partial) : Prop where
  rep : Rep st.mem t.heap (lens t.heap) (st.free.map fun c => (c.children, c.allocated)) t.opened
  wf : WF t.heap
  context : st.context.map (·.node) = t.opened.map some
  free : ∀ c ∈ st.free, c.node = none
  nodup : t.opened.Nodup
  bound : ∀ n ∈ t.opened, n < t.heap.size
  root : ∀ n ∈ t.opened, t.heap.parent n = none
  cont : ∀ n ∈ t.opened, isContainer (t.heap.kind n) = true
  elems : ∀ n ∈ t.opened.dropLast, t.heap.kind n = .element

theorem addContext_rep {st : BState} {h : Heap} {W : List NodeId} {n : NodeId}
    (r : Rep st.mem h (lens h) (st.free.map fun c => (c.children, c.allocated)) W) (hn : h.kids n = [])
    (hf : ∀ c ∈ st.free, c.node = none) :
    Rep (addContext st n).mem h (lens h) ((addContext st n).free.map fun c => (c.children, c.allocated)) (n :: W) ∧
      (addContext st n).context.map (·.node) = some n :: st.context.map (·.node) ∧
      (∀ c ∈ (addContext st n).free, c.node = none) ∧ (addContext st n).doc = st.doc := by
  unfold addContext
  cases hfree : st.free with
  | nil =>
    rw [hfree] at r
    have := (r.malloc (List.replicate 4 none)).setWorking hn
    exact ⟨this, rfl, by simp, rfl⟩
  | cons c rest =>
    rw [hfree] at r
    refine ⟨Rep.setWorking r hn, rfl, ?_, rfl⟩
    intro x hx; exact hf x (by rw [hfree]; exact List.mem_cons_of_mem _ hx)

theorem wf_addChild {h : Heap} (w : WF h) {p c : NodeId} (hc : h.parent c = none) (hp : h.parent p = none)
    (hne : c ≠ p) (hk : isChildKind (h.kind c) = true) (hs : isContainer (h.kind p) = true) (h1 : c < h.size)
    (h2 : p < h.size) : WF (addChild h p c) := by
  have := wf_link w (l1 := h.kids p) (l2 := []) hc (s := p) ?_ hk hs (by simp) h1 h2
  · exact this
  · rintro (e | e)
    · exact hne e
    · obtain ⟨q, hq, _⟩ := anc_iff.1 e; rw [hp] at hq; cases hq

theorem Rep.allocW {m h F W} (r : Rep m h (lens h) F W) (k : Kind) (hb : ∀ n ∈ W, n < h.size) :
    Rep (m.alloc k) (h.alloc k) (lens (h.alloc k)) F W := by
  refine (r.alloc k).weaken fun n hn => ?_
  rw [List.mem_filter]
  refine ⟨hn, ?_⟩
  have := hb n hn
  simp; omega

theorem Inv.new {st : BState} {t : Partial} (i : Inv st t) (k : Kind) :
    Inv { st with mem := st.mem.alloc k } ⟨t.heap.alloc k, t.opened⟩ := by
  have hne : ∀ n ∈ t.opened, n ≠ t.heap.size := fun n hn => by have := i.bound n hn; omega
  refine ⟨i.rep.allocW k i.bound, wf_alloc i.wf k, i.context, i.free, i.nodup, ?_, ?_, ?_, ?_⟩
  · intro n hn; have := i.bound n hn; show n < t.heap.size + 1; omega
  · intro n hn; simp [Heap.alloc, hne n hn, i.root n hn]
  · intro n hn; simp [Heap.alloc, hne n hn, i.cont n hn]
  · intro n hn; simp [Heap.alloc, hne n (List.dropLast_subset _ hn), i.elems n hn]

/-- A free node is added to the innermost element. -/
theorem Inv.addNode {st : BState} {h : Heap} {top : NodeId} {rest : List NodeId} (i : Inv st ⟨h, top :: rest⟩)
    {c : NodeId} (hc : h.parent c = none) (hk : isChildKind (h.kind c) = true) (hb : c < h.size)
    (hne : c ∉ top :: rest) :
    ∃ st', addNode st c = .ok st' ∧ Inv st' ⟨addChild h top c, top :: rest⟩ ∧ st'.doc = st.doc := by
  have hctx := i.context
  cases hcs : st.context with
  | nil => rw [hcs] at hctx; simp at hctx
  | cons x xs =>
    rw [hcs] at hctx
    simp only [List.map_cons, List.cons.injEq] at hctx
    obtain ⟨m', h1, r1⟩ := i.rep.fastAppend top c
    obtain ⟨node, ch, al⟩ := x
    simp only at hctx
    rw [hctx.1] at hcs
    refine ⟨{ st with mem := m' }, by simp only [Build.addNode, hcs, h1], ?_, rfl⟩
    have hpar : ∀ n ∈ top :: rest, (addChild h top c).parent n = none := by
      intro n hn
      have : n ≠ c := fun e => hne (e ▸ hn)
      simp only [addChild, Heap.setParent, Heap.setKids, if_neg this]
      exact i.root n hn
    exact ⟨r1, wf_addChild i.wf hc (i.root top List.mem_cons_self) (fun e => hne (e ▸ List.mem_cons_self)) hk
      (i.cont top List.mem_cons_self) hb (i.bound top List.mem_cons_self), i.context, i.free, i.nodup, i.bound, hpar,
      i.cont, i.elems⟩

/-- The innermost element is completed. -/
theorem Inv.complete {st : BState} {h : Heap} {e : NodeId} {rest : List NodeId} (i : Inv st ⟨h, e :: rest⟩) :
    ∃ st', complete st = some (e, st') ∧ Inv st' ⟨h, rest⟩ ∧ st'.doc = st.doc := by
  have hctx := i.context
  cases hcs : st.context with
  | nil => rw [hcs] at hctx; simp at hctx
  | cons x xs =>
    rw [hcs] at hctx
    simp only [List.map_cons, List.cons.injEq] at hctx
    obtain ⟨node, ch, al⟩ := x
    simp only at hctx
    rw [hctx.1] at hcs
    have hw := i.rep.work e List.mem_cons_self
    cases hp : (st.mem.node e).nodes with
    | none => exact absurd hp hw
    | some p =>
      obtain ⟨m', h1, r1⟩ := i.rep.freeze hp
      refine ⟨{ st with mem := m', context := xs, free := ⟨none, p, (st.mem.node e).allocated⟩ :: st.free },
        by simp only [Build.complete, hcs, hp, h1], ?_, rfl⟩
      refine ⟨r1.weaken (fun n hn => List.mem_cons_of_mem _ hn), i.wf, hctx.2, ?_, (List.nodup_cons.1 i.nodup).2,
        fun n hn => i.bound n (List.mem_cons_of_mem _ hn), fun n hn => i.root n (List.mem_cons_of_mem _ hn),
        fun n hn => i.cont n (List.mem_cons_of_mem _ hn), ?_⟩
      · intro c hc
        rcases List.mem_cons.1 hc with rfl | hc
        · rfl
        · exact i.free c hc
      · intro n hn
        cases rest with
        | nil => simp at hn
        | cons a as => exact i.elems n (by simp only [List.dropLast_cons_cons]; exact List.mem_cons_of_mem _ hn)

/-- Every step does in memory what it means. -/
theorem Inv.step {custom : Kind → Bool} {st : BState} {t t' : Partial} {s : Step} (i : Inv st t)
    (hn : Next custom t s t') :
    ∃ st', step custom st s = .ok st' ∧ Inv st' t' ∧ st'.doc = st.doc := by
  cases hn with
  | @leaf h top rest k hk =>
    have i1 := i.new k
    have hsize : st.mem.size = h.size := i.rep.size
    have hnot : ¬ (custom k = true ∧ k ≠ .text) := by
      rintro ⟨h1, h2⟩
      rcases hk with hk | ⟨_, hk⟩
      · exact h2 hk
      · rw [h1] at hk; cases hk
    have hne : h.size ∉ top :: rest := fun hm => by have := i.bound _ hm; simp at this
    have hck : isChildKind ((h.alloc k).kind h.size) = true := by
      rcases hk with rfl | ⟨rfl | rfl, _⟩ <;> simp [Heap.alloc, isChildKind]
    obtain ⟨st', h1, h2, h3⟩ := i1.addNode (c := h.size) (by simp [Heap.alloc]) hck (by simp [Heap.alloc]) hne
    refine ⟨st', ?_, h2, h3⟩
    simp only [Build.step, if_neg hnot, hsize]; exact h1
  | @start h h' opened es he hk hp =>
    have hsize : st.mem.size = h.size := i.rep.size
    have i1 := i.new .element
    obtain ⟨⟨m', h1, r1⟩, w1, s1, k1, o1⟩ := Rep.editeds he i1.rep i1.wf i1.root
    have hctx := addContext_rep (st := { st with mem := m' }) r1 hk i.free
    refine ⟨addContext { st with mem := m' } st.mem.size, ?_, ?_, ?_⟩
    · simp only [Build.step, h1]
    · rw [hsize]
      have hfresh : h.size ∉ opened := fun hm => by have := i.bound _ hm; simp at this
      refine ⟨hctx.1, w1, ?_, hctx.2.2.1, List.nodup_cons.2 ⟨hfresh, i.nodup⟩, ?_, ?_, ?_, ?_⟩
      · rw [hctx.2.1]; simp only [List.map_cons]; rw [i.context]
      · intro n hn
        show n < h'.size
        rw [s1]
        rcases List.mem_cons.1 hn with rfl | hn
        · simp [Heap.alloc]
        · exact i1.bound n hn
      · intro n hn
        rcases List.mem_cons.1 hn with rfl | hn
        · exact hp
        · exact o1 n hn
      · intro n hn
        show isContainer (h'.kind n) = true
        rw [k1]
        rcases List.mem_cons.1 hn with rfl | hn
        · simp [Heap.alloc, isContainer]
        · exact i1.cont n hn
      · intro n hn
        show h'.kind n = .element
        rw [k1]
        cases opened with
        | nil => simp at hn
        | cons a as =>
          simp only [List.dropLast_cons_cons] at hn
          rcases List.mem_cons.1 hn with rfl | hn
          · simp [Heap.alloc]
          · exact i1.elems n hn
    · rw [hsize]; exact hctx.2.2.2
  | @stop h e p rest =>
    obtain ⟨st1, h1, i1, d1⟩ := i.complete
    have hnd := List.nodup_cons.1 i.nodup
    obtain ⟨st2, h2, i2, d2⟩ := i1.addNode (c := e) (i.root e List.mem_cons_self)
      (by have := i.elems e (by simp); simp only at this ⊢; rw [this]; rfl)
      (i.bound e List.mem_cons_self) hnd.1
    exact ⟨st2, by simp only [Build.step, h1]; exact h2, i2, d2.trans d1⟩
  | @edit h h' opened e he =>
    obtain ⟨m', h1, r1⟩ := i.rep.edited i.wf he
    obtain ⟨w1, s1, k1, o1⟩ := edited_keeps i.wf he
    refine ⟨{ st with mem := m' }, ?_, ?_, rfl⟩
    · rcases h1 with h1 | ⟨err, h1⟩ <;> simp only [Build.step, h1]
    · exact ⟨r1, w1, i.context, i.free, i.nodup, fun n hn => by show n < h'.size; rw [s1]; exact i.bound n hn,
        fun n hn => o1 n hn (i.root n hn), fun n hn => by show isContainer (h'.kind n) = true; rw [k1]; exact i.cont n hn,
        fun n hn => by show h'.kind n = .element; rw [k1]; exact i.elems n hn⟩
  | new => exact ⟨_, rfl, i.new _, rfl⟩

theorem Inv.steps {custom : Kind → Bool} {t t' : Partial} {ss : List Step} (hn : Nexts custom t ss t') :
    ∀ {st : BState}, Inv st t → ∃ st', steps custom st ss = .ok st' ∧ Inv st' t' ∧ st'.doc = st.doc := by
  induction hn with
  | nil => intro st i; exact ⟨st, rfl, i, rfl⟩
  | cons h _ ih =>
    intro st i
    obtain ⟨st1, h1, i1, d1⟩ := i.step h
    obtain ⟨st2, h2, i2, d2⟩ := ih i1
    exact ⟨st2, by simp only [Build.steps, h1]; exact h2, i2, d2.trans d1⟩

theorem deleteFree_rep {h : Heap} {W : List NodeId} : ∀ {cs : List Ctx} {m : Mem}, (∀ c ∈ cs, c.node = none) →
    Rep m h (lens h) (cs.map fun c => (c.children, c.allocated)) W → Rep (deleteContexts m cs) h (lens h) [] W
  | [], _, _, r => r
  | c :: cs, m, hc, r => by
    have h1 := hc c List.mem_cons_self
    unfold deleteContexts
    rw [h1]
    exact deleteFree_rep (fun x hx => hc x (List.mem_cons_of_mem _ hx)) (Rep.free r)

/-- A whole parse. -/
theorem Rep.parse {custom : Kind → Bool} {m : Mem} {h h' : Heap} {ss : List Step} (r : Rep m h (lens h) [] [])
    (w : WF h) (hn : Nexts custom ⟨h.alloc .entity, [h.size]⟩ ss ⟨h', [h.size]⟩) :
    ∃ m', parseM custom m ss = some m' ∧ Rep m' h' (lens h') [] [] ∧ WF h' := by
  have hsize : m.size = h.size := r.size
  have r0 := r.allocW .entity (by simp)
  have hctx := addContext_rep (st := ⟨m.alloc .entity, [], [], m.size⟩) (n := m.size) r0
    (by simp [Heap.alloc, hsize]) (by simp)
  have i0 : Inv (startDocument m) ⟨h.alloc .entity, [h.size]⟩ := by
    refine ⟨?_, wf_alloc w .entity, ?_, hctx.2.2.1, by simp, ?_, ?_, ?_, by simp⟩
    · have := hctx.1; rw [hsize] at this; unfold startDocument; rw [hsize]; exact this
    · have := hctx.2.1; simp only [hsize] at this; unfold startDocument; simp only [hsize]; rw [this]; rfl
    · intro n hn; rw [List.mem_singleton] at hn; subst hn; simp [Heap.alloc]
    · intro n hn; rw [List.mem_singleton] at hn; subst hn; simp [Heap.alloc]
    · intro n hn; rw [List.mem_singleton] at hn; subst hn; simp [Heap.alloc, isContainer]
  obtain ⟨st1, h1, i1, _⟩ := Inv.steps hn i0
  obtain ⟨st2, h2, i2, _⟩ := i1.complete
  have hc2 : st2.context = [] := by simpa using i2.context
  refine ⟨deleteState st2, by simp only [parseM, h1, endDocument, h2], ?_, i2.wf⟩
  unfold deleteState
  rw [hc2]
  exact deleteFree_rep i2.free i2.rep

theorem Rep.acts {custom : Kind → Bool} {h h' : Heap} {as : List Act} (ha : Acts custom h as h') :
    ∀ {m : Mem}, Rep m h (lens h) [] [] → WF h →
    ∃ m', actsM custom m as = some m' ∧ Rep m' h' (lens h') [] [] ∧ WF h' := by
  induction ha with
  | nil => intro m r w; exact ⟨m, rfl, r, w⟩
  | @new h h' k as _ ih =>
    intro m r w
    exact ih (r.allocW k (by simp)) (wf_alloc w k)
  | @edit h h' h'' e as he _ ih =>
    intro m r w
    obtain ⟨m1, h1, r1⟩ := r.edited w he
    obtain ⟨m2, h2, r2, w2⟩ := ih r1 (edited_keeps w he).1
    refine ⟨m2, ?_, r2, w2⟩
    rcases h1 with h1 | ⟨err, h1⟩
    · simp only [actsM, h1]; exact h2
    · simp only [actsM, h1]; exact h2
  | parse hn _ ih =>
    intro m r w
    obtain ⟨m1, h1, r1, w1⟩ := r.parse w hn
    obtain ⟨m2, h2, r2, w2⟩ := ih r1 w1
    exact ⟨m2, by simp only [actsM, h1]; exact h2, r2, w2⟩

theorem rep_empty (moves : Nat → Bool) : Rep (Mem.empty moves) Heap.empty (lens Heap.empty) [] [] := by
  constructor <;> simp [Mem.empty, Heap.empty, lens, Mem.cells]

end Verif.Dom.Build
