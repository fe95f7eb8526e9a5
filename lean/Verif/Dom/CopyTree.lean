import Verif.Dom.CopyLemmas
/-
A deep copy of a tree is the tree.
-/
namespace Verif.Dom.Copy
open Verif Verif.Dom Verif.Dom.Spec Verif.Dom.Copy.Spec

variable {d0 : Doc}

theorem named_create {d : Doc} {i : Info} (h : i.named = true) : create d i = .ok (d.new i.fresh) := by
  simp [create, h]

theorem new_size (d : Doc) (i : Info) : (d.new i).heap.size = d.heap.size + 1 := rfl

theorem new_info (d : Doc) (i : Info) : (d.new i).info d.heap.size = i := by simp [Doc.new, upd]

theorem new_parent (d : Doc) (i : Info) : (d.new i).heap.parent d.heap.size = none := by simp [Doc.new, Heap.alloc]

theorem new_kids (d : Doc) (i : Info) : (d.new i).heap.kids d.heap.size = [] := by simp [Doc.new, Heap.alloc]

theorem new_nss (d : Doc) (i : Info) : (d.new i).nss d.heap.size = [] := by simp [Doc.new, upd]

theorem new_attrs (d : Doc) (i : Info) : (d.new i).attrs d.heap.size = [] := by simp [Doc.new, upd]

theorem new_kind (d : Doc) (i : Info) : (d.new i).heap.kind d.heap.size = i.kind := by simp [Doc.new, Heap.alloc]

theorem lookup_cons_ne {memo : Memo} {n k v : NodeId} : ((n, v) :: memo).lookup k ≠ none →
    memo.lookup k ≠ none ∨ k = n := by
  rw [List.lookup_cons]
  by_cases e : k = n
  · exact fun _ => .inr e
  · have : (k == n) = false := by simpa using e
    rw [this]; exact .inl

theorem lookup_keep {memo : Memo} {n v : NodeId} (hn : memo.lookup n = none) {k w : NodeId}
    (h : memo.lookup k = some w) : ((n, v) :: memo).lookup k = some w := by
  have e : k ≠ n := by rintro rfl; rw [hn] at h; cases h
  have : (k == n) = false := by simpa using e
  rw [List.lookup_cons, this]; exact h

theorem deep_succ {f : Nat} {d : Doc} {memo : Memo} {n : NodeId} (hm : memo.lookup n = none)
    (hi : (d.info n).named = true) :
    deep (f + 1) d memo n =
      deepState (deep f) (d.new (d.info n).fresh) ((n, d.heap.size) :: memo) n d.heap.size := by
  simp only [deep, hm, named_create hi, Out.bind]

/-- Namespace nodes. -/
theorem deep_ns (f : Nat) {x : NodeId} (hx : x < d0.heap.size) {p : Option Str} {u : Str} (hi : d0.info x = .ns p u) :
    StepOK d0 (fun _ _ => True) (fun c k => k = c) (fun d m t => d.info m = t ∧ d.heap.parent m = none)
      (deep (f + 1)) x (d0.info x) := by
  intro d memo inv _ hm
  have hi' : d.info x = .ns p u := (inv.ext.info x hx).trans hi
  have hl : memo.lookup x = none := by
    cases h : memo.lookup x with
    | none => rfl
    | some v => exact absurd rfl (hm x (by rw [h]; simp))
  have hne : x ≠ d.heap.size := by have := inv.ext.size; omega
  refine ⟨d.new (d.info x).fresh, (x, d.heap.size) :: memo, d.heap.size, ?_, inv_new inv _, untouched_new _ _,
    Nat.le_refl _, by simp [new_size], ⟨by rw [new_info, hi', hi]; rfl, new_parent _ _⟩,
    fun k v h => lookup_keep hl h, fun k h => lookup_cons_ne h⟩
  rw [deep_succ hl (by rw [hi']; rfl)]
  have : (d.new (d.info x).fresh).info x = .ns p u := by
    rw [(untouched_new d _).info x (by have := inv.ext.size; omega)]; exact hi'
  simp only [deepState, this]

/-- Attributes, whose element is being copied. -/
theorem deep_attr (f : Nat) {x e e' : NodeId} (hx : x < d0.heap.size) {s : Option Str} {q v : Str} {ty : Nat}
    (hi : d0.info x = .attr s q v ty) (hn : (d0.info x).named = true) (hp : d0.heap.parent x = some e) :
    StepOK d0 (fun d memo => memo.lookup e = some e' ∧ e' < d.heap.size ∧ d.heap.kind e' = .element)
      (fun c k => k = c) (fun d m t => d.info m = t ∧ d.heap.parent m = some e')
      (deep (f + 2)) x (d0.info x) := by
  intro d memo inv hq hm
  have hxd : x < d.heap.size := by have := inv.ext.size; omega
  have hi' : d.info x = .attr s q v ty := (inv.ext.info x hx).trans hi
  have hl : memo.lookup x = none := by
    cases h : memo.lookup x with
    | none => rfl
    | some v => exact absurd rfl (hm x (by rw [h]; simp))
  have hne : x ≠ d.heap.size := by omega
  have hu := untouched_new d (d.info x).fresh
  have hix : (d.new (d.info x).fresh).info x = .attr s q v ty := (hu.info x hxd).trans hi'
  have hpx : (d.new (d.info x).fresh).heap.parent x = some e :=
    (hu.parent x hxd).trans ((inv.ext.parent x hx).trans hp)
  have hle : ((x, d.heap.size) :: memo).lookup e = some e' := lookup_keep hl hq.1
  have hstep : deep (f + 1) (d.new (d.info x).fresh) ((x, d.heap.size) :: memo) e =
      .ok (d.new (d.info x).fresh, (x, d.heap.size) :: memo, e') := by
    simp only [deep, hle]
  have inv1 := inv_new inv (d.info x).fresh
  have hke : (d.new (d.info x).fresh).heap.kind e' = .element := (hu.kind e' hq.2.1).trans hq.2.2
  have hka : (d.new (d.info x).fresh).heap.kind d.heap.size = .attr := by
    rw [new_kind, hi']; rfl
  refine ⟨{ d.new (d.info x).fresh with
      heap := (d.new (d.info x).fresh).heap.setParent d.heap.size (some e')
      info := upd (d.new (d.info x).fresh).info d.heap.size (.attr s q v ty) },
    (x, d.heap.size) :: memo, d.heap.size, ?_, ?_, ?_, Nat.le_refl _, ?_, ⟨?_, ?_⟩, fun k v h => lookup_keep hl h,
    fun k h => lookup_cons_ne h⟩
  · rw [deep_succ hl (by rw [inv.ext.info x hx]; exact hn)]
    simp only [deepState, hix, hpx, hstep, Out.bind]
  · have huu : Untouched d { d.new (d.info x).fresh with
        heap := (d.new (d.info x).fresh).heap.setParent d.heap.size (some e')
        info := upd (d.new (d.info x).fresh).info d.heap.size (.attr s q v ty) } := by
      refine ⟨hu.size, hu.kind, fun n h => ?_, hu.kids, fun n h => ?_, hu.nss, hu.attrs⟩
      · have : n ≠ d.heap.size := by omega
        simp only [Heap.setParent, if_neg this]; exact hu.parent n h
      · have : n ≠ d.heap.size := by omega
        simp only [upd, if_neg this]; exact hu.info n h
    have g1 := inv1.good
    have hnp := new_parent d (d.info x).fresh
    have hsz : d.heap.size < (d.new (d.info x).fresh).heap.size := by simp [new_size]
    generalize d.new (d.info x).fresh = d1 at *
    have hnn : ∀ b y, y ∈ d1.nss b → y ≠ d.heap.size := by
      rintro b y hy rfl
      have := (g1.nss_own b _ hy).2
      rw [hka] at this; cases this
    have haa : ∀ b y, y ∈ d1.attrs b → y ≠ d.heap.size := by
      rintro b y hy rfl
      have := (g1.attrs_own b _ hy).1
      rw [hnp] at this; cases this
    refine ⟨inv.ext.trans huu, ?_, ?_, ?_, ?_, ?_, ?_, ?_⟩
    · exact wf_owner inv1.heap hke (.inl hka) (Nat.lt_of_lt_of_le hq.2.1 hu.size) hsz
    · intro n hn
      by_cases h : n = d.heap.size
      · subst h; simp only [Heap.setParent, upd_same]; exact hka
      · simp only [Heap.setParent, upd, if_neg h]; exact inv1.kind n hn
    · intro b y hy
      simp only [Heap.setParent, if_neg (hnn b y hy)]; exact g1.nss_own b y hy
    · intro b y hy
      simp only [Heap.setParent, if_neg (haa b y hy)]; exact g1.attrs_own b y hy
    · intro b
      have : (d1.nss b).map (fun y => nsKey (upd d1.info d.heap.size (.attr s q v ty) y)) =
          (d1.nss b).map fun y => nsKey (d1.info y) :=
        List.map_congr_left fun y hy => by rw [upd_ne _ _ (hnn b y hy)]
      simp only [this]; exact g1.nss_keys b
    · intro b
      have : (d1.attrs b).map (fun y => attrKey (upd d1.info d.heap.size (.attr s q v ty) y)) =
          (d1.attrs b).map fun y => attrKey (d1.info y) :=
        List.map_congr_left fun y hy => by rw [upd_ne _ _ (haa b y hy)]
      simp only [this]; exact g1.attrs_keys b
    · exact g1.tables
  · refine ⟨hu.size, hu.kind, fun n h => ?_, hu.kids, fun n h => ?_, hu.nss, hu.attrs⟩
    · have : n ≠ d.heap.size := by omega
      simp only [Heap.setParent, if_neg this]; exact hu.parent n h
    · have : n ≠ d.heap.size := by omega
      simp only [upd, if_neg this]; exact hu.info n h
  · simp [Heap.setParent, new_size]
  · simp only [upd_same]; exact hi.symm
  · simp [Heap.setParent]

theorem two_map {P : NodeId → Info → Prop} {f : NodeId → Info} {l : List NodeId} (h : ∀ x ∈ l, P x (f x)) :
    Two P l (l.map f) := by
  induction l with
  | nil => exact .nil
  | cons a l ih => exact .cons (h a (by simp)) (ih fun x hx => h x (by simp [hx]))

theorem two_info {d : Doc} {R : NodeId → Prop} {ms : List NodeId} {ts : List Info}
    (h : Two (fun m t => d.info m = t ∧ R m) ms ts) : ms.map d.info = ts ∧ ∀ m ∈ ms, R m := by
  induction h with
  | nil => exact ⟨rfl, by simp⟩
  | cons h1 _ ih =>
    refine ⟨by simp [h1.1, ih.1], fun m hm => ?_⟩
    rcases List.mem_cons.1 hm with rfl | hm
    · exact h1.2
    · exact ih.2 m hm

/-- What is done at the end for an element: everything gets its place. -/
def assembled (d : Doc) (e : NodeId) (ns as ks : List NodeId) : Doc :=
  { d with
    heap := grafted (owned (owned d.heap e ns) e as) e ks
    nss := upd d.nss e ns
    attrs := upd d.attrs e as }

theorem assembled_parent (d : Doc) (e : NodeId) (ns as ks : List NodeId) (x : NodeId) :
    (assembled d e ns as ks).heap.parent x = if x ∈ ns ∨ x ∈ as ∨ x ∈ ks then some e else d.heap.parent x := by
  simp only [assembled, grafted, owned]
  by_cases h1 : x ∈ ns <;> by_cases h2 : x ∈ as <;> by_cases h3 : x ∈ ks <;> simp [h1, h2, h3]

/-- The copies have trees as given. -/
theorem are_of_two {d D : Doc} {e : NodeId} {ks : List NodeId} {ts : List Tree}
    (h : Two (fun m t => Is d none m t) ks ts) (hf : ∀ c ∈ ks, ∀ t, Is d none c t → Is D (some e) c t) :
    Are D e ks ts := by
  induction h with
  | nil => exact .nil
  | cons h1 _ ih => exact .cons (hf _ (by simp) _ h1) (ih fun c hc => hf c (by simp [hc]))

theorem assembled_ok {d : Doc} (w : WF d.heap) {e : NodeId} {ns as ks : List NodeId} {ts : List Tree}
    (he : e < d.heap.size) (hp : d.heap.parent e = none) (hc : isContainer (d.heap.kind e) = true)
    (hel : d.heap.kind e = .element ∨ (ns = [] ∧ as = []))
    (hk0 : d.heap.kids e = []) (hn0 : d.nss e = []) (ha0 : d.attrs e = [])
    (hns : ∀ x ∈ ns, x < d.heap.size ∧ d.heap.kind x = .ns ∧ d.heap.parent x = none)
    (has : ∀ x ∈ as, x < d.heap.size ∧ d.heap.kind x = .attr ∧ d.heap.parent x = some e)
    (hks : ∀ x ∈ ks, x < d.heap.size ∧ isChildKind (d.heap.kind x) = true ∧ x ≠ e ∧ d.heap.parent x = none)
    (hkn : ks.Nodup) (nk : (ns.map fun x => nsKey (d.info x)).Nodup) (ak : (as.map fun x => attrKey (d.info x)).Nodup)
    (two : Two (fun m t => Is d none m t) ks ts) :
    appendAll (putAttrs (putNss d e ns) e as) e ks = .ok (assembled d e ns as ks) ∧
      WF (assembled d e ns as ks).heap ∧
      Is (assembled d e ns as ks) none e (.node (d.info e) (ns.map d.info) (as.map d.info) ts) := by
  have e_ns : e ∉ ns := fun h => by rw [(hns e h).2.1] at hc; cases hc
  have e_as : e ∉ as := fun h => by rw [(has e h).2.1] at hc; cases hc
  have e_ks : e ∉ ks := fun h => (hks e h).2.2.1 rfl
  have n_ks : ∀ x ∈ ks, x ∉ ns := fun x h h' => by have := (hks x h).2.1; rw [(hns x h').2.1] at this; cases this
  have a_ks : ∀ x ∈ ks, x ∉ as := fun x h h' => by have := (hks x h).2.1; rw [(has x h').2.1] at this; cases this
  have e1 : putNss d e ns = { d with heap := owned d.heap e ns, nss := upd d.nss e ns } := by
    rw [putNss_eq e ns d (by simpa [hn0] using nk), hn0, List.nil_append]
  have e2 : putAttrs (putNss d e ns) e as =
      { d with heap := owned (owned d.heap e ns) e as, nss := upd d.nss e ns, attrs := upd d.attrs e as } := by
    rw [putAttrs_eq e as _ (by rw [e1]; simpa [ha0] using ak), e1]
    simp [ha0]
  have w1 : WF (owned (owned d.heap e ns) e as) := by
    rcases hel with hel | ⟨rfl, rfl⟩
    · refine wf_owned as _ (wf_owned ns _ w hel he ?_) hel he ?_
      · exact fun x hx => ⟨.inr (hns x hx).2.1, (hns x hx).1⟩
      · exact fun x hx => ⟨.inl (has x hx).2.1, (has x hx).1⟩
    · simpa [owned] using w
  have h3 := appendAll_eq ks (putAttrs (putNss d e ns) e as) (e := e) (by rw [e2]; exact w1)
    (by rw [e2]; simp [owned, e_ns, e_as, hp]) (by rw [e2]; exact hc) (by rw [e2]; exact he) hkn (by
      intro c h
      rw [e2]
      have := hks c h
      exact ⟨by simp [owned, n_ks c h, a_ks c h, this.2.2.2], this.2.2.1, this.2.1, this.1⟩)
  have eD : { putAttrs (putNss d e ns) e as with heap := grafted (putAttrs (putNss d e ns) e as).heap e ks } =
      assembled d e ns as ks := by rw [e2]; rfl
  have ekids : (assembled d e ns as ks).heap.kids e = ks := by simp [assembled, grafted, owned, upd, hk0]
  rw [eD] at h3
  refine ⟨h3.1, by rw [← eD]; exact h3.2, ?_⟩
  have hmk : Is (assembled d e ns as ks) none e (.node ((assembled d e ns as ks).info e) (ns.map d.info) (as.map d.info) ts) := by
    refine .mk ?_ ?_ ?_ ?_
    · rw [assembled_parent]; simp [e_ns, e_as, e_ks, hp]
    · refine ⟨by simp [assembled, upd_same], fun x hx => ?_⟩
      rw [assembled_parent, if_pos]
      simp only [assembled, upd_same] at hx; exact .inl hx
    · refine ⟨by simp [assembled, upd_same], fun x hx => ?_⟩
      rw [assembled_parent, if_pos]
      simp only [assembled, upd_same] at hx; exact .inr (.inl hx)
    · rw [ekids]
      refine are_of_two two ?_
      intro c h t ht
      refine is_frame w ?_ (by rw [assembled_parent, if_pos (.inr (.inr h))]) ht
      intro x hx
      have hxe : x ≠ e := by rintro rfl; exact (hks c h).2.2.1 (anc_none hp hx)
      refine ⟨fun hxc => ?_, rfl, upd_ne _ _ hxe, upd_ne _ _ hxe, ?_⟩
      · rw [assembled_parent, if_neg]
        rintro (h1 | h1 | h1)
        · exact hxc (anc_none (hns x h1).2.2 hx).symm
        · rcases hx with rfl | hx
          · exact hxc rfl
          · obtain ⟨p, h2, h3⟩ := anc_iff.1 hx
            rw [(has x h1).2.2] at h2
            cases h2
            exact (hks c h).2.2.1 (anc_none hp h3)
        · exact hxc (anc_none (hks x h1).2.2.2 hx).symm
      · simp [assembled, grafted, owned, upd, hxe]
  exact hmk

theorem good_assembled {d : Doc} (g : Good d) {e : NodeId} {ns as ks : List NodeId}
    (w : WF (assembled d e ns as ks).heap) (hel : d.heap.kind e = .element ∨ (ns = [] ∧ as = []))
    (hns : ∀ x ∈ ns, x < d.heap.size ∧ d.heap.kind x = .ns ∧ d.heap.parent x = none)
    (has : ∀ x ∈ as, x < d.heap.size ∧ d.heap.kind x = .attr ∧ d.heap.parent x = some e)
    (hks : ∀ x ∈ ks, d.heap.parent x = none)
    (nk : (ns.map fun x => nsKey (d.info x)).Nodup) (ak : (as.map fun x => attrKey (d.info x)).Nodup) :
    Good (assembled d e ns as ks) := by
  have other : ∀ x b, d.heap.parent x = some b → b ≠ e → (assembled d e ns as ks).heap.parent x = some b := by
    intro x b hx hb
    rw [assembled_parent, if_neg]
    · exact hx
    · rintro (h | h | h)
      · rw [(hns x h).2.2] at hx; cases hx
      · rw [(has x h).2.2] at hx; cases hx; exact hb rfl
      · rw [hks x h] at hx; cases hx
  refine ⟨w, g.kind, ?_, ?_, ?_, ?_, ?_⟩
  · intro b x hx
    by_cases hb : b = e
    · subst hb
      simp only [assembled, upd_same] at hx
      exact ⟨by rw [assembled_parent, if_pos (.inl hx)], (hns x hx).2.1⟩
    · simp only [assembled, upd, if_neg hb] at hx
      exact ⟨other x b (g.nss_own b x hx).1 hb, (g.nss_own b x hx).2⟩
  · intro b x hx
    by_cases hb : b = e
    · subst hb
      simp only [assembled, upd_same] at hx
      exact ⟨by rw [assembled_parent, if_pos (.inr (.inl hx))], (has x hx).2.1⟩
    · simp only [assembled, upd, if_neg hb] at hx
      exact ⟨other x b (g.attrs_own b x hx).1 hb, (g.attrs_own b x hx).2⟩
  · intro b
    by_cases hb : b = e
    · subst hb; simp only [assembled, upd_same]; exact nk
    · simp only [assembled, upd, if_neg hb]; exact g.nss_keys b
  · intro b
    by_cases hb : b = e
    · subst hb; simp only [assembled, upd_same]; exact ak
    · simp only [assembled, upd, if_neg hb]; exact g.attrs_keys b
  · intro b hk
    by_cases hb : b = e
    · subst hb
      rcases hel with h | ⟨rfl, rfl⟩
      · exact absurd h hk
      · simp [assembled, upd_same]
    · simp only [assembled, upd, if_neg hb]; exact g.tables b hk

theorem untouched_assembled {d1 d : Doc} (h : Untouched d1 d) {e : NodeId} {ns as ks : List NodeId}
    (he : d1.heap.size ≤ e) (hns : ∀ x ∈ ns, d1.heap.size ≤ x) (has : ∀ x ∈ as, d1.heap.size ≤ x)
    (hks : ∀ x ∈ ks, d1.heap.size ≤ x) : Untouched d1 (assembled d e ns as ks) := by
  refine ⟨h.size, h.kind, fun n hn => ?_, fun n hn => ?_, h.info, fun n hn => ?_, fun n hn => ?_⟩
  · rw [assembled_parent, if_neg]
    · exact h.parent n hn
    · rintro (h1 | h1 | h1)
      · have := hns n h1; omega
      · have := has n h1; omega
      · have := hks n h1; omega
  · have : n ≠ e := by omega
    simp only [assembled, grafted, owned, upd, if_neg this]; exact h.kids n hn
  · have : n ≠ e := by omega
    simp only [assembled, upd, if_neg this]; exact h.nss n hn
  · have : n ≠ e := by omega
    simp only [assembled, upd, if_neg this]; exact h.attrs n hn

/-! ### Trees -/

/-- The copy of `c` is the tree. -/
abbrev CopyOK (d0 : Doc) (f : Nat) (c : NodeId) (t : Tree) : Prop :=
  StepOK d0 (fun _ _ => True) (fun c k => AncS d0.heap c k) (fun d m t => Is d none m t) (deep f) c t

theorem lookup_none {memo : Memo} {n : NodeId} (hm : ∀ k, memo.lookup k ≠ none → ¬ AncS d0.heap n k) :
    memo.lookup n = none := by
  cases h : memo.lookup n with
  | none => rfl
  | some v => exact absurd (.inl rfl) (hm n (by rw [h]; simp))

theorem kids_leaf (g : Good d0) {n : NodeId} (h : isContainer (d0.heap.kind n) = false) : d0.heap.kids n = [] := by
  cases e : d0.heap.kids n with
  | nil => rfl
  | cons c cs =>
    have := g.heap.parent_kind _ _ (g.heap.kids_parent n c (by simp [e]))
    rw [h] at this; cases this

theorem deep_leaf (g : Good d0) {p : Option NodeId} {n : NodeId} {t : Tree} (hn : n < d0.heap.size)
    (hk : d0.heap.kind n ≠ .attr ∧ d0.heap.kind n ≠ .element ∧ d0.heap.kind n ≠ .entity) (h : Is d0 p n t) (f : Nat) :
    CopyOK d0 (f + 1) n t := by
  have ht := g.tables n hk.2.1
  have hc : isContainer (d0.heap.kind n) = false := by
    cases e : d0.heap.kind n <;> simp_all [isContainer]
  have hkid := kids_leaf g hc
  have et : t = .node (d0.info n) [] [] [] := by
    cases h with
    | mk h1 h2 h3 h4 =>
      rw [ht.1] at h2; rw [ht.2] at h3; rw [hkid] at h4
      rw [← h2.1, ← h3.1]
      cases h4; rfl
  subst et
  intro d memo inv _ hm
  have hl := lookup_none hm
  have hnd : n < d.heap.size := Nat.lt_of_lt_of_le hn inv.ext.size
  have hi := inv.ext.info n hn
  have hkind := g.kind n hn
  have hnamed : (d.info n).named = true := by
    rw [hi]
    cases e : d0.info n <;> simp_all [Info.kind, Info.named]
  have hfr : (d.info n).fresh = d0.info n := by
    rw [hi]
    cases e : d0.info n <;> simp_all [Info.kind, Info.fresh]
  have hn1 : (d.new (d.info n).fresh).info n = d0.info n := ((untouched_new d _).info n hnd).trans hi
  refine ⟨d.new (d.info n).fresh, (n, d.heap.size) :: memo, d.heap.size, ?_, inv_new inv _, untouched_new _ _,
    Nat.le_refl _, by simp [new_size], ?_, fun k v h => lookup_keep hl h, fun k h => ?_⟩
  · rw [deep_succ hl hnamed]
    unfold deepState
    rw [hn1]
    cases e : d0.info n <;> simp_all [Info.kind]
  · have : Is (d.new (d.info n).fresh) none d.heap.size
        (.node ((d.new (d.info n).fresh).info d.heap.size) [] [] []) := by
      refine .mk (new_parent _ _) ?_ ?_ ?_
      · rw [new_nss]; exact ⟨rfl, by simp⟩
      · rw [new_attrs]; exact ⟨rfl, by simp⟩
      · rw [new_kids]; exact .nil
    rw [new_info, hfr] at this
    rw [hfr]; exact this
  · rcases lookup_cons_ne h with h | h
    · exact .inl h
    · exact .inr (.inl h.symm)

theorem keys_congr {α : Type} {key : Info → α} {d d' : Doc} {l l' : List NodeId} (h : l'.map d'.info = l.map d.info) :
    (l'.map fun x => key (d'.info x)) = l.map fun x => key (d.info x) := by
  have e1 : (l'.map fun x => key (d'.info x)) = (l'.map d'.info).map key := by rw [List.map_map]; rfl
  have e2 : (l.map fun x => key (d.info x)) = (l.map d.info).map key := by rw [List.map_map]; rfl
  rw [e1, e2, h]

theorem nodup_of_keys {α : Type} {key : NodeId → α} {l : List NodeId} (h : (l.map key).Nodup) : l.Nodup := by
  induction l with
  | nil => exact List.nodup_nil
  | cons a l ih =>
    rw [List.map_cons, List.nodup_cons] at h
    exact List.nodup_cons.2 ⟨fun ha => h.1 (List.mem_map.2 ⟨a, ha, rfl⟩), ih h.2⟩

theorem kind_of_map {d : Doc} {k : Kind} {ms l : List NodeId} {d0 : Doc} (h : ms.map d.info = l.map d0.info)
    (hl : ∀ x ∈ l, (d0.info x).kind = k) : ∀ m ∈ ms, (d.info m).kind = k := by
  intro m hm
  have : d.info m ∈ l.map d0.info := by rw [← h]; exact List.mem_map.2 ⟨m, hm, rfl⟩
  obtain ⟨x, hx, e⟩ := List.mem_map.1 this
  rw [← e]; exact hl x hx

theorem pairwise_kids (g : Good d0) (n : NodeId) :
    (d0.heap.kids n).Pairwise fun a b => ∀ k, AncS d0.heap a k → ¬ AncS d0.heap b k := by
  have hn := g.heap.nodup n
  have hp : ∀ c ∈ d0.heap.kids n, d0.heap.parent c = some n := fun c hc => g.heap.kids_parent _ _ hc
  refine (List.pairwise_iff_forall_sublist.2 fun {a b} hab => ?_)
  have ha : a ∈ d0.heap.kids n := hab.subset (by simp)
  have hb : b ∈ d0.heap.kids n := hab.subset (by simp)
  have hne : a ≠ b := by
    have := hn.sublist hab
    simpa using this
  intro k h1 h2
  have key : ∀ x y, x ∈ d0.heap.kids n → y ∈ d0.heap.kids n → AncS d0.heap x y → x = y := by
    intro x y hx hy h
    rcases h with h | h
    · exact h
    · obtain ⟨q, h3, h4⟩ := anc_iff.1 h
      rw [hp y hy] at h3; cases h3
      exact absurd (AncS.anc h4 (.parent (hp x hx))) (g.heap.acyclic x)
  rcases AncS.comparable h1 h2 with h | h
  · exact hne (key a b ha hb h)
  · exact hne (key b a hb ha h).symm

theorem is_root_kind {d : Doc} {m : NodeId} {t : Tree} {p : Option NodeId} (h : Is d p m t) : ∃ ns as ts, t = .node (d.info m) ns as ts := by
  cases h; exact ⟨_, _, _, rfl⟩

theorem two_kinds {d : Doc} {ms cs : List NodeId} {ts : List Tree} {p : NodeId} (h : Two (fun m t => Is d none m t) ms ts)
    (h0 : Are d0 p cs ts) (hc : ∀ c ∈ cs, isChildKind (d0.info c).kind = true) :
    ∀ m ∈ ms, isChildKind (d.info m).kind = true ∧ d.heap.parent m = none := by
  induction h generalizing cs with
  | nil => intro m hm; cases hm
  | cons h1 _ ih =>
    cases h0 with
    | cons h2 h3 =>
      intro m hm
      rcases List.mem_cons.1 hm with rfl | hm
      · obtain ⟨_, _, _, e1⟩ := is_root_kind h1
        obtain ⟨_, _, _, e2⟩ := is_root_kind h2
        rw [e1] at e2
        injection e2 with e2
        rw [e2]
        exact ⟨hc _ (by simp), by cases h1; assumption⟩
      · exact ih h3 (fun c h => hc c (by simp [h])) m hm

/-- The heap and the memo after the node itself has been made. -/
theorem started {d : Doc} {memo : Memo} {n : NodeId} (hn : n < d0.heap.size)
    (inv : Inv d0 d) (hm : ∀ k, memo.lookup k ≠ none → ¬ AncS d0.heap n k) :
    ∀ k, ((n, d.heap.size) :: memo).lookup k ≠ none → k = n ∨ ¬ AncS d0.heap n k := by
  intro k hk
  rcases lookup_cons_ne hk with h | h
  · exact .inr (hm k h)
  · exact .inl h

theorem deep_element (g : Good d0) {p : Option NodeId} {n : NodeId} {i : Info} {nsi asi : List Info} {ts : List Tree} (hn : n < d0.heap.size)
    {s : Option Str} {q : Str} (hi : d0.info n = .element s q)
    (hnm : ∀ x, AncS d0.heap n x → (d0.info x).named = true) (h : Is d0 p n (.node i nsi asi ts)) {f : Nat}
    (hkids : Two (CopyOK d0 (f + 2)) (d0.heap.kids n) ts) :
    CopyOK d0 (f + 3) n (.node i nsi asi ts) := by
  intro d memo inv _ hm
  have hl := lookup_none hm
  have hnd : n < d.heap.size := Nat.lt_of_lt_of_le hn inv.ext.size
  have hi' := (inv.ext.info n hn).trans hi
  have hnamed : (d.info n).named = true := by rw [inv.ext.info n hn]; exact hnm n (.inl rfl)
  have hfr : (d.info n).fresh = .element s q := by rw [hi']; rfl
  generalize hd1 : d.new (d.info n).fresh = d1
  have inv1 : Inv d0 d1 := hd1 ▸ inv_new inv _
  have u1 : Untouched d d1 := hd1 ▸ untouched_new d _
  generalize he : d.heap.size = e at *
  have e1 : d1.heap.size = e + 1 := by rw [← hd1, new_size, he]
  have ei : d1.info e = .element s q := by rw [← hd1, ← he, new_info, hfr]
  have ep : d1.heap.parent e = none := by rw [← hd1, ← he, new_parent]
  have ek : d1.heap.kids e = [] := by rw [← hd1, ← he, new_kids]
  have en : d1.nss e = [] := by rw [← hd1, ← he, new_nss]
  have ea : d1.attrs e = [] := by rw [← hd1, ← he, new_attrs]
  have ekind : d1.heap.kind e = .element := by rw [inv1.kind e (by omega), ei]; rfl
  have i1 : d1.info n = .element s q := (inv1.ext.info n hn).trans hi
  have hst := started hn inv hm
  rw [he] at hst
  generalize hmemo : (n, e) :: memo = memo1 at *
  have hl1 : memo1.lookup n = some e := by rw [← hmemo]; simp
  have anc1 : ∀ c, d0.heap.parent c = some n → AncS d0.heap n c ∧ c ≠ n := fun c hc =>
    ⟨.inr (.parent hc), by rintro rfl; exact g.heap.acyclic _ (.parent hc)⟩
  cases h with
  | mk h1 h2 h3 h4 =>
  -- namespaces
  have hnsk : ∀ x ∈ d0.nss n, (d0.info x).kind = .ns ∧ x < d0.heap.size := fun x hx => by
    have := g.nss_own n x hx
    have hlt := (g.heap.bounded _ _ this.1).1
    exact ⟨(g.kind x hlt).symm.trans this.2, hlt⟩
  obtain ⟨d2, memo2, ns, q2, inv2, u2, r2, _, t2, k2, o2⟩ :=
    deepAll_ok (d0 := d0) (Q := fun _ _ => True) (Own := fun c k => k = c)
      (P := fun d m t => d.info m = t ∧ d.heap.parent m = none) (step := deep (f + 2))
      (fun _ _ _ _ _ _ h => h)
      (fun a b m t _ hu hlt hp => ⟨(hu.info m hlt).trans hp.1, (hu.parent m hlt).trans hp.2⟩)
      (cs := d0.nss n) (ts := (d0.nss n).map d0.info)
      (two_map fun x hx => by
        have := hnsk x hx
        cases hx' : d0.info x with
        | ns pre u => rw [← hx']; exact deep_ns (f + 1) this.2 hx'
        | _ => rw [hx'] at this; cases this.1)
      ((nodup_of_keys (g.nss_keys n)).imp fun hab k hk hk' => hab (hk.symm.trans hk'))
      d1 memo1 inv1 trivial (by
        intro k hk c hc
        have hc' := anc1 c (g.nss_own n c hc).1
        rintro rfl
        rcases hst k hk with h | h
        · exact hc'.2 h
        · exact h hc'.1)
  -- attributes
  have hask : ∀ x ∈ d0.attrs n, (d0.info x).kind = .attr ∧ x < d0.heap.size := fun x hx => by
    have := g.attrs_own n x hx
    have hlt := (g.heap.bounded _ _ this.1).1
    exact ⟨(g.kind x hlt).symm.trans this.2, hlt⟩
  obtain ⟨d3, memo3, as, q3, inv3, u3, r3, _, t3, k3, o3⟩ :=
    deepAll_ok (d0 := d0)
      (Q := fun d memo => memo.lookup n = some e ∧ e < d.heap.size ∧ d.heap.kind e = .element)
      (Own := fun c k => k = c)
      (P := fun d m t => d.info m = t ∧ d.heap.parent m = some e) (step := deep (f + 2))
      (fun _ _ _ _ hu hk h => ⟨hk _ _ h.1, Nat.lt_of_lt_of_le h.2.1 hu.size, (hu.kind e h.2.1).trans h.2.2⟩)
      (fun a b m t _ hu hlt hp => ⟨(hu.info m hlt).trans hp.1, (hu.parent m hlt).trans hp.2⟩)
      (cs := d0.attrs n) (ts := (d0.attrs n).map d0.info)
      (two_map fun x hx => by
        have := hask x hx
        cases hx' : d0.info x with
        | attr u q v ty =>
          rw [← hx']
          exact deep_attr f this.2 hx' (hnm x (anc1 x (g.attrs_own n x hx).1).1) (g.attrs_own n x hx).1
        | _ => rw [hx'] at this; cases this.1)
      ((nodup_of_keys (g.attrs_keys n)).imp fun hab k hk hk' => hab (hk.symm.trans hk'))
      d2 memo2 inv2 ⟨k2 _ _ hl1, Nat.lt_of_lt_of_le (by omega) u2.size, (u2.kind e (by omega)).trans ekind⟩ (by
        intro k hk c hc
        have hc' := anc1 c (g.attrs_own n c hc).1
        rintro rfl
        rcases o2 k hk with h | ⟨c', hc2, rfl⟩
        · rcases hst k h with h | h
          · exact hc'.2 h
          · exact h hc'.1
        · have a1 := (g.attrs_own n k hc).2
          rw [(g.nss_own n k hc2).2] at a1; cases a1)
  -- children
  have hkid : ∀ c ∈ d0.heap.kids n, d0.heap.parent c = some n := fun c hc => g.heap.kids_parent _ _ hc
  obtain ⟨d4, memo4, ks, q4, inv4, u4, r4, nd4, t4, k4, o4⟩ :=
    deepAll_ok (d0 := d0) (Q := fun _ _ => True) (Own := fun c k => AncS d0.heap c k)
      (P := fun d m t => Is d none m t) (step := deep (f + 2))
      (fun _ _ _ _ _ _ h => h)
      (fun a b m t hin hu hlt hp => is_mono hin.heap hu hlt hp)
      hkids (pairwise_kids g n) d3 memo3 inv3 trivial (by
        intro k hk c hc hck
        have hcn := anc1 c (hkid c hc)
        -- an attribute or namespace of `n` is not below a child
        have own : ∀ k, d0.heap.parent k = some n → isChildKind (d0.heap.kind k) = false → ¬ AncS d0.heap c k := by
          intro k hp hkk hck
          rcases hck with rfl | hck
          · rw [g.heap.child_kind n c hc] at hkk; cases hkk
          · obtain ⟨q, h5, h6⟩ := anc_iff.1 hck
            rw [hp] at h5; cases h5
            exact g.heap.acyclic c (AncS.anc h6 (.parent (hkid c hc)))
        rcases o3 k hk with h | ⟨c', hc2, rfl⟩
        · rcases o2 k h with h | ⟨c', hc2, rfl⟩
          · rcases hst k h with rfl | h
            · exact g.heap.acyclic c (AncS.anc hck (.parent (hkid c hc)))
            · exact h (hcn.1.trans hck)
          · exact own k (g.nss_own n k hc2).1 (by rw [(g.nss_own n k hc2).2]; rfl) hck
        · exact own k (g.attrs_own n k hc2).1 (by rw [(g.attrs_own n k hc2).2]; rfl) hck)
  -- assembly
  have u14 := (u2.trans u3).trans u4
  have u24 := u3.trans u4
  have t2' := two_info (R := fun m => d2.heap.parent m = none) t2
  have t3' := two_info (R := fun m => d3.heap.parent m = some e) t3
  have mns : ns.map d4.info = (d0.nss n).map d0.info := by
    rw [← t2'.1]
    exact List.map_congr_left fun m hm => u24.info m (r2 m hm).2
  have mas : as.map d4.info = (d0.attrs n).map d0.info := by
    rw [← t3'.1]
    exact List.map_congr_left fun m hm => u4.info m (r3 m hm).2
  have hns4 := kind_of_map mns (fun x hx => (hnsk x hx).1)
  have has4 := kind_of_map mas (fun x hx => (hask x hx).1)
  have hks4 := two_kinds t4 h4 (fun c hc => by
    have := g.heap.child_kind n c hc
    rwa [g.kind c (g.heap.bounded _ _ (hkid c hc)).1] at this)
  have s12 := u2.size
  have s23 := u3.size
  have s34 := u4.size
  have lt4 : e < d4.heap.size := by omega
  have fns : ∀ x ∈ ns, x < d4.heap.size ∧ d4.heap.kind x = .ns ∧ d4.heap.parent x = none := fun x hx => by
    have := r2 x hx
    have hlt : x < d4.heap.size := by omega
    exact ⟨hlt, (inv4.kind x hlt).trans (hns4 x hx), (u24.parent x this.2).trans (t2'.2 x hx)⟩
  have fas : ∀ x ∈ as, x < d4.heap.size ∧ d4.heap.kind x = .attr ∧ d4.heap.parent x = some e := fun x hx => by
    have := r3 x hx
    have hlt : x < d4.heap.size := by omega
    exact ⟨hlt, (inv4.kind x hlt).trans (has4 x hx), (u4.parent x this.2).trans (t3'.2 x hx)⟩
  have nk4 : (ns.map fun x => nsKey (d4.info x)).Nodup := by rw [keys_congr (key := nsKey) mns]; exact g.nss_keys n
  have ak4 : (as.map fun x => attrKey (d4.info x)).Nodup := by
    rw [keys_congr (key := attrKey) mas]; exact g.attrs_keys n
  have ek4 := (u14.kind e (by omega)).trans ekind
  have ass := assembled_ok (d := d4) inv4.heap (e := e) (ns := ns) (as := as) (ks := ks) (ts := ts) lt4
    ((u14.parent e (by omega)).trans ep) (by rw [ek4]; rfl)
    (.inl ek4) ((u14.kids e (by omega)).trans ek)
    ((u14.nss e (by omega)).trans en) ((u14.attrs e (by omega)).trans ea) fns fas
    (fun x hx => by
      have := r4 x hx
      exact ⟨this.2, by rw [inv4.kind x this.2]; exact (hks4 x hx).1, by omega, (hks4 x hx).2⟩)
    nd4 nk4 ak4 t4
  have ud : Untouched d (assembled d4 e ns as ks) :=
    untouched_assembled (u1.trans u14) (by omega) (fun x hx => by have := r2 x hx; omega)
      (fun x hx => by have := r3 x hx; omega) (fun x hx => by have := r4 x hx; omega)
  have i1n : d1.nss n = d0.nss n := inv1.ext.nss n hn
  have i1a : d1.attrs n = d0.attrs n := inv1.ext.attrs n hn
  have i1k : d1.heap.kids n = d0.heap.kids n := inv1.ext.kids n hn
  refine ⟨assembled d4 e ns as ks, memo4, e, ?_, ⟨inv.ext.trans ud, good_assembled inv4.good ass.2.1 (.inl ek4) fns fas
    (fun x hx => (hks4 x hx).2) nk4 ak4⟩, ud, by omega, lt4, ?_, ?_, ?_⟩
  · rw [show f + 3 = (f + 2) + 1 from rfl, deep_succ hl hnamed, hd1, he, hmemo]
    simp only [deepState, i1, i1n, i1a, i1k, q2, q3, q4, Out.bind, ass.1]
  · have := ass.2.2
    rw [u14.info e (by omega), ei, ← hi, mns, mas] at this
    rw [← h2.1, ← h3.1]
    exact this
  · intro k v hv
    have : memo1.lookup k = some v := by rw [← hmemo]; exact lookup_keep hl hv
    exact k4 _ _ (k3 _ _ (k2 _ _ this))
  · intro k hk
    rcases o4 k hk with h | ⟨c, hc, h⟩
    · rcases o3 k h with h | ⟨c, hc, rfl⟩
      · rcases o2 k h with h | ⟨c, hc, rfl⟩
        · rw [← hmemo] at h
          rcases lookup_cons_ne h with h | h
          · exact .inl h
          · exact .inr (.inl h.symm)
        · exact .inr (anc1 k (g.nss_own n k hc).1).1
      · exact .inr (anc1 k (g.attrs_own n k hc).1).1
    · exact .inr ((anc1 c (hkid c hc)).1.trans h)

theorem deep_entity (g : Good d0) {p : Option NodeId} {n : NodeId} {i : Info} {nsi asi : List Info} {ts : List Tree} (hn : n < d0.heap.size)
    {uri pub sys : Option Str} {un : List (Str × Str)} (hi : d0.info n = .entity uri pub sys un)
    (h : Is d0 p n (.node i nsi asi ts)) {f : Nat}
    (hkids : Two (CopyOK d0 f) (d0.heap.kids n) ts) :
    CopyOK d0 (f + 1) n (.node i nsi asi ts) := by
  intro d memo inv _ hm
  have hl := lookup_none hm
  have hnd : n < d.heap.size := Nat.lt_of_lt_of_le hn inv.ext.size
  have hi' := (inv.ext.info n hn).trans hi
  have hnamed : (d.info n).named = true := by rw [hi']; rfl
  have hfr : (d.info n).fresh = .entity uri none none [] := by rw [hi']; rfl
  generalize hd1 : d.new (d.info n).fresh = d1
  have inv1 : Inv d0 d1 := hd1 ▸ inv_new inv _
  have u1 : Untouched d d1 := hd1 ▸ untouched_new d _
  generalize he : d.heap.size = e at *
  have e1 : d1.heap.size = e + 1 := by rw [← hd1, new_size, he]
  have ei : d1.info e = .entity uri none none [] := by rw [← hd1, ← he, new_info, hfr]
  have ep : d1.heap.parent e = none := by rw [← hd1, ← he, new_parent]
  have ek : d1.heap.kids e = [] := by rw [← hd1, ← he, new_kids]
  have en : d1.nss e = [] := by rw [← hd1, ← he, new_nss]
  have ea : d1.attrs e = [] := by rw [← hd1, ← he, new_attrs]
  have ekind : d1.heap.kind e = .entity := by rw [inv1.kind e (by omega), ei]; rfl
  have i1 : d1.info n = .entity uri pub sys un := (inv1.ext.info n hn).trans hi
  have hst := started hn inv hm
  rw [he] at hst
  generalize hmemo : (n, e) :: memo = memo1 at *
  have hkn : d0.heap.kind n = .entity := by rw [g.kind n hn, hi]; rfl
  have htab := g.tables n (by rw [hkn]; decide)
  have anc1 : ∀ c, d0.heap.parent c = some n → AncS d0.heap n c ∧ c ≠ n := fun c hc =>
    ⟨.inr (.parent hc), by rintro rfl; exact g.heap.acyclic _ (.parent hc)⟩
  cases h with
  | mk h1 h2 h3 h4 =>
  have hkid : ∀ c ∈ d0.heap.kids n, d0.heap.parent c = some n := fun c hc => g.heap.kids_parent _ _ hc
  obtain ⟨d4, memo4, ks, q4, inv4, u4, r4, nd4, t4, k4, o4⟩ :=
    deepAll_ok (d0 := d0) (Q := fun _ _ => True) (Own := fun c k => AncS d0.heap c k)
      (P := fun d m t => Is d none m t) (step := deep f)
      (fun _ _ _ _ _ _ h => h)
      (fun a b m t hin hu hlt hp => is_mono hin.heap hu hlt hp)
      hkids (pairwise_kids g n) d1 memo1 inv1 trivial (by
        intro k hk c hc hck
        rcases hst k hk with rfl | h
        · exact g.heap.acyclic c (AncS.anc hck (.parent (hkid c hc)))
        · exact h ((anc1 c (hkid c hc)).1.trans hck))
  have hks4 := two_kinds t4 h4 (fun c hc => by
    have := g.heap.child_kind n c hc
    rwa [g.kind c (g.heap.bounded _ _ (hkid c hc)).1] at this)
  have s34 := u4.size
  have lt4 : e < d4.heap.size := by omega
  generalize hd5 : ({ d4 with info := upd d4.info e (.entity uri pub sys un) } : Doc) = d5
  have h5h : d5.heap = d4.heap := by rw [← hd5]
  have h5n : d5.nss = d4.nss := by rw [← hd5]
  have h5a : d5.attrs = d4.attrs := by rw [← hd5]
  have h5i : ∀ x, x ≠ e → d5.info x = d4.info x := fun x hx => by rw [← hd5]; exact upd_ne _ _ hx
  have h5e : d5.info e = .entity uri pub sys un := by rw [← hd5]; exact upd_same _ _ _
  have t5 : Two (fun m t => Is d5 none m t) ks ts := t4.imp fun c hc t ht => by
    have hpc := (hks4 c hc).2
    refine is_frame inv4.heap (fun x hx => ?_) (by rw [h5h]; exact hpc) ht
    have hxe : x ≠ e := by
      rintro rfl
      have := anc_none ((u4.parent x (by omega)).trans ep) hx
      have := r4 c hc
      omega
    exact ⟨fun _ => by rw [h5h], h5i x hxe, by rw [h5n], by rw [h5a], by rw [h5h]⟩
  have u5 : Untouched d d5 := by
    have h := u1.trans u4
    refine ⟨by rw [h5h]; exact h.size, by rw [h5h]; exact h.kind, by rw [h5h]; exact h.parent, by rw [h5h]; exact h.kids,
      fun m hm => ?_, by rw [h5n]; exact h.nss, by rw [h5a]; exact h.attrs⟩
    rw [h5i m (by omega)]; exact h.info m hm
  have ek4 : d4.heap.kind e = .entity := (u4.kind e (by omega)).trans ekind
  have g5 : Good d5 := by
    have g4 := inv4.good
    have hnn : ∀ b x, x ∈ d4.nss b → x ≠ e := by
      rintro b x hx rfl
      have := (g4.nss_own b _ hx).2
      rw [ek4] at this; cases this
    have haa : ∀ b x, x ∈ d4.attrs b → x ≠ e := by
      rintro b x hx rfl
      have := (g4.attrs_own b _ hx).2
      rw [ek4] at this; cases this
    refine ⟨by rw [h5h]; exact g4.heap, ?_, by rw [h5h, h5n]; exact g4.nss_own, by rw [h5h, h5a]; exact g4.attrs_own,
      fun b => ?_, fun b => ?_, by rw [h5h, h5n, h5a]; exact g4.tables⟩
    · intro m hm
      rw [h5h] at hm ⊢
      by_cases hme : m = e
      · rw [hme, h5e, ek4]; rfl
      · rw [h5i m hme]; exact g4.kind m hm
    · have : (d5.nss b).map (fun x => nsKey (d5.info x)) = (d4.nss b).map fun x => nsKey (d4.info x) := by
        rw [h5n]; exact List.map_congr_left fun x hx => by rw [h5i x (hnn b x hx)]
      rw [this]; exact g4.nss_keys b
    · have : (d5.attrs b).map (fun x => attrKey (d5.info x)) = (d4.attrs b).map fun x => attrKey (d4.info x) := by
        rw [h5a]; exact List.map_congr_left fun x hx => by rw [h5i x (haa b x hx)]
      rw [this]; exact g4.attrs_keys b
  have ass := assembled_ok (d := d5) (by rw [h5h]; exact inv4.heap) (e := e) (ns := []) (as := []) (ks := ks) (ts := ts)
    (by rw [h5h]; exact lt4)
    (by rw [h5h]; exact (u4.parent e (by omega)).trans ep) (by rw [h5h, u4.kind e (by omega), ekind]; rfl)
    (.inr ⟨rfl, rfl⟩) (by rw [h5h]; exact (u4.kids e (by omega)).trans ek)
    (by rw [h5n]; exact (u4.nss e (by omega)).trans en) (by rw [h5a]; exact (u4.attrs e (by omega)).trans ea)
    (by simp) (by simp)
    (fun x hx => by
      have := r4 x hx
      rw [h5h]
      exact ⟨this.2, by rw [inv4.kind x this.2]; exact (hks4 x hx).1, by omega, (hks4 x hx).2⟩)
    nd4 (by simp) (by simp) t5
  have ud : Untouched d (assembled d5 e [] [] ks) :=
    untouched_assembled u5 (by omega) (by simp) (by simp) (fun x hx => by have := r4 x hx; omega)
  have i1k : d1.heap.kids n = d0.heap.kids n := inv1.ext.kids n hn
  refine ⟨assembled d5 e [] [] ks, memo4, e, ?_, ⟨inv.ext.trans ud, good_assembled g5 ass.2.1 (.inr ⟨rfl, rfl⟩) (by simp) (by simp)
    (fun x hx => by rw [h5h]; exact (hks4 x hx).2) (by simp) (by simp)⟩, ud, by omega, ?_, ?_, ?_, ?_⟩
  · rw [deep_succ hl hnamed, hd1, he, hmemo]
    have a1 := ass.1
    simp only [putAttrs, putNss, List.foldl_nil] at a1
    simp only [deepState, i1, i1k, q4, Out.bind, hd5, a1]
  · show e < d5.heap.size
    rw [h5h]; exact lt4
  · have := ass.2.2
    rw [h5e, ← hi] at this
    rw [← h2.1, ← h3.1, htab.1, htab.2]
    exact this
  · intro k v hv
    have : memo1.lookup k = some v := by rw [← hmemo]; exact lookup_keep hl hv
    exact k4 _ _ this
  · intro k hk
    rcases o4 k hk with h | ⟨c, hc, h⟩
    · rw [← hmemo] at h
      rcases lookup_cons_ne h with h | h
      · exact .inl h
      · exact .inr (.inl h.symm)
    · exact .inr ((anc1 c (hkid c hc)).1.trans h)

mutual
theorem deep_tree (g : Good d0) {p : Option NodeId} {n : NodeId} {t : Tree} (hn : n < d0.heap.size)
    (hk : d0.heap.kind n ≠ .attr) (hnm : ∀ x, AncS d0.heap n x → (d0.info x).named = true) :
    Is d0 p n t → ∃ f0, ∀ f, f0 ≤ f → CopyOK d0 f n t
  | .mk h1 h2 h3 h4 => by
    obtain ⟨f0, hf⟩ := deep_trees g (fun c hc => by
      have hp := g.heap.kids_parent _ _ hc
      refine ⟨(g.heap.bounded _ _ hp).1, fun h => ?_, fun x hx => hnm x (.inr (anc_cons hp hx))⟩
      have := g.heap.child_kind _ _ hc
      rw [h] at this; cases this) h4
    refine ⟨f0 + 3, fun f hle => ?_⟩
    have hi := Is.mk h1 h2 h3 h4
    have hkind := g.kind n hn
    obtain ⟨f', rfl⟩ : ∃ f', f = f' + 3 := ⟨f - 3, by omega⟩
    cases e : d0.info n with
    | element s q => rw [← e]; exact deep_element g hn e hnm hi (hf _ (by omega))
    | entity a b c un => rw [← e]; exact deep_entity g hn e hi (hf _ (by omega))
    | attr a b c un => rw [e] at hkind; exact absurd hkind hk
    | _ =>
      rw [e] at hkind
      rw [← e]
      exact deep_leaf g hn ⟨hk, by rw [hkind]; simp [Info.kind], by rw [hkind]; simp [Info.kind]⟩ hi _

theorem deep_trees (g : Good d0) {p : NodeId} {l : List NodeId} {ts : List Tree}
    (hl : ∀ c ∈ l, c < d0.heap.size ∧ d0.heap.kind c ≠ .attr ∧ ∀ x, AncS d0.heap c x → (d0.info x).named = true) :
    Are d0 p l ts → ∃ f0, ∀ f, f0 ≤ f → Two (CopyOK d0 f) l ts
  | .nil => ⟨0, fun _ _ => .nil⟩
  | @Are.cons _ _ c cs t ts h1 h2 => by
    obtain ⟨f1, hf1⟩ := deep_tree g (hl c (by simp)).1 (hl c (by simp)).2.1 (hl c (by simp)).2.2 h1
    obtain ⟨f2, hf2⟩ := deep_trees g (fun c hc => hl c (by simp [hc])) h2
    exact ⟨max f1 f2, fun f hle => .cons (hf1 f (by omega)) (hf2 f (by omega))⟩
end

/-- Nothing old is below something new. -/
theorem new_below {d d' : Doc} (w : WF d.heap) (h : Untouched d d') {a b : NodeId} (ha : d.heap.size ≤ a)
    (hab : AncS d'.heap a b) : d.heap.size ≤ b := by
  rcases hab with rfl | hab
  · exact ha
  · induction hab with
    | @parent b hp =>
      rcases Nat.lt_or_ge b d.heap.size with hb | hb
      · rw [h.parent b hb] at hp
        have := (w.bounded _ _ hp).2
        omega
      · exact hb
    | @step q b _ hp ih =>
      rcases Nat.lt_or_ge b d.heap.size with hb | hb
      · rw [h.parent b hb] at hp
        have := (w.bounded _ _ hp).2
        omega
      · exact hb

end Verif.Dom.Copy
