import Verif.Dom.CopySpec
import Verif.Dom.EditProps
/-
Lemmas for copies.
-/
namespace Verif.Dom.Copy
open Verif Verif.Dom Verif.Dom.Spec Verif.Dom.Copy.Spec

variable {d d' D : Doc}

theorem upd_same {α : Type} (f : NodeId → α) (n : NodeId) (v : α) : upd f n v n = v := by simp [upd]

theorem upd_ne {α : Type} (f : NodeId → α) {n m : NodeId} (v : α) (h : m ≠ n) : upd f n v m = f m := by simp [upd, h]

theorem _root_.Verif.Dom.Copy.Spec.Untouched.refl (d : Doc) : Untouched d d :=
  ⟨Nat.le_refl _, fun _ _ => rfl, fun _ _ => rfl, fun _ _ => rfl, fun _ _ => rfl, fun _ _ => rfl, fun _ _ => rfl⟩

theorem _root_.Verif.Dom.Copy.Spec.Untouched.trans {a b c : Doc} (h1 : Untouched a b) (h2 : Untouched b c) :
    Untouched a c := by
  have lt : ∀ n, n < a.heap.size → n < b.heap.size := fun n h => Nat.lt_of_lt_of_le h h1.size
  exact ⟨Nat.le_trans h1.size h2.size,
    fun n h => (h2.kind n (lt n h)).trans (h1.kind n h), fun n h => (h2.parent n (lt n h)).trans (h1.parent n h),
    fun n h => (h2.kids n (lt n h)).trans (h1.kids n h), fun n h => (h2.info n (lt n h)).trans (h1.info n h),
    fun n h => (h2.nss n (lt n h)).trans (h1.nss n h), fun n h => (h2.attrs n (lt n h)).trans (h1.attrs n h)⟩

theorem anc_none {h : Heap} {a b : NodeId} (hb : h.parent b = none) (hab : AncS h a b) : a = b := by
  rcases hab with h1 | h1
  · exact h1
  · obtain ⟨p, hp, _⟩ := anc_iff.1 h1
    rw [hb] at hp; cases hp

theorem anc_lt {h : Heap} (w : WF h) {a b : NodeId} (ha : a < h.size) (hab : AncS h a b) : b < h.size := by
  rcases hab with rfl | h1
  · exact ha
  · obtain ⟨p, hp, _⟩ := anc_iff.1 h1
    exact (w.bounded _ _ hp).1

/-- The nodes below `n` are the same in both, but for the place of `n` itself. -/
def SameBelow (d D : Doc) (n : NodeId) : Prop :=
  ∀ x, AncS d.heap n x → (x ≠ n → D.heap.parent x = d.heap.parent x) ∧ D.info x = d.info x ∧ D.nss x = d.nss x ∧
    D.attrs x = d.attrs x ∧ D.heap.kids x = d.heap.kids x

theorem listed_frame (w : WF d.heap) {n : NodeId} (hs : SameBelow d D n) {l : List NodeId} {is : List Info}
    (h : Listed d n l is) : Listed D n l is := by
  have below : ∀ x ∈ l, AncS d.heap n x ∧ x ≠ n := fun x hx =>
    ⟨.inr (.parent (h.2 x hx)), by rintro rfl; exact w.acyclic _ (.parent (h.2 _ hx))⟩
  refine ⟨?_, fun x hx => ?_⟩
  · rw [← h.1]
    exact List.map_congr_left fun x hx => (hs x (below x hx).1).2.1
  · rw [(hs x (below x hx).1).1 (below x hx).2]; exact h.2 x hx

mutual
theorem is_frame (w : WF d.heap) {p p' : Option NodeId} {n : NodeId} {t : Tree} (hs : SameBelow d D n)
    (hp : D.heap.parent n = p') : Is d p n t → Is D p' n t
  | .mk _ h2 h3 h4 => by
    have hn := hs n (.inl rfl)
    rw [← hn.2.1]
    refine .mk hp ?_ ?_ ?_
    · rw [hn.2.2.1]; exact listed_frame w hs h2
    · rw [hn.2.2.2.1]; exact listed_frame w hs h3
    · rw [hn.2.2.2.2]; exact are_frame w hs h4

theorem are_frame (w : WF d.heap) {n : NodeId} {l : List NodeId} {ts : List Tree} (hs : SameBelow d D n) :
    Are d n l ts → Are D n l ts
  | .nil => .nil
  | @Are.cons _ _ c cs t ts h1 h2 => by
    have hc : d.heap.parent c = some n := by cases h1; assumption
    have hcn : c ≠ n := by rintro rfl; exact w.acyclic _ (.parent hc)
    refine .cons (is_frame w (fun x hx => ?_) ?_ h1) (are_frame w hs h2)
    · have hx' : Anc d.heap n x := anc_cons hc hx
      have hxn : x ≠ n := by rintro rfl; exact w.acyclic _ hx'
      have := hs x (.inr hx')
      exact ⟨fun _ => this.1 hxn, this.2⟩
    · rw [(hs c (.inr (.parent hc))).1 hcn]; exact hc
end

theorem untouched_below (w : WF d.heap) (h : Untouched d d') {n : NodeId} (hn : n < d.heap.size) : SameBelow d d' n := by
  intro x hx
  have := anc_lt w hn hx
  exact ⟨fun _ => h.parent x this, h.info x this, h.nss x this, h.attrs x this, h.kids x this⟩

theorem is_mono (w : WF d.heap) (h : Untouched d d') {p : Option NodeId} {n : NodeId} {t : Tree}
    (hn : n < d.heap.size) (hi : Is d p n t) : Is d' p n t :=
  is_frame w (untouched_below w h hn) (by rw [h.parent n hn]; cases hi; assumption) hi

/-! ### The steps -/

/-- What holds of the heap while a copy is made. -/
structure Inv (d0 d : Doc) : Prop where
  ext : Untouched d0 d
  good : Good d

theorem Inv.heap {d0 d : Doc} (h : Inv d0 d) : WF d.heap := h.good.heap

theorem Inv.kind {d0 d : Doc} (h : Inv d0 d) : ∀ n, n < d.heap.size → d.heap.kind n = (d.info n).kind := h.good.kind

theorem kind_fresh (i : Info) : i.fresh.kind = i.kind := by cases i <;> rfl

theorem untouched_new (d : Doc) (i : Info) : Untouched d (d.new i) := by
  refine ⟨Nat.le_succ _, ?_, ?_, ?_, ?_, ?_, ?_⟩ <;> intro n hn <;> have : n ≠ d.heap.size := by omega
  all_goals simp [Doc.new, Heap.alloc, upd, this]

theorem good_new (h : Good d) (i : Info) : Good (d.new i) := by
  have u := untouched_new d i
  have en : ∀ e x, x ∈ (d.new i).nss e → x ∈ d.nss e ∧ x < d.heap.size := by
    intro e x hx
    by_cases he : e = d.heap.size
    · simp [Doc.new, upd, he] at hx
    · simp only [Doc.new, upd, if_neg he] at hx
      exact ⟨hx, (h.heap.bounded _ _ (h.nss_own e x hx).1).1⟩
  have ea : ∀ e x, x ∈ (d.new i).attrs e → x ∈ d.attrs e ∧ x < d.heap.size := by
    intro e x hx
    by_cases he : e = d.heap.size
    · simp [Doc.new, upd, he] at hx
    · simp only [Doc.new, upd, if_neg he] at hx
      exact ⟨hx, (h.heap.bounded _ _ (h.attrs_own e x hx).1).1⟩
  refine ⟨wf_alloc h.heap _, ?_, ?_, ?_, ?_, ?_, ?_⟩
  · intro n hn
    by_cases e : n = d.heap.size
    · simp [Doc.new, Heap.alloc, upd, e]
    · have : n < d.heap.size := by simp only [Doc.new, Heap.alloc] at hn; omega
      simp [Doc.new, Heap.alloc, upd, e, h.kind n this]
  · intro e x hx
    obtain ⟨h1, h2⟩ := en e x hx
    rw [u.parent x h2, u.kind x h2]; exact h.nss_own e x h1
  · intro e x hx
    obtain ⟨h1, h2⟩ := ea e x hx
    rw [u.parent x h2, u.kind x h2]; exact h.attrs_own e x h1
  · intro e
    have hc : ((d.new i).nss e).map (fun x => nsKey ((d.new i).info x)) = ((d.new i).nss e).map fun x => nsKey (d.info x) :=
      List.map_congr_left fun x hx => by rw [u.info x (en e x hx).2]
    rw [hc]
    by_cases he : e = d.heap.size
    · simp [Doc.new, upd, he]
    · simp only [Doc.new, upd, if_neg he]; exact h.nss_keys e
  · intro e
    have hc : ((d.new i).attrs e).map (fun x => attrKey ((d.new i).info x)) =
        ((d.new i).attrs e).map fun x => attrKey (d.info x) :=
      List.map_congr_left fun x hx => by rw [u.info x (ea e x hx).2]
    rw [hc]
    by_cases he : e = d.heap.size
    · simp [Doc.new, upd, he]
    · simp only [Doc.new, upd, if_neg he]; exact h.attrs_keys e
  · intro e hk
    by_cases he : e = d.heap.size
    · simp [Doc.new, upd, he]
    · simp only [Doc.new, Heap.alloc, if_neg he] at hk
      simp only [Doc.new, upd, if_neg he]; exact h.tables e hk

theorem inv_new {d0 : Doc} (h : Inv d0 d) (i : Info) : Inv d0 (d.new i) :=
  ⟨h.ext.trans (untouched_new d i), good_new h.good i⟩

/-- Corresponding members of two lists. -/
inductive Two {α β : Type} (R : α → β → Prop) : List α → List β → Prop
  | nil : Two R [] []
  | cons {a b as bs} : R a b → Two R as bs → Two R (a :: as) (b :: bs)

theorem Two.imp {α β : Type} {R S : α → β → Prop} {as : List α} {bs : List β} (h : Two R as bs)
    (hi : ∀ a ∈ as, ∀ b, R a b → S a b) : Two S as bs := by
  induction h with
  | nil => exact .nil
  | cons h1 _ ih => exact .cons (hi _ (by simp) _ h1) (ih fun a ha => hi a (by simp [ha]))

abbrev Step := Doc → Memo → NodeId → Out (Doc × Memo × NodeId)

/-- `step` copies `c`, so that `P` holds of the copy. -/
def StepOK {T : Type} (d0 : Doc) (Q : Doc → Memo → Prop) (Own : NodeId → NodeId → Prop) (P : Doc → NodeId → T → Prop)
    (step : Step) (c : NodeId) (t : T) : Prop :=
  ∀ d memo, Inv d0 d → Q d memo → (∀ k, memo.lookup k ≠ none → ¬ Own c k) →
    ∃ d' memo' m, step d memo c = .ok (d', memo', m) ∧ Inv d0 d' ∧ Untouched d d' ∧ d.heap.size ≤ m ∧ m < d'.heap.size ∧
      P d' m t ∧ (∀ k v, memo.lookup k = some v → memo'.lookup k = some v) ∧
      ∀ k, memo'.lookup k ≠ none → memo.lookup k ≠ none ∨ Own c k

theorem deepAll_ok {T : Type} {d0 : Doc} {Q : Doc → Memo → Prop} {Own : NodeId → NodeId → Prop}
    {P : Doc → NodeId → T → Prop} {step : Step}
    (hQ : ∀ d d' memo memo', Untouched d d' → (∀ k v, List.lookup k memo = some v → List.lookup k memo' = some v) →
      Q d memo → Q d' memo')
    (hP : ∀ d d' m t, Inv d0 d → Untouched d d' → m < d.heap.size → P d m t → P d' m t)
    {cs : List NodeId} {ts : List T} (h : Two (StepOK d0 Q Own P step) cs ts)
    (hd : cs.Pairwise fun a b => ∀ k, Own a k → ¬ Own b k) :
    ∀ d memo, Inv d0 d → Q d memo → (∀ k, memo.lookup k ≠ none → ∀ c ∈ cs, ¬ Own c k) →
    ∃ d' memo' ms, deepAll step d memo cs = .ok (d', memo', ms) ∧ Inv d0 d' ∧ Untouched d d' ∧
      (∀ m ∈ ms, d.heap.size ≤ m ∧ m < d'.heap.size) ∧ ms.Nodup ∧ Two (P d') ms ts ∧
      (∀ k v, memo.lookup k = some v → memo'.lookup k = some v) ∧
      ∀ k, memo'.lookup k ≠ none → memo.lookup k ≠ none ∨ ∃ c ∈ cs, Own c k := by
  induction h with
  | nil =>
    intro d memo hi _ _
    exact ⟨d, memo, [], rfl, hi, .refl d, by simp, by simp, .nil, fun _ _ h => h, fun _ h => .inl h⟩
  | @cons c t cs ts h1 _ ih =>
    intro d memo hi hq hm
    obtain ⟨d1, memo1, m, e1, i1, u1, l1, l2, p1, k1, k2⟩ := h1 d memo hi hq (fun k hk => hm k hk c (by simp))
    have hd' := List.pairwise_cons.1 hd
    obtain ⟨d2, memo2, ms, e2, i2, u2, l3, n2, p2, k3, k4⟩ := ih hd'.2 d1 memo1 i1 (hQ _ _ _ _ u1 k1 hq) (by
      intro k hk c' hc'
      rcases k2 k hk with h | h
      · exact hm k h c' (by simp [hc'])
      · exact hd'.1 c' hc' k h)
    refine ⟨d2, memo2, m :: ms, ?_, i2, u1.trans u2, ?_, ?_, ?_, ?_, ?_⟩
    · rw [deepAll, e1]; simp only [Out.bind, e2]
    · intro x hx
      rcases List.mem_cons.1 hx with rfl | hx
      · exact ⟨l1, Nat.lt_of_lt_of_le l2 u2.size⟩
      · exact ⟨Nat.le_trans u1.size (l3 x hx).1, (l3 x hx).2⟩
    · refine List.nodup_cons.2 ⟨fun hx => ?_, n2⟩
      have := (l3 m hx).1
      omega
    · exact .cons (hP _ _ _ _ i1 u2 l2 p1) p2
    · exact fun k v h => k3 k v (k1 k v h)
    · intro k hk
      rcases k4 k hk with h | ⟨c', hc', h⟩
      · rcases k2 k h with h | h
        · exact .inl h
        · exact .inr ⟨c, by simp, h⟩
      · exact .inr ⟨c', by simp [hc'], h⟩

/-! ### Assembling -/

/-- The nodes in `l` have the parent `e`. -/
def owned (h : Heap) (e : NodeId) (l : List NodeId) : Heap :=
  { h with parent := fun x => if x ∈ l then some e else h.parent x }

theorem putNss_eq (e : NodeId) : ∀ (l : List NodeId) (d : Doc),
    ((d.nss e ++ l).map fun x => nsKey (d.info x)).Nodup →
    putNss d e l = { d with heap := owned d.heap e l, nss := upd d.nss e (d.nss e ++ l) } := by
  intro l
  induction l with
  | nil =>
    intro d _
    have : upd d.nss e (d.nss e) = d.nss := by funext m; simp only [upd]; split <;> simp_all
    simp [putNss, owned, this]
  | cons x l ih =>
    intro d hn
    have hf : (d.nss e).find? (fun b => nsKey (d.info b) == nsKey (d.info x)) = none := by
      rw [List.find?_eq_none]
      intro b hb
      rw [List.map_append, List.nodup_append] at hn
      have := hn.2.2 _ (List.mem_map.2 ⟨b, hb, rfl⟩) (nsKey (d.info x)) (by simp)
      simpa using this
    have hp : putNs d e x = { d with heap := d.heap.setOwner e x, nss := upd d.nss e (d.nss e ++ [x]) } := by
      simp only [putNs, hf]
    have e1 : putNss d e (x :: l) = putNss (putNs d e x) e l := rfl
    rw [e1, ih (putNs d e x) (by rw [hp]; simp only [upd_same, List.append_assoc, List.singleton_append]; exact hn), hp]
    simp only [upd_same, List.append_assoc, List.singleton_append]
    congr 1
    · simp only [owned, Heap.setOwner, Heap.setParent]
      congr 1
      funext m
      by_cases h1 : m ∈ l <;> by_cases h2 : m = x <;> simp [h1, h2]
    · funext m; simp only [upd]; split <;> simp

theorem putAttrs_eq (e : NodeId) : ∀ (l : List NodeId) (d : Doc),
    ((d.attrs e ++ l).map fun x => attrKey (d.info x)).Nodup →
    putAttrs d e l = { d with heap := owned d.heap e l, attrs := upd d.attrs e (d.attrs e ++ l) } := by
  intro l
  induction l with
  | nil =>
    intro d _
    have : upd d.attrs e (d.attrs e) = d.attrs := by funext m; simp only [upd]; split <;> simp_all
    simp [putAttrs, owned, this]
  | cons x l ih =>
    intro d hn
    have hf : (d.attrs e).find? (fun b => attrKey (d.info b) == attrKey (d.info x)) = none := by
      rw [List.find?_eq_none]
      intro b hb
      rw [List.map_append, List.nodup_append] at hn
      have := hn.2.2 _ (List.mem_map.2 ⟨b, hb, rfl⟩) (attrKey (d.info x)) (by simp)
      simpa using this
    have hp : putAttr d e x = { d with heap := d.heap.setOwner e x, attrs := upd d.attrs e (d.attrs e ++ [x]) } := by
      simp only [putAttr, hf]
    have e1 : putAttrs d e (x :: l) = putAttrs (putAttr d e x) e l := rfl
    rw [e1, ih (putAttr d e x) (by rw [hp]; simp only [upd_same, List.append_assoc, List.singleton_append]; exact hn), hp]
    simp only [upd_same, List.append_assoc, List.singleton_append]
    congr 1
    · simp only [owned, Heap.setOwner, Heap.setParent]
      congr 1
      funext m
      by_cases h1 : m ∈ l <;> by_cases h2 : m = x <;> simp [h1, h2]
    · funext m; simp only [upd]; split <;> simp

theorem wf_owned {e : NodeId} : ∀ (l : List NodeId) (h : Heap), WF h → h.kind e = .element → e < h.size →
    (∀ x ∈ l, (h.kind x = .attr ∨ h.kind x = .ns) ∧ x < h.size) → WF (owned h e l) := by
  intro l
  induction l with
  | nil => intro h w _ _ _; simpa [owned] using w
  | cons x l ih =>
    intro h w he hs hl
    have h1 := wf_owner w he (hl x (by simp)).1 hs (hl x (by simp)).2
    have h2 := ih (h.setOwner e x) h1 he hs (fun y hy => hl y (by simp [hy]))
    have : owned (h.setOwner e x) e l = owned h e (x :: l) := by
      simp only [owned, Heap.setOwner, Heap.setParent]
      congr 1
      funext m
      by_cases h1 : m ∈ l <;> by_cases h2 : m = x <;> simp [h1, h2]
    rw [← this]; exact h2

/-- The nodes in `l` are the last children of `e`. -/
def grafted (h : Heap) (e : NodeId) (l : List NodeId) : Heap :=
  { h with
    parent := fun x => if x ∈ l then some e else h.parent x
    kids := upd h.kids e (h.kids e ++ l) }

theorem appendAll_eq {e : NodeId} : ∀ (l : List NodeId) (d : Doc), WF d.heap → d.heap.parent e = none →
    isContainer (d.heap.kind e) = true → e < d.heap.size → l.Nodup →
    (∀ c ∈ l, d.heap.parent c = none ∧ c ≠ e ∧ isChildKind (d.heap.kind c) = true ∧ c < d.heap.size) →
    appendAll d e l = .ok { d with heap := grafted d.heap e l } ∧ WF (grafted d.heap e l) := by
  intro l
  induction l with
  | nil =>
    intro d w _ _ _ _ _
    have : upd d.heap.kids e (d.heap.kids e) = d.heap.kids := by funext m; simp only [upd]; split <;> simp_all
    have e1 : grafted d.heap e [] = d.heap := by simp [grafted, this]
    rw [e1]
    exact ⟨rfl, w⟩
  | cons c l ih =>
    intro d w he hk hs hn hl
    obtain ⟨hc1, hc2, hc3, hc4⟩ := hl c (by simp)
    have hns : ¬ AncS d.heap c e := fun h => hc2 (anc_none he h)
    have hf : freed d.heap c = d.heap := by simp [freed, hc1]
    have ha : containerAppend d.heap e c = .ok (link d.heap e (d.heap.kids e ++ [c]) c) := by
      have := append_ok w (s := e) (c := c) (by simp [hc1]) hk hc3 hns
      rwa [hf] at this
    have hw : WF (link d.heap e (d.heap.kids e ++ [c]) c) :=
      wf_link w hc1 hns hc3 hk (l1 := d.heap.kids e) (l2 := []) (by simp) hc4 hs
    have hn' := List.nodup_cons.1 hn
    have := ih { d with heap := link d.heap e (d.heap.kids e ++ [c]) c } hw
      (by simp [link, Heap.setParent, Heap.setKids, Ne.symm hc2, he]) hk hs hn'.2 (by
        intro x hx
        have h1 := hl x (by simp [hx])
        have : x ≠ c := by rintro rfl; exact hn'.1 hx
        exact ⟨by simp [link, Heap.setParent, Heap.setKids, this, h1.1], h1.2⟩)
    have eq : grafted (link d.heap e (d.heap.kids e ++ [c]) c) e l = grafted d.heap e (c :: l) := by
      simp only [grafted, link, Heap.setParent, Heap.setKids]
      congr 1
      · funext m
        by_cases h1 : m ∈ l <;> by_cases h2 : m = c <;> simp [h1, h2]
      · funext m; simp only [upd]; split <;> simp
    simp only [eq] at this
    rw [appendAll, ha]
    exact this

end Verif.Dom.Copy
