import Verif.Dom.Value
import Verif.Dom.AxesProps

/-
C18: string-values, and `xml_normalize`.
-/
namespace Verif.Dom.Spec
open Verif Verif.Dom

/-- `l` lists the text nodes below `n` in document order. -/
def TextsBelow (h : Heap) (n : NodeId) (l : List NodeId) : Prop :=
  l.Pairwise (Before h) ∧ ∀ x, x ∈ l ↔ Anc h n x ∧ h.kind x = .text

/-- A child and, if it is a text node, its text. -/
def item (h : Heap) (val : NodeId → Str) (c : NodeId) : NodeId × Option Str :=
  (c, if h.kind c = .text then some (val c) else none)

/-- Runs of text items are merged into their first item. -/
def mergeRuns : List (NodeId × Option Str) → List (NodeId × Option Str)
  | [] => []
  | (c, some s) :: rest =>
    match mergeRuns rest with
    | (_, some t) :: rest' => (c, some (s ++ t)) :: rest'
    | rest' => (c, some s) :: rest'
  | (c, none) :: rest => (c, none) :: mergeRuns rest

/-- No two neighbours are text nodes. -/
def NoAdjacentText (h : Heap) (l : List NodeId) : Prop :=
  ∀ i a b, l[i]? = some a → l[i + 1]? = some b → ¬ (h.kind a = .text ∧ h.kind b = .text)

end Verif.Dom.Spec

namespace Verif.Dom
open Verif Spec

variable {h : Heap} {val : NodeId → Str}

/-- Two lists in document order with the same members are equal. -/
theorem sorted_unique (w : WF h) {l m : List NodeId} (hl : l.Pairwise (Before h))
    (hm : m.Pairwise (Before h)) (hlm : ∀ x, x ∈ l ↔ x ∈ m) : l = m := by
  induction l generalizing m with
  | nil =>
    cases m with
    | nil => rfl
    | cons b m => exact absurd ((hlm b).2 (by simp)) (by simp)
  | cons a l ih =>
    cases m with
    | nil => exact absurd ((hlm a).1 (by simp)) (by simp)
    | cons b m =>
      rw [List.pairwise_cons] at hl hm
      have hab : a = b := by
        have h1 := (hlm a).1 (by simp)
        have h2 := (hlm b).2 (by simp)
        rcases List.mem_cons.1 h1 with h1 | h1
        · exact h1
        · rcases List.mem_cons.1 h2 with h2 | h2
          · exact h2.symm
          · exact absurd (hm.1 a h1) (before_asymm w (hl.1 b h2))
      subst hab
      congr 1
      refine ih hl.2 hm.2 (fun x => ?_)
      have hax : x ∈ l → x ≠ a := fun hx e => before_irrefl w (e ▸ hl.1 x hx : Before h a a)
      have hbx : x ∈ m → x ≠ a := fun hx e => before_irrefl w (e ▸ hm.1 x hx : Before h a a)
      constructor
      · intro hx
        rcases List.mem_cons.1 ((hlm x).1 (by simp [hx])) with h1 | h1
        · exact absurd h1 (hax hx)
        · exact h1
      · intro hx
        rcases List.mem_cons.1 ((hlm x).2 (by simp [hx])) with h1 | h1
        · exact absurd h1 (hbx hx)
        · exact h1

theorem joinList_spec (w : WF h) (n : NodeId) (cs pre : List NodeId) (hl : h.kids n = pre ++ cs)
    (sub : NodeId → Str → Option Str)
    (ih : ∀ c ∈ cs, ∃ l, TextsBelow h c l ∧ ∀ acc, sub c acc = some (acc ++ l.flatMap val)) :
    ∃ l : List NodeId, (l.Pairwise (Before h) ∧
      ∀ x, x ∈ l ↔ ∃ c ∈ cs, AncS h c x ∧ h.kind x = .text) ∧
      ∀ acc, joinList h val sub cs acc = some (acc ++ l.flatMap val) := by
  induction cs generalizing pre with
  | nil => exact ⟨[], ⟨.nil, by simp⟩, fun acc => by simp [joinList]⟩
  | cons c cs ihcs =>
    obtain ⟨m, ⟨m1, m2⟩, m3⟩ := ihcs (pre ++ [c]) (by simp [hl]) (fun d hd => ih d (by simp [hd]))
    obtain ⟨l, ⟨l1, l2⟩, l3⟩ := ih c (by simp)
    have late : ∀ x y, AncS h c x → y ∈ m → Before h x y := by
      intro x y hx hy
      obtain ⟨d, hd, h1, _⟩ := (m2 y).1 hy
      exact before_of_split hl hd hx h1
    have hcm : c ∈ h.kids n := by rw [hl]; simp
    have leaf : h.kind c ≠ .element → ∀ x, ¬ Anc h c x := by
      intro hk x hx
      obtain ⟨d, hd, _⟩ := hx.child
      have := w.parent_kind _ _ hd
      have := w.child_kind _ _ hcm
      cases hkc : h.kind c <;> simp_all [isChildKind, isContainer]
    by_cases hk : h.kind c = .element
    · refine ⟨l ++ m, ⟨?_, ?_⟩, ?_⟩
      · rw [List.pairwise_append]
        exact ⟨l1, m1, fun x hx y hy => late x y (.inr ((l2 x).1 hx).1) hy⟩
      · intro x
        rw [List.mem_append, l2, m2]
        constructor
        · rintro (⟨h1, h2⟩ | ⟨d, hd, h1⟩)
          · exact ⟨c, by simp, .inr h1, h2⟩
          · exact ⟨d, by simp [hd], h1⟩
        · rintro ⟨d, hd, h1, h2⟩
          rcases List.mem_cons.1 hd with rfl | hd
          · rcases h1 with rfl | h1
            · simp [hk] at h2
            · exact .inl ⟨h1, h2⟩
          · exact .inr ⟨d, hd, h1, h2⟩
      · intro acc
        simp [joinList, hk, l3, m3]
    · by_cases hkt : h.kind c = .text
      · refine ⟨c :: m, ⟨?_, ?_⟩, ?_⟩
        · rw [List.pairwise_cons]
          exact ⟨fun y hy => late c y AncS.refl hy, m1⟩
        · intro x
          rw [List.mem_cons, m2]
          constructor
          · rintro (rfl | ⟨d, hd, h1⟩)
            · exact ⟨_, by simp, .inl rfl, hkt⟩
            · exact ⟨d, by simp [hd], h1⟩
          · rintro ⟨d, hd, h1, h2⟩
            rcases List.mem_cons.1 hd with rfl | hd
            · rcases h1 with rfl | h1
              · exact .inl rfl
              · exact absurd h1 (leaf hk x)
            · exact .inr ⟨d, hd, h1, h2⟩
        · intro acc
          simp [joinList, hkt, m3]
      · refine ⟨m, ⟨m1, ?_⟩, ?_⟩
        · intro x
          rw [m2]
          constructor
          · rintro ⟨d, hd, h1⟩
            exact ⟨d, by simp [hd], h1⟩
          · rintro ⟨d, hd, h1, h2⟩
            rcases List.mem_cons.1 hd with rfl | hd
            · rcases h1 with rfl | h1
              · exact absurd h2 hkt
              · exact absurd h1 (leaf hk x)
            · exact ⟨d, hd, h1, h2⟩
        · intro acc
          simp [joinList, hk, hkt, m3]

theorem joinDescendants_spec (w : WF h) {depth : NodeId → Nat}
    (hd : ∀ c p, h.parent c = some p → depth c = depth p + 1) (hsz : ∀ c, depth c ≤ h.size)
    (f : Nat) (n : NodeId) (hf : h.size - depth n < f) :
    ∃ l, TextsBelow h n l ∧ ∀ acc, joinDescendants h val f n acc = some (acc ++ l.flatMap val) := by
  induction f generalizing n with
  | zero => omega
  | succ f ih =>
    obtain ⟨l, ⟨h1, h2⟩, h3⟩ := joinList_spec (val := val) w n (h.kids n) [] rfl
      (joinDescendants h val f) (by
        intro c hc
        have := hd _ _ (w.kids_parent _ _ hc)
        have := hsz c
        exact ih c (by omega))
    refine ⟨l, ⟨h1, ?_⟩, h3⟩
    intro x
    rw [h2]
    constructor
    · rintro ⟨c, hc, h4, h5⟩
      exact ⟨anc_cons (w.kids_parent _ _ hc) h4, h5⟩
    · rintro ⟨h4, h5⟩
      obtain ⟨c, hc, h6, _⟩ := (below_kids w n x).2 ⟨h4, by constructor <;> simp [h5]⟩
      exact ⟨c, hc, h6, h5⟩

/-- C18, elements and entities: the string-value is the concatenation of the texts of the text nodes
below the node in document order. -/
theorem C18_string_value (w : WF h) {n : NodeId} (hn : isContainer (h.kind n) = true) {l : List NodeId}
    (hl : TextsBelow h n l) : nodeToString h val n = some (l.flatMap val) := by
  obtain ⟨depth, hd, _, hsz⟩ := exists_depth w
  obtain ⟨m, hm, h1⟩ := joinDescendants_spec (val := val) w hd hsz (h.size + 1) n (by omega)
  have : m = l := sorted_unique w hm.1 hl.1 (fun x => by rw [hm.2, hl.2])
  subst this
  have : nodeToString h val n = joinDescendants h val (h.size + 1) n [] := by
    unfold nodeToString
    cases hk : h.kind n <;> simp_all [isContainer]
  rw [this, h1]; simp

/-- C18: there is exactly one such list, and so every node has a string-value. -/
theorem C18_string_value_exists (w : WF h) (n : NodeId) :
    (∃ l, TextsBelow h n l ∧ ∀ m, TextsBelow h n m → m = l) ∧
      ∃ s, nodeToString h val n = some s := by
  obtain ⟨depth, hd, _, hsz⟩ := exists_depth w
  obtain ⟨l, hl, _⟩ := joinDescendants_spec (val := val) w hd hsz (h.size + 1) n (by omega)
  refine ⟨⟨l, hl, fun m hm => sorted_unique w hm.1 hl.1 (fun x => by rw [hm.2, hl.2])⟩, ?_⟩
  by_cases hn : isContainer (h.kind n) = true
  · exact ⟨_, C18_string_value w hn hl⟩
  · unfold nodeToString
    cases hk : h.kind n <;> simp_all [isContainer]

/-- C18, the other kinds of nodes: the string-value is their own text. -/
theorem C18_string_value_leaf {n : NodeId} (hn : isContainer (h.kind n) = false) :
    nodeToString h val n = some (val n) := by
  unfold nodeToString
  cases hk : h.kind n <;> simp_all [isContainer]

/-! `xml_normalize` -/

/-- `h'`, `val'` differ from `h`, `val` only in that text nodes `gone` have left `s`, and in the
texts of text nodes that are children of `s`. -/
structure Same (s : NodeId) (h h' : Heap) (val val' : NodeId → Str) : Prop where
  size : h'.size = h.size
  kind : h'.kind = h.kind
  kids : ∀ m, m ≠ s → h'.kids m = h.kids m
  parent : ∀ m, m ∉ h.kids s → h'.parent m = h.parent m
  texts : ∀ m, m ∉ h.kids s ∨ h.kind m ≠ .text → val' m = val m
  sub : ∀ m, m ∈ h'.kids s → m ∈ h.kids s
  gone : ∀ m, m ∈ h.kids s → m ∉ h'.kids s → h.kind m = .text ∧ h'.parent m = none

theorem Same.refl (self : NodeId) : Same self h h val val :=
  ⟨rfl, rfl, fun _ _ => rfl, fun _ _ => rfl, fun _ _ => rfl, fun _ hm => hm, fun _ h1 h2 => absurd h1 h2⟩

theorem Same.trans {self : NodeId} {h1 h2 h3 : Heap} {v1 v2 v3 : NodeId → Str}
    (a : Same self h1 h2 v1 v2) (b : Same self h2 h3 v2 v3) : Same self h1 h3 v1 v3 := by
  refine ⟨b.size.trans a.size, b.kind.trans a.kind, fun m hm => (b.kids m hm).trans (a.kids m hm),
    fun m hm => ?_, fun m hm => ?_, fun m hm => a.sub m (b.sub m hm), fun m hm hn => ?_⟩
  · exact (b.parent m (fun h4 => hm (a.sub m h4))).trans (a.parent m hm)
  · refine (b.texts m ?_).trans (a.texts m hm)
    rcases hm with hm | hm
    · exact .inl (fun h4 => hm (a.sub m h4))
    · exact .inr (by rw [a.kind]; exact hm)
  · by_cases h4 : m ∈ h2.kids self
    · have := b.gone m h4 hn; rw [a.kind] at this; exact this
    · obtain ⟨h5, h6⟩ := a.gone m hm h4
      exact ⟨h5, by rw [b.parent m h4, h6]⟩

theorem same_unlink {self current next : NodeId} (hnext : next ∈ h.kids self)
    (hcur : current ∈ h.kids self) (hkc : h.kind current = .text) (hkn : h.kind next = .text) (s : Str) :
    Same self h (unlink h self next) val (fun m => if m = current then s else val m) := by
  have hks : ∀ m, m ∈ (unlink h self next).kids self ↔ m ∈ h.kids self ∧ m ≠ next := by
    intro m; simp [unlink, Heap.setParent, Heap.setKids]
  refine ⟨rfl, rfl, ?_, ?_, ?_, fun m hm => ((hks m).1 hm).1, ?_⟩
  · intro m hm; simp [unlink, Heap.setParent, Heap.setKids, hm]
  · intro m hm
    have : m ≠ next := fun e => hm (e ▸ hnext)
    simp [unlink, Heap.setParent, Heap.setKids, this]
  · intro m hm
    have : m ≠ current := by
      rintro rfl
      rcases hm with hm | hm
      · exact hm hcur
      · exact hm hkc
    simp [this]
  · intro m hm hn
    have : m = next := Classical.byContradiction fun e => hn ((hks m).2 ⟨hm, e⟩)
    subst this
    exact ⟨hkn, by simp [unlink, Heap.setParent, Heap.setKids]⟩

theorem unlink_kids_split (w : WF h) {self next : NodeId} {pre post : List NodeId}
    (hl : h.kids self = pre ++ next :: post) : (unlink h self next).kids self = pre ++ post := by
  have hn := w.nodup self
  rw [hl, List.nodup_append, List.nodup_cons] at hn
  obtain ⟨_, ⟨hp, _⟩, hd⟩ := hn
  have h1 : pre.filter (fun x => decide (x ≠ next)) = pre :=
    List.filter_eq_self.2 (fun a ha => by simpa using hd a ha next (by simp))
  have h2 : post.filter (fun x => decide (x ≠ next)) = post :=
    List.filter_eq_self.2 (fun a ha => by
      simp only [decide_eq_true_eq]; rintro rfl; exact hp ha)
  simp only [unlink, Heap.setParent, Heap.setKids, if_true, hl, List.filter_append]
  rw [List.filter_cons]
  simp only [ne_eq, not_true_eq_false, decide_false] at h1 h2 ⊢
  rw [h1, h2]; rfl

theorem normInner_spec (self current : NodeId) (post : List NodeId) {h : Heap} {val : NodeId → Str}
    (w : WF h) {pre : List NodeId} (hl : h.kids self = pre ++ current :: post)
    (hk : h.kind current = .text) :
    ∃ h' val' run rest, normInner self current (pre.length + 1) post.length h val =
        some (h', val', rest.length) ∧ WF h' ∧ Same self h h' val val' ∧ post = run ++ rest ∧
      (∀ x ∈ run, h.kind x = .text) ∧ (∀ d, rest.head? = some d → h.kind d ≠ .text) ∧
      h'.kids self = pre ++ current :: rest ∧ val' current = val current ++ run.flatMap val ∧
      (∀ m, m ≠ current → val' m = val m) := by
  induction post generalizing h val with
  | nil =>
    exact ⟨h, val, [], [], rfl, w, .refl self, rfl, by simp, by simp, hl, by simp, fun _ _ => rfl⟩
  | cons next post ih =>
    have hget : (h.kids self)[pre.length + 1]? = some next := by
      rw [hl, List.getElem?_append_right (by omega), show pre.length + 1 - pre.length = 0 + 1 by omega,
        List.getElem?_cons_succ]; rfl
    have hnm : next ∈ h.kids self := by rw [hl]; simp
    have hcm : current ∈ h.kids self := by rw [hl]; simp
    simp only [List.length_cons, normInner, hget]
    by_cases hkn : h.kind next = .text
    · simp only [hkn, if_true, containerRemove_ok w hnm]
      have hne : next ≠ current := by
        have := w.nodup self
        rw [hl, List.nodup_append, List.nodup_cons] at this
        rintro rfl
        exact this.2.1.1 (by simp)
      have hpar : ∀ x ∈ post, x ≠ current := by
        have := w.nodup self
        rw [hl, List.nodup_append, List.nodup_cons] at this
        rintro x hx rfl
        exact this.2.1.1 (by simp [hx])
      have hl2 : (unlink h self next).kids self = pre ++ current :: post := by
        have := unlink_kids_split w (pre := pre ++ [current]) (post := post) (next := next)
          (self := self) (by simp [hl])
        simpa using this
      obtain ⟨h', val', run, rest, e1, e2, e3, e4, e5, e6, e7, e8, e9⟩ :=
        ih (h := unlink h self next)
          (val := fun m => if m = current then val current ++ val next else val m)
          (wf_unlink w (w.kids_parent _ _ hnm)) hl2 hk
      refine ⟨h', val', next :: run, rest, e1, e2, (same_unlink hnm hcm hk hkn _).trans e3,
        by simp [e4], ?_, e6, e7, ?_, ?_⟩
      · intro x hx
        rcases List.mem_cons.1 hx with rfl | hx
        · exact hkn
        · exact e5 x hx
      · rw [e8]
        have : run.flatMap (fun m => if m = current then val current ++ val next else val m) =
            run.flatMap val := by
          rw [List.flatMap_def, List.flatMap_def]
          congr 1
          refine List.map_congr_left (fun x hx => ?_)
          simp [hpar x (by simp [e4, hx])]
        rw [this]; simp
      · intro m hm
        rw [e9 m hm]; simp [hm]
    · simp only [hkn, if_false]
      exact ⟨h, val, [], next :: post, rfl, w, .refl self, rfl, by simp,
        by intro d hd; simp at hd; rw [← hd]; exact hkn, hl, by simp, fun _ _ => rfl⟩

theorem mergeRuns_run (c : NodeId) (s : Str) (run : List NodeId) (rest : List (NodeId × Option Str))
    (hrun : ∀ x ∈ run, h.kind x = .text) (hrest : ∀ d, rest.head? = some d → d.2 = none) :
    mergeRuns ((c, some s) :: (run.map (item h val) ++ rest)) =
      (c, some (s ++ run.flatMap val)) :: mergeRuns rest := by
  induction run generalizing c s with
  | nil =>
    rw [mergeRuns.eq_def]
    simp only [List.map_nil, List.nil_append, List.flatMap_nil, List.append_nil]
    cases rest with
    | nil => simp [mergeRuns]
    | cons d rest =>
      obtain ⟨d1, d2⟩ := d
      have : d2 = none := hrest _ rfl
      subst this
      simp [mergeRuns]
  | cons x run ih =>
    have hx := hrun x (by simp)
    have := ih x (val x) (fun y hy => hrun y (by simp [hy]))
    rw [mergeRuns.eq_def]
    simp only [List.map_cons, List.cons_append, item, hx, if_true, List.flatMap_cons]
    rw [this]

theorem normOuter_spec (self : NodeId) (f : Nat) {post : List NodeId} {h : Heap} {val : NodeId → Str}
    (w : WF h) {pre : List NodeId} (hl : h.kids self = pre ++ post) (hf : post.length ≤ f) :
    ∃ h' val', normOuter self f pre.length post.length h val = some (h', val') ∧ WF h' ∧
      Same self h h' val val' ∧ (∀ m, m ∉ post → val' m = val m) ∧
      (h'.kids self).map (item h' val') = pre.map (item h val) ++ mergeRuns (post.map (item h val)) := by
  induction f generalizing h val post pre with
  | zero =>
    have : post = [] := List.length_eq_zero_iff.1 (by omega)
    subst this
    exact ⟨h, val, rfl, w, .refl self, fun _ _ => rfl, by simp [hl, mergeRuns]⟩
  | succ f ih =>
    cases post with
    | nil => exact ⟨h, val, by simp [normOuter], w, .refl self, fun _ _ => rfl, by simp [hl, mergeRuns]⟩
    | cons c post =>
      have hget : (h.kids self)[pre.length]? = some c := by rw [hl]; simp
      have hnd := w.nodup self
      rw [hl, List.nodup_append, List.nodup_cons] at hnd
      have hcpre : c ∉ pre := fun h1 => hnd.2.2 c h1 c (by simp) rfl
      simp only [List.length_cons, normOuter, hget]
      simp only [List.length_cons] at hf
      by_cases hk : h.kind c = .text
      · simp only [hk, if_true]
        obtain ⟨h1, v1, run, rest, e1, e2, e3, e4, e5, e6, e7, e8, e9⟩ :=
          normInner_spec self c post (val := val) w hl hk
        simp only [e1]
        have hit : ∀ x, x ≠ c → item h1 v1 x = item h val x := by
          intro x hx; simp [item, e3.kind, e9 x hx]
        have hc1 : item h1 v1 c = (c, some (val c ++ run.flatMap val)) := by
          simp [item, e3.kind, hk, e8]
        have hrestc : c ∉ rest := fun h2 => hnd.2.1.1 (by simp [e4, h2])
        have hpre1 : pre.map (item h1 v1) = pre.map (item h val) :=
          List.map_congr_left (fun x hx => hit x (fun e => hcpre (e ▸ hx)))
        have hrest1 : ∀ r : List NodeId, (∀ x ∈ r, x ∈ rest) → r.map (item h1 v1) = r.map (item h val) :=
          fun r hr => List.map_congr_left (fun x hx => hit x (fun e => hrestc (e ▸ hr x hx)))
        have hitc : item h val c = (c, some (val c)) := by simp [item, hk]
        have hm : mergeRuns ((c :: post).map (item h val)) =
            (c, some (val c ++ run.flatMap val)) :: mergeRuns (rest.map (item h val)) := by
          rw [List.map_cons, hitc, e4, List.map_append]
          refine mergeRuns_run c (val c) run _ e5 ?_
          intro d hd
          cases rest with
          | nil => simp at hd
          | cons y rest =>
            simp only [List.map_cons, List.head?_cons, Option.some.injEq] at hd
            rw [← hd]; simp [item, e6 y rfl]
        cases rest with
        | nil =>
          refine ⟨h1, v1, by simp [normOuter], e2, e3, ?_, ?_⟩
          · intro m hm2; exact e9 m (fun e => hm2 (by simp [e]))
          · rw [hm, e7]; simp [hc1, hpre1, mergeRuns]
        | cons d rest =>
          have hl2 : h1.kids self = (pre ++ [c, d]) ++ rest := by simp [e7]
          have hlen : rest.length ≤ f := by
            have : post.length = run.length + (rest.length + 1) := by simp [e4]
            omega
          obtain ⟨h2, v2, g1, g2, g3, g4, g5⟩ := ih e2 hl2 hlen (val := v1)
          rw [show (pre ++ [c, d]).length = pre.length + 2 by simp] at g1
          refine ⟨h2, v2, by simpa using g1, g2, e3.trans g3, ?_, ?_⟩
          · intro m hm2
            rw [g4 m (fun h3 => hm2 (by simp [e4, h3])), e9 m (fun e => hm2 (by simp [e]))]
          · rw [g5, hm]
            have hd : item h1 v1 d = (d, none) := by
              have := e6 d rfl
              simp [item, e3.kind, this]
            have hd' : item h val d = (d, none) := by simp [item, e6 d rfl]
            rw [hrest1 rest (fun x hx => by simp [hx])]
            simp [hpre1, hc1, hd, hd', mergeRuns]
      · simp only [hk, if_false]
        obtain ⟨h2, v2, g1, g2, g3, g4, g5⟩ := ih (pre := pre ++ [c]) (post := post) w (by simp [hl])
          (by omega) (val := val)
        rw [show (pre ++ [c]).length = pre.length + 1 by simp] at g1
        refine ⟨h2, v2, g1, g2, g3, fun m hm => g4 m (fun h3 => hm (by simp [h3])), ?_⟩
        rw [g5]
        have : item h val c = (c, none) := by simp [item, hk]
        simp [this, mergeRuns]

/-- C18, `xml_normalize`: it succeeds; among the children of the node every run of text nodes has
become its first member, with the texts put together; the forest is still well formed; the nodes that
are gone are text nodes without parent; nothing else has changed. -/
theorem C18_normalize (w : WF h) (self : NodeId) (val : NodeId → Str) :
    ∃ h' val', xmlNormalize h val self = some (h', val') ∧ WF h' ∧
      (h'.kids self).map (item h' val') = mergeRuns ((h.kids self).map (item h val)) ∧
      (h'.size = h.size ∧ h'.kind = h.kind) ∧
      (∀ m, m ≠ self → h'.kids m = h.kids m) ∧
      (∀ m, m ∉ h.kids self → h'.parent m = h.parent m) ∧
      (∀ m, m ∉ h.kids self ∨ h.kind m ≠ .text → val' m = val m) ∧
      (∀ m, m ∈ h.kids self → m ∉ h'.kids self → h.kind m = .text ∧ h'.parent m = none) := by
  unfold xmlNormalize
  by_cases hlen : (h.kids self).length < 2
  · refine ⟨h, val, by simp [hlen], w, ?_, ⟨rfl, rfl⟩, fun _ _ => rfl, fun _ _ => rfl, fun _ _ => rfl,
      fun _ h1 h2 => absurd h1 h2⟩
    match hk : h.kids self with
    | [] => rfl
    | [c] => by_cases hc : h.kind c = .text <;> simp [item, hc, mergeRuns]
    | _ :: _ :: _ => simp only [hk, List.length_cons] at hlen; omega
  · rw [if_neg hlen]
    obtain ⟨h', val', e1, e2, e3, _, e5⟩ := normOuter_spec self (h.kids self).length (val := val) w
      (pre := []) (post := h.kids self) rfl (Nat.le_refl _)
    exact ⟨h', val', e1, e2, by simpa using e5, ⟨e3.size, e3.kind⟩, e3.kids, e3.parent, e3.texts, e3.gone⟩

theorem mergeRuns_no_adjacent (l : List (NodeId × Option Str)) (i : Nat) (a b : NodeId × Option Str)
    (ha : (mergeRuns l)[i]? = some a) (hb : (mergeRuns l)[i + 1]? = some b) : a.2 = none ∨ b.2 = none := by
  induction l generalizing i a b with
  | nil => simp [mergeRuns] at ha
  | cons x l ih =>
    obtain ⟨c, o⟩ := x
    cases o with
    | none =>
      simp only [mergeRuns] at ha hb
      cases i with
      | zero => simp at ha; rw [← ha]; exact .inl rfl
      | succ i =>
        simp only [List.getElem?_cons_succ] at ha hb
        exact ih i a b ha hb
    | some s =>
      simp only [mergeRuns] at ha hb
      split at ha
      · rename_i d t rest heq
        simp only [heq] at hb
        cases i with
        | zero =>
          simp only [List.getElem?_cons_succ] at hb
          have := ih 0 (d, some t) b (by rw [heq]; rfl) (by rw [heq]; exact hb)
          rcases this with h1 | h1
          · simp at h1
          · exact .inr h1
        | succ i =>
          simp only [List.getElem?_cons_succ] at ha hb
          exact ih (i + 1) a b (by rw [heq]; exact ha) (by rw [heq]; exact hb)
      · rename_i hno
        have hb' : ((c, some s) :: mergeRuns l)[i + 1]? = some b := by
          split at hb
          · rename_i d t rest heq; exact absurd heq (hno d t rest)
          · exact hb
        rw [List.getElem?_cons_succ] at hb'
        cases i with
        | zero =>
          right
          obtain ⟨b1, b2⟩ := b
          cases b2 with
          | none => rfl
          | some t =>
            cases hm : mergeRuns l with
            | nil => simp [hm] at hb'
            | cons y ys =>
              rw [hm] at hb'
              simp at hb'
              subst hb'
              exact absurd hm (hno _ _ _)
        | succ i =>
          simp only [List.getElem?_cons_succ] at ha
          exact ih i a b ha hb'

/-- C18: after `xml_normalize` no two neighbouring children of the node are text nodes. -/
theorem C18_normalize_no_adjacent (w : WF h) {self : NodeId} {h' : Heap} {val' : NodeId → Str}
    (hn : xmlNormalize h val self = some (h', val')) : NoAdjacentText h' (h'.kids self) := by
  obtain ⟨h2, v2, e1, _, e3, _⟩ := C18_normalize w self val
  rw [hn] at e1
  cases e1
  intro i a b ha hb ⟨hka, hkb⟩
  have := mergeRuns_no_adjacent ((h.kids self).map (item h val)) i (item h' val' a) (item h' val' b)
    (by rw [← e3, List.getElem?_map, ha]; rfl) (by rw [← e3, List.getElem?_map, hb]; rfl)
  simp [item, hka, hkb] at this

/-- The loop of `join_descendants` on items. -/
def joinItems (isElem : NodeId → Bool) (sub : NodeId → Str → Option Str) :
    List (NodeId × Option Str) → Str → Option Str
  | [], acc => some acc
  | (_, some s) :: l, acc => joinItems isElem sub l (acc ++ s)
  | (c, none) :: l, acc =>
    if isElem c then
      match sub c acc with
      | none => none
      | some acc' => joinItems isElem sub l acc'
    else joinItems isElem sub l acc

theorem joinList_items (sub : NodeId → Str → Option Str) (l : List NodeId) (acc : Str) :
    joinList h val sub l acc =
      joinItems (fun c => decide (h.kind c = .element)) sub (l.map (item h val)) acc := by
  induction l generalizing acc with
  | nil => rfl
  | cons c l ih =>
    by_cases hk : h.kind c = .element
    · have hi : item h val c = (c, none) := by simp [item, hk]
      rw [List.map_cons, hi]
      simp only [joinList, hk, if_true, joinItems, decide_true]
      cases sub c acc with
      | none => rfl
      | some a => exact ih a
    · by_cases hkt : h.kind c = .text
      · have hi : item h val c = (c, some (val c)) := by simp [item, hkt]
        rw [List.map_cons, hi]
        simp [joinList, hkt, joinItems, ih]
      · have hi : item h val c = (c, none) := by simp [item, hkt]
        rw [List.map_cons, hi]
        simp [joinList, hk, hkt, joinItems, ih]

theorem joinItems_merge (isElem : NodeId → Bool) (sub : NodeId → Str → Option Str)
    (l : List (NodeId × Option Str)) (acc : Str) :
    joinItems isElem sub (mergeRuns l) acc = joinItems isElem sub l acc := by
  induction l generalizing acc with
  | nil => rfl
  | cons x l ih =>
    obtain ⟨c, o⟩ := x
    cases o with
    | none =>
      simp only [mergeRuns, joinItems]
      split
      · split <;> simp_all
      · exact ih acc
    | some s =>
      simp only [mergeRuns]
      split
      · rename_i d t rest heq
        have := ih (acc ++ s)
        rw [heq] at this
        simp only [joinItems] at this ⊢
        rw [← this, List.append_assoc]
      · simp only [joinItems]; exact ih _

theorem joinItems_congr (e : NodeId → Bool) (s1 s2 : NodeId → Str → Option Str)
    (l : List (NodeId × Option Str)) (hs : ∀ c, e c = true → s1 c = s2 c) (acc : Str) :
    joinItems e s1 l acc = joinItems e s2 l acc := by
  induction l generalizing acc with
  | nil => rfl
  | cons x l ih =>
    obtain ⟨c, o⟩ := x
    cases o with
    | none =>
      simp only [joinItems]
      by_cases hc : e c = true
      · simp only [hc, if_true, hs c hc]
        cases s2 c acc <;> simp [ih]
      · simp [hc, ih]
    | some t => simp [joinItems, ih]

/-- C18: `xml_normalize` changes no string-value of an element or entity, neither of the node itself
nor of any other. -/
theorem C18_normalize_string_value (w : WF h) {self n : NodeId} {h' : Heap} {val' : NodeId → Str}
    (hn : xmlNormalize h val self = some (h', val')) (hc : isContainer (h.kind n) = true) :
    nodeToString h' val' n = nodeToString h val n := by
  obtain ⟨h2, v2, e1, e2, e3, ⟨e4, e5⟩, e6, e7, e8, e9⟩ := C18_normalize w self val
  rw [hn] at e1
  cases e1
  have key : ∀ f m acc, joinDescendants h' val' f m acc = joinDescendants h val f m acc := by
    intro f
    induction f with
    | zero => intros; rfl
    | succ f ih =>
      intro m acc
      simp only [joinDescendants, joinList_items, e5]
      rw [joinItems_congr _ _ _ _ (fun c _ => funext (ih c))]
      by_cases hm : m = self
      · subst hm
        rw [e3, joinItems_merge]
      · have : (h'.kids m).map (item h' val') = (h.kids m).map (item h val) := by
          rw [e6 m hm]
          refine List.map_congr_left (fun x hx => ?_)
          have hx' : x ∉ h.kids self := by
            intro h1
            have p1 := w.kids_parent _ _ hx
            rw [w.kids_parent _ _ h1] at p1
            exact hm (by simpa using p1.symm)
          simp [item, e5, e8 x (.inl hx')]
        rw [this]
  unfold nodeToString
  rw [e5, e4]
  cases hk : h.kind n <;> simp_all [isContainer]

/-- A tree for the examples: entity 0 with element 1, whose children are the texts 2, 3, the element
4 with the texts 5, 6, and the text 7. -/
def sampleText : Heap :=
  let h := ((((((((Heap.empty.alloc .entity).alloc .element).alloc .text).alloc .text).alloc .element).alloc
    .text).alloc .text).alloc .text)
  let h := ((Edit.append 0 1).run h).heap
  let h := ((Edit.append 1 2).run h).heap
  let h := ((Edit.append 1 3).run h).heap
  let h := ((Edit.append 1 4).run h).heap
  let h := ((Edit.append 4 5).run h).heap
  let h := ((Edit.append 4 6).run h).heap
  ((Edit.append 1 7).run h).heap

theorem sampleText_reach : Reach sampleText := by
  have hr : Reach ((((((((Heap.empty.alloc .entity).alloc .element).alloc .text).alloc .text).alloc
      .element).alloc .text).alloc .text).alloc .text) :=
    .new _ (.new _ (.new _ (.new _ (.new _ (.new _ (.new _ (.new _ .empty)))))))
  have e : ∀ (h : Heap) s c, s < h.size → c < h.size → h.parent c = none → Legal h (.append s c) :=
    fun h s c h1 h2 h3 => ⟨h1, h2, by simp [h3]⟩
  have h1 := Reach.do hr (.append 0 1) (e _ _ _ (by decide) (by decide) rfl) rfl
  have h2 := Reach.do h1 (.append 1 2) (e _ _ _ (by decide) (by decide) rfl) rfl
  have h3 := Reach.do h2 (.append 1 3) (e _ _ _ (by decide) (by decide) rfl) rfl
  have h4 := Reach.do h3 (.append 1 4) (e _ _ _ (by decide) (by decide) rfl) rfl
  have h5 := Reach.do h4 (.append 4 5) (e _ _ _ (by decide) (by decide) rfl) rfl
  have h6 := Reach.do h5 (.append 4 6) (e _ _ _ (by decide) (by decide) rfl) rfl
  exact Reach.do h6 (.append 1 7) (e _ _ _ (by decide) (by decide) rfl) rfl

/-- The texts of `sampleText`. -/
def sampleVal : NodeId → Str := fun n => match n with
  | 2 => s!! "a"
  | 3 => s!! "b"
  | 5 => s!! "c"
  | 6 => []
  | 7 => s!! "d"
  | _ => []

/-- Non-vacuity: string-value "abcd", and normalising merges the texts 2 and 3. -/
example : WF sampleText ∧ nodeToString sampleText sampleVal 0 = some (s!! "abcd") ∧
    ∃ h' v', xmlNormalize sampleText sampleVal 1 = some (h', v') ∧ h'.kids 1 = [2, 4, 7] ∧
      v' 2 = s!! "ab" ∧ h'.parent 3 = none :=
  ⟨C13_partial sampleText_reach, by decide, _, _, rfl, rfl, rfl, rfl⟩

/-- The documentation of `xml_normalize` promises more than the property: it says that the full depth
of the subtree is normalised and that no empty text nodes are left.  Neither holds. -/
theorem C18_documentation_refuted : ∃ h val h' val', Reach h ∧ xmlNormalize h val 1 = some (h', val') ∧
    (∃ c, Anc h' 1 c ∧ ¬ NoAdjacentText h' (h'.kids c)) ∧
    (∃ c, Anc h' 1 c ∧ h'.kind c = .text ∧ val' c = []) := by
  refine ⟨sampleText, sampleVal, _, _, sampleText_reach, rfl, ⟨4, .parent rfl, ?_⟩, ⟨6, .step (.parent rfl) rfl, rfl, rfl⟩⟩
  intro hna
  exact hna 0 5 6 rfl rfl ⟨rfl, rfl⟩

end Verif.Dom
