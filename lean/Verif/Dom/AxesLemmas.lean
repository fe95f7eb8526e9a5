import Verif.Dom.Axes
import Verif.Dom.OrderLemmas

/-
What the axis iterators produce.
-/
namespace Verif.Dom
open Spec

variable {h : Heap}

theorem yields_det {σ : Type} {step : σ → Step σ} {s : σ} {l m : List NodeId}
    (h1 : Yields step s l) (h2 : Yields step s m) : l = m := by
  induction h1 generalizing m with
  | done hd =>
    cases h2 with
    | done => rfl
    | tau h _ => rw [hd] at h; cases h
    | yield h _ => rw [hd] at h; cases h
  | tau ht _ ih =>
    cases h2 with
    | done h => rw [ht] at h; cases h
    | tau h h3 => rw [ht] at h; cases h; exact ih h3
    | yield h _ => rw [ht] at h; cases h
  | yield hy _ ih =>
    cases h2 with
    | done h => rw [hy] at h; cases h
    | tau h _ => rw [hy] at h; cases h
    | yield h h3 => rw [hy] at h; cases h; rw [ih h3]

/-- An iterator with the stack of `descendant_axis` inside its state. -/
structure Embeds (h : Heap) {σ : Type} (step : σ → Step σ) (f : List (List NodeId) → σ) : Prop where
  next : ∀ s x s', descendantNext h s = some (x, s') → step (f s) = .yield x (f s')
  same : ∀ s s', descendantNext h s = descendantNext h s' → step (f s) = step (f s')

theorem yields_congr {σ : Type} {step : σ → Step σ} {s s' : σ} {l : List NodeId}
    (he : step s = step s') (h1 : Yields step s l) : Yields step s' l := by
  cases h1 with
  | done hd => exact .done (he ▸ hd)
  | tau ht h2 => exact .tau (he ▸ ht) h2
  | yield hy h2 => exact .yield (he ▸ hy) h2

/-- The nodes in or below the members of `cs`. -/
def Below (h : Heap) (cs : List NodeId) (x : NodeId) : Prop := ∃ c ∈ cs, AncS h c x ∧ TreeNode h x

theorem childKind_tree {n : NodeId} (hk : isChildKind (h.kind n) = true) : TreeNode h n := by
  constructor <;> (intro hx; simp [hx, isChildKind] at hk)

theorem below_cons {c : NodeId} {cs : List NodeId} {x : NodeId} (hc : TreeNode h c) :
    Below h (c :: cs) x ↔ x = c ∨ (Anc h c x ∧ TreeNode h x) ∨ Below h cs x := by
  unfold Below AncS
  constructor
  · rintro ⟨d, hd, h1, h2⟩
    rcases List.mem_cons.1 hd with rfl | hd
    · rcases h1 with h1 | h1
      · exact .inl h1.symm
      · exact .inr (.inl ⟨h1, h2⟩)
    · exact .inr (.inr ⟨d, hd, h1, h2⟩)
  · rintro (rfl | h1 | ⟨d, hd, h1⟩)
    · exact ⟨_, by simp, .inl rfl, hc⟩
    · exact ⟨c, by simp, .inr h1.1, h1.2⟩
    · exact ⟨d, by simp [hd], h1⟩

theorem below_append {cs ds : List NodeId} {x : NodeId} :
    Below h (cs ++ ds) x ↔ Below h cs x ∨ Below h ds x := by
  unfold Below
  constructor
  · rintro ⟨d, hd, h1⟩
    rcases List.mem_append.1 hd with hd | hd
    · exact .inl ⟨d, hd, h1⟩
    · exact .inr ⟨d, hd, h1⟩
  · rintro (⟨d, hd, h1⟩ | ⟨d, hd, h1⟩)
    · exact ⟨d, by simp [hd], h1⟩
    · exact ⟨d, by simp [hd], h1⟩

theorem below_kids (w : WF h) (n x : NodeId) : Below h (h.kids n) x ↔ Anc h n x ∧ TreeNode h x := by
  constructor
  · rintro ⟨c, hc, h1, h2⟩
    exact ⟨anc_cons (w.kids_parent _ _ hc) h1, h2⟩
  · rintro ⟨h1, h2⟩
    obtain ⟨c, hc, h3⟩ := h1.child
    exact ⟨c, w.parent_kids _ _ hc (childKind_of w hc (treeNode_up w h2 h3)), h3, h2⟩

theorem kids_nil (w : WF h) {n : NodeId} (hn : isContainer (h.kind n) = false) : h.kids n = [] := by
  cases hl : h.kids n with
  | nil => rfl
  | cons c cs =>
    have := w.parent_kind _ _ (w.kids_parent n c (by simp [hl])); simp [hn] at this

theorem childIter_eq (w : WF h) (n : NodeId) : childIter h n = h.kids n := by
  unfold childIter
  split
  · rfl
  · rename_i hn; exact (kids_nil w (by simpa using hn)).symm

theorem kids_leaf (w : WF h) {p c : NodeId} (hc : c ∈ h.kids p) (hk : h.kind c ≠ .element) :
    h.kids c = [] := by
  refine kids_nil w ?_
  have := w.child_kind _ _ hc
  cases hkc : h.kind c <;> simp_all [isChildKind, isContainer]

theorem split_index {p c d : NodeId} {pre mid post : List NodeId}
    (hl : h.kids p = pre ++ c :: (mid ++ d :: post)) :
    (h.kids p)[pre.length]? = some c ∧ (h.kids p)[pre.length + 1 + mid.length]? = some d := by
  rw [hl]
  constructor
  · simp
  · rw [List.getElem?_append_right (by omega), show pre.length + 1 + mid.length - pre.length =
      mid.length + 1 by omega, List.getElem?_cons_succ]
    simp

/-- Nodes in an earlier child come before nodes in a later one. -/
theorem before_of_split {p c d a b : NodeId} {pre post : List NodeId}
    (hl : h.kids p = pre ++ c :: post) (hd : d ∈ post) (ha : AncS h c a) (hb : AncS h d b) :
    Before h a b := by
  obtain ⟨mid, post', rfl⟩ := List.append_of_mem hd
  obtain ⟨h1, h2⟩ := split_index hl
  exact .sib p _ _ c d h1 h2 (by omega) ha hb

/-- `descendant_axis` on a stack: what the top iterator contributes. -/
theorem descend_list (w : WF h) (n : NodeId) (cs pre : List NodeId) (hl : h.kids n = pre ++ cs)
    (ih : ∀ c ∈ cs, ∃ l : List NodeId,
      (∀ (σ : Type) (step : σ → Step σ) (f : List (List NodeId) → σ), Embeds h step f →
        ∀ st rest, Yields step (f st) rest → Yields step (f (childIter h c :: st)) (l ++ rest)) ∧
      (∀ x, x ∈ l ↔ Anc h c x ∧ TreeNode h x) ∧ l.Pairwise (Before h)) :
    ∃ l : List NodeId,
      (∀ (σ : Type) (step : σ → Step σ) (f : List (List NodeId) → σ), Embeds h step f →
        ∀ st rest, Yields step (f st) rest → Yields step (f (cs :: st)) (l ++ rest)) ∧
      (∀ x, x ∈ l ↔ Below h cs x) ∧ l.Pairwise (Before h) := by
  induction cs generalizing pre with
  | nil =>
    refine ⟨[], ?_, by simp [Below], List.Pairwise.nil⟩
    intro σ step f he st rest hy
    exact yields_congr (he.same _ _ (by simp [descendantNext])) hy
  | cons c cs ihcs =>
    obtain ⟨m, m1, m2, m3⟩ := ihcs (pre ++ [c]) (by simp [hl]) (fun d hd => ih d (by simp [hd]))
    obtain ⟨l, l1, l2, l3⟩ := ih c (by simp)
    have hcm : c ∈ h.kids n := by rw [hl]; simp
    have hct := childKind_tree (w.child_kind _ _ hcm)
    refine ⟨c :: (l ++ m), ?_, ?_, ?_⟩
    · intro σ step f he st rest hy
      by_cases hk : h.kind c = .element
      · refine .yield (he.next _ _ _ (by simp [descendantNext, hk]; rfl)) ?_
        have := l1 σ step f he _ _ (m1 σ step f he _ _ hy)
        rw [← List.append_assoc] at this
        exact this
      · have hnil : l = [] := by
          cases l with
          | nil => rfl
          | cons y ys =>
            have := ((l2 y).1 (by simp)).1
            obtain ⟨d, hd, _⟩ := this.child
            have := w.parent_kind _ _ hd
            have := w.child_kind _ _ hcm
            cases hkc : h.kind c <;> simp_all [isChildKind, isContainer]
        subst hnil
        refine .yield (he.next _ _ _ (by simp [descendantNext, hk]; rfl)) ?_
        exact m1 σ step f he _ _ hy
    · intro x
      rw [List.mem_cons, List.mem_append, l2, m2, below_cons hct]
    · rw [List.pairwise_cons, List.pairwise_append]
      refine ⟨?_, l3, m3, ?_⟩
      · intro x hx
        rcases List.mem_append.1 hx with hx | hx
        · exact .anc ((l2 x).1 hx).1
        · obtain ⟨d, hd, h1, _⟩ := (m2 x).1 hx
          exact before_of_split hl hd AncS.refl h1
      · intro x hx y hy
        obtain ⟨d, hd, h1, _⟩ := (m2 y).1 hy
        exact before_of_split hl hd (.inr ((l2 x).1 hx).1) h1

theorem descend_node (w : WF h) (n : NodeId) :
    ∃ l : List NodeId,
      (∀ (σ : Type) (step : σ → Step σ) (f : List (List NodeId) → σ), Embeds h step f →
        ∀ st rest, Yields step (f st) rest → Yields step (f (childIter h n :: st)) (l ++ rest)) ∧
      (∀ x, x ∈ l ↔ Anc h n x ∧ TreeNode h x) ∧ l.Pairwise (Before h) := by
  obtain ⟨depth, hd, _, hsz⟩ := exists_depth w
  induction hn : h.size - depth n using Nat.strongRecOn generalizing n with
  | _ k ih =>
    obtain ⟨l, h1, h2, h3⟩ := descend_list w n (h.kids n) [] rfl (by
      intro c hc
      have := hd _ _ (w.kids_parent _ _ hc)
      have := hsz c
      exact ih (h.size - depth c) (by omega) c rfl)
    refine ⟨l, ?_, ?_, h3⟩
    · rw [childIter_eq w]; exact h1
    · intro x; rw [h2, below_kids w]

theorem idxOf?_split {p c : NodeId} {pre post : List NodeId} (w : WF h)
    (hl : h.kids p = pre ++ c :: post) : (h.kids p).idxOf? c = some pre.length := by
  rw [List.idxOf?_eq_some_iff]
  refine ⟨by rw [hl]; simp, ?_, ?_⟩
  · simp [hl]
  · intro j hj
    have hn := w.nodup p
    simp only [hl, List.getElem_append_left hj]
    rw [hl] at hn
    intro he
    have hmem : pre[j] ∈ pre := List.getElem_mem hj
    rw [List.nodup_append] at hn
    exact hn.2.2 _ hmem c (by simp) he

theorem followingSibling_eq (w : WF h) {p c : NodeId} {pre post : List NodeId}
    (hl : h.kids p = pre ++ c :: post) : followingSibling h c = .ok post.head? := by
  have hp : h.parent c = some p := w.kids_parent _ _ (by rw [hl]; simp)
  simp only [followingSibling, hp, idxOf?_split w hl]
  rw [hl, List.getElem?_append_right (by omega), show pre.length + 1 - pre.length = 1 by omega]
  cases post <;> simp

theorem precedingSibling_eq (w : WF h) {p c : NodeId} {pre post : List NodeId}
    (hl : h.kids p = pre ++ c :: post) : precedingSibling h c = .ok pre.getLast? := by
  have hp : h.parent c = some p := w.kids_parent _ _ (by rw [hl]; simp)
  simp only [precedingSibling, hp, idxOf?_split w hl]
  cases hpre : pre.length with
  | zero => simp only []; rw [List.length_eq_zero_iff.1 hpre]; rfl
  | succ k =>
    simp only []
    rw [hl, List.getElem?_append_left (by omega), List.getLast?_eq_getElem?, hpre]
    rfl

theorem follow_embeds {n s : NodeId} :
    Embeds h (followStep h) (FollowState.descend n s) := by
  constructor
  · intro st x st' hx; simp [followStep, hx]
  · intro st st' hx; simp [followStep, hx]

/-- The inner loop of the following axis. -/
theorem follow_inner (w : WF h) (p n : NodeId) (post pre : List NodeId)
    (hl : h.kids p = pre ++ post) :
    ∃ l : List NodeId, (∀ rest, Yields (followStep h) (.outer (h.parent n)) rest →
        Yields (followStep h) (.inner n post.head?) (l ++ rest)) ∧
      (∀ x, x ∈ l ↔ Below h post x) ∧ l.Pairwise (Before h) := by
  induction post generalizing pre with
  | nil =>
    refine ⟨[], ?_, by simp [Below], List.Pairwise.nil⟩
    intro rest hr
    exact .tau rfl hr
  | cons c cs ih =>
    obtain ⟨m, m1, m2, m3⟩ := ih (pre ++ [c]) (by simp [hl])
    obtain ⟨l, l1, l2, l3⟩ := descend_node w c
    have hcm : c ∈ h.kids p := by rw [hl]; simp
    have hct := childKind_tree (w.child_kind _ _ hcm)
    refine ⟨c :: (l ++ m), ?_, ?_, ?_⟩
    · intro rest hr
      refine .yield rfl ?_
      have h2 := m1 rest hr
      suffices hs : Yields (followStep h) (.descend n c [childIter h c]) (l ++ (m ++ rest)) by
        rw [← List.append_assoc] at hs; exact hs
      refine l1 _ _ _ follow_embeds [] _ ?_
      refine .tau (s' := .inner n cs.head?) ?_ h2
      simp [followStep, descendantNext, followingSibling_eq w hl]
    · intro x
      rw [List.mem_cons, List.mem_append, l2, m2, below_cons hct]
    · rw [List.pairwise_cons, List.pairwise_append]
      refine ⟨?_, l3, m3, ?_⟩
      · intro x hx
        rcases List.mem_append.1 hx with hx | hx
        · exact .anc ((l2 x).1 hx).1
        · obtain ⟨d, hd, h1, _⟩ := (m2 x).1 hx
          exact before_of_split hl hd AncS.refl h1
      · intro x hx y hy
        obtain ⟨d, hd, h1, _⟩ := (m2 y).1 hy
        exact before_of_split hl hd (.inr ((l2 x).1 hx).1) h1

theorem follow_split (w : WF h) {p n x : NodeId} {pre post : List NodeId}
    (hl : h.kids p = pre ++ n :: post) :
    (TreeNode h x ∧ Before h n x ∧ ¬ Anc h n x) ↔
      (Below h post x ∨ (TreeNode h x ∧ Before h p x ∧ ¬ Anc h p x)) := by
  have hp : h.parent n = some p := w.kids_parent _ _ (by rw [hl]; simp)
  have hin : (h.kids p)[pre.length]? = some n := by rw [hl]; simp
  constructor
  · rintro ⟨ht, hb, hna⟩
    cases hb with
    | anc h1 => exact absurd h1 hna
    | sib q i j c d hi hj hij h1 h2 =>
      rcases h1 with rfl | h1
      · left
        have hq : q = p := by
          have := kid_parent w hi; rw [hp] at this; simpa using this.symm
        subst hq
        have := kid_index w hi hin
        subst this
        refine ⟨d, ?_, h2, ht⟩
        rw [hl, List.getElem?_append_right (by omega)] at hj
        obtain ⟨k, hk⟩ : ∃ k, j - pre.length = k + 1 := ⟨j - pre.length - 1, by omega⟩
        rw [hk, List.getElem?_cons_succ] at hj
        exact List.mem_of_getElem? hj
      · right
        obtain ⟨q', hq', h3⟩ := anc_iff.1 h1
        rw [hp] at hq'; cases hq'
        exact ⟨ht, .sib q i j c d hi hj hij h3 h2,
          fun h4 => sib_not_anc w hi hj (by omega) h3 h2 (.inr h4)⟩
  · rintro (⟨d, hd, h1, ht⟩ | ⟨ht, hb, hna⟩)
    · refine ⟨ht, before_of_split hl hd AncS.refl h1, ?_⟩
      intro h2
      obtain ⟨mid, post', rfl⟩ := List.append_of_mem hd
      obtain ⟨h3, h4⟩ := split_index hl
      exact sib_not_anc w h3 h4 (by omega) AncS.refl h1 (.inr h2)
    · cases hb with
      | anc h1 => exact absurd h1 hna
      | sib q i j c d hi hj hij h1 h2 =>
        have h3 := h1.trans (.inr (.parent hp))
        exact ⟨ht, .sib q i j c d hi hj hij h3 h2,
          fun h4 => sib_not_anc w hi hj (by omega) h3 h2 (.inr h4)⟩

theorem kids_split (w : WF h) {p n : NodeId} (hp : h.parent n = some p) (ht : TreeNode h n) :
    ∃ pre post, h.kids p = pre ++ n :: post :=
  List.append_of_mem (w.parent_kids _ _ hp (childKind_of w hp ht))

/-- The following axis. -/
theorem follow_node (w : WF h) (n : NodeId) (ht : TreeNode h n) :
    ∃ l : List NodeId, Yields (followStep h) (.outer (some n)) l ∧
      (∀ x, x ∈ l ↔ TreeNode h x ∧ Before h n x ∧ ¬ Anc h n x) ∧ l.Pairwise (Before h) := by
  obtain ⟨depth, hd, _, hsz⟩ := exists_depth w
  induction hn : depth n using Nat.strongRecOn generalizing n with
  | _ k ih =>
    cases hp : h.parent n with
    | none =>
      refine ⟨[], ?_, ?_, List.Pairwise.nil⟩
      · refine .tau (s' := .inner n none) (by simp [followStep, followingSibling, hp]) ?_
        exact .tau (s' := .outer none) (by simp [followStep, hp]) (.done rfl)
      · intro x
        refine ⟨by simp, ?_⟩
        rintro ⟨_, hb, hna⟩
        cases hb with
        | anc h1 => exact absurd h1 hna
        | sib q i j c d hi hj hij h1 h2 =>
          rcases h1 with rfl | h1
          · have := kid_parent w hi; simp [hp] at this
          · obtain ⟨q', hq', _⟩ := anc_iff.1 h1; simp [hp] at hq'
    | some p =>
      obtain ⟨pre, post, hl⟩ := kids_split w hp ht
      obtain ⟨m, m1, m2, m3⟩ := ih (depth p) (by have := hd _ _ hp; omega) p
        (treeNode_up w ht (.inr (.parent hp))) rfl
      obtain ⟨l, l1, l2, l3⟩ := follow_inner w p n post (pre ++ [n]) (by simp [hl])
      refine ⟨l ++ m, ?_, ?_, ?_⟩
      · refine .tau (s' := .inner n post.head?) (by simp [followStep, followingSibling_eq w hl]) ?_
        exact l1 m (by rw [hp]; exact m1)
      · intro x; rw [List.mem_append, l2, m2, follow_split w hl]
      · rw [List.pairwise_append]
        refine ⟨l3, m3, ?_⟩
        intro a ha b hb
        obtain ⟨d, hd, h1, _⟩ := (l2 a).1 ha
        obtain ⟨_, h2, h3⟩ := (m2 b).1 hb
        have hpd : h.parent d = some p := w.kids_parent _ _ (by rw [hl]; simp [hd])
        cases h2 with
        | anc h4 => exact absurd h4 h3
        | sib q i j c e hi hj hij h4 h5 =>
          exact .sib q i j c e hi hj hij (h4.trans (.inr (anc_cons hpd h1))) h5

/-- Reverse document order. -/
def After (h : Heap) (a b : NodeId) : Prop := Before h b a

/-- The generator `preceding`: what a frame at the last member of `pre` contributes. -/
theorem prec_list (w : WF h) (p : NodeId) (pre post : List NodeId) (hl : h.kids p = pre ++ post)
    (ih : ∀ c ∈ pre, ∃ l : List NodeId,
      (∀ node fs rest, Yields (precStep h) ⟨node, fs⟩ rest →
        Yields (precStep h) ⟨node, .test (h.kids c).getLast? :: fs⟩ (l ++ rest)) ∧
      (∀ x, x ∈ l ↔ Anc h c x ∧ TreeNode h x) ∧ l.Pairwise (After h)) :
    ∃ l : List NodeId,
      (∀ node fs rest, Yields (precStep h) ⟨node, fs⟩ rest →
        Yields (precStep h) ⟨node, .test pre.getLast? :: fs⟩ (l ++ rest)) ∧
      (∀ x, x ∈ l ↔ Below h pre x) ∧ l.Pairwise (After h) := by
  induction hn : pre.length generalizing pre post with
  | zero =>
    rw [List.length_eq_zero_iff] at hn
    subst hn
    refine ⟨[], ?_, by simp [Below], List.Pairwise.nil⟩
    intro node fs rest hr
    exact .tau rfl hr
  | succ k ihk =>
    obtain ⟨qre, c, rfl⟩ : ∃ qre c, pre = qre ++ [c] := by
      rcases List.eq_nil_or_concat pre with h1 | ⟨l, a, h1⟩
      · simp [h1] at hn
      · exact ⟨l, a, by simpa using h1⟩
    obtain ⟨m, m1, m2, m3⟩ := ihk qre (c :: post) (by simp [hl]) (fun d hd => ih d (by simp [hd]))
      (by simpa using hn)
    obtain ⟨l, l1, l2, l3⟩ := ih c (by simp)
    have hl' : h.kids p = qre ++ c :: post := by simp [hl]
    have hcm : c ∈ h.kids p := by rw [hl']; simp
    have hct := childKind_tree (w.child_kind _ _ hcm)
    refine ⟨l ++ c :: m, ?_, ?_, ?_⟩
    · intro node fs rest hr
      have hm := m1 node fs rest hr
      have hc : Yields (precStep h) ⟨node, .after c :: fs⟩ (c :: (m ++ rest)) :=
        .yield (by simp only [precStep, precedingSibling_eq w hl']) hm
      rw [List.getLast?_append]
      simp only [List.getLast?_singleton, Option.some_or]
      by_cases hk : h.kind c = .element
      · cases hlast : (h.kids c).getLast? with
        | some d =>
          have := l1 node (.after c :: fs) _ hc
          rw [hlast] at this
          refine .tau (s' := ⟨node, .test (some d) :: .after c :: fs⟩) (by simp [precStep, hk, hlast]) ?_
          simpa using this
        | none =>
          have hnil : l = [] := by
            cases l with
            | nil => rfl
            | cons y ys =>
              have := (below_kids w c y).2 ((l2 y).1 (by simp))
              rw [List.getLast?_eq_none_iff] at hlast
              simp [Below, hlast] at this
          subst hnil
          exact .tau (s' := ⟨node, .after c :: fs⟩) (by simp [precStep, hk, hlast]) hc
      · have hnil : l = [] := by
          cases l with
          | nil => rfl
          | cons y ys =>
            have := (below_kids w c y).2 ((l2 y).1 (by simp))
            rw [kids_leaf w hcm hk] at this
            simp [Below] at this
        subst hnil
        exact .tau (s' := ⟨node, .after c :: fs⟩) (by simp [precStep, hk]) hc
    · intro x
      rw [List.mem_append, List.mem_cons, l2, m2, below_append, below_cons hct]
      have : ¬ Below h [] x := by simp [Below]
      constructor
      · rintro (h1 | h1 | h1)
        · exact .inr (.inr (.inl h1))
        · exact .inr (.inl h1)
        · exact .inl h1
      · rintro (h1 | h1 | h1 | h1)
        · exact .inr (.inr h1)
        · exact .inr (.inl h1)
        · exact .inl h1
        · exact absurd h1 this
    · rw [List.pairwise_append, List.pairwise_cons]
      have early : ∀ y, y ∈ m → ∀ z, AncS h c z → Before h y z := by
        intro y hy z hz
        obtain ⟨d, hd, h1, _⟩ := (m2 y).1 hy
        obtain ⟨q1, q2, hq⟩ := List.append_of_mem hd
        exact before_of_split (pre := q1) (c := d) (post := q2 ++ c :: post)
          (by rw [hl', hq, List.append_assoc, List.cons_append]) (by simp) h1 hz
      refine ⟨l3, ⟨fun y hy => early y hy c AncS.refl, m3⟩, ?_⟩
      intro x hx y hy
      have hx := ((l2 x).1 hx).1
      rcases List.mem_cons.1 hy with rfl | hy
      · exact .anc hx
      · exact early y hy x (.inr hx)

theorem prec_sub (w : WF h) (n : NodeId) :
    ∃ l : List NodeId,
      (∀ node fs rest, Yields (precStep h) ⟨node, fs⟩ rest →
        Yields (precStep h) ⟨node, .test (h.kids n).getLast? :: fs⟩ (l ++ rest)) ∧
      (∀ x, x ∈ l ↔ Anc h n x ∧ TreeNode h x) ∧ l.Pairwise (After h) := by
  obtain ⟨depth, hd, _, hsz⟩ := exists_depth w
  induction hn : h.size - depth n using Nat.strongRecOn generalizing n with
  | _ k ih =>
    obtain ⟨l, h1, h2, h3⟩ := prec_list w n (h.kids n) [] (by simp) (by
      intro c hc
      have := hd _ _ (w.kids_parent _ _ hc)
      have := hsz c
      exact ih (h.size - depth c) (by omega) c rfl)
    exact ⟨l, h1, fun x => by rw [h2, below_kids w], h3⟩

theorem prec_split (w : WF h) {p n x : NodeId} {pre post : List NodeId}
    (hl : h.kids p = pre ++ n :: post) :
    (TreeNode h x ∧ Before h x n ∧ ¬ Anc h x n) ↔
      (Below h pre x ∨ (TreeNode h x ∧ Before h x p ∧ ¬ Anc h x p)) := by
  have hp : h.parent n = some p := w.kids_parent _ _ (by rw [hl]; simp)
  have hin : (h.kids p)[pre.length]? = some n := by rw [hl]; simp
  constructor
  · rintro ⟨ht, hb, hna⟩
    cases hb with
    | anc h1 => exact absurd h1 hna
    | sib q i j c d hi hj hij h1 h2 =>
      rcases h2 with rfl | h2
      · left
        have hq : q = p := by
          have := kid_parent w hj; rw [hp] at this; simpa using this.symm
        subst hq
        have := kid_index w hj hin
        subst this
        refine ⟨c, ?_, h1, ht⟩
        rw [hl, List.getElem?_append_left hij] at hi
        exact List.mem_of_getElem? hi
      · right
        obtain ⟨q', hq', h3⟩ := anc_iff.1 h2
        rw [hp] at hq'; cases hq'
        exact ⟨ht, .sib q i j c d hi hj hij h1 h3,
          fun h4 => sib_not_anc w hi hj (by omega) h1 h3 (.inr h4)⟩
  · rintro (⟨d, hd, h1, ht⟩ | ⟨ht, hb, hna⟩)
    · obtain ⟨q1, q2, rfl⟩ := List.append_of_mem hd
      have hl' : h.kids p = q1 ++ d :: (q2 ++ n :: post) := by simp [hl]
      obtain ⟨h3, h4⟩ := split_index hl'
      exact ⟨ht, .sib p _ _ d n h3 h4 (by omega) h1 AncS.refl,
        fun h2 => sib_not_anc w h3 h4 (by omega) h1 AncS.refl (.inr h2)⟩
    · cases hb with
      | anc h1 => exact absurd h1 hna
      | sib q i j c d hi hj hij h1 h2 =>
        have h3 := h2.trans (.inr (.parent hp))
        exact ⟨ht, .sib q i j c d hi hj hij h1 h3,
          fun h4 => sib_not_anc w hi hj (by omega) h1 h3 (.inr h4)⟩

/-- The preceding axis. -/
theorem prec_node (w : WF h) (n : NodeId) (ht : TreeNode h n) :
    ∃ l : List NodeId, Yields (precStep h) ⟨some n, []⟩ l ∧
      (∀ x, x ∈ l ↔ TreeNode h x ∧ Before h x n ∧ ¬ Anc h x n) ∧ l.Pairwise (After h) := by
  obtain ⟨depth, hd, _, hsz⟩ := exists_depth w
  induction hn : depth n using Nat.strongRecOn generalizing n with
  | _ k ih =>
    cases hp : h.parent n with
    | none =>
      refine ⟨[], ?_, ?_, List.Pairwise.nil⟩
      · refine .tau (s' := ⟨none, [.test none]⟩) (by simp [precStep, precedingSibling, hp]) ?_
        exact .tau (s' := ⟨none, []⟩) rfl (.done rfl)
      · intro x
        refine ⟨by simp, ?_⟩
        rintro ⟨_, hb, hna⟩
        cases hb with
        | anc h1 => exact absurd h1 hna
        | sib q i j c d hi hj hij h1 h2 =>
          rcases h2 with rfl | h2
          · have := kid_parent w hj; simp [hp] at this
          · obtain ⟨q', hq', _⟩ := anc_iff.1 h2; simp [hp] at hq'
    | some p =>
      obtain ⟨pre, post, hl⟩ := kids_split w hp ht
      obtain ⟨m, m1, m2, m3⟩ := ih (depth p) (by have := hd _ _ hp; omega) p
        (treeNode_up w ht (.inr (.parent hp))) rfl
      obtain ⟨l, l1, l2, l3⟩ := prec_list w p pre (n :: post) hl (fun c _ => prec_sub w c)
      refine ⟨l ++ m, ?_, ?_, ?_⟩
      · refine .tau (s' := ⟨some p, [.test pre.getLast?]⟩)
          (by simp [precStep, precedingSibling_eq w hl, hp]) ?_
        exact l1 (some p) [] m m1
      · intro x; rw [List.mem_append, l2, m2, prec_split w hl]
      · rw [List.pairwise_append]
        refine ⟨l3, m3, ?_⟩
        intro a ha b hb
        obtain ⟨d, hd, h1, _⟩ := (l2 a).1 ha
        obtain ⟨_, h2, h3⟩ := (m2 b).1 hb
        have hpd : h.parent d = some p := w.kids_parent _ _ (by rw [hl]; simp [hd])
        cases h2 with
        | anc h4 => exact absurd h4 h3
        | sib q i j c e hi hj hij h4 h5 =>
          exact .sib q i j c e hi hj hij h4 (h5.trans (.inr (anc_cons hpd h1)))

/-- The ancestor axis. -/
theorem ancestor_node (w : WF h) (n : NodeId) :
    ∃ l : List NodeId, Yields (ancestorStep h) (h.parent n) l ∧ (∀ x, x ∈ l ↔ Anc h x n) ∧
      l.Pairwise (After h) := by
  obtain ⟨depth, hd, _, hsz⟩ := exists_depth w
  induction hn : depth n using Nat.strongRecOn generalizing n with
  | _ k ih =>
    cases hp : h.parent n with
    | none =>
      refine ⟨[], .done rfl, ?_, List.Pairwise.nil⟩
      intro x
      refine ⟨by simp, fun h1 => ?_⟩
      obtain ⟨q, hq, _⟩ := anc_iff.1 h1; simp [hp] at hq
    | some p =>
      obtain ⟨l, l1, l2, l3⟩ := ih (depth p) (by have := hd _ _ hp; omega) p rfl
      refine ⟨p :: l, .yield rfl l1, ?_, ?_⟩
      · intro x
        rw [List.mem_cons, l2, anc_iff (b := n)]
        constructor
        · rintro (rfl | h1)
          · exact ⟨x, hp, AncS.refl⟩
          · exact ⟨p, hp, .inr h1⟩
        · rintro ⟨q, hq, h1⟩
          rw [hp] at hq; cases hq
          exact h1
      · rw [List.pairwise_cons]
        exact ⟨fun x hx => .anc ((l2 x).1 hx), l3⟩

end Verif.Dom
