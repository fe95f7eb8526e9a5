import Verif.Dom.AxesLemmas
import Verif.Dom.OrderProps

/-
C19: what the XPath axes contain, in which order, and that five of them partition a document.
-/
namespace Verif.Dom.Spec
open Verif.Dom

/-- The node `x` is on the axis from the context node `n` (XPath 1.0, 2.2). -/
def OnAxis (h : Heap) (n x : NodeId) : Axis → Prop
  | .self => x = n
  | .child => h.parent x = some n
  | .parent => h.parent n = some x
  | .ancestor => Anc h x n
  | .ancestorOrSelf => AncS h x n
  | .descendant => Anc h n x
  | .descendantOrSelf => AncS h n x
  | .following => Before h n x ∧ ¬ Anc h n x
  | .preceding => Before h x n ∧ ¬ Anc h x n
  | .followingSibling => ∃ (p i j : Nat), (h.kids p)[i]? = some n ∧ (h.kids p)[j]? = some x ∧ i < j
  | .precedingSibling => ∃ (p i j : Nat), (h.kids p)[i]? = some n ∧ (h.kids p)[j]? = some x ∧ j < i

/-- The axes that go backwards (XPath 1.0, 2.4); an axis with at most one node is either. -/
def GoesBack : Axis → Prop
  | .ancestor | .ancestorOrSelf | .preceding | .precedingSibling => True
  | _ => False

/-- Document order, or its reverse. -/
def InOrder (h : Heap) (ax : Axis) (l : List NodeId) : Prop :=
  (GoesBack ax → l.Pairwise fun a b => Before h b a) ∧ (¬ GoesBack ax → l.Pairwise (Before h))

end Verif.Dom.Spec

namespace Verif.Dom
open Spec

variable {h : Heap}

theorem yields_child (l : List NodeId) : Yields childStep l l := by
  induction l with
  | nil => exact .done rfl
  | cons a l ih => exact .yield rfl ih

theorem kids_pairwise {p : NodeId} (pre post : List NodeId) (hl : h.kids p = pre ++ post) :
    post.Pairwise (Before h) := by
  induction post generalizing pre with
  | nil => exact .nil
  | cons c cs ih =>
    refine .cons ?_ (ih (pre ++ [c]) (by simp [hl]))
    intro d hd
    exact before_of_split hl hd AncS.refl AncS.refl

theorem precSib_yields (w : WF h) {p : NodeId} (pre post : List NodeId) (hl : h.kids p = pre ++ post) :
    Yields (precSibStep h) pre.getLast? pre.reverse := by
  induction hn : pre.length generalizing pre post with
  | zero => rw [List.length_eq_zero_iff] at hn; subst hn; exact .done rfl
  | succ k ih =>
    obtain ⟨qre, c, rfl⟩ : ∃ qre c, pre = qre ++ [c] := by
      rcases List.eq_nil_or_concat pre with h1 | ⟨l, a, h1⟩
      · simp [h1] at hn
      · exact ⟨l, a, by simpa using h1⟩
    have hl' : h.kids p = qre ++ c :: post := by simp [hl]
    have := ih qre (c :: post) hl' (by simpa using hn)
    simp only [List.getLast?_append, List.getLast?_singleton, Option.some_or, List.reverse_append,
      List.reverse_cons, List.reverse_nil, List.nil_append, List.cons_append]
    exact .yield (by simp only [precSibStep, precedingSibling_eq w hl']) this

/-- C19, each axis: started at an element, text, comment, processing instruction or root node, the
iterator of every axis ends without an exception, and what it has produced are exactly the nodes that
XPath puts on that axis, in document order or for the backward axes in its reverse.  What is missing
for C19: attribute and namespace nodes as context nodes, where it is false (`C19_refuted`). -/
theorem C19_axes_partial (w : WF h) {n : NodeId} (ht : TreeNode h n) (ax : Axis) :
    ∃ l, ax.Selects h n l ∧ (∀ x, x ∈ l ↔ TreeNode h x ∧ OnAxis h n x ax) ∧ InOrder h ax l := by
  have hpar : ∀ p, h.parent n = some p → TreeNode h p := fun p hp =>
    treeNode_up w ht (.inr (.parent hp))
  have up : ∀ x, AncS h x n → TreeNode h x := fun x hx => treeNode_up w ht hx
  cases ax with
  | self =>
    refine ⟨[n], yields_child _, ?_, nofun, fun _ => by simp⟩
    intro x; simp only [List.mem_singleton, OnAxis]
    exact ⟨fun e => ⟨e ▸ ht, e⟩, fun e => e.2⟩
  | child =>
    refine ⟨h.kids n, ?_, ?_, nofun, fun _ => kids_pairwise [] _ rfl⟩
    · have := yields_child (childIter h n)
      simpa [Axis.Selects, childIter_eq w] using this
    · intro x
      constructor
      · intro hx; exact ⟨childKind_tree (w.child_kind _ _ hx), w.kids_parent _ _ hx⟩
      · rintro ⟨h1, h2⟩; exact w.parent_kids _ _ h2 (childKind_of w h2 h1)
  | parent =>
    refine ⟨(h.parent n).toList, yields_child _, ?_, nofun, fun _ => ?_⟩
    · intro x
      rw [Option.mem_toList]
      exact ⟨fun hx => ⟨hpar x hx, hx⟩, fun hx => hx.2⟩
    · cases h.parent n <;> simp
  | ancestor =>
    obtain ⟨l, h1, h2, h3⟩ := ancestor_node w n
    refine ⟨l, h1, ?_, fun _ => h3, fun hb => absurd trivial hb⟩
    intro x; rw [h2]
    exact ⟨fun hx => ⟨up x (.inr hx), hx⟩, fun hx => hx.2⟩
  | ancestorOrSelf =>
    obtain ⟨l, h1, h2, h3⟩ := ancestor_node w n
    refine ⟨n :: l, .yield rfl h1, ?_, fun _ => ?_, fun hb => absurd trivial hb⟩
    · intro x; rw [List.mem_cons, h2]
      exact ⟨fun hx => ⟨up x hx, hx⟩, fun hx => hx.2⟩
    · rw [List.pairwise_cons]
      exact ⟨fun x hx => .anc ((h2 x).1 hx), h3⟩
  | descendant =>
    obtain ⟨l, h1, h2, h3⟩ := descend_node w n
    refine ⟨l, ?_, ?_, nofun, fun _ => h3⟩
    · have := h1 _ (descendantStep h) id ⟨fun s x s' e => by simp [descendantStep, e],
        fun s s' e => by simp [descendantStep, e]⟩ [] [] (.done (by simp [descendantStep, descendantNext]))
      simpa [Axis.Selects, descendantInit] using this
    · intro x; rw [h2]; exact And.comm
  | descendantOrSelf =>
    obtain ⟨l, h1, h2, h3⟩ := descend_node w n
    refine ⟨n :: l, ?_, ?_, nofun, fun _ => ?_⟩
    · refine .yield rfl ?_
      have := h1 _ (dosStep h) DosState.stack ⟨fun s x s' e => by simp [dosStep, e],
        fun s s' e => by simp [dosStep, e]⟩ [] [] (.done (by simp [dosStep, descendantNext]))
      simpa [descendantInit] using this
    · intro x; rw [List.mem_cons, h2]
      constructor
      · rintro (rfl | ⟨h4, h5⟩)
        · exact ⟨ht, .inl rfl⟩
        · exact ⟨h5, .inr h4⟩
      · rintro ⟨h4, rfl | h5⟩
        · exact .inl rfl
        · exact .inr ⟨h5, h4⟩
    · rw [List.pairwise_cons]
      exact ⟨fun x hx => .anc ((h2 x).1 hx).1, h3⟩
  | following =>
    obtain ⟨l, h1, h2, h3⟩ := follow_node w n ht
    exact ⟨l, h1, h2, nofun, fun _ => h3⟩
  | preceding =>
    obtain ⟨l, h1, h2, h3⟩ := prec_node w n ht
    exact ⟨l, h1, h2, fun _ => h3, fun hb => absurd trivial hb⟩
  | followingSibling =>
    cases hp : h.parent n with
    | none =>
      refine ⟨[], ?_, ?_, nofun, fun _ => .nil⟩
      · have := yields_child []; simpa [Axis.Selects, followingSiblingInit, hp] using this
      · intro x; refine ⟨nofun, ?_⟩
        rintro ⟨_, p, i, j, hi, _⟩
        have := kid_parent w hi; simp [hp] at this
    | some p =>
      obtain ⟨pre, post, hl⟩ := kids_split w hp ht
      refine ⟨post, ?_, ?_, nofun, fun _ => kids_pairwise (p := p) (pre ++ [n]) _ (by simp [hl])⟩
      · have hd : (h.kids p).drop (pre.length + 1) = post := by rw [hl]; simp
        have := yields_child post
        simpa [Axis.Selects, followingSiblingInit, hp, idxOf?_split w hl, hd] using this
      · intro x
        have hin : (h.kids p)[pre.length]? = some n := by rw [hl]; simp
        constructor
        · intro hx
          have hxm : x ∈ h.kids p := by rw [hl]; simp [hx]
          refine ⟨childKind_tree (w.child_kind _ _ hxm), p, pre.length, ?_⟩
          obtain ⟨mid, post', rfl⟩ := List.append_of_mem hx
          obtain ⟨h3, h4⟩ := split_index hl
          exact ⟨_, h3, h4, by omega⟩
        · rintro ⟨_, q, i, j, hi, hj, hij⟩
          have hq : q = p := by have := kid_parent w hi; rw [hp] at this; simpa using this.symm
          subst hq
          have := kid_index w hi hin
          subst this
          rw [hl, List.getElem?_append_right (by omega)] at hj
          obtain ⟨k, hk⟩ : ∃ k, j - pre.length = k + 1 := ⟨j - pre.length - 1, by omega⟩
          rw [hk, List.getElem?_cons_succ] at hj
          exact List.mem_of_getElem? hj
  | precedingSibling =>
    cases hp : h.parent n with
    | none =>
      refine ⟨[], ⟨none, by simp [precedingSibling, hp], .done rfl⟩, ?_, fun _ => .nil,
        fun hb => absurd trivial hb⟩
      intro x; refine ⟨nofun, ?_⟩
      rintro ⟨_, p, i, j, hi, _⟩
      have := kid_parent w hi; simp [hp] at this
    | some p =>
      obtain ⟨pre, post, hl⟩ := kids_split w hp ht
      refine ⟨pre.reverse, ⟨_, precedingSibling_eq w hl, precSib_yields w pre _ hl⟩, ?_, fun _ => ?_,
        fun hb => absurd trivial hb⟩
      · intro x
        have hin : (h.kids p)[pre.length]? = some n := by rw [hl]; simp
        rw [List.mem_reverse]
        constructor
        · intro hx
          have hxm : x ∈ h.kids p := by rw [hl]; simp [hx]
          refine ⟨childKind_tree (w.child_kind _ _ hxm), p, pre.length, ?_⟩
          obtain ⟨j, hj⟩ := List.getElem?_of_mem hx
          have hlt := (List.getElem?_eq_some_iff.1 hj).1
          exact ⟨j, hin, by rw [hl, List.getElem?_append_left hlt]; exact hj, hlt⟩
        · rintro ⟨_, q, i, j, hi, hj, hij⟩
          have hq : q = p := by have := kid_parent w hi; rw [hp] at this; simpa using this.symm
          subst hq
          have := kid_index w hi hin
          subst this
          rw [hl, List.getElem?_append_left hij] at hj
          exact List.mem_of_getElem? hj
      · rw [List.pairwise_reverse]
        have := kids_pairwise (h := h) (p := p) [] (pre ++ n :: post) hl
        rw [List.pairwise_append] at this
        exact this.1

/-- What an axis produces is determined: iterating twice gives the same list. -/
theorem C19_deterministic {n : NodeId} (ax : Axis) {l m : List NodeId} (h1 : ax.Selects h n l)
    (h2 : ax.Selects h n m) : l = m := by
  cases ax <;> simp only [Axis.Selects] at h1 h2 <;> try exact yields_det h1 h2
  obtain ⟨s, hs, h1⟩ := h1
  obtain ⟨t, ht, h2⟩ := h2
  rw [hs] at ht; cases ht
  exact yields_det h1 h2

theorem inOrder_nodup (w : WF h) {ax : Axis} {l : List NodeId} (ho : InOrder h ax l) : l.Nodup := by
  by_cases hb : GoesBack ax
  · refine (ho.1 hb).imp ?_
    intro a b hab e; subst e; exact before_irrefl w hab
  · refine (ho.2 hb).imp ?_
    intro a b hab e; subst e; exact before_irrefl w hab

theorem count_of {l : List NodeId} (hn : l.Nodup) {P : Prop} {x : NodeId} (hx : x ∈ l ↔ P) :
    (P → l.count x = 1) ∧ (¬ P → l.count x = 0) := by
  rw [hn.count]
  constructor
  · intro hp; simp [hx.2 hp]
  · intro hp; rw [if_neg (fun h1 => hp (hx.1 h1))]

/-- C19, the partition: the self, ancestor, descendant, preceding and following axes of a node
together contain every element, text, comment, processing instruction and root node of its tree
exactly once, and nothing else.  Missing for C19: attributes as context nodes. -/
theorem C19_partition_partial (w : WF h) {n r : NodeId} (ht : TreeNode h n) (hr : Root h r n)
    {ls la ld lp lf : List NodeId} (hs : Axis.self.Selects h n ls) (ha : Axis.ancestor.Selects h n la)
    (hd : Axis.descendant.Selects h n ld) (hp : Axis.preceding.Selects h n lp)
    (hf : Axis.following.Selects h n lf) (x : NodeId) :
    (TreeNode h x ∧ Root h r x → (ls ++ la ++ ld ++ lp ++ lf).count x = 1) ∧
    (¬ (TreeNode h x ∧ Root h r x) → (ls ++ la ++ ld ++ lp ++ lf).count x = 0) := by
  have get : ∀ (ax : Axis) {l : List NodeId}, ax.Selects h n l →
      l.Nodup ∧ ∀ x, x ∈ l ↔ TreeNode h x ∧ OnAxis h n x ax := by
    intro ax l hl
    obtain ⟨m, h1, h2, h3⟩ := C19_axes_partial w ht ax
    rw [C19_deterministic ax hl h1]
    exact ⟨inOrder_nodup w h3, h2⟩
  obtain ⟨s1, s2⟩ := get _ hs
  obtain ⟨a1, a2⟩ := get _ ha
  obtain ⟨d1, d2⟩ := get _ hd
  obtain ⟨p1, p2⟩ := get _ hp
  obtain ⟨f1, f2⟩ := get _ hf
  have cs := count_of s1 (s2 x)
  have ca := count_of a1 (a2 x)
  have cd := count_of d1 (d2 x)
  have cp := count_of p1 (p2 x)
  have cf := count_of f1 (f2 x)
  simp only [List.count_append]
  simp only [OnAxis] at cs ca cd cp cf
  constructor
  · rintro ⟨hx, hrx⟩
    rcases before_total w hr.1 hrx.1 ht hx with rfl | hb | hb
    · have h1 := w.acyclic n
      have h2 := before_irrefl (a := n) w
      rw [cs.1 ⟨hx, rfl⟩, ca.2 (fun e => h1 e.2), cd.2 (fun e => h1 e.2), cp.2 (fun e => h2 e.2.1),
        cf.2 (fun e => h2 e.2.1)]
    · have h1 : x ≠ n := fun e => before_irrefl w (e ▸ hb : Before h n n)
      have h2 : ¬ Before h x n := before_asymm w hb
      rw [cs.2 (fun e => h1 e.2), ca.2 (fun e => h2 (.anc e.2)), cp.2 (fun e => h2 e.2.1)]
      by_cases h4 : Anc h n x
      · rw [cd.1 ⟨hx, h4⟩, cf.2 (fun e => e.2.2 h4)]
      · rw [cd.2 (fun e => h4 e.2), cf.1 ⟨hx, hb, h4⟩]
    · have h1 : x ≠ n := fun e => before_irrefl w (e ▸ hb : Before h n n)
      have h2 : ¬ Before h n x := before_asymm w hb
      rw [cs.2 (fun e => h1 e.2), cd.2 (fun e => h2 (.anc e.2)), cf.2 (fun e => h2 e.2.1)]
      by_cases h4 : Anc h x n
      · rw [ca.1 ⟨hx, h4⟩, cp.2 (fun e => e.2.2 h4)]
      · rw [ca.2 (fun e => h4 e.2), cp.1 ⟨hx, hb, h4⟩]
  · intro hx
    -- whatever is on one of the axes is in the tree
    have sib : ∀ {a b : NodeId}, Before h a b → (Root h r a ↔ Root h r b) := by
      intro a b hab
      have both : ∀ {q : NodeId}, AncS h q a → AncS h q b → (Root h r a ↔ Root h r b) := by
        intro q hqa hqb
        obtain ⟨t, ht1⟩ := exists_root w q
        have ra : Root h t a := ⟨ht1.1.trans hqa, ht1.2⟩
        have rb : Root h t b := ⟨ht1.1.trans hqb, ht1.2⟩
        exact ⟨fun h1 => root_unique ra h1 ▸ rb, fun h1 => root_unique rb h1 ▸ ra⟩
      cases hab with
      | anc h1 => exact both AncS.refl (.inr h1)
      | sib p i j c d hi hj hij h1 h2 =>
        exact both (q := p) (.inr (anc_cons (kid_parent w hi) h1)) (.inr (anc_cons (kid_parent w hj) h2))
    have h1 : ¬ (TreeNode h x ∧ x = n) := fun e => hx ⟨e.1, e.2 ▸ hr⟩
    have h2 : ¬ (TreeNode h x ∧ Anc h x n) := fun e => hx ⟨e.1, (sib (.anc e.2)).2 hr⟩
    have h3 : ¬ (TreeNode h x ∧ Anc h n x) := fun e => hx ⟨e.1, (sib (.anc e.2)).1 hr⟩
    have h4 : ¬ (TreeNode h x ∧ Before h x n ∧ ¬ Anc h x n) := fun e => hx ⟨e.1, (sib e.2.1).2 hr⟩
    have h5 : ¬ (TreeNode h x ∧ Before h n x ∧ ¬ Anc h n x) := fun e => hx ⟨e.1, (sib e.2.1).1 hr⟩
    rw [cs.2 h1, ca.2 h2, cd.2 h3, cp.2 h4, cf.2 h5]

/-- C19 is false for attribute nodes: the following, preceding and preceding-sibling axes of an
attribute raise an exception, although XPath puts (for one) the children of its element on the
following axis of an attribute. -/
theorem C19_refuted : ∃ h n, Reach h ∧ h.kind n = .attr ∧
    Axis.following.Fails h n .invalidState ∧ Axis.preceding.Fails h n .invalidState ∧
    Axis.precedingSibling.Fails h n .invalidState := by
  refine ⟨builtAttrs, 6, builtAttrs_reach, rfl, ?_, ?_, ?_⟩
  · exact .raise rfl
  · exact .raise rfl
  · exact .inl rfl

/-- Non-vacuity: the axes of node 3, the middle child of the document element. -/
example : WF built ∧ TreeNode built 3 ∧ Root built 0 3 ∧
    Axis.self.Selects built 3 [3] ∧ Axis.ancestor.Selects built 3 [1, 0] ∧
    Axis.descendant.Selects built 3 [] ∧ Axis.preceding.Selects built 3 [2] ∧
    Axis.following.Selects built 3 [4] ∧ Axis.descendant.Selects built 0 [1, 2, 3, 4] ∧
    Axis.preceding.Selects built 4 [3, 2] := by
  refine ⟨C13_partial built_reach, ⟨by decide, by decide⟩, ⟨.inr (.step (.parent rfl) rfl), rfl⟩,
    ?_, ?_, ?_, ?_, ?_, ?_, ?_⟩
  · exact .yield rfl (.done rfl)
  · exact .yield rfl (.yield rfl (.done rfl))
  · exact .done rfl
  · exact .tau rfl (.tau rfl (.yield rfl (.tau rfl (.tau rfl (.tau rfl (.tau rfl (.tau rfl (.done rfl))))))))
  · exact .tau rfl (.yield rfl (.tau rfl (.tau rfl (.tau rfl (.tau rfl (.tau rfl (.tau rfl (.done rfl))))))))
  · exact .yield rfl (.yield rfl (.yield rfl (.yield rfl (.done rfl))))
  · exact .tau rfl (.tau rfl (.yield rfl (.tau rfl (.yield rfl (.tau rfl (.tau rfl (.tau rfl (.tau rfl
      (.tau rfl (.done rfl))))))))))

end Verif.Dom
