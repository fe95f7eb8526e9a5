import Verif.Dom.BuildRun

/-
The tree of a document, at the level of lists.
-/
namespace Verif.Dom.Build
open Verif.Dom Verif.Dom.Spec

mutual
inductive IsH (h : Heap) : NodeId → Content → Prop
  | leaf {n k} : h.kind n = k → h.kids n = [] → IsH h n (.leaf k)
  | elem {n cs ns} : h.kind n = .element → h.kids n = ns → AreH h n (n + 1) ns cs → IsH h n (.elem cs)
inductive AreH (h : Heap) : NodeId → NodeId → List NodeId → List Content → Prop
  | nil {p n} : AreH h p n [] []
  | cons {p n ns c cs} : h.parent n = some p → IsH h n c → AreH h p (n + c.nodes) ns cs → AreH h p n (n :: ns) (c :: cs)
end

mutual
theorem IsH.shows {m h} (s : Shows m h) : ∀ {n c}, IsH h n c → Is m n c
  | _, _, .leaf h1 h2 => .leaf (by rw [s.kind]; exact h1) (by rw [s.children, h2])
  | _, _, .elem h1 h2 h3 => .elem (by rw [s.kind]; exact h1) (by rw [s.children, h2]) (AreH.shows s h3)
theorem AreH.shows {m h} (s : Shows m h) : ∀ {p n ns cs}, AreH h p n ns cs → Are m p n ns cs
  | _, _, _, _, .nil => .nil
  | _, _, _, _, .cons h1 h2 h3 => .cons (by rw [s.parent]; exact h1) (IsH.shows s h2) (AreH.shows s h3)
end

theorem nodes_pos : ∀ c : Content, 0 < c.nodes
  | .leaf _ => by simp [Content.nodes]
  | .elem cs => by simp [Content.nodes]; omega

mutual
theorem IsH.mono {h h' : Heap} : ∀ {n : NodeId} {c : Content}, IsH h n c →
    (∀ x, n ≤ x → x < n + c.nodes → h'.kind x = h.kind x ∧ h'.kids x = h.kids x ∧ (x ≠ n → h'.parent x = h.parent x)) →
    IsH h' n c
  | n, _, .leaf h1 h2, hs => by
    have := hs n (Nat.le_refl _) (by simp [Content.nodes])
    exact .leaf (by rw [this.1]; exact h1) (by rw [this.2.1]; exact h2)
  | n, _, .elem (cs := cs) h1 h2 h3, hs => by
    have := hs n (Nat.le_refl _) (by simp [Content.nodes]; omega)
    refine .elem (by rw [this.1]; exact h1) (by rw [this.2.1]; exact h2) (AreH.mono h3 ?_)
    intro x hx1 hx2
    have := hs x (by omega) (by simp only [Content.nodes]; omega)
    exact ⟨this.1, this.2.1, this.2.2 (by omega)⟩
theorem AreH.mono {h h' : Heap} : ∀ {p n : NodeId} {ns : List NodeId} {cs : List Content}, AreH h p n ns cs →
    (∀ x, n ≤ x → x < n + nodesOf cs → h'.kind x = h.kind x ∧ h'.kids x = h.kids x ∧ h'.parent x = h.parent x) →
    AreH h' p n ns cs
  | _, _, _, _, .nil, _ => .nil
  | _, n, _, _, .cons (c := c) (cs := cs) h1 h2 h3, hs => by
    have hp := nodes_pos c
    have := hs n (Nat.le_refl _) (by simp only [nodesOf]; omega)
    refine .cons (by rw [this.2.2]; exact h1) (IsH.mono h2 ?_) (AreH.mono h3 ?_)
    · intro x hx1 hx2
      have := hs x hx1 (by simp only [nodesOf]; omega)
      exact ⟨this.1, this.2.1, fun _ => this.2.2⟩
    · intro x hx1 hx2
      exact hs x (by omega) (by simp only [nodesOf]; omega)
end

theorem nexts_append {custom t t' t'' ss ss'} (h1 : Nexts custom t ss t') (h2 : Nexts custom t' ss' t'') :
    Nexts custom t (ss ++ ss') t'' := by
  induction h1 with
  | nil => exact h2
  | cons a _ ih => exact .cons a (ih h2)

/-- Old nodes stay, but `top` gets children. -/
def Stays (h h' : Heap) (top : NodeId) : Prop :=
  ∀ x, x < h.size → h'.kind x = h.kind x ∧ h'.parent x = h.parent x ∧ (x ≠ top → h'.kids x = h.kids x)

mutual
theorem run_one {custom : Kind → Bool} : ∀ (c : Content) (h : Heap) (top : NodeId) (rest : List NodeId),
    c.Ok custom → top < h.size →
    ∃ h', Nexts custom ⟨h, top :: rest⟩ c.events ⟨h', top :: rest⟩ ∧ h'.size = h.size + c.nodes ∧
      h'.kids top = h.kids top ++ [h.size] ∧ h'.parent h.size = some top ∧ IsH h' h.size c ∧ Stays h h' top
  | .leaf k, h, top, rest, ok, ht => by
    have hne : top ≠ h.size := by omega
    refine ⟨addChild (h.alloc k) top h.size, .cons (.leaf ok) .nil, ?_, ?_, ?_, ?_, ?_⟩
    · simp [addChild, Heap.alloc, Heap.setParent, Heap.setKids, Content.nodes]
    · simp [addChild, Heap.alloc, Heap.setParent, Heap.setKids, hne]
    · simp [addChild, Heap.alloc, Heap.setParent, Heap.setKids]
    · exact .leaf (by simp [addChild, Heap.alloc, Heap.setParent, Heap.setKids])
        (by simp [addChild, Heap.alloc, Heap.setParent, Heap.setKids, Ne.symm hne])
    · intro x hx
      have hx' : x ≠ h.size := by omega
      refine ⟨?_, ?_, fun hxt => ?_⟩ <;> simp [addChild, Heap.alloc, Heap.setParent, Heap.setKids, *]
  | .elem cs, h, top, rest, ok, ht => by
    have hne : top ≠ h.size := by omega
    obtain ⟨h2, ns, hrun, hsize, hkids, hare, hstay⟩ := run_many cs (h.alloc .element) h.size (top :: rest) ok
      (by simp [Heap.alloc])
    have hk1 : (h.alloc .element).kids h.size = [] := by simp [Heap.alloc]
    rw [hk1, List.nil_append] at hkids
    have s1 : (h.alloc .element).size = h.size + 1 := rfl
    have hold := hstay h.size (by rw [s1]; omega)
    refine ⟨addChild h2 top h.size, ?_, ?_, ?_, ?_, ?_, ?_⟩
    · refine .cons (.start (h' := h.alloc .element) .nil hk1 (by simp [Heap.alloc])) ?_
      exact nexts_append hrun (.cons .stop .nil)
    · show h2.size = _
      rw [hsize, s1]; simp only [Content.nodes]; omega
    · have : h2.kids top = h.kids top := by
        rw [(hstay top (by rw [s1]; omega)).2.2 hne]; simp [Heap.alloc, hne]
      simp [addChild, Heap.setParent, Heap.setKids, this]
    · simp [addChild, Heap.setParent, Heap.setKids]
    · refine .elem (ns := ns) ?_ ?_ ?_
      · show h2.kind h.size = _
        rw [hold.1]; simp [Heap.alloc]
      · simp [addChild, Heap.setParent, Heap.setKids, Ne.symm hne, hkids]
      · refine AreH.mono hare ?_
        intro x hx1 _
        have h1 : x ≠ top := by omega
        have h2 : x ≠ h.size := by omega
        refine ⟨rfl, ?_, ?_⟩ <;> simp [addChild, Heap.setParent, Heap.setKids, h1, h2]
    · intro x hx
      have hx' : x ≠ h.size := by omega
      have := hstay x (by rw [s1]; omega)
      refine ⟨?_, ?_, fun hxt => ?_⟩
      · show h2.kind x = _
        rw [this.1]; simp [Heap.alloc, hx']
      · simp only [addChild, Heap.setParent, if_neg hx']
        show h2.parent x = _
        rw [this.2.1]; simp [Heap.alloc, hx']
      · simp only [addChild, Heap.setParent, Heap.setKids, if_neg hxt]
        rw [this.2.2 hx']; simp [Heap.alloc, hx']
theorem run_many {custom : Kind → Bool} : ∀ (cs : List Content) (h : Heap) (top : NodeId) (rest : List NodeId),
    OkAll custom cs → top < h.size →
    ∃ h' ns, Nexts custom ⟨h, top :: rest⟩ (contents cs) ⟨h', top :: rest⟩ ∧ h'.size = h.size + nodesOf cs ∧
      h'.kids top = h.kids top ++ ns ∧ AreH h' top h.size ns cs ∧ Stays h h' top
  | [], h, top, rest, _, _ =>
    ⟨h, [], .nil, by simp [nodesOf], by simp, .nil, fun _ _ => ⟨rfl, rfl, fun _ => rfl⟩⟩
  | c :: cs, h, top, rest, ok, ht => by
    obtain ⟨h1, r1, s1, k1, p1, i1, st1⟩ := run_one c h top rest ok.1 ht
    obtain ⟨h2, ns, r2, s2, k2, a2, st2⟩ := run_many cs h1 top rest ok.2 (by omega)
    have hp := nodes_pos c
    refine ⟨h2, h.size :: ns, nexts_append r1 r2, by rw [s2, s1]; simp only [nodesOf]; omega, by rw [k2, k1]; simp,
      ?_, ?_⟩
    · refine .cons ?_ (IsH.mono i1 ?_) ?_
      · rw [(st2 h.size (by omega)).2.1]; exact p1
      · intro x hx1 hx2
        have := st2 x (by omega)
        exact ⟨this.1, this.2.2 (by omega), fun _ => this.2.1⟩
      · rw [← s1]; exact a2
    · intro x hx
      have a := st1 x hx
      have b := st2 x (by omega)
      exact ⟨b.1.trans a.1, b.2.1.trans a.2.1, fun hxt => (b.2.2 hxt).trans (a.2.2 hxt)⟩
end

end Verif.Dom.Build
