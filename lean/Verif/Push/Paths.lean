import Verif.Push.Lang

/-
The NFA for a pattern and its words.
-/
namespace Verif.Push
open Verif.Push.Spec

/-- The test for a step. -/
def srcTest (s : SrcStep) : Test :=
  match s.axis with
  | .attribute => .attr (toNameTest s.test)
  | _ => .node (toNameTest s.test)

def StartNode (m : Nfa) : Prop := ∃ e ∈ m.start, ∃ t, e.2 = .node t

structure Good (T : Test → Prop) (m : Nfa) : Prop where
  tests : ∀ i, i = 0 ∨ i ∈ m.nodes → ∀ e ∈ m.edgesOf i, e.2 = .any ∨ T e.2
  guard : ∀ i, i = 0 ∨ i ∈ m.nodes → (∃ e ∈ m.edgesOf i, e.2 = .any) → ∃ e ∈ m.edgesOf i, ∃ t, e.2 = .node t

theorem Good.mono {T T' : Test → Prop} {m : Nfa} (h : Good T m) (hT : ∀ t, T t → T' t) : Good T' m :=
  ⟨fun i hi e he => (h.tests i hi e he).imp_right (hT _), h.guard⟩

theorem empty_wf {lo hi : Nat} (h : 1 ≤ lo) : WF .empty lo hi :=
  ⟨h, by simp [Nfa.empty], by simp [Nfa.empty], by simp [Nfa.empty, Nfa.edgesOf], by simp [Nfa.empty]⟩

theorem empty_good (T : Test → Prop) : Good T .empty :=
  ⟨by simp [Nfa.empty, Nfa.edgesOf], by simp [Nfa.empty, Nfa.edgesOf]⟩

theorem stepM_good {T : Test → Prop} {n : Nat} {t : Test} (ht : T t) (hne : t ≠ .any) : Good T (stepM n t) := by
  have he : ∀ i, (stepM n t).edgesOf i = if i = 0 then [(n, t)] else [] := by
    intro i
    unfold Nfa.edgesOf
    split
    · rfl
    · simp [stepM, Nfa.newStart, Nfa.empty]
  refine ⟨fun i _ e h => ?_, fun i _ h => ?_⟩
  · rw [he] at h
    split at h
    · simp at h; subst h; exact Or.inr ht
    · cases h
  · obtain ⟨e, h, ha⟩ := h
    rw [he] at h
    split at h
    · simp at h; subst h; exact absurd ha hne
    · cases h

theorem start_edges {m : Nfa} {e : Edge} (h : e ∈ m.start) : e ∈ m.edgesOf 0 := by
  unfold Nfa.edgesOf; rw [if_pos rfl]; exact h

theorem loop_edges {m : Nfa} {lo hi : Nat} (h : WF m lo hi) (hlo : lo ≤ hi) {i : Nat} :
    (m.addInitialLoop hi).edgesOf i = if i = 0 ∨ i = hi then m.start ++ [(hi, .any)] else m.edgesOf i := by
  have hz : hi ≠ 0 := by have := h.pos; omega
  unfold Nfa.edgesOf
  simp only [Nfa.addInitialLoop, Nfa.newStart, Nfa.connects]
  by_cases h0 : i = 0
  · simp [h0]
  · by_cases hh : i = hi
    · subst hh; simp [hz]
    · simp [h0, hh]

theorem loop_good {T : Test → Prop} {m : Nfa} {lo hi : Nat} (h : WF m lo hi) (hlo : lo ≤ hi) (hg : Good T m)
    (hs : StartNode m) : Good T (m.addInitialLoop hi) := by
  have dom : ∀ i, i = 0 ∨ i ∈ (m.addInitialLoop hi).nodes → ¬ (i = 0 ∨ i = hi) → i ∈ m.nodes := by
    intro i hi' hno
    rcases hi' with rfl | h'
    · exact absurd (Or.inl rfl) hno
    · simp [Nfa.addInitialLoop, Nfa.newStart, Nfa.connects] at h'
      rcases h' with h' | h'
      · exact h'
      · exact absurd (Or.inr h') hno
  refine ⟨fun i hi' e he => ?_, fun i hi' he => ?_⟩
  · rw [loop_edges h hlo] at he
    split at he
    · rcases List.mem_append.1 he with he | he
      · exact hg.tests 0 (Or.inl rfl) e (start_edges he)
      · simp at he; subst he; exact Or.inl rfl
    · rename_i hno
      exact hg.tests i (Or.inr (dom i hi' hno)) e he
  · rw [loop_edges h hlo] at he ⊢
    split
    · obtain ⟨e, h1, h2⟩ := hs
      exact ⟨e, List.mem_append.2 (Or.inl h1), h2⟩
    · rename_i hno
      rw [if_neg hno] at he
      exact hg.guard i (Or.inr (dom i hi' hno)) he

theorem loop_startNode {m : Nfa} {hi : Nat} (hs : StartNode m) : StartNode (m.addInitialLoop hi) := by
  obtain ⟨e, h1, h2⟩ := hs
  exact ⟨e, List.mem_append.2 (Or.inl h1), h2⟩

theorem loop_acc {m : Nfa} {lo hi : Nat} (h : WF m lo hi) (hlo : lo ≤ hi) (w : List Sym) :
    Acc (m.addInitialLoop hi) w ↔ ∃ u v, w = u ++ v ∧ (∀ x ∈ u, x.isElem) ∧ Acc m v := by
  constructor
  · rintro ⟨k, hk, hr⟩
    obtain ⟨u, v, h1, h2, h3⟩ := ((loop_reach h hlo w).2 k (h.term k hk)).1 hr
    exact ⟨u, v, h1, h2, k, hk, h3⟩
  · rintro ⟨u, v, h1, h2, k, hk, h3⟩
    exact ⟨k, hk, ((loop_reach h hlo w).2 k (h.term k hk)).2 ⟨u, v, h1, h2, h3⟩⟩

theorem extend_good {T : Test → Prop} {a b : Nfa} {lo k hi : Nat} (ha : WF a lo k) (hb : WF b k hi)
    (ga : Good T a) (gb : Good T b) : Good T (a.extend b) := by
  have h0 : (a.extend b).edgesOf 0 = if a.start = [] then b.edgesOf 0 else a.edgesOf 0 := by
    unfold Nfa.edgesOf Nfa.extend; simp
  have hbn : ∀ i, i ∈ b.nodes → (a.extend b).edgesOf i = b.edgesOf i := by
    intro i hi'
    have h1 := hb.nz hi'
    have h2 : i ∉ a.terminal := fun hc => disjoint_nodes ha hb (ha.term i hc) hi'
    simp [Nfa.edgesOf, Nfa.extend, h1, h2, hi']
  have han : ∀ i, i ∈ a.nodes → (a.extend b).edgesOf i = a.edgesOf i ++ if i ∈ a.terminal then b.edgesOf 0 else [] := by
    intro i hi'
    have h1 := ha.nz hi'
    have h2 : i ∉ b.nodes := fun hc => disjoint_nodes ha hb hi' hc
    simp [Nfa.edgesOf, Nfa.extend, h1, h2]
  refine ⟨fun i hi' e he => ?_, fun i hi' he => ?_⟩
  · rcases hi' with rfl | hi'
    · rw [h0] at he
      split at he
      · exact gb.tests 0 (Or.inl rfl) e he
      · exact ga.tests 0 (Or.inl rfl) e he
    · rcases List.mem_append.1 hi' with h | h
      · rw [han i h] at he
        rcases List.mem_append.1 he with he | he
        · exact ga.tests i (Or.inr h) e he
        · split at he
          · exact gb.tests 0 (Or.inl rfl) e he
          · cases he
      · rw [hbn i h] at he
        exact gb.tests i (Or.inr h) e he
  · rcases hi' with rfl | hi'
    · rw [h0] at he ⊢
      split
      · rename_i hs; rw [if_pos hs] at he; exact gb.guard 0 (Or.inl rfl) he
      · rename_i hs; rw [if_neg hs] at he; exact ga.guard 0 (Or.inl rfl) he
    · rcases List.mem_append.1 hi' with h | h
      · rw [han i h] at he ⊢
        obtain ⟨e, he, hany⟩ := he
        rcases List.mem_append.1 he with he | he
        · obtain ⟨e', h1, h2⟩ := ga.guard i (Or.inr h) ⟨e, he, hany⟩
          exact ⟨e', List.mem_append.2 (Or.inl h1), h2⟩
        · split at he
          · rename_i ht
            obtain ⟨e', h1, h2⟩ := gb.guard 0 (Or.inl rfl) ⟨e, he, hany⟩
            exact ⟨e', List.mem_append.2 (Or.inr (by rw [if_pos ht]; exact h1)), h2⟩
          · cases he
      · rw [hbn i h] at he ⊢
        exact gb.guard i (Or.inr h) he

theorem union_good {T : Test → Prop} {a b : Nfa} {lo k hi : Nat} (ha : WF a lo k) (hb : WF b k hi)
    (ga : Good T a) (gb : Good T b) : Good T (a.union b) := by
  have h0 : (a.union b).edgesOf 0 = a.edgesOf 0 ++ b.edgesOf 0 := by
    unfold Nfa.edgesOf Nfa.union; simp
  have hbn : ∀ i, i ∈ b.nodes → (a.union b).edgesOf i = b.edgesOf i := by
    intro i hi'
    have h1 := hb.nz hi'
    simp [Nfa.edgesOf, Nfa.union, h1, hi']
  have han : ∀ i, i ∈ a.nodes → (a.union b).edgesOf i = a.edgesOf i := by
    intro i hi'
    have h1 := ha.nz hi'
    have h2 : i ∉ b.nodes := fun hc => disjoint_nodes ha hb hi' hc
    simp [Nfa.edgesOf, Nfa.union, h1, h2]
  refine ⟨fun i hi' e he => ?_, fun i hi' he => ?_⟩
  · rcases hi' with rfl | hi'
    · rw [h0] at he
      rcases List.mem_append.1 he with he | he
      · exact ga.tests 0 (Or.inl rfl) e he
      · exact gb.tests 0 (Or.inl rfl) e he
    · rcases List.mem_append.1 hi' with h | h
      · rw [han i h] at he
        exact ga.tests i (Or.inr h) e he
      · rw [hbn i h] at he
        exact gb.tests i (Or.inr h) e he
  · rcases hi' with rfl | hi'
    · rw [h0] at he ⊢
      obtain ⟨e, he, hany⟩ := he
      rcases List.mem_append.1 he with he | he
      · obtain ⟨e', h1, h2⟩ := ga.guard 0 (Or.inl rfl) ⟨e, he, hany⟩
        exact ⟨e', List.mem_append.2 (Or.inl h1), h2⟩
      · obtain ⟨e', h1, h2⟩ := gb.guard 0 (Or.inl rfl) ⟨e, he, hany⟩
        exact ⟨e', List.mem_append.2 (Or.inr h1), h2⟩
    · rcases List.mem_append.1 hi' with h | h
      · rw [han i h] at he ⊢
        exact ga.guard i (Or.inr h) he
      · rw [hbn i h] at he ⊢
        exact gb.guard i (Or.inr h) he

/-! The first step -/

theorem reach_congr {m m' : Nfa} {lo hi : Nat} (h : WF m lo hi) (ho : ∀ i, i = 0 ∨ i ∈ m.nodes → m'.out i = m.out i)
    {w : List Sym} {j : Nat} : Reach m w j → Reach m' w j := by
  intro hr
  induction hr with
  | nil => exact .nil
  | snoc hr he hx ih =>
    refine .snoc ih ?_ hx
    rw [ho]
    · exact he
    · rcases reach_dom h hr with ⟨_, e⟩ | ⟨_, e⟩
      · exact Or.inl e
      · exact Or.inr e

theorem empty_extend_acc {b : Nfa} {lo hi : Nat} (hb : WF b lo hi) (hle : lo ≤ hi) (w : List Sym) :
    Acc (Nfa.empty.extend b) w ↔ Acc b w := by
  have hw := extend_wf (empty_wf (lo := lo) (hi := lo) hb.pos) hb (Nat.le_refl _) hle
  have hout : ∀ i, i = 0 ∨ i ∈ b.nodes → (Nfa.empty.extend b).out i = b.out i := by
    rintro i (rfl | hi')
    · simp [Nfa.out, Nfa.extend, Nfa.empty]
    · simp [Nfa.out, Nfa.extend, Nfa.empty, hi']
  have hn : (Nfa.empty.extend b).nodes = b.nodes := rfl
  constructor
  · rintro ⟨k, hk, hr⟩
    exact ⟨k, hk, reach_congr hw (fun i hi' => (hout i (by rw [hn] at hi'; exact hi')).symm) hr⟩
  · rintro ⟨k, hk, hr⟩
    exact ⟨k, hk, reach_congr hb hout hr⟩

/-- What holds while the steps of a path are added. -/
structure Inv (T : Test → Prop) (m : Nfa) (pre : List PStep) (lo n : Nat) : Prop where
  pos : 1 ≤ lo
  le : lo ≤ n
  wf : WF m lo n
  good : Good T m
  first : pre = [] → m = .empty
  start : pre ≠ [] → StartNode m
  acc : pre ≠ [] → ∀ w, Acc m w ↔ PathM pre w

theorem Inv.step {T : Test → Prop} {m b : Nfa} {pre : List PStep} {s : PStep} {lo n n' : Nat} (h : Inv T m pre lo n)
    (hle : n ≤ n') (hb : WF b n n') (hg : Good T b) (hs : pre = [] → StartNode b) (ha : ∀ w, Acc b w ↔ StepM s w) :
    Inv T (m.extend b) (pre ++ [s]) lo n' := by
  refine ⟨h.pos, Nat.le_trans h.le hle, extend_wf h.wf hb h.le hle, extend_good h.wf hb h.good hg, by simp, fun _ => ?_,
    fun _ w => ?_⟩
  · by_cases hp : pre = []
    · obtain ⟨e, h1, h2⟩ := hs hp
      refine ⟨e, ?_, h2⟩
      rw [h.first hp]; exact h1
    · obtain ⟨e, h1, h2⟩ := h.start hp
      refine ⟨e, ?_, h2⟩
      have : m.start ≠ [] := fun hc => by rw [hc] at h1; cases h1
      simp only [Nfa.extend, this, if_false]
      exact h1
  · rw [PathM_snoc]
    by_cases hp : pre = []
    · rw [h.first hp, empty_extend_acc hb hle, ha]
      subst hp
      constructor
      · intro hw; exact ⟨[], w, rfl, rfl, by simp, hw⟩
      · rintro ⟨u, v, rfl, h1, _, h2⟩
        have : u = [] := h1
        subst this
        exact h2
    · obtain ⟨e, h1, h2⟩ := h.start hp
      have hne : m.start ≠ [] := fun hc => by rw [hc] at h1; cases h1
      rw [extend_acc h.wf hb h.le hle hne]
      constructor
      · rintro ⟨u, v, hw, h1, h2, h3⟩
        exact ⟨u, v, hw, (h.acc hp u).1 h1, h2, (ha v).1 h3⟩
      · rintro ⟨u, v, hw, h1, h2, h3⟩
        exact ⟨u, v, hw, (h.acc hp u).2 h1, h2, (ha v).2 h3⟩

theorem Inv.init (T : Test → Prop) {n : Nat} (h : 1 ≤ n) : Inv T .empty [] n n :=
  ⟨h, Nat.le_refl _, empty_wf h, empty_good T, fun _ => rfl, fun hc => absurd rfl hc, fun hc => absurd rfl hc⟩

theorem stepM_acc {n : Nat} (h : 1 ≤ n) (t : Test) (w : List Sym) :
    Acc (stepM n t) w ↔ ∃ x, w = [x] ∧ t.okS x = true := by
  rw [← stepM_reach h t w]
  constructor
  · rintro ⟨k, hk, hr⟩
    simp [stepM] at hk
    subst hk; exact hr
  · intro hr; exact ⟨n, by simp [stepM], hr⟩

theorem okS_node {t : NameTest} {x : Sym} : (Test.node t).okS x = true ↔ ∃ n, x = .elem n ∧ t.ok n = true := by
  cases x <;> simp [Test.okS]

theorem okS_attr {t : NameTest} {x : Sym} : (Test.attr t).okS x = true ↔ ∃ n, x = .attr n ∧ t.ok n = true := by
  cases x <;> simp [Test.okS]

theorem startNode_step (n : Nat) (t : NameTest) : StartNode (stepM n (.node t)) :=
  ⟨(n, .node t), by simp [stepM, Nfa.newStart, Nfa.empty], t, rfl⟩

theorem acc_child {n : Nat} (h : 1 ≤ n) (t : SrcTest) (w : List Sym) :
    Acc (stepM n (.node (toNameTest t))) w ↔ StepM (.mk .child t) w := by
  rw [stepM_acc h]
  constructor
  · rintro ⟨x, rfl, hx⟩
    obtain ⟨n, rfl, hx⟩ := okS_node.1 hx
    exact ⟨n, rfl, hx⟩
  · rintro ⟨n, rfl, hx⟩
    exact ⟨_, rfl, okS_node.2 ⟨n, rfl, hx⟩⟩

theorem acc_attr {n : Nat} (h : 1 ≤ n) (t : SrcTest) (w : List Sym) :
    Acc (stepM n (.attr (toNameTest t))) w ↔ StepM (.mk .attribute t) w := by
  rw [stepM_acc h]
  constructor
  · rintro ⟨x, rfl, hx⟩
    obtain ⟨n, rfl, hx⟩ := okS_attr.1 hx
    exact ⟨n, rfl, hx⟩
  · rintro ⟨n, rfl, hx⟩
    exact ⟨_, rfl, okS_attr.2 ⟨n, rfl, hx⟩⟩

theorem acc_desc {n : Nat} (h : 1 ≤ n) (t : SrcTest) (w : List Sym) :
    Acc ((stepM n (.node (toNameTest t))).addInitialLoop (n + 1)) w ↔ StepM (.mk .descendant t) w := by
  rw [loop_acc (stepM_wf h _) (Nat.le_succ _)]
  constructor
  · rintro ⟨u, v, rfl, hu, hv⟩
    obtain ⟨x, rfl, hx⟩ := (acc_child h t v).1 hv
    exact ⟨u, x, rfl, hu, hx⟩
  · rintro ⟨u, x, rfl, hu, hx⟩
    exact ⟨u, _, rfl, hu, (acc_child h t _).2 ⟨x, rfl, hx⟩⟩

/-- A step of a relative path. -/
def RelStep : PStep → Prop
  | .mk .child _ => True
  | .mk .attribute _ => True
  | _ => False

def AbsStep : PStep → Prop
  | .mk .child _ => True
  | .mk .descendant _ => True
  | _ => False

theorem relLoop_inv {T : Test → Prop} : ∀ (ss pre : List PStep) (m : Nfa) (lo n : Nat), Inv T m pre lo n →
    (∀ s ∈ ss, RelStep s ∧ T (stepTest s)) → (pre = [] → ∀ s ss', ss = s :: ss' → ∃ t, s = .mk .child t) →
    ∃ m' n', relLoop ss m n = .ok (m', n') ∧ Inv T m' (pre ++ ss) lo n'
  | [], pre, m, lo, n => fun h _ _ => ⟨m, n, rfl, by rw [List.append_nil]; exact h⟩
  | s :: ss, pre, m, lo, n => fun h hs h1 => by
    have hn : 1 ≤ n := Nat.le_trans h.pos h.le
    obtain ⟨hr, hT⟩ := hs s (by simp)
    have key : ∃ b, stepNfa n s = .ok b ∧ Inv T (m.extend b) (pre ++ [s]) lo (n + 1) := by
      rcases s with ⟨a, t⟩ | _
      · cases a with
        | child =>
          exact ⟨stepM n (.node (toNameTest t)), rfl, h.step (Nat.le_succ _) (stepM_wf hn _) (stepM_good hT (by simp))
            (fun _ => startNode_step _ _) (acc_child hn t)⟩
        | descendant => exact hr.elim
        | «attribute» =>
          refine ⟨stepM n (.attr (toNameTest t)), rfl, h.step (Nat.le_succ _) (stepM_wf hn _) (stepM_good hT (by simp))
            (fun hp => ?_) (acc_attr hn t)⟩
          obtain ⟨_, h2⟩ := h1 hp _ _ rfl
          cases h2
      · exact hr.elim
    obtain ⟨b, hb, hi⟩ := key
    rw [relLoop, hb]
    obtain ⟨m', n', h3, h4⟩ := relLoop_inv ss (pre ++ [s]) _ lo _ hi (fun x hx => hs x (by simp [hx])) (by simp)
    exact ⟨m', n', h3, by rw [List.append_assoc, List.singleton_append] at h4; exact h4⟩

theorem absLoop_inv {T : Test → Prop} : ∀ (ss pre : List PStep) (m : Nfa) (lo n : Nat), Inv T m pre lo n →
    (∀ s ∈ ss, AbsStep s ∧ T (stepTest s)) →
    ∃ m' n', absLoop ss m n = .ok (m', n') ∧ Inv T m' (pre ++ ss) lo n'
  | [], pre, m, lo, n => fun h _ => ⟨m, n, rfl, by rw [List.append_nil]; exact h⟩
  | s :: ss, pre, m, lo, n => fun h hs => by
    have hn : 1 ≤ n := Nat.le_trans h.pos h.le
    obtain ⟨hr, hT⟩ := hs s (by simp)
    rcases s with ⟨a, t⟩ | _
    · cases a with
      | child =>
        have hi := h.step (s := .mk .child t) (Nat.le_succ _) (stepM_wf hn _) (stepM_good hT (by simp [stepTest]))
            (fun _ => startNode_step _ _) (acc_child hn t)
        obtain ⟨m', n', h3, h4⟩ := absLoop_inv ss _ _ lo _ hi (fun x hx => hs x (by simp [hx]))
        exact ⟨m', n', h3, by rw [List.append_assoc, List.singleton_append] at h4; exact h4⟩
      | descendant =>
        have hg : Good T ((stepM n (.node (toNameTest t))).addInitialLoop (n + 1)) :=
          loop_good (stepM_wf hn _) (Nat.le_succ _) (stepM_good hT (by simp)) (startNode_step _ _)
        have hi := h.step (s := .mk .descendant t) (by omega) (loop_wf (stepM_wf hn _) (Nat.le_succ _)) hg
            (fun _ => loop_startNode (startNode_step _ _)) (acc_desc hn t)
        obtain ⟨m', n', h3, h4⟩ := absLoop_inv ss _ _ lo _ hi (fun x hx => hs x (by simp [hx]))
        exact ⟨m', n', h3, by rw [List.append_assoc, List.singleton_append] at h4; exact h4⟩
      | «attribute» => exact hr.elim
    · exact hr.elim

/-! The steps of the supported paths -/

theorem simple_steps : ∀ r, Simple r →
    (parseRel r).1 = .relative ∧
    (∀ s ∈ (parseRel r).2, RelStep s ∧ ∃ x ∈ relSteps r, stepTest s = srcTest x) ∧
    ∃ t ss, (parseRel r).2 = .mk .child t :: ss
  | .one s => fun h => by
    obtain ⟨a, t⟩ := s
    have ha : a = .child := h
    subst ha
    refine ⟨rfl, ?_, t, [], rfl⟩
    intro x hx
    simp [parseRel] at hx
    subst hx
    exact ⟨trivial, ⟨.child, t⟩, by simp [relSteps], rfl⟩
  | .slash r s => fun h => by
    obtain ⟨h1, h2⟩ := h
    obtain ⟨_, h3, t, ss, h4⟩ := simple_steps r h1
    refine ⟨rfl, ?_, t, ss ++ [.mk s.axis s.test], by rw [parseRel]; simp [h4]⟩
    intro x hx
    rw [parseRel] at hx
    rcases List.mem_append.1 hx with hx | hx
    · obtain ⟨h5, y, hy, h6⟩ := h3 x hx
      exact ⟨h5, y, by simp [relSteps, hy], h6⟩
    · simp at hx
      subst hx
      obtain ⟨a, t⟩ := s
      refine ⟨?_, ⟨a, t⟩, by simp [relSteps], ?_⟩
      · cases a with
        | child => trivial
        | descendant => exact absurd rfl h2
        | «attribute» => trivial
      · cases a <;> rfl
  | .dslash _ _ => fun h => h.elim

theorem downward_steps : ∀ r, Downward r →
    ∀ s ∈ (parseRel r).2, AbsStep s ∧ ∃ x ∈ relSteps r, stepTest s = srcTest x
  | .one s => fun h x hx => by
    obtain ⟨a, t⟩ := s
    simp [parseRel] at hx
    subst hx
    refine ⟨?_, ⟨a, t⟩, by simp [relSteps], ?_⟩
    · cases a with
      | child => trivial
      | descendant => trivial
      | «attribute» => exact absurd rfl h
    · cases a <;> rfl
  | .slash r s => fun h x hx => by
    obtain ⟨h1, h2⟩ := h
    rw [parseRel] at hx
    rcases List.mem_append.1 hx with hx | hx
    · obtain ⟨h5, y, hy, h6⟩ := downward_steps r h1 x hx
      exact ⟨h5, y, by simp [relSteps, hy], h6⟩
    · simp at hx
      subst hx
      obtain ⟨a, t⟩ := s
      refine ⟨?_, ⟨a, t⟩, by simp [relSteps], ?_⟩
      · cases a with
        | child => trivial
        | descendant => trivial
        | «attribute» => exact absurd rfl h2
      · cases a <;> rfl
  | .dslash r s => fun h x hx => by
    obtain ⟨h1, h2⟩ := h
    obtain ⟨a, t⟩ := s
    have h2 : a = .child := h2
    subst h2
    rw [parseRel] at hx
    rcases List.mem_append.1 hx with hx | hx
    · obtain ⟨h5, y, hy, h6⟩ := downward_steps r h1 x hx
      exact ⟨h5, y, by simp [relSteps, hy], h6⟩
    · simp at hx
      subst hx
      exact ⟨trivial, ⟨.child, t⟩, by simp [relSteps], rfl⟩

theorem rel_ne : ∀ r, (parseRel r).2 ≠ []
  | .one s => by simp [parseRel]
  | .slash r s => by simp [parseRel]
  | .dslash r s => by
    rw [parseRel]
    intro h
    have := (List.append_eq_nil_iff.1 h).1
    exact rel_ne r this

/-- The words of a path. -/
def LocM : Loc → List Sym → Prop
  | .root, _ => False
  | .abs r, w => PathM (parseRel r).2 w
  | .rel r, w | .dabs r, w => ∃ u v, w = u ++ v ∧ (∀ x ∈ u, x.isElem) ∧ PathM (parseRel r).2 v

theorem pathNfa_ok (p : Loc) (hp : Supported p) {T : Test → Prop} (hT : ∀ s ∈ steps p, T (srcTest s)) {n : Nat} (hn : 1 ≤ n) :
    ∃ m n', pathNfa (parseLoc p) n = .ok (m, n') ∧ n ≤ n' ∧ WF m n n' ∧ Good T m ∧ ∀ w, Acc m w ↔ LocM p w := by
  have relCase : ∀ r, Simple r → (∀ s ∈ relSteps r, T (srcTest s)) → ∃ m n', relLoop (parseRel r).2 .empty n = .ok (m, n') ∧
      n ≤ n' + 1 ∧ WF (m.addInitialLoop n') n (n' + 1) ∧ Good T (m.addInitialLoop n') ∧
      ∀ w, Acc (m.addInitialLoop n') w ↔ ∃ u v, w = u ++ v ∧ (∀ x ∈ u, x.isElem) ∧ PathM (parseRel r).2 v := by
    intro r hr hT
    obtain ⟨_, h2, t, ss, h3⟩ := simple_steps r hr
    obtain ⟨m, n', h4, h5⟩ := relLoop_inv (T := T) (parseRel r).2 [] .empty n n (Inv.init T hn)
      (fun s hs => by obtain ⟨h6, x, hx, h7⟩ := h2 s hs; exact ⟨h6, h7 ▸ hT x hx⟩)
      (fun _ s ss' he => ⟨t, by rw [h3] at he; injection he with he _; exact he.symm⟩)
    rw [List.nil_append] at h5
    refine ⟨m, n', h4, Nat.le_succ_of_le h5.le, loop_wf h5.wf h5.le, loop_good h5.wf h5.le h5.good (h5.start (rel_ne r)), fun w => ?_⟩
    rw [loop_acc h5.wf h5.le]
    constructor
    · rintro ⟨u, v, h6, h7, h8⟩; exact ⟨u, v, h6, h7, (h5.acc (rel_ne r) v).1 h8⟩
    · rintro ⟨u, v, h6, h7, h8⟩; exact ⟨u, v, h6, h7, (h5.acc (rel_ne r) v).2 h8⟩
  cases p with
  | root =>
    refine ⟨.empty, n, rfl, Nat.le_refl _, empty_wf hn, empty_good T, fun w => ?_⟩
    constructor
    · rintro ⟨k, hk, _⟩; simp [Nfa.empty] at hk
    · intro h; exact h.elim
  | abs r =>
    obtain ⟨m, n', h1, h2⟩ := absLoop_inv (T := T) (parseRel r).2 [] .empty n n (Inv.init T hn)
      (fun s hs => by obtain ⟨h6, x, hx, h7⟩ := downward_steps r hp s hs; exact ⟨h6, h7 ▸ hT x hx⟩)
    rw [List.nil_append] at h2
    exact ⟨m, n', h1, h2.le, h2.wf, h2.good, h2.acc (rel_ne r)⟩
  | rel r =>
    obtain ⟨m, n', h1, h2, h3, h4, h5⟩ := relCase r hp hT
    refine ⟨m.addInitialLoop n', n' + 1, ?_, h2, h3, h4, h5⟩
    simp only [parseLoc, pathNfa, (simple_steps r hp).1, h1]
  | dabs r =>
    obtain ⟨m, n', h1, h2, h3, h4, h5⟩ := relCase r hp hT
    refine ⟨m.addInitialLoop n', n' + 1, ?_, h2, h3, h4, h5⟩
    obtain ⟨_, _, t, ss, h6⟩ := simple_steps r hp
    rw [h6] at h1
    have h7 : relLoop (abbreviate (parseRel r).2) .empty n = .ok (m, n') := by rw [h6]; exact h1
    simp only [parseLoc, pathNfa, h7]

theorem unionLoop_ok {T : Test → Prop} : ∀ (ps : List Loc) (m : Nfa) (lo n : Nat), lo ≤ n → WF m lo n → Good T m →
    (∀ q ∈ ps, Supported q ∧ ∀ s ∈ steps q, T (srcTest s)) →
    ∃ m' n', unionLoop ps m n = .ok (m', n') ∧ WF m' lo n' ∧ Good T m' ∧
      ∀ w, Acc m' w ↔ Acc m w ∨ ∃ q ∈ ps, LocM q w
  | [], m, lo, n => fun _ hw hg _ => ⟨m, n, rfl, hw, hg, by simp⟩
  | p :: ps, m, lo, n => fun hle hw hg hp => by
    obtain ⟨h1, h2⟩ := hp p (by simp)
    obtain ⟨b, n', h3, h4, h5, h6, h7⟩ := pathNfa_ok p h1 h2 (Nat.le_trans hw.pos hle)
    obtain ⟨m', n'', h8, h9, h10, h11⟩ := unionLoop_ok ps (m.union b) lo n' (Nat.le_trans hle h4)
      (union_wf hw h5 hle h4) (union_good hw h5 hg h6) (fun q hq => hp q (by simp [hq]))
    refine ⟨m', n'', by rw [unionLoop, h3]; exact h8, h9, h10, fun w => ?_⟩
    rw [h11, union_acc hw h5 hle h4, h7]
    constructor
    · rintro ((h | h) | ⟨q, hq, h⟩)
      · exact Or.inl h
      · exact Or.inr ⟨p, by simp, h⟩
      · exact Or.inr ⟨q, by simp [hq], h⟩
    · rintro (h | ⟨q, hq, h⟩)
      · exact Or.inl (Or.inl h)
      · rcases List.mem_cons.1 hq with rfl | hq
        · exact Or.inl (Or.inr h)
        · exact Or.inr ⟨q, hq, h⟩

/-- The NFA for a pattern. -/
theorem toNfa_ok (p : Loc) (ps : List Loc) {n : Nat} (hn : 1 ≤ n) (hp : ∀ q ∈ p :: ps, Supported q) :
    ∃ m hi, toNfa p ps n = .ok m ∧ WF m n hi ∧ Good (fun t => ∃ q ∈ p :: ps, ∃ s ∈ steps q, t = srcTest s) m ∧
      ∀ w, Acc m w ↔ ∃ q ∈ p :: ps, LocM q w := by
  obtain ⟨m, n', h1, h2, h3, h4, h5⟩ := pathNfa_ok p (hp p (by simp))
    (T := fun t => ∃ q ∈ p :: ps, ∃ s ∈ steps q, t = srcTest s) (fun s hs => ⟨p, by simp, s, hs, rfl⟩) hn
  obtain ⟨m', n'', h6, h7, h8, h9⟩ := unionLoop_ok ps m n n' h2 h3 h4
    (fun q hq => ⟨hp q (by simp [hq]), fun s hs => ⟨q, by simp [hq], s, hs, rfl⟩⟩)
  refine ⟨m', n'', by unfold toNfa; rw [h1]; simp only [h6], h7, h8, fun w => ?_⟩
  rw [h9, h5]
  constructor
  · rintro (h | ⟨q, hq, h⟩)
    · exact ⟨p, by simp, h⟩
    · exact ⟨q, by simp [hq], h⟩
  · rintro ⟨q, hq, h⟩
    rcases List.mem_cons.1 hq with rfl | hq
    · exact Or.inl h
    · exact Or.inr ⟨q, hq, h⟩

end Verif.Push
