import Verif.Push.Spec

/-
The words that lead to the nodes of the NFA.
-/
namespace Verif.Push
open Verif.Push.Spec

theorem snocInd {α : Type} {motive : List α → Prop} (nil : motive [])
    (snoc : ∀ w x, motive w → motive (w ++ [x])) (w : List α) : motive w := by
  have : ∀ n (w : List α), w.length = n → motive w := by
    intro n
    induction n with
    | zero => intro w hw; rw [List.length_eq_zero_iff.1 hw]; exact nil
    | succ n ih =>
      intro w hw
      rcases List.eq_nil_or_concat w with rfl | ⟨u, x, rfl⟩
      · cases hw
      · rw [List.concat_eq_append] at hw ⊢
        exact snoc u x (ih u (by simpa using hw))
  exact this _ w rfl

/-- What is read on the way down: elements, and at the end perhaps an attribute. -/
inductive Sym
  | elem (n : QN)
  | attr (n : QN)

def Sym.isElem : Sym → Prop
  | .elem _ => True
  | .attr _ => False

def Test.okS : Test → Sym → Bool
  | .any, .elem _ => true
  | .node t, .elem n => t.ok n
  | .attr t, .attr n => t.ok n
  | _, _ => false

def Nfa.edgesOf (m : Nfa) (i : Nat) : List Edge := if i = 0 then m.start else m.edges i

def Nfa.out (m : Nfa) (i : Nat) : List Edge := if i = 0 then m.start else if m.isAttr i then [] else m.edges i

inductive Reach (m : Nfa) : List Sym → Nat → Prop
  | nil : Reach m [] 0
  | snoc {w : List Sym} {i : Nat} {e : Edge} {x : Sym} (h : Reach m w i) (he : e ∈ m.out i) (hx : e.2.okS x = true) :
      Reach m (w ++ [x]) e.1

structure WF (m : Nfa) (lo hi : Nat) : Prop where
  pos : 1 ≤ lo
  range : ∀ i ∈ m.nodes, lo ≤ i ∧ i < hi
  term : ∀ i ∈ m.terminal, i ∈ m.nodes
  closed : ∀ i, i = 0 ∨ i ∈ m.nodes → ∀ e ∈ m.edgesOf i, e.1 ∈ m.nodes ∧ e.2.isAttr = m.isAttr e.1
  nodup : m.nodes.Nodup

theorem out_sub {m : Nfa} {i : Nat} {e : Edge} (h : e ∈ m.out i) : e ∈ m.edgesOf i := by
  unfold Nfa.out at h
  unfold Nfa.edgesOf
  split at h
  · rename_i hi; rw [if_pos hi]; exact h
  · rename_i hi; rw [if_neg hi]
    split at h
    · cases h
    · exact h

theorem WF.nz {m : Nfa} {lo hi : Nat} (h : WF m lo hi) {i : Nat} (hi : i ∈ m.nodes) : i ≠ 0 := by
  have := h.range i hi; have := h.pos; omega

theorem reach_dom {m : Nfa} {lo hi : Nat} (h : WF m lo hi) {w : List Sym} {i : Nat} (hr : Reach m w i) :
    (w = [] ∧ i = 0) ∨ (w ≠ [] ∧ i ∈ m.nodes) := by
  induction hr with
  | nil => exact Or.inl ⟨rfl, rfl⟩
  | snoc hr he hx ih =>
    refine Or.inr ⟨by simp, ?_⟩
    refine (h.closed _ ?_ _ (out_sub he)).1
    rcases ih with ⟨_, e⟩ | ⟨_, e⟩
    · exact Or.inl e
    · exact Or.inr e

theorem reach_nil {m : Nfa} {lo hi : Nat} (h : WF m lo hi) {i : Nat} : Reach m [] i ↔ i = 0 := by
  constructor
  · intro hr
    rcases reach_dom h hr with ⟨_, e⟩ | ⟨e, _⟩
    · exact e
    · exact absurd rfl e
  · rintro rfl; exact .nil

theorem reach_snoc {m : Nfa} {w : List Sym} {x : Sym} {j : Nat} :
    Reach m (w ++ [x]) j ↔ ∃ i e, Reach m w i ∧ e ∈ m.out i ∧ e.2.okS x = true ∧ e.1 = j := by
  constructor
  · intro h
    generalize hv : w ++ [x] = v at h
    cases h with
    | nil => simp at hv
    | snoc hr he hx =>
      obtain ⟨e1, e2⟩ := List.append_inj' hv rfl
      subst e1
      injection e2 with e2 _
      subst e2
      exact ⟨_, _, hr, he, hx, rfl⟩
  · rintro ⟨i, e, h1, h2, h3, rfl⟩
    exact .snoc h1 h2 h3

/-- A node that is reached through an element is not one of an attribute. -/
theorem reach_elem {m : Nfa} {lo hi : Nat} (h : WF m lo hi) {w : List Sym} {x : Sym} {j : Nat}
    (hr : Reach m (w ++ [x]) j) : (m.isAttr j = false ∧ x.isElem) ∨ (m.isAttr j = true ∧ ¬ x.isElem) := by
  obtain ⟨i, e, h1, h2, h3, rfl⟩ := reach_snoc.1 hr
  have hi : i = 0 ∨ i ∈ m.nodes := by
    rcases reach_dom h h1 with ⟨_, e⟩ | ⟨_, e⟩
    · exact Or.inl e
    · exact Or.inr e
  have := (h.closed i hi e (out_sub h2)).2
  rw [← this]
  obtain ⟨k, t⟩ := e
  cases t <;> cases x <;> simp_all [Test.okS, Test.isAttr, Sym.isElem]

/-! Steps and paths -/

/-- What is read between the node before a step and the node after it. -/
def StepM : PStep → List Sym → Prop
  | .mk .child t, w => ∃ n, w = [.elem n] ∧ (toNameTest t).ok n = true
  | .mk .descendant t, w => ∃ u n, w = u ++ [.elem n] ∧ (∀ x ∈ u, x.isElem) ∧ (toNameTest t).ok n = true
  | .mk .attribute t, w => ∃ n, w = [.attr n] ∧ (toNameTest t).ok n = true
  | .dosNode, _ => False

/-- The node before a step is an element or the document. -/
def PathM : List PStep → List Sym → Prop
  | [], w => w = []
  | s :: ss, w => ∃ u v, w = u ++ v ∧ StepM s u ∧ ((∀ x ∈ u, x.isElem) ∨ v = []) ∧ PathM ss v

theorem StepM_ne {s : PStep} {w : List Sym} (h : StepM s w) : w ≠ [] := by
  rcases s with ⟨a, t⟩ | _
  · cases a
    · obtain ⟨n, rfl, _⟩ := h; simp
    · obtain ⟨u, n, rfl, _⟩ := h; simp
    · obtain ⟨n, rfl, _⟩ := h; simp
  · exact h.elim

theorem PathM_snoc (ss : List PStep) (s : PStep) (w : List Sym) :
    PathM (ss ++ [s]) w ↔ ∃ u v, w = u ++ v ∧ PathM ss u ∧ (∀ x ∈ u, x.isElem) ∧ StepM s v := by
  induction ss generalizing w with
  | nil =>
    constructor
    · rintro ⟨u, v, rfl, h1, h2, rfl⟩
      exact ⟨[], u, by simp, rfl, by simp, h1⟩
    · rintro ⟨u, v, rfl, rfl, _, h⟩
      exact ⟨v, [], by simp, h, Or.inr rfl, rfl⟩
  | cons a ss ih =>
    constructor
    · rintro ⟨u, v, rfl, h1, h2, h3⟩
      obtain ⟨u', v', rfl, h4, h5, h6⟩ := (ih v).1 h3
      have hu : ∀ x ∈ u, x.isElem := by
        rcases h2 with h2 | h2
        · exact h2
        · exact absurd (List.append_eq_nil_iff.1 h2).2 (StepM_ne h6)
      refine ⟨u ++ u', v', by simp, ⟨u, u', rfl, h1, Or.inl hu, h4⟩, ?_, h6⟩
      intro x hx
      rcases List.mem_append.1 hx with hx | hx
      · exact hu x hx
      · exact h5 x hx
    · rintro ⟨_, v, rfl, ⟨u, v', rfl, h1, h2, h3⟩, h4, h5⟩
      refine ⟨u, v' ++ v, by simp, h1, Or.inl fun x hx => h4 x (by simp [hx]), ?_⟩
      exact (ih _).2 ⟨v', v, rfl, h3, fun x hx => h4 x (by simp [hx]), h5⟩

/-- The NFA accepts a word. -/
def Acc (m : Nfa) (w : List Sym) : Prop := ∃ k ∈ m.terminal, Reach m w k

/-! Building blocks -/

def stepTest : PStep → Test
  | .mk .attribute t => .attr (toNameTest t)
  | .mk _ t => .node (toNameTest t)
  | .dosNode => .any

/-- The NFA for a step. -/
def stepM (n : Nat) (t : Test) : Nfa := { Nfa.empty.newStart n t with terminal := [n] }

theorem stepNfa_ok {n : Nat} {s : PStep} {b : Nfa} (h : stepNfa n s = .ok b) : b = stepM n (stepTest s) ∧ s ≠ .dosNode := by
  unfold stepNfa at h
  split at h
  · cases h
  · injection h with h; exact ⟨h.symm, by simp⟩
  · rename_i _ a t hne
    injection h with h
    refine ⟨?_, by simp⟩
    rw [← h]
    cases a with
    | child => rfl
    | descendant => rfl
    | «attribute» => exact absurd rfl hne

theorem stepM_wf {n : Nat} (h : 1 ≤ n) (t : Test) : WF (stepM n t) n (n + 1) := by
  refine ⟨h, ?_, ?_, ?_, ?_⟩
  · intro i hi; simp [stepM, Nfa.newStart, Nfa.empty] at hi; omega
  · intro i hi; simp [stepM, Nfa.newStart, Nfa.empty] at hi ⊢; exact hi
  · intro i hi e he
    unfold Nfa.edgesOf at he
    split at he
    · simp [stepM, Nfa.newStart, Nfa.empty] at he ⊢
      subst he; simp
    · simp [stepM, Nfa.newStart, Nfa.empty] at he
  · simp [stepM, Nfa.newStart, Nfa.empty]

theorem stepM_reach {n : Nat} (h : 1 ≤ n) (t : Test) (w : List Sym) :
    Reach (stepM n t) w n ↔ ∃ x, w = [x] ∧ t.okS x = true := by
  have hwf := stepM_wf h t
  have hout : ∀ i, (stepM n t).out i = if i = 0 then [(n, t)] else [] := by
    intro i
    unfold Nfa.out
    split
    · rfl
    · split
      · rfl
      · simp [stepM, Nfa.newStart, Nfa.empty]
  constructor
  · intro hr
    rcases List.eq_nil_or_concat w with rfl | ⟨u, x, rfl⟩
    · have := (reach_nil hwf).1 hr; omega
    · rw [List.concat_eq_append] at hr ⊢
      obtain ⟨i, e, h1, h2, h3, h4⟩ := reach_snoc.1 hr
      rw [hout] at h2
      split at h2
      · rename_i hi
        subst hi
        simp at h2; subst h2
        rcases reach_dom hwf h1 with ⟨rfl, _⟩ | ⟨_, h5⟩
        · exact ⟨x, rfl, h3⟩
        · exact absurd rfl (hwf.nz h5)
      · cases h2
  · rintro ⟨x, rfl, hx⟩
    have : Reach (stepM n t) ([] ++ [x]) n :=
      reach_snoc.2 ⟨0, (n, t), .nil, by rw [hout]; simp, hx, rfl⟩
    exact this

/-! The initial loop -/

theorem loop_wf {m : Nfa} {lo hi : Nat} (h : WF m lo hi) (hlo : lo ≤ hi) : WF (m.addInitialLoop hi) lo (hi + 1) := by
  have hn : hi ∉ m.nodes := fun hm => by have := h.range _ hm; omega
  have hz : hi ≠ 0 := by have := h.pos; omega
  refine ⟨h.pos, ?_, ?_, ?_, ?_⟩
  · intro i hi'
    simp [Nfa.addInitialLoop, Nfa.newStart, Nfa.connects] at hi'
    rcases hi' with hi' | rfl
    · have := h.range i hi'; omega
    · omega
  · intro i hi'
    simp [Nfa.addInitialLoop, Nfa.newStart, Nfa.connects] at hi' ⊢
    exact Or.inl (h.term i hi')
  · intro i hi' e he
    have key : e ∈ m.edgesOf i ∧ (i = 0 ∨ i ∈ m.nodes) ∨ e = (hi, .any) ∨ e ∈ m.start := by
      unfold Nfa.edgesOf at he ⊢
      simp only [Nfa.addInitialLoop, Nfa.newStart, Nfa.connects] at he hi'
      by_cases h0 : i = 0
      · rw [if_pos h0] at he
        rcases List.mem_append.1 he with he | he
        · exact Or.inr (Or.inr he)
        · exact Or.inr (Or.inl (by simpa using he))
      · rw [if_neg h0] at he ⊢
        by_cases hh : i = hi
        · simp only [hh, if_true] at he
          rcases List.mem_append.1 he with he | he
          · exact Or.inr (Or.inr (by simpa using he))
          · exact Or.inr (Or.inl (by simpa using he))
        · simp only [hh, if_false] at he
          refine Or.inl ⟨he, ?_⟩
          rcases hi' with hi' | hi'
          · exact Or.inl hi'
          · simp [hh] at hi'; exact Or.inr hi'
    have hmem : ∀ e : Edge, e.1 ∈ m.nodes ∧ e.2.isAttr = m.isAttr e.1 →
        e.1 ∈ (m.addInitialLoop hi).nodes ∧ e.2.isAttr = (m.addInitialLoop hi).isAttr e.1 := by
      rintro e ⟨h1, h2⟩
      have : e.1 ≠ hi := fun hc => hn (hc ▸ h1)
      simp [Nfa.addInitialLoop, Nfa.newStart, Nfa.connects, this, h1, h2]
    rcases key with ⟨k1, k2⟩ | rfl | k
    · exact hmem e (h.closed i k2 e k1)
    · simp [Nfa.addInitialLoop, Nfa.newStart, Nfa.connects]
    · exact hmem e (h.closed 0 (Or.inl rfl) e (by unfold Nfa.edgesOf; simpa using k))
  · simp only [Nfa.addInitialLoop, Nfa.newStart, Nfa.connects]
    rw [List.nodup_append]
    refine ⟨h.nodup, by simp, ?_⟩
    intro a ha b hb e
    simp at hb
    subst hb e
    exact hn ha

theorem loop_out {m : Nfa} {lo hi : Nat} (h : WF m lo hi) (hlo : lo ≤ hi) (i : Nat) :
    (m.addInitialLoop hi).out i = if i = 0 ∨ i = hi then m.start ++ [(hi, .any)] else m.out i := by
  have hz : hi ≠ 0 := by have := h.pos; omega
  unfold Nfa.out
  simp only [Nfa.addInitialLoop, Nfa.newStart, Nfa.connects]
  by_cases h0 : i = 0
  · simp [h0]
  · by_cases hh : i = hi
    · subst hh; simp [hz, Test.isAttr]
    · simp [h0, hh]

theorem loop_reach {m : Nfa} {lo hi : Nat} (h : WF m lo hi) (hlo : lo ≤ hi) (w : List Sym) :
    (Reach (m.addInitialLoop hi) w hi ↔ w ≠ [] ∧ ∀ x ∈ w, x.isElem) ∧
    ∀ j ∈ m.nodes, Reach (m.addInitialLoop hi) w j ↔ ∃ u v, w = u ++ v ∧ (∀ x ∈ u, x.isElem) ∧ Reach m v j := by
  have hwf := loop_wf h hlo
  have hz : hi ≠ 0 := by have := h.pos; omega
  have hn : hi ∉ m.nodes := fun hm => by have := h.range _ hm; omega
  have hst : ∀ e ∈ m.start, e.1 ∈ m.nodes := fun e he =>
    (h.closed 0 (Or.inl rfl) e (by unfold Nfa.edgesOf; simpa using he)).1
  induction w using snocInd with
  | nil =>
    refine ⟨?_, fun j hj => ?_⟩
    · rw [reach_nil hwf]; simp [hz]
    · rw [reach_nil hwf]
      constructor
      · intro e; exact absurd e (h.nz hj)
      · rintro ⟨u, v, e, _, hr⟩
        obtain ⟨rfl, rfl⟩ := List.append_eq_nil_iff.1 e.symm
        exact (reach_nil h).1 hr
  | snoc w x ih =>
    obtain ⟨ih1, ih2⟩ := ih
    refine ⟨?_, fun j hj => ?_⟩
    · rw [reach_snoc]
      constructor
      · rintro ⟨i, e, h1, h2, h3, h4⟩
        rw [loop_out h hlo] at h2
        refine ⟨by simp, ?_⟩
        have hnot : ∀ e ∈ m.start, e.1 ≠ hi := fun e he hc => hn (hc ▸ hst e he)
        split at h2
        · rename_i hi'
          rcases List.mem_append.1 h2 with h2 | h2
          · exact absurd h4 (hnot e h2)
          · simp at h2; subst h2
            have hx : x.isElem := by cases x <;> simp_all [Test.okS, Sym.isElem]
            intro y hy
            rcases List.mem_append.1 hy with hy | hy
            · rcases hi' with rfl | rfl
              · rcases reach_dom hwf h1 with ⟨rfl, _⟩ | ⟨_, hc⟩
                · cases hy
                · exact absurd rfl (hwf.nz hc)
              · exact (ih1.1 h1).2 y hy
            · simp at hy; subst hy; exact hx
        · rename_i hi'
          have hin : i ∈ m.nodes := by
            rcases reach_dom hwf h1 with ⟨_, hc⟩ | ⟨_, hc⟩
            · exact absurd (Or.inl hc) hi'
            · simp [Nfa.addInitialLoop, Nfa.newStart, Nfa.connects] at hc
              rcases hc with hc | hc
              · exact hc
              · exact absurd (Or.inr hc) hi'
          have := (h.closed i (Or.inr hin) e (out_sub h2)).1
          exact absurd (h4 ▸ this) hn
      · rintro ⟨_, hel⟩
        have hx : x.isElem := hel x (by simp)
        have hok : Test.any.okS x = true := by cases x <;> simp_all [Test.okS, Sym.isElem]
        by_cases hw : w = []
        · subst hw
          exact ⟨0, (hi, .any), .nil, by rw [loop_out h hlo]; simp, hok, rfl⟩
        · exact ⟨hi, (hi, .any), ih1.2 ⟨hw, fun y hy => hel y (by simp [hy])⟩, by rw [loop_out h hlo]; simp, hok, rfl⟩
    · rw [reach_snoc]
      constructor
      · rintro ⟨i, e, h1, h2, h3, h4⟩
        rw [loop_out h hlo] at h2
        split at h2
        · rename_i hi'
          have hel : ∀ y ∈ w, y.isElem := by
            rcases hi' with rfl | rfl
            · rcases reach_dom hwf h1 with ⟨rfl, _⟩ | ⟨_, hc⟩
              · simp
              · exact absurd rfl (hwf.nz hc)
            · exact (ih1.1 h1).2
          rcases List.mem_append.1 h2 with h2 | h2
          · refine ⟨w, [x], rfl, hel, ?_⟩
            have : Reach m ([] ++ [x]) j := reach_snoc.2 ⟨0, e, .nil, by simpa [Nfa.out] using h2, h3, h4⟩
            exact this
          · simp at h2; subst h2; have h5 : hi = j := h4; rw [← h5] at hj; exact absurd hj hn
        · rename_i hi'
          have hin : i ∈ m.nodes := by
            rcases reach_dom hwf h1 with ⟨_, hc⟩ | ⟨_, hc⟩
            · exact absurd (Or.inl hc) hi'
            · simp [Nfa.addInitialLoop, Nfa.newStart, Nfa.connects] at hc
              rcases hc with hc | hc
              · exact hc
              · exact absurd (Or.inr hc) hi'
          obtain ⟨u, v, rfl, hu, hv⟩ := (ih2 i hin).1 h1
          exact ⟨u, v ++ [x], by simp, hu, reach_snoc.2 ⟨i, e, hv, h2, h3, h4⟩⟩
      · rintro ⟨u, v, e0, hu, hv⟩
        rcases List.eq_nil_or_concat v with rfl | ⟨v', y, rfl⟩
        · exact absurd ((reach_nil h).1 hv) (h.nz hj)
        · rw [List.concat_eq_append] at hv e0
          rw [← List.append_assoc] at e0
          obtain ⟨rfl, e2⟩ := List.append_inj' e0 rfl
          injection e2 with e2 _
          subst e2
          obtain ⟨i, e, h1, h2, h3, h4⟩ := reach_snoc.1 hv
          rcases reach_dom h h1 with ⟨rfl, rfl⟩ | ⟨_, hin⟩
          · rw [List.append_nil]
            have hs : e ∈ m.start := by simpa [Nfa.out] using h2
            rw [List.append_nil] at ih1
            by_cases hu0 : u = []
            · subst hu0
              exact ⟨0, e, .nil, by rw [loop_out h hlo]; simp [hs], h3, h4⟩
            · exact ⟨hi, e, ih1.2 ⟨hu0, hu⟩, by rw [loop_out h hlo]; simp [hs], h3, h4⟩
          · refine ⟨i, e, (ih2 i hin).2 ⟨u, v', rfl, hu, h1⟩, ?_, h3, h4⟩
            rw [loop_out h hlo, if_neg]
            · exact h2
            · rintro (rfl | rfl)
              · exact h.nz hin rfl
              · exact hn hin

/-- All symbols but the last are elements. -/
theorem reach_elems {m : Nfa} {lo hi : Nat} (h : WF m lo hi) {w : List Sym} {i : Nat} (hr : Reach m w i)
    (ha : i = 0 ∨ m.isAttr i = false) : ∀ x ∈ w, x.isElem := by
  induction hr with
  | nil => simp
  | @snoc w i e x hr he hx ih =>
    have hr' : Reach m (w ++ [x]) e.1 := .snoc hr he hx
    intro y hy
    rcases List.mem_append.1 hy with hy | hy
    · refine ih ?_ y hy
      unfold Nfa.out at he
      split at he
      · rename_i h0; exact Or.inl h0
      · split at he
        · cases he
        · rename_i hf; exact Or.inr (by simpa using hf)
    · simp at hy; subst hy
      rcases reach_elem h hr' with ⟨_, h1⟩ | ⟨h1, _⟩
      · exact h1
      · rcases ha with ha | ha
        · rcases reach_dom h hr' with ⟨e, _⟩ | ⟨_, e⟩
          · simp at e
          · exact absurd ha (h.nz e)
        · rw [ha] at h1; cases h1

theorem reach_isAttr {m : Nfa} {lo hi : Nat} (h : WF m lo hi) {w : List Sym} {i : Nat} (hr : Reach m w i)
    (hi' : i ∈ m.nodes) (hw : ∀ x ∈ w, x.isElem) : m.isAttr i = false := by
  rcases List.eq_nil_or_concat w with rfl | ⟨u, x, rfl⟩
  · exact absurd ((reach_nil h).1 hr) (h.nz hi')
  · rw [List.concat_eq_append] at hr hw
    rcases reach_elem h hr with ⟨h1, _⟩ | ⟨_, h1⟩
    · exact h1
    · exact absurd (hw x (by simp)) h1

/-! Union -/

theorem disjoint_nodes {a b : Nfa} {lo k hi : Nat} (ha : WF a lo k) (hb : WF b k hi) {i : Nat} (h1 : i ∈ a.nodes)
    (h2 : i ∈ b.nodes) : False := by
  have := ha.range i h1; have := hb.range i h2; omega

theorem union_out {a b : Nfa} (i : Nat) :
    (a.union b).out i = if i = 0 then a.start ++ b.start else if i ∈ b.nodes then b.out i else a.out i := by
  unfold Nfa.out
  by_cases h0 : i = 0
  · simp [h0, Nfa.union]
  · by_cases hi' : i ∈ b.nodes
    · simp [h0, hi', Nfa.union]
    · simp [h0, hi', Nfa.union]

theorem union_wf {a b : Nfa} {lo k hi : Nat} (ha : WF a lo k) (hb : WF b k hi) (h1 : lo ≤ k) (h2 : k ≤ hi) :
    WF (a.union b) lo hi := by
  refine ⟨ha.pos, ?_, ?_, ?_, ?_⟩
  · intro i hi'
    rcases List.mem_append.1 hi' with hi' | hi'
    · have := ha.range i hi'; omega
    · have := hb.range i hi'; omega
  · intro i hi'
    rcases List.mem_append.1 hi' with hi' | hi'
    · exact List.mem_append.2 (Or.inl (ha.term i hi'))
    · exact List.mem_append.2 (Or.inr (hb.term i hi'))
  · have hA : ∀ e : Edge, e.1 ∈ a.nodes ∧ e.2.isAttr = a.isAttr e.1 →
        e.1 ∈ (a.union b).nodes ∧ e.2.isAttr = (a.union b).isAttr e.1 := by
      rintro e ⟨h1, h2⟩
      have : e.1 ∉ b.nodes := fun hc => disjoint_nodes ha hb h1 hc
      exact ⟨List.mem_append.2 (Or.inl h1), by simp [Nfa.union, this, h2]⟩
    have hB : ∀ e : Edge, e.1 ∈ b.nodes ∧ e.2.isAttr = b.isAttr e.1 →
        e.1 ∈ (a.union b).nodes ∧ e.2.isAttr = (a.union b).isAttr e.1 := by
      rintro e ⟨h1, h2⟩
      exact ⟨List.mem_append.2 (Or.inr h1), by simp [Nfa.union, h1, h2]⟩
    intro i hi' e he
    unfold Nfa.edgesOf at he
    split at he
    · rcases List.mem_append.1 he with he | he
      · exact hA e (ha.closed 0 (Or.inl rfl) e (by simpa [Nfa.edgesOf] using he))
      · exact hB e (hb.closed 0 (Or.inl rfl) e (by simpa [Nfa.edgesOf] using he))
    · rename_i h0
      have hi'' : i ∈ a.nodes ∨ i ∈ b.nodes := by
        rcases hi' with hi' | hi'
        · exact absurd hi' h0
        · exact List.mem_append.1 hi'
      by_cases hib : i ∈ b.nodes
      · refine hB e (hb.closed i (Or.inr hib) e ?_)
        simpa [Nfa.edgesOf, h0, Nfa.union, hib] using he
      · refine hA e (ha.closed i (Or.inr (hi''.resolve_right hib)) e ?_)
        simpa [Nfa.edgesOf, h0, Nfa.union, hib] using he
  · show (a.nodes ++ b.nodes).Nodup
    rw [List.nodup_append]
    exact ⟨ha.nodup, hb.nodup, fun x hx y hy e => disjoint_nodes ha hb hx (e ▸ hy)⟩

theorem union_reach {a b : Nfa} {lo k hi : Nat} (ha : WF a lo k) (hb : WF b k hi) (h1 : lo ≤ k) (h2 : k ≤ hi)
    (w : List Sym) :
    (∀ j ∈ a.nodes, Reach (a.union b) w j ↔ Reach a w j) ∧ (∀ j ∈ b.nodes, Reach (a.union b) w j ↔ Reach b w j) := by
  have hwf := union_wf ha hb h1 h2
  have hsa : ∀ e ∈ a.start, e.1 ∈ a.nodes := fun e he => (ha.closed 0 (Or.inl rfl) e (by simpa [Nfa.edgesOf] using he)).1
  have hsb : ∀ e ∈ b.start, e.1 ∈ b.nodes := fun e he => (hb.closed 0 (Or.inl rfl) e (by simpa [Nfa.edgesOf] using he)).1
  induction w using snocInd with
  | nil =>
    refine ⟨fun j hj => ?_, fun j hj => ?_⟩
    · rw [reach_nil hwf, reach_nil ha]
    · rw [reach_nil hwf, reach_nil hb]
  | snoc w x ih =>
    obtain ⟨ih1, ih2⟩ := ih
    have hz : Reach (a.union b) w 0 → w = [] := fun hr => by
      rcases reach_dom hwf hr with ⟨e, _⟩ | ⟨_, e⟩
      · exact e
      · exact absurd rfl (hwf.nz e)
    have hza : ∀ {i}, i ∈ a.nodes → i ≠ 0 ∧ i ∉ b.nodes := fun hi => ⟨ha.nz hi, fun hc => disjoint_nodes ha hb hi hc⟩
    refine ⟨fun j hj => ?_, fun j hj => ?_⟩
    · rw [reach_snoc, reach_snoc]
      constructor
      · rintro ⟨i, e, r1, r2, r3, rfl⟩
        rw [union_out] at r2
        split at r2
        · rename_i h0; subst h0
          have := hz r1; subst this
          rcases List.mem_append.1 r2 with r2 | r2
          · exact ⟨0, e, .nil, by simpa [Nfa.out] using r2, r3, rfl⟩
          · exact absurd (hsb e r2) fun hc => disjoint_nodes ha hb hj hc
        · rename_i h0
          split at r2
          · rename_i hib
            exact (disjoint_nodes ha hb hj (hb.closed i (Or.inr hib) e (out_sub r2)).1).elim
          · rename_i hib
            have hia : i ∈ a.nodes := by
              rcases reach_dom hwf r1 with ⟨_, e⟩ | ⟨_, e⟩
              · exact absurd e h0
              · exact (List.mem_append.1 e).resolve_right hib
            exact ⟨i, e, (ih1 i hia).1 r1, r2, r3, rfl⟩
      · rintro ⟨i, e, r1, r2, r3, rfl⟩
        rcases reach_dom ha r1 with ⟨rfl, rfl⟩ | ⟨_, hia⟩
        · exact ⟨0, e, .nil, by rw [union_out]; simp [Nfa.out] at r2 ⊢; exact Or.inl r2, r3, rfl⟩
        · refine ⟨i, e, (ih1 i hia).2 r1, ?_, r3, rfl⟩
          rw [union_out, if_neg (hza hia).1, if_neg (hza hia).2]; exact r2
    · rw [reach_snoc, reach_snoc]
      constructor
      · rintro ⟨i, e, r1, r2, r3, rfl⟩
        rw [union_out] at r2
        split at r2
        · rename_i h0; subst h0
          have := hz r1; subst this
          rcases List.mem_append.1 r2 with r2 | r2
          · exact (disjoint_nodes ha hb (hsa e r2) hj).elim
          · exact ⟨0, e, .nil, by simpa [Nfa.out] using r2, r3, rfl⟩
        · rename_i h0
          split at r2
          · rename_i hib
            exact ⟨i, e, (ih2 i hib).1 r1, r2, r3, rfl⟩
          · rename_i hib
            have hia : i ∈ a.nodes := by
              rcases reach_dom hwf r1 with ⟨_, e⟩ | ⟨_, e⟩
              · exact absurd e h0
              · exact (List.mem_append.1 e).resolve_right hib
            exact (disjoint_nodes ha hb (ha.closed i (Or.inr hia) e (out_sub r2)).1 hj).elim
      · rintro ⟨i, e, r1, r2, r3, rfl⟩
        rcases reach_dom hb r1 with ⟨rfl, rfl⟩ | ⟨_, hib⟩
        · exact ⟨0, e, .nil, by rw [union_out]; simp [Nfa.out] at r2 ⊢; exact Or.inr r2, r3, rfl⟩
        · refine ⟨i, e, (ih2 i hib).2 r1, ?_, r3, rfl⟩
          rw [union_out, if_neg (hb.nz hib), if_pos hib]; exact r2

theorem union_acc {a b : Nfa} {lo k hi : Nat} (ha : WF a lo k) (hb : WF b k hi) (h1 : lo ≤ k) (h2 : k ≤ hi)
    (w : List Sym) : Acc (a.union b) w ↔ Acc a w ∨ Acc b w := by
  obtain ⟨hA, hB⟩ := union_reach ha hb h1 h2 w
  constructor
  · rintro ⟨j, hj, hr⟩
    rcases List.mem_append.1 hj with hj | hj
    · exact Or.inl ⟨j, hj, (hA j (ha.term j hj)).1 hr⟩
    · exact Or.inr ⟨j, hj, (hB j (hb.term j hj)).1 hr⟩
  · rintro (⟨j, hj, hr⟩ | ⟨j, hj, hr⟩)
    · exact ⟨j, List.mem_append.2 (Or.inl hj), (hA j (ha.term j hj)).2 hr⟩
    · exact ⟨j, List.mem_append.2 (Or.inr hj), (hB j (hb.term j hj)).2 hr⟩

/-! Extension -/

theorem extend_out {a b : Nfa} {lo k hi : Nat} (ha : WF a lo k) (hb : WF b k hi) (hs : a.start ≠ []) (i : Nat) :
    (a.extend b).out i = if i = 0 then a.start else if i ∈ b.nodes then b.out i else
      a.out i ++ (if i ∈ a.terminal ∧ a.isAttr i = false then b.start else []) := by
  unfold Nfa.out
  by_cases h0 : i = 0
  · simp [h0, Nfa.extend, hs]
  · by_cases hi' : i ∈ b.nodes
    · have : i ∉ a.terminal := fun hc => disjoint_nodes ha hb (ha.term i hc) hi'
      simp [h0, hi', Nfa.extend, this]
    · cases hat : a.isAttr i <;> simp [h0, hi', Nfa.extend, hat]

theorem extend_wf {a b : Nfa} {lo k hi : Nat} (ha : WF a lo k) (hb : WF b k hi) (h1 : lo ≤ k) (h2 : k ≤ hi) :
    WF (a.extend b) lo hi := by
  refine ⟨ha.pos, ?_, ?_, ?_, ?_⟩
  · intro i hi'
    rcases List.mem_append.1 hi' with hi' | hi'
    · have := ha.range i hi'; omega
    · have := hb.range i hi'; omega
  · intro i hi'
    exact List.mem_append.2 (Or.inr (hb.term i hi'))
  · have hA : ∀ e : Edge, e.1 ∈ a.nodes ∧ e.2.isAttr = a.isAttr e.1 →
        e.1 ∈ (a.extend b).nodes ∧ e.2.isAttr = (a.extend b).isAttr e.1 := by
      rintro e ⟨h1, h2⟩
      have : e.1 ∉ b.nodes := fun hc => disjoint_nodes ha hb h1 hc
      exact ⟨List.mem_append.2 (Or.inl h1), by simp [Nfa.extend, this, h2]⟩
    have hB : ∀ e : Edge, e.1 ∈ b.nodes ∧ e.2.isAttr = b.isAttr e.1 →
        e.1 ∈ (a.extend b).nodes ∧ e.2.isAttr = (a.extend b).isAttr e.1 := by
      rintro e ⟨h1, h2⟩
      exact ⟨List.mem_append.2 (Or.inr h1), by simp [Nfa.extend, h1, h2]⟩
    have hbs : ∀ e ∈ b.start, e.1 ∈ b.nodes ∧ e.2.isAttr = b.isAttr e.1 := fun e he =>
      hb.closed 0 (Or.inl rfl) e (by simpa [Nfa.edgesOf] using he)
    intro i hi' e he
    unfold Nfa.edgesOf at he
    split at he
    · have : e ∈ (if a.start = [] then b.start else a.start) := he
      split at this
      · exact hB e (hbs e this)
      · exact hA e (ha.closed 0 (Or.inl rfl) e (by simpa [Nfa.edgesOf] using this))
    · rename_i h0
      have hi'' : i ∈ a.nodes ∨ i ∈ b.nodes := by
        rcases hi' with hi' | hi'
        · exact absurd hi' h0
        · exact List.mem_append.1 hi'
      have he' : e ∈ (if i ∈ b.nodes then b.edges i else a.edges i) ++ (if i ∈ a.terminal then b.start else []) := he
      rcases List.mem_append.1 he' with he' | he'
      · split at he'
        · rename_i hib
          exact hB e (hb.closed i (Or.inr hib) e (by simpa [Nfa.edgesOf, h0] using he'))
        · rename_i hib
          exact hA e (ha.closed i (Or.inr (hi''.resolve_right hib)) e (by simpa [Nfa.edgesOf, h0] using he'))
      · split at he'
        · exact hB e (hbs e he')
        · cases he'
  · show (a.nodes ++ b.nodes).Nodup
    rw [List.nodup_append]
    exact ⟨ha.nodup, hb.nodup, fun x hx y hy e => disjoint_nodes ha hb hx (e ▸ hy)⟩

theorem extend_reach {a b : Nfa} {lo k hi : Nat} (ha : WF a lo k) (hb : WF b k hi) (h1 : lo ≤ k) (h2 : k ≤ hi)
    (hs : a.start ≠ []) (w : List Sym) :
    (∀ j ∈ a.nodes, Reach (a.extend b) w j ↔ Reach a w j) ∧
    (∀ j ∈ b.nodes, Reach (a.extend b) w j ↔
      ∃ u v, w = u ++ v ∧ Acc a u ∧ (∀ x ∈ u, x.isElem) ∧ Reach b v j) := by
  have hwf := extend_wf ha hb h1 h2
  have hsa : ∀ e ∈ a.start, e.1 ∈ a.nodes := fun e he => (ha.closed 0 (Or.inl rfl) e (by simpa [Nfa.edgesOf] using he)).1
  have hsb : ∀ e ∈ b.start, e.1 ∈ b.nodes := fun e he => (hb.closed 0 (Or.inl rfl) e (by simpa [Nfa.edgesOf] using he)).1
  have hza : ∀ {i}, i ∈ a.nodes → i ≠ 0 ∧ i ∉ b.nodes := fun hi => ⟨ha.nz hi, fun hc => disjoint_nodes ha hb hi hc⟩
  induction w using snocInd with
  | nil =>
    refine ⟨fun j hj => ?_, fun j hj => ?_⟩
    · rw [reach_nil hwf, reach_nil ha]
    · rw [reach_nil hwf]
      constructor
      · intro e; exact absurd e (hb.nz hj)
      · rintro ⟨u, v, e, _, _, hr⟩
        obtain ⟨rfl, rfl⟩ := List.append_eq_nil_iff.1 e.symm
        exact (reach_nil hb).1 hr
  | snoc w x ih =>
    obtain ⟨ih1, ih2⟩ := ih
    have hz : Reach (a.extend b) w 0 → w = [] := fun hr => by
      rcases reach_dom hwf hr with ⟨e, _⟩ | ⟨_, e⟩
      · exact e
      · exact absurd rfl (hwf.nz e)
    have hin : ∀ {i}, Reach (a.extend b) w i → i ≠ 0 → i ∉ b.nodes → i ∈ a.nodes := by
      intro i hr h0 hib
      rcases reach_dom hwf hr with ⟨_, e⟩ | ⟨_, e⟩
      · exact absurd e h0
      · exact (List.mem_append.1 e).resolve_right hib
    refine ⟨fun j hj => ?_, fun j hj => ?_⟩
    · rw [reach_snoc, reach_snoc]
      constructor
      · rintro ⟨i, e, r1, r2, r3, rfl⟩
        rw [extend_out ha hb hs] at r2
        split at r2
        · rename_i h0; subst h0
          have := hz r1; subst this
          exact ⟨0, e, .nil, by simpa [Nfa.out] using r2, r3, rfl⟩
        · rename_i h0
          split at r2
          · rename_i hib
            exact (disjoint_nodes ha hb hj (hb.closed i (Or.inr hib) e (out_sub r2)).1).elim
          · rename_i hib
            have hia := hin r1 h0 hib
            rcases List.mem_append.1 r2 with r2 | r2
            · exact ⟨i, e, (ih1 i hia).1 r1, r2, r3, rfl⟩
            · split at r2
              · exact (disjoint_nodes ha hb hj (hsb e r2)).elim
              · cases r2
      · rintro ⟨i, e, r1, r2, r3, rfl⟩
        rcases reach_dom ha r1 with ⟨rfl, rfl⟩ | ⟨_, hia⟩
        · exact ⟨0, e, .nil, by rw [extend_out ha hb hs]; simpa [Nfa.out] using r2, r3, rfl⟩
        · refine ⟨i, e, (ih1 i hia).2 r1, ?_, r3, rfl⟩
          rw [extend_out ha hb hs, if_neg (hza hia).1, if_neg (hza hia).2]
          exact List.mem_append.2 (Or.inl r2)
    · rw [reach_snoc]
      constructor
      · rintro ⟨i, e, r1, r2, r3, rfl⟩
        rw [extend_out ha hb hs] at r2
        split at r2
        · exact (disjoint_nodes ha hb (hsa e r2) hj).elim
        · rename_i h0
          split at r2
          · rename_i hib
            obtain ⟨u, v, rfl, q1, q2, q3⟩ := (ih2 i hib).1 r1
            exact ⟨u, v ++ [x], by simp, q1, q2, reach_snoc.2 ⟨i, e, q3, r2, r3, rfl⟩⟩
          · rename_i hib
            have hia := hin r1 h0 hib
            have hra := (ih1 i hia).1 r1
            rcases List.mem_append.1 r2 with r2 | r2
            · exact (disjoint_nodes ha hb (ha.closed i (Or.inr hia) e (out_sub r2)).1 hj).elim
            · split at r2
              · rename_i hc
                refine ⟨w, [x], rfl, ⟨i, hc.1, hra⟩, reach_elems ha hra (Or.inr hc.2), ?_⟩
                have : Reach b ([] ++ [x]) e.1 := reach_snoc.2 ⟨0, e, .nil, by simpa [Nfa.out] using r2, r3, rfl⟩
                exact this
              · cases r2
      · rintro ⟨u, v, e0, ⟨t, ht, q1⟩, q2, q3⟩
        rcases List.eq_nil_or_concat v with rfl | ⟨v', y, rfl⟩
        · exact absurd ((reach_nil hb).1 q3) (hb.nz hj)
        · rw [List.concat_eq_append] at q3 e0
          rw [← List.append_assoc] at e0
          obtain ⟨rfl, e2⟩ := List.append_inj' e0 rfl
          injection e2 with e2 _
          subst e2
          obtain ⟨i, e, r1, r2, r3, r4⟩ := reach_snoc.1 q3
          rcases reach_dom hb r1 with ⟨rfl, rfl⟩ | ⟨_, hib⟩
          · have hta := ha.term t ht
            rw [List.append_nil] at ih1 ⊢
            refine ⟨t, e, (ih1 t hta).2 q1, ?_, r3, r4⟩
            rw [extend_out ha hb hs, if_neg (hza hta).1, if_neg (hza hta).2,
              if_pos ⟨ht, reach_isAttr ha q1 hta q2⟩]
            exact List.mem_append.2 (Or.inr (by simpa [Nfa.out] using r2))
          · refine ⟨i, e, (ih2 i hib).2 ⟨u, v', rfl, ⟨t, ht, q1⟩, q2, r1⟩, ?_, r3, r4⟩
            rw [extend_out ha hb hs, if_neg (hb.nz hib), if_pos hib]
            exact r2

theorem extend_acc {a b : Nfa} {lo k hi : Nat} (ha : WF a lo k) (hb : WF b k hi) (h1 : lo ≤ k) (h2 : k ≤ hi)
    (hs : a.start ≠ []) (w : List Sym) :
    Acc (a.extend b) w ↔ ∃ u v, w = u ++ v ∧ Acc a u ∧ (∀ x ∈ u, x.isElem) ∧ Acc b v := by
  obtain ⟨_, hB⟩ := extend_reach ha hb h1 h2 hs w
  constructor
  · rintro ⟨j, hj, hr⟩
    obtain ⟨u, v, e, q1, q2, q3⟩ := (hB j (hb.term j hj)).1 hr
    exact ⟨u, v, e, q1, q2, j, hj, q3⟩
  · rintro ⟨u, v, e, q1, q2, j, hj, q3⟩
    exact ⟨j, hj, (hB j (hb.term j hj)).2 ⟨u, v, e, q1, q2, q3⟩⟩

end Verif.Push
