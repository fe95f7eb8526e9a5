import Verif.Push.Machine
import Verif.Push.Words

/-
From the calls of the machine to the nodes that a pattern selects.
-/
namespace Verif.Push
open Verif.Push.Spec

theorem targets_append (a b : List Call) : targets (a ++ b) = targets a ++ targets b := by
  induction a with
  | nil => rfl
  | cons c a ih => cases c <;> simp [targets, ih]

theorem targets_attrs (f : QN → Bool) (p : Pos) (as : List QN) :
    targets (as.flatMap fun a => if f a then [.attrMatch p a] else []) = as.flatMap fun a => if f a then [p] else [] := by
  induction as with
  | nil => rfl
  | cons a as ih =>
    rw [List.flatMap_cons, List.flatMap_cons, targets_append, ih]
    cases f a <;> rfl

mutual
theorem targets_calls {doc : List Elem} {acc : List Sym → Bool} {sel : Node → Bool}
    (hsel : ∀ y w, Between doc (.tree []) y w → w ≠ [] → sel y = acc w) :
    ∀ (e : Elem) (p : Pos) (u : List Sym), elemAt doc p = some e → Between doc (.tree []) (.tree p) (u ++ [.elem (name e)]) →
    targets (calls acc u e p) = expected sel e p
  | .mk n as cs, p, u => fun he hb => by
    have h1 := hsel _ _ hb (by simp)
    simp only [name] at hb h1
    have hp : p ≠ [] := fun hc => by rw [hc, elemAt] at he; cases he
    have hch : ∀ (j : Nat) c, cs[j]? = some c → elemAt doc (p ++ [0 + j]) = some c := by
      intro j c hj
      rw [elemAt_snoc _ _ _ hp, he]
      simpa [children] using hj
    have ih := targets_all hsel cs p 0 (u ++ [.elem n]) hch hb
    rw [calls, expected]
    simp only [targets_append, targets_attrs, ih, h1]
    have hat : (as.flatMap fun a => if acc (u ++ [.elem n] ++ [.attr a]) then [p] else []) =
        as.flatMap fun a => if sel (.attr p a) then [p] else [] := by
      have : ∀ l : List QN, (∀ a ∈ l, a ∈ as) → (l.flatMap fun a => if acc (u ++ [.elem n] ++ [.attr a]) then [p] else []) =
          l.flatMap fun a => if sel (.attr p a) then [p] else [] := by
        intro l
        induction l with
        | nil => intro _; rfl
        | cons a l ihl =>
          intro hl
          have hab : Between doc (.tree p) (.attr (p ++ []) a) (([] : List QN).map .elem ++ [.attr a]) :=
            .attr (e := .mk n as cs) .nil (by rw [List.append_nil]; exact he) (hl a (by simp))
          rw [List.append_nil] at hab
          have := hsel _ _ (between_trans hb hab).1 (by simp)
          rw [List.flatMap_cons, List.flatMap_cons, ihl fun b hb => hl b (by simp [hb]), this]
          rfl
      exact this as fun _ h => h
    rw [hat]
    cases acc (u ++ [.elem n]) <;> simp [targets]
theorem targets_all {doc : List Elem} {acc : List Sym → Bool} {sel : Node → Bool}
    (hsel : ∀ y w, Between doc (.tree []) y w → w ≠ [] → sel y = acc w) :
    ∀ (cs : List Elem) (p : Pos) (i : Nat) (u : List Sym), (∀ (j : Nat) c, cs[j]? = some c → elemAt doc (p ++ [i + j]) = some c) →
    Between doc (.tree []) (.tree p) u → targets (callsAll acc u cs p i) = expectedAll sel cs p i
  | [], p, i, u => fun _ _ => by rw [callsAll, expectedAll]; rfl
  | c :: cs, p, i, u => fun he hb => by
    have hc := he 0 c (by simp)
    rw [Nat.add_zero] at hc
    have hcb : Between doc (.tree p) (.tree (p ++ ([] ++ [i]))) ((([] : List QN) ++ [name c]).map .elem) :=
      .elem (.snoc .nil hc)
    have hb2 := (between_trans hb hcb).1
    rw [callsAll, expectedAll, targets_append, targets_calls hsel c (p ++ [i]) u hc hb2]
    rw [targets_all hsel cs p (i + 1) u (fun j d hj => by
      have := he (j + 1) d (by simpa using hj)
      rw [show i + 1 + j = i + (j + 1) by omega]; exact this) hb]
end

/-- `pushtree` for a pattern whose NFA fits the document. -/
theorem pushtree_of_fit {ord : List Nat → List Nat} (hord : ∀ l, (ord l).Perm l) {p : Loc} {ps : List Loc} {n : Nat}
    {doc : Elem} (hp : ∀ q ∈ p :: ps, Supported q) (hpl : ∀ q ∈ p :: ps, ∀ s ∈ steps q, PlainFor doc s)
    {m : Nfa} {lo hi : Nat} (hm : toNfa p ps n = .ok m) (hw : WF m lo hi)
    (hf : Fit m (· ∈ elemNames doc) (· ∈ attrNames doc)) (ha : ∀ w, Acc m w ↔ ∃ q ∈ p :: ps, LocM q w) :
    pushtree ord p ps n doc =
      .ok (some (expectedAll (fun y => truth (∃ q ∈ p :: ps, Selects [doc] q y)) [doc] [] 0)) := by
  obtain ⟨mc, h1, h2⟩ := machine_calls hw hord hf doc (fun _ h => h) (fun _ h => h)
  unfold pushtree compile
  simp only [hm, h1, h2]
  congr 2
  refine targets_all (doc := [doc]) ?_ [doc] [] 0 [] ?_ ?_
  · intro y w hy hne
    refine acc_eq ?_
    simp only [truth, decide_eq_true_eq, ha]
    constructor
    · rintro ⟨q, hq, h⟩; exact ⟨q, hq, (selects_iff (hp q hq) (hpl q hq) hy hne).1 h⟩
    · rintro ⟨q, hq, h⟩; exact ⟨q, hq, (selects_iff (hp q hq) (hpl q hq) hy hne).2 h⟩
  · intro j c hj
    rw [Nat.zero_add, List.nil_append, elemAt_single]; exact hj
  · exact .elem .nil

theorem fit_guard {T : Test → Prop} {m : Nfa} (hg : Good T m) : ∀ i, i = 0 ∨ i ∈ m.nodes → (∃ e ∈ m.out i, e.2 = .any) →
    ∃ e ∈ m.out i, ∃ t, e.2 = .node t := by
  rintro i hi ⟨e, he, h⟩
  have ho : m.out i = m.edgesOf i := by
    unfold Nfa.out Nfa.edgesOf
    by_cases h0 : i = 0
    · simp [h0]
    · cases hat : m.isAttr i with
      | true => simp [Nfa.out, h0, hat] at he
      | false => simp [h0]
  rw [ho] at he ⊢
  exact hg.guard i hi ⟨e, he, h⟩

theorem toNameTest_inj {t t' : SrcTest} (h : toNameTest t = toNameTest t') : t = t' := by
  cases t <;> cases t' <;> simp_all [toNameTest]

theorem srcTest_node {s : SrcStep} {t : NameTest} (h : Test.node t = srcTest s) : s.axis ≠ .attribute ∧ t = toNameTest s.test := by
  obtain ⟨a, u⟩ := s
  cases a with
  | child => simp only [srcTest] at h; injection h with h; exact ⟨by simp, h⟩
  | descendant => simp only [srcTest] at h; injection h with h; exact ⟨by simp, h⟩
  | «attribute» => simp [srcTest] at h

theorem srcTest_attr {s : SrcStep} {t : NameTest} (h : Test.attr t = srcTest s) : s.axis = .attribute ∧ t = toNameTest s.test := by
  obtain ⟨a, u⟩ := s
  cases a with
  | child => simp [srcTest] at h
  | descendant => simp [srcTest] at h
  | «attribute» => simp only [srcTest] at h; injection h with h; exact ⟨rfl, h⟩

theorem namesFor_elem {doc : Elem} {s : SrcStep} (h : s.axis ≠ .attribute) : namesFor doc s.axis = elemNames doc := by
  obtain ⟨a, u⟩ := s
  cases a with
  | child => rfl
  | descendant => rfl
  | «attribute» => exact absurd rfl h

/-- Separate tests. -/
theorem fit_of_separate {p : Loc} {ps : List Loc} {doc : Elem}
    (hpl : ∀ q ∈ p :: ps, ∀ s ∈ steps q, PlainFor doc s) (hs : Separate doc ((p :: ps).flatMap steps)) {m : Nfa} {lo hi : Nat}
    (hw : WF m lo hi) (hg : Good (fun t => ∃ q ∈ p :: ps, ∃ s ∈ steps q, t = srcTest s) m) :
    Fit m (· ∈ elemNames doc) (· ∈ attrNames doc) := by
  have dom : ∀ {u i}, Reach m u i → i = 0 ∨ i ∈ m.nodes := by
    intro u i hr
    rcases reach_dom hw hr with ⟨_, e⟩ | ⟨_, e⟩
    · exact Or.inl e
    · exact Or.inr e
  have src : ∀ {u i e}, Reach m u i → e ∈ m.out i → e.2 ≠ .any → ∃ q ∈ p :: ps, ∃ s ∈ steps q, e.2 = srcTest s := by
    intro u i e hr he hne
    exact (hg.tests i (dom hr) e (out_sub he)).resolve_left hne
  refine ⟨fit_guard hg, ?_, ?_⟩
  · intro u i j e e' t t' n hi hj he he' hn h1 h2 h3 h4
    obtain ⟨q, hq, s, hsq, h5⟩ := src hi he (by rw [h1]; simp)
    obtain ⟨q', hq', s', hsq', h6⟩ := src hj he' (by rw [h2]; simp)
    obtain ⟨a1, rfl⟩ := srcTest_node (h1 ▸ h5)
    obtain ⟨a2, rfl⟩ := srcTest_node (h2 ▸ h6)
    have n1 : n ∈ namesFor doc s.axis := by rw [namesFor_elem a1]; exact hn
    have n2 : n ∈ namesFor doc s'.axis := by rw [namesFor_elem a2]; exact hn
    rw [hs s (List.mem_flatMap.2 ⟨q, hq, hsq⟩) s' (List.mem_flatMap.2 ⟨q', hq', hsq'⟩) (by simp [a1, a2]) n n1
      ((ok_iff (hpl q hq s hsq) n1).1 h3) ((ok_iff (hpl q' hq' s' hsq') n2).1 h4)]
  · intro u i j e e' t t' n hi hj he he' hn h1 h2 h3 h4
    obtain ⟨q, hq, s, hsq, h5⟩ := src hi he (by rw [h1]; simp)
    obtain ⟨q', hq', s', hsq', h6⟩ := src hj he' (by rw [h2]; simp)
    obtain ⟨a1, rfl⟩ := srcTest_attr (h1 ▸ h5)
    obtain ⟨a2, rfl⟩ := srcTest_attr (h2 ▸ h6)
    have n1 : n ∈ namesFor doc s.axis := by rw [a1]; exact hn
    have n2 : n ∈ namesFor doc s'.axis := by rw [a2]; exact hn
    rw [hs s (List.mem_flatMap.2 ⟨q, hq, hsq⟩) s' (List.mem_flatMap.2 ⟨q', hq', hsq'⟩) (by simp [a1, a2]) n n1
      ((ok_iff (hpl q hq s hsq) n1).1 h3) ((ok_iff (hpl q' hq' s' hsq') n2).1 h4)]

/-! Paths of children -/

/-- There is only one way through the NFA. -/
structure Line (m : Nfa) : Prop where
  single : ∀ i, i = 0 ∨ i ∈ m.nodes → (m.edgesOf i).length ≤ 1
  ends : ∀ i ∈ m.terminal, m.edgesOf i = []
  one : m.terminal.length ≤ 1
  noAny : ∀ i, i = 0 ∨ i ∈ m.nodes → ∀ e ∈ m.edgesOf i, ∃ t, e.2 = .node t

theorem line_reach {m : Nfa} {lo hi : Nat} (hw : WF m lo hi) (hl : Line m) {u : List Sym} : ∀ {i j}, Reach m u i → Reach m u j → i = j := by
  induction u using snocInd with
  | nil => intro i j h1 h2; rw [(reach_nil hw).1 h1, (reach_nil hw).1 h2]
  | snoc u x ih =>
    intro i j h1 h2
    obtain ⟨i', e, r1, r2, _, rfl⟩ := reach_snoc.1 h1
    obtain ⟨j', e', s1, s2, _, rfl⟩ := reach_snoc.1 h2
    have := ih r1 s1
    subst this
    have hd : i' = 0 ∨ i' ∈ m.nodes := by
      rcases reach_dom hw r1 with ⟨_, e⟩ | ⟨_, e⟩
      · exact Or.inl e
      · exact Or.inr e
    have hs := hl.single i' hd
    have a1 := out_sub r2
    have a2 := out_sub s2
    match hl' : m.edgesOf i', hs with
    | [], _ => rw [hl'] at a1; cases a1
    | [x], _ => rw [hl'] at a1 a2; simp at a1 a2; rw [a1, a2]
    | _ :: _ :: _, h => simp at h

theorem line_fit {m : Nfa} {lo hi : Nat} {N A : QN → Prop} (hw : WF m lo hi) (hl : Line m) : Fit m N A := by
  have dom : ∀ {u i}, Reach m u i → i = 0 ∨ i ∈ m.nodes := by
    intro u i hr
    rcases reach_dom hw hr with ⟨_, e⟩ | ⟨_, e⟩
    · exact Or.inl e
    · exact Or.inr e
  have same : ∀ {u i j e e'}, Reach m u i → Reach m u j → e ∈ m.out i → e' ∈ m.out j → e = e' := by
    intro u i j e e' h1 h2 h3 h4
    have := line_reach hw hl h1 h2
    subst this
    have hs := hl.single i (dom h1)
    have a1 := out_sub h3
    have a2 := out_sub h4
    match hl' : m.edgesOf i, hs with
    | [], _ => rw [hl'] at a1; cases a1
    | [x], _ => rw [hl'] at a1 a2; simp at a1 a2; rw [a1, a2]
    | _ :: _ :: _, h => simp at h
  refine ⟨?_, ?_, ?_⟩
  · rintro i hi ⟨e, he, h⟩
    obtain ⟨t, ht⟩ := hl.noAny i hi e (out_sub he)
    exact ⟨e, he, t, ht⟩
  · intro u i j e e' t t' n h1 h2 h3 h4 _ h5 h6 _ _
    have := same h1 h2 h3 h4
    subst this
    rw [h5] at h6; injection h6
  · intro u i j e e' t t' n h1 h2 h3 h4 _ h5 h6 _ _
    have := same h1 h2 h3 h4
    subst this
    rw [h5] at h6; injection h6

theorem line_extend {m : Nfa} {lo n : Nat} (hlo : 1 ≤ lo) (hle : lo ≤ n) (hw : WF m lo n) (hl : Line m) (t : NameTest) :
    Line (m.extend (stepM n (.node t))) := by
  have hn : 1 ≤ n := Nat.le_trans hlo hle
  have hb := stepM_wf hn (.node t)
  have hbe : ∀ i, (stepM n (.node t)).edgesOf i = if i = 0 then [(n, .node t)] else [] := by
    intro i
    unfold Nfa.edgesOf
    split
    · rfl
    · simp [stepM, Nfa.newStart, Nfa.empty]
  have h0 : (m.extend (stepM n (.node t))).edgesOf 0 = if m.start = [] then [(n, .node t)] else m.edgesOf 0 := by
    unfold Nfa.edgesOf Nfa.extend; simp [stepM, Nfa.newStart, Nfa.empty]
  have hnn : n ∉ m.nodes := fun hc => by have := hw.range n hc; omega
  have hbn : (m.extend (stepM n (.node t))).edgesOf n = [] := by
    have h2 : n ∉ m.terminal := fun hc => hnn (hw.term n hc)
    have : n ≠ 0 := by omega
    simp [Nfa.edgesOf, Nfa.extend, this, h2, stepM, Nfa.newStart, Nfa.empty]
  have han : ∀ i, i ∈ m.nodes → (m.extend (stepM n (.node t))).edgesOf i =
      m.edgesOf i ++ if i ∈ m.terminal then [(n, .node t)] else [] := by
    intro i hi'
    have h1 := hw.nz hi'
    have h2 : i ≠ n := fun hc => hnn (hc ▸ hi')
    simp [Nfa.edgesOf, Nfa.extend, h1, h2, stepM, Nfa.newStart, Nfa.empty]
  have hnodes : ∀ i, i ∈ (m.extend (stepM n (.node t))).nodes → i ∈ m.nodes ∨ i = n := by
    intro i hi
    rcases List.mem_append.1 hi with h | h
    · exact Or.inl h
    · exact Or.inr (by simpa [stepM, Nfa.newStart, Nfa.empty] using h)
  refine ⟨?_, ?_, ?_, ?_⟩
  · rintro i (rfl | hi)
    · rw [h0]
      split
      · simp
      · exact hl.single 0 (Or.inl rfl)
    · rcases hnodes i hi with h | rfl
      · rw [han i h]
        split
        · rename_i ht; rw [hl.ends i ht]; simp
        · rw [List.append_nil]; exact hl.single i (Or.inr h)
      · rw [hbn]; simp
  · intro i hi
    have : i = n := by simpa [Nfa.extend, stepM] using hi
    subst this
    exact hbn
  · simp [Nfa.extend, stepM]
  · rintro i (rfl | hi) e h
    · rw [h0] at h
      split at h
      · simp at h; subst h; exact ⟨t, rfl⟩
      · exact hl.noAny 0 (Or.inl rfl) e h
    · rcases hnodes i hi with hm | rfl
      · rw [han i hm] at h
        rcases List.mem_append.1 h with h | h
        · exact hl.noAny i (Or.inr hm) e h
        · split at h
          · simp at h; subst h; exact ⟨t, rfl⟩
          · cases h
      · rw [hbn] at h; cases h

theorem absLoop_line : ∀ (ss : List PStep) (m : Nfa) (lo n : Nat) (m' : Nfa) (n' : Nat), 1 ≤ lo → lo ≤ n → WF m lo n → Line m →
    (∀ s ∈ ss, ∃ t, s = .mk .child t) → absLoop ss m n = .ok (m', n') → Line m'
  | [], m, lo, n, m', n' => fun _ _ _ hl _ h => by
    injection h with h; injection h with h _; subst h; exact hl
  | s :: ss, m, lo, n, m', n' => fun h1 h2 hw hl hs h => by
    obtain ⟨t, rfl⟩ := hs s (by simp)
    have hb := stepM_wf (Nat.le_trans h1 h2) (.node (toNameTest t))
    have hl' := line_extend h1 h2 hw hl (toNameTest t)
    exact absLoop_line ss (m.extend (stepM n (.node (toNameTest t)))) lo (n + 1) m' n' h1 (by omega)
      (extend_wf hw hb h2 (Nat.le_succ _)) hl' (fun x hx => hs x (by simp [hx])) h

theorem ladder_steps : ∀ r, Ladder r → Downward r ∧ ∀ s ∈ (parseRel r).2, ∃ t, s = PStep.mk .child t
  | .one s => fun h => by
    obtain ⟨a, t⟩ := s
    have h : a = .child := h
    subst h
    exact ⟨by simp [Downward], by simp [parseRel]⟩
  | .slash r s => fun h => by
    obtain ⟨a, t⟩ := s
    obtain ⟨h, h2⟩ := h
    have h2 : a = .child := h2
    subst h2
    obtain ⟨h3, h4⟩ := ladder_steps r h
    refine ⟨⟨h3, by simp⟩, fun s hs => ?_⟩
    rw [parseRel] at hs
    rcases List.mem_append.1 hs with hs | hs
    · exact h4 s hs
    · simp at hs; exact ⟨t, hs⟩
  | .dslash _ _ => fun h => h.elim

theorem line_empty : Line .empty :=
  ⟨by simp [Nfa.empty, Nfa.edgesOf], by simp [Nfa.empty], by simp [Nfa.empty], by simp [Nfa.empty, Nfa.edgesOf]⟩

end Verif.Push
