import Verif.Push.Lang

/-
The decision trees and what is made of them.
-/
namespace Verif.Push
open Verif.Push.Spec

/-- The set a tree leads to. -/
def evalT (f : NameTest → Bool) : Tree → List Nat
  | .leaf s => s
  | .branch t a b => if f t then evalT f a else evalT f b

def testsOf : Tree → List NameTest
  | .leaf _ => []
  | .branch t a b => t :: (testsOf a ++ testsOf b)

/-- The only branches are on the `no` side. -/
inductive Chain : Tree → Prop
  | leaf (s : List Nat) : Chain (.leaf s)
  | branch (t : NameTest) (s : List Nat) {b : Tree} (h : Chain b) : Chain (.branch t (.leaf s) b)

/-- As `Chain`; a test leads to something, and nothing is reached without a test. -/
inductive AChain : Tree → Prop
  | leaf : AChain (.leaf [])
  | branch (t : NameTest) {s : List Nat} (hs : s ≠ []) {b : Tree} (h : AChain b) : AChain (.branch t (.leaf s) b)

theorem mem_addLeaves (f : NameTest → Bool) (n i : Nat) (t : Tree) :
    i ∈ evalT f (addLeaves n t) ↔ i ∈ evalT f t ∨ i = n := by
  induction t with
  | leaf s => simp [addLeaves, evalT, or_comm]
  | branch t a b iha ihb =>
    simp only [addLeaves, evalT]
    split
    · exact iha
    · exact ihb

theorem testsOf_addLeaves (n : Nat) (t : Tree) : testsOf (addLeaves n t) = testsOf t := by
  induction t with
  | leaf s => rfl
  | branch t a b iha ihb => simp [addLeaves, testsOf, iha, ihb]

theorem mem_addTest (f : NameTest → Bool) (t : NameTest) (n i : Nat) (tr : Tree)
    (h : ∀ u ∈ testsOf tr, f u = true → f t = true → u = t) :
    i ∈ evalT f (addTest t n tr) ↔ i ∈ evalT f tr ∨ (i = n ∧ f t = true) := by
  induction tr with
  | leaf s =>
    simp only [addTest, evalT]
    split
    · rename_i hf; simp [hf, or_comm]
    · rename_i hf; simp [hf]
  | branch u a b iha ihb =>
    rw [addTest]
    by_cases hu : u = t
    · rw [if_pos hu]
      simp only [evalT]
      split
      · rename_i hf; rw [mem_addLeaves, ← hu, hf]; simp
      · rename_i hf; rw [← hu]; simp [hf]
    · rw [if_neg hu]
      simp only [evalT]
      split
      · rename_i hf
        have : f t ≠ true := fun hc => hu (h u (by simp [testsOf]) hf hc)
        simp [this]
      · exact ihb fun v hv => h v (by simp [testsOf, hv])

theorem testsOf_addTest (t : NameTest) (n : Nat) (tr : Tree) :
    ∀ u ∈ testsOf (addTest t n tr), u = t ∨ u ∈ testsOf tr := by
  induction tr with
  | leaf s => intro u hu; simp [addTest, testsOf] at hu; exact Or.inl hu
  | branch v a b iha ihb =>
    intro u hu
    rw [addTest] at hu
    split at hu
    · rename_i he
      simp [testsOf, testsOf_addLeaves] at hu ⊢
      rcases hu with hu | hu | hu
      · exact Or.inr (Or.inl hu)
      · exact Or.inr (Or.inr (Or.inl hu))
      · exact Or.inr (Or.inr (Or.inr hu))
    · simp [testsOf] at hu ⊢
      rcases hu with hu | hu | hu
      · exact Or.inr (Or.inl hu)
      · exact Or.inr (Or.inr (Or.inl hu))
      · rcases ihb u hu with h | h
        · exact Or.inl h
        · exact Or.inr (Or.inr (Or.inr h))

theorem self_addTest (t : NameTest) (n : Nat) (tr : Tree) : t ∈ testsOf (addTest t n tr) := by
  induction tr with
  | leaf s => simp [addTest, testsOf]
  | branch v a b iha ihb =>
    rw [addTest]
    split
    · rename_i he; simp [testsOf, he]
    · simp [testsOf, ihb]

theorem sub_addTest (t : NameTest) (n : Nat) (tr : Tree) : ∀ u ∈ testsOf tr, u ∈ testsOf (addTest t n tr) := by
  induction tr with
  | leaf s => simp [testsOf]
  | branch v a b iha ihb =>
    intro u hu
    rw [addTest]
    split
    · simpa [testsOf, testsOf_addLeaves] using hu
    · simp [testsOf] at hu ⊢
      rcases hu with hu | hu | hu
      · exact Or.inl hu
      · exact Or.inr (Or.inl hu)
      · exact Or.inr (Or.inr (ihb u hu))

theorem Chain.addLeaves {n : Nat} {t : Tree} (h : Chain t) : Chain (addLeaves n t) := by
  induction h with
  | leaf s => exact .leaf _
  | branch t s h ih => exact .branch t _ ih

theorem Chain.addTest {t : NameTest} {n : Nat} {tr : Tree} (h : Chain tr) : Chain (addTest t n tr) := by
  induction h with
  | leaf s => exact .branch t _ (.leaf _)
  | branch u s h ih =>
    rw [Push.addTest]
    split
    · exact .branch u _ h
    · exact .branch u _ ih

theorem AChain.addTest {t : NameTest} {n : Nat} {tr : Tree} (h : AChain tr) : AChain (addTest t n tr) := by
  induction h with
  | leaf => exact .branch t (by simp) .leaf
  | branch u hs h ih =>
    rw [Push.addTest]
    split
    · exact .branch u (s := _ :: _) (by simp) h
    · exact .branch u hs ih

theorem AChain.nodup_addTest {t : NameTest} {n : Nat} {tr : Tree} (h : AChain tr) (hn : (testsOf tr).Nodup) :
    (testsOf (Push.addTest t n tr)).Nodup := by
  induction h with
  | leaf => simp [Push.addTest, testsOf]
  | @branch u s hs b h ih =>
    rw [Push.addTest]
    simp only [testsOf, List.nil_append, List.nodup_cons] at hn
    split
    · simp only [testsOf, Push.addLeaves, List.nil_append, List.nodup_cons]; exact hn
    · rename_i hne
      simp only [testsOf, List.nil_append, List.nodup_cons]
      refine ⟨?_, ih hn.2⟩
      intro hc
      rcases testsOf_addTest t n b u hc with e | e
      · exact hne e
      · exact hn.1 e

/-! Tables -/

/-- Of two tests of names for the same kind of node that hold for `n`, both are the same. -/
def SepN (es : List Edge) (n : QN) : Prop :=
  ∀ e ∈ es, ∀ e' ∈ es, ∀ t t', e.2 = .node t → e'.2 = .node t' → t.ok n = true → t'.ok n = true → t = t'

def SepA (es : List Edge) (n : QN) : Prop :=
  ∀ e ∈ es, ∀ e' ∈ es, ∀ t t', e.2 = .attr t → e'.2 = .attr t' → t.ok n = true → t'.ok n = true → t = t'

theorem makeTable_snoc (es : List Edge) (e : Edge) : makeTable (es ++ [e]) = (makeTable es).add e := by
  simp [makeTable, List.foldl_append]

theorem tests_node (es : List Edge) : ∀ t, t ∈ testsOf (makeTable es).node ↔ ∃ e ∈ es, e.2 = .node t := by
  induction es using snocInd with
  | nil => intro t; simp [makeTable, testsOf]
  | snoc es e ih =>
    intro t
    rw [makeTable_snoc]
    obtain ⟨k, u⟩ := e
    cases u with
    | any =>
      simp only [Table.add, testsOf_addLeaves, ih]
      constructor
      · rintro ⟨e, he, h⟩; exact ⟨e, by simp [he], h⟩
      · rintro ⟨e, he, h⟩
        rcases List.mem_append.1 he with he | he
        · exact ⟨e, he, h⟩
        · simp at he; subst he; simp at h
    | node u =>
      simp only [Table.add]
      constructor
      · intro h
        rcases testsOf_addTest _ _ _ _ h with rfl | h
        · exact ⟨(k, .node t), by simp, rfl⟩
        · obtain ⟨e, he, h⟩ := (ih t).1 h; exact ⟨e, by simp [he], h⟩
      · rintro ⟨e, he, h⟩
        rcases List.mem_append.1 he with he | he
        · exact sub_addTest _ _ _ _ ((ih t).2 ⟨e, he, h⟩)
        · simp at he; subst he; simp at h; subst h; exact self_addTest _ _ _
    | attr u =>
      simp only [Table.add, ih]
      constructor
      · rintro ⟨e, he, h⟩; exact ⟨e, by simp [he], h⟩
      · rintro ⟨e, he, h⟩
        rcases List.mem_append.1 he with he | he
        · exact ⟨e, he, h⟩
        · simp at he; subst he; simp at h

theorem tests_attr (es : List Edge) : ∀ t ∈ testsOf (makeTable es).attr, ∃ e ∈ es, e.2 = .attr t := by
  induction es using snocInd with
  | nil => intro t; simp [makeTable, testsOf]
  | snoc es e ih =>
    intro t
    rw [makeTable_snoc]
    obtain ⟨k, u⟩ := e
    have old : t ∈ testsOf (makeTable es).attr → ∃ e ∈ es ++ [(k, u)], e.2 = Test.attr t := fun h => by
      obtain ⟨e, he, h⟩ := ih t h; exact ⟨e, by simp [he], h⟩
    cases u with
    | any => exact old
    | node u => exact old
    | attr u =>
      simp only [Table.add]
      intro h
      rcases testsOf_addTest _ _ _ _ h with rfl | h
      · exact ⟨(k, .attr t), by simp, rfl⟩
      · exact old h

theorem mem_node (es : List Edge) (n : QN) (hs : SepN es n) (i : Nat) :
    i ∈ evalT (fun t => t.ok n) (makeTable es).node ↔ ∃ e ∈ es, e.2.okS (.elem n) = true ∧ e.1 = i := by
  induction es using snocInd with
  | nil => simp [makeTable, evalT]
  | snoc es e ih =>
    have ih := ih fun e he e' he' => hs e (by simp [he]) e' (by simp [he'])
    rw [makeTable_snoc]
    have split : (∃ e' ∈ es ++ [e], e'.2.okS (.elem n) = true ∧ e'.1 = i) ↔
        (∃ e ∈ es, e.2.okS (.elem n) = true ∧ e.1 = i) ∨ (e.2.okS (.elem n) = true ∧ e.1 = i) := by
      constructor
      · rintro ⟨e', he', h⟩
        rcases List.mem_append.1 he' with he' | he'
        · exact Or.inl ⟨e', he', h⟩
        · simp at he'; subst he'; exact Or.inr h
      · rintro (⟨e', he', h⟩ | h)
        · exact ⟨e', by simp [he'], h⟩
        · exact ⟨e, by simp, h⟩
    rw [split, ← ih]
    obtain ⟨k, u⟩ := e
    cases u with
    | any =>
      simp only [Table.add, mem_addLeaves, Test.okS]
      constructor
      · rintro (h | h)
        · exact Or.inl h
        · exact Or.inr ⟨trivial, h.symm⟩
      · rintro (h | h)
        · exact Or.inl h
        · exact Or.inr h.2.symm
    | node u =>
      simp only [Table.add]
      rw [mem_addTest]
      · constructor
        · rintro (h | h)
          · exact Or.inl h
          · exact Or.inr ⟨h.2, h.1.symm⟩
        · rintro (h | h)
          · exact Or.inl h
          · exact Or.inr ⟨h.2.symm, h.1⟩
      · intro v hv h1 h2
        obtain ⟨e, he, h⟩ := (tests_node es v).1 hv
        exact hs e (by simp [he]) (k, .node u) (by simp) v u h rfl h1 h2
    | attr u => simp [Table.add, Test.okS]

theorem mem_attr (es : List Edge) (n : QN) (hs : SepA es n) (i : Nat) :
    i ∈ evalT (fun t => t.ok n) (makeTable es).attr ↔ ∃ e ∈ es, e.2.okS (.attr n) = true ∧ e.1 = i := by
  induction es using snocInd with
  | nil => simp [makeTable, evalT]
  | snoc es e ih =>
    have ih := ih fun e he e' he' => hs e (by simp [he]) e' (by simp [he'])
    rw [makeTable_snoc]
    have split : (∃ e' ∈ es ++ [e], e'.2.okS (.attr n) = true ∧ e'.1 = i) ↔
        (∃ e ∈ es, e.2.okS (.attr n) = true ∧ e.1 = i) ∨ (e.2.okS (.attr n) = true ∧ e.1 = i) := by
      constructor
      · rintro ⟨e', he', h⟩
        rcases List.mem_append.1 he' with he' | he'
        · exact Or.inl ⟨e', he', h⟩
        · simp at he'; subst he'; exact Or.inr h
      · rintro (⟨e', he', h⟩ | h)
        · exact ⟨e', by simp [he'], h⟩
        · exact ⟨e, by simp, h⟩
    rw [split, ← ih]
    obtain ⟨k, u⟩ := e
    cases u with
    | any => simp [Table.add, Test.okS]
    | node u => simp [Table.add, Test.okS]
    | attr u =>
      simp only [Table.add]
      rw [mem_addTest]
      · constructor
        · rintro (h | h)
          · exact Or.inl h
          · exact Or.inr ⟨h.2, h.1.symm⟩
        · rintro (h | h)
          · exact Or.inl h
          · exact Or.inr ⟨h.2.symm, h.1⟩
      · intro v hv h1 h2
        obtain ⟨e, he, h⟩ := tests_attr es v hv
        exact hs e (by simp [he]) (k, .attr u) (by simp) v u h rfl h1 h2

theorem node_chain (es : List Edge) : Chain (makeTable es).node := by
  induction es using snocInd with
  | nil => exact .leaf _
  | snoc es e ih =>
    rw [makeTable_snoc]
    obtain ⟨k, u⟩ := e
    cases u with
    | any => exact ih.addLeaves
    | node u => exact ih.addTest
    | attr u => exact ih

theorem attr_chain (es : List Edge) : AChain (makeTable es).attr ∧ (testsOf (makeTable es).attr).Nodup := by
  induction es using snocInd with
  | nil => exact ⟨.leaf, by simp [makeTable, testsOf]⟩
  | snoc es e ih =>
    rw [makeTable_snoc]
    obtain ⟨k, u⟩ := e
    cases u with
    | any => exact ih
    | node u => exact ih
    | attr u => exact ⟨ih.1.addTest, ih.1.nodup_addTest ih.2⟩

/-- Every item of a leaf is the target of an edge. -/
theorem leaves_addLeaves (n : Nat) (t : Tree) : ∀ s ∈ leaves (addLeaves n t), ∃ s' ∈ leaves t, s = n :: s' := by
  induction t with
  | leaf s => intro s hs; simp [addLeaves, leaves] at hs; exact ⟨_, by simp [leaves], hs⟩
  | branch t a b iha ihb =>
    intro s hs
    simp only [addLeaves, leaves, List.mem_append] at hs
    rcases hs with hs | hs
    · obtain ⟨s', h1, h2⟩ := ihb s hs; exact ⟨s', by simp [leaves, h1], h2⟩
    · obtain ⟨s', h1, h2⟩ := iha s hs; exact ⟨s', by simp [leaves, h1], h2⟩

theorem leaves_addTest (t : NameTest) (n : Nat) (tr : Tree) :
    ∀ s ∈ leaves (addTest t n tr), s ∈ leaves tr ∨ ∃ s' ∈ leaves tr, s = n :: s' := by
  induction tr with
  | leaf s =>
    intro s' hs
    simp [addTest, leaves] at hs ⊢
    rcases hs with hs | hs
    · exact Or.inl hs
    · exact Or.inr hs
  | branch u a b iha ihb =>
    intro s hs
    rw [addTest] at hs
    split at hs
    · simp only [leaves, List.mem_append] at hs ⊢
      rcases hs with hs | hs
      · exact Or.inl (Or.inl hs)
      · obtain ⟨s', h1, h2⟩ := leaves_addLeaves n a s hs
        exact Or.inr ⟨s', Or.inr h1, h2⟩
    · simp only [leaves, List.mem_append] at hs ⊢
      rcases hs with hs | hs
      · rcases ihb s hs with h | ⟨s', h1, h2⟩
        · exact Or.inl (Or.inl h)
        · exact Or.inr ⟨s', Or.inl h1, h2⟩
      · exact Or.inl (Or.inr hs)

theorem leaves_targets (es : List Edge) :
    (∀ s ∈ leaves (makeTable es).node, ∀ i ∈ s, ∃ e ∈ es, e.1 = i) ∧
    (∀ s ∈ leaves (makeTable es).attr, ∀ i ∈ s, ∃ e ∈ es, e.1 = i) := by
  induction es using snocInd with
  | nil => simp [makeTable, leaves]
  | snoc es e ih =>
    obtain ⟨ih1, ih2⟩ := ih
    have o1 : ∀ s ∈ leaves (makeTable es).node, ∀ i ∈ s, ∃ e' ∈ es ++ [e], e'.1 = i := fun s hs i hi => by
      obtain ⟨e', h, h'⟩ := ih1 s hs i hi; exact ⟨e', by simp [h], h'⟩
    have o2 : ∀ s ∈ leaves (makeTable es).attr, ∀ i ∈ s, ∃ e' ∈ es ++ [e], e'.1 = i := fun s hs i hi => by
      obtain ⟨e', h, h'⟩ := ih2 s hs i hi; exact ⟨e', by simp [h], h'⟩
    rw [makeTable_snoc]
    obtain ⟨k, u⟩ := e
    cases u with
    | any =>
      refine ⟨fun s hs i hi => ?_, o2⟩
      obtain ⟨s', h1, rfl⟩ := leaves_addLeaves _ _ s hs
      rcases List.mem_cons.1 hi with rfl | hi
      · exact ⟨(i, .any), by simp, rfl⟩
      · exact o1 s' h1 i hi
    | node u =>
      refine ⟨fun s hs i hi => ?_, o2⟩
      rcases leaves_addTest _ _ _ s hs with h | ⟨s', h1, rfl⟩
      · exact o1 s h i hi
      · rcases List.mem_cons.1 hi with rfl | hi
        · exact ⟨(i, .node u), by simp, rfl⟩
        · exact o1 s' h1 i hi
    | attr u =>
      refine ⟨o1, fun s hs i hi => ?_⟩
      rcases leaves_addTest _ _ _ s hs with h | ⟨s', h1, rfl⟩
      · exact o2 s h i hi
      · rcases List.mem_cons.1 hi with rfl | hi
        · exact ⟨(i, .attr u), by simp, rfl⟩
        · exact o2 s' h1 i hi

theorem eval_leaves (f : NameTest → Bool) (t : Tree) : evalT f t ∈ leaves t := by
  induction t with
  | leaf s => simp [evalT, leaves]
  | branch t a b iha ihb =>
    simp only [evalT, leaves]
    split
    · exact List.mem_append.2 (Or.inr iha)
    · exact List.mem_append.2 (Or.inl ihb)

theorem testsOf_nil {t : Tree} (h : testsOf t = []) : ∃ s, t = .leaf s := by
  cases t with
  | leaf s => exact ⟨s, rfl⟩
  | branch t a b => simp [testsOf] at h

/-! The items for a tree -/

/-- The reference to a leaf. -/
def lref (num : List Nat → Nat) (s : List Nat) : Int := if s = [] then 0 else -(num s : Int)

def chainOps (num : List Nat → Nat) : Nat → Tree → List Op
  | _, .leaf _ => []
  | _, .branch t (.leaf s) (.leaf s') => [.full t (lref num s) (lref num s')]
  | k, .branch t (.leaf s) b => .full t (lref num s) (k + 1 : Nat) :: chainOps num (k + 1) b
  | _, .branch _ _ _ => []

theorem refOf_leaf (num : List Nat → Nat) (len : Nat) (s : List Nat) : refOf num len (.leaf s) = (lref num s, []) := by
  cases s <;> simp [refOf, lref]

theorem refOf_branch (num : List Nat → Nat) (len : Nat) (t : NameTest) (a b : Tree) :
    refOf num len (.branch t a b) = ((len : Int), [.tree (.branch t a b)]) := rfl

theorem lref_le (num : List Nat → Nat) (s : List Nat) : ¬ 0 < lref num s := by
  unfold lref; split <;> omega

theorem opsLoop_chain (num : List Nat → Nat) {b : Tree} (h : Chain b) :
    ∀ (t : NameTest) (s : List Nat) (pre : List Slot),
    opsLoop num (branches (.branch t (.leaf s) b)) [pre.length] (pre ++ [.tree (.branch t (.leaf s) b)]) =
      some (pre ++ (chainOps num pre.length (.branch t (.leaf s) b)).map .op) := by
  induction h with
  | leaf s' =>
    intro t s pre
    simp [branches, opsLoop, refOf_leaf, lref_le, chainOps]
  | @branch u s' b' h ih =>
    intro t s pre
    rw [show branches (.branch t (.leaf s) (.branch u (.leaf s') b')) = branches (.branch u (.leaf s') b') + 1 by
      simp [branches]; omega]
    rw [opsLoop]
    simp only [List.getElem?_append_right (Nat.le_refl _), Nat.sub_self, List.getElem?_cons_zero, refOf_leaf, refOf_branch,
      List.append_nil, lref_le, if_false, List.nil_append, List.length_append, List.length_singleton]
    have hset : ((pre ++ [Slot.tree (.branch t (.leaf s) (.branch u (.leaf s') b'))]) ++
        [Slot.tree (.branch u (.leaf s') b')]).set pre.length (.op (.full t (lref num s) ((pre.length + 1 : Nat) : Int))) =
        (pre ++ [.op (.full t (lref num s) ((pre.length + 1 : Nat) : Int))]) ++ [.tree (.branch u (.leaf s') b')] := by
      simp
    have hp : (0 : Int) < ((pre.length + 1 : Nat) : Int) := by omega
    rw [if_pos hp, hset]
    have := ih u s' (pre ++ [.op (.full t (lref num s) ((pre.length + 1 : Nat) : Int))])
    rw [List.length_append, List.length_singleton] at this
    simp only [Int.toNat_natCast]
    rw [this]
    simp [chainOps]

theorem mapM_ops (l : List Op) : (l.map Slot.op).mapM Slot.op? = some l := by
  induction l with
  | nil => rfl
  | cons a l ih =>
    rw [List.map_cons, List.mapM_cons, ih]; rfl

/-- `node_ops` for the trees that occur. -/
theorem nodeOps_chain (num : List Nat → Nat) {tr : Tree} (h : Chain tr) (hl : ∀ s, tr = .leaf s → s = []) :
    nodeOps num tr = some (chainOps num 0 tr) := by
  cases h with
  | leaf s => rw [hl s rfl]; rfl
  | @branch t s b h =>
    have := opsLoop_chain num h t s []
    simp only [List.length_nil, List.nil_append] at this
    unfold nodeOps
    simp only [this, Option.bind_some, mapM_ops]

def refResult (num : List Nat → Nat) (s : List Nat) : Option Nat := if s = [] then none else some (num s)

theorem length_chainOps (num : List Nat → Nat) {b : Tree} (h : Chain b) : ∀ k, (chainOps num k b).length = branches b := by
  induction h with
  | leaf s => intro k; rfl
  | @branch t s b h ih =>
    intro k
    cases h with
    | leaf s' => rfl
    | branch u s' h' =>
      rw [chainOps]
      · simp [ih, branches]; omega
      · simp

theorem walk_chain (num : List Nat → Nat) (hnum : ∀ s, num s ≠ 0) (n : QN) {b : Tree} (h : Chain b) :
    ∀ (t : NameTest) (s : List Nat) (pre : List Op) (fuel : Nat), branches (.branch t (.leaf s) b) ≤ fuel →
    walk (pre ++ chainOps num pre.length (.branch t (.leaf s) b)) n fuel pre.length =
      .ok (refResult num (evalT (fun t => t.ok n) (.branch t (.leaf s) b))) := by
  have stop : ∀ s ops fuel, (if lref num s = 0 then Except.ok none
      else if lref num s < 0 then Except.ok (some (lref num s).natAbs)
      else walk ops n fuel (lref num s).toNat) = Except.ok (refResult num s) := by
    intro s ops fuel
    unfold lref refResult
    by_cases hs : s = []
    · simp [hs]
    · have := hnum s
      rw [if_neg hs, if_neg hs, if_neg (by omega), if_pos (by omega)]
      congr 2; omega
  induction h with
  | leaf s' =>
    intro t s pre fuel hf
    cases fuel with
    | zero => simp [branches] at hf
    | succ fuel =>
      simp only [chainOps, walk, List.getElem?_append_right (Nat.le_refl _), Nat.sub_self, List.getElem?_cons_zero, evalT]
      by_cases ht : t.ok n = true
      · simp only [ht, if_true]; exact stop s _ fuel
      · simp only [ht, if_false, Bool.false_eq_true]; exact stop s' _ fuel
  | @branch u s' b' h ih =>
    intro t s pre fuel hf
    cases fuel with
    | zero => simp [branches] at hf
    | succ fuel =>
      simp only [chainOps, walk, List.getElem?_append_right (Nat.le_refl _), Nat.sub_self, List.getElem?_cons_zero]
      by_cases ht : t.ok n = true
      · simp only [ht, if_true, evalT]; exact stop s _ fuel
      · simp only [ht, if_false, Bool.false_eq_true]
        rw [if_neg (by omega), if_neg (by omega)]
        have := ih u s' (pre ++ [.full t (lref num s) ((pre.length + 1 : Nat) : Int)]) fuel
          (by simp [branches] at hf ⊢; omega)
        rw [List.length_append, List.length_singleton, List.append_assoc, List.singleton_append] at this
        simp only [Int.toNat_natCast]
        rw [this]
        simp [evalT, ht]

/-- The walk through `node_ops` leads to the set of the decision tree. -/
theorem walk_ops (num : List Nat → Nat) (hnum : ∀ s, num s ≠ 0) (n : QN) {tr : Tree} (h : Chain tr)
    (hne : chainOps num 0 tr ≠ []) :
    walk (chainOps num 0 tr) n (chainOps num 0 tr).length 0 = .ok (refResult num (evalT (fun t => t.ok n) tr)) := by
  have hlen := length_chainOps num h 0
  cases h with
  | leaf s => exact absurd rfl hne
  | @branch t s b h =>
    have := walk_chain num hnum n h t s [] _ (Nat.le_of_eq hlen.symm)
    simpa using this

theorem attrOps_some (num : List Nat → Nat) {tr : Tree} (h : AChain tr) : ∃ l, attrOps num tr = some l := by
  induction h with
  | leaf => exact ⟨[], rfl⟩
  | @branch t s hs b h ih =>
    obtain ⟨l, hl⟩ := ih
    exact ⟨(t, num s) :: l, by rw [attrOps, hl]; rfl⟩

/-- The calls for an attribute: those of the state that the tree leads to. -/
theorem attrOps_calls {β : Type} (num : List Nat → Nat) (n : QN) (g : Nat → List β) {tr : Tree} (h : AChain tr)
    (hn : (testsOf tr).Nodup)
    (hs : ∀ t ∈ testsOf tr, ∀ t' ∈ testsOf tr, t.ok n = true → t'.ok n = true → t = t') :
    ∀ l, attrOps num tr = some l → (l.flatMap fun op => if op.1.ok n = true then g op.2 else []) =
      if evalT (fun t => t.ok n) tr = [] then [] else g (num (evalT (fun t => t.ok n) tr)) := by
  induction h with
  | leaf => intro l hl; cases hl; rfl
  | @branch t s hne b h ih =>
    intro l hl
    rw [attrOps] at hl
    obtain ⟨l', hl'⟩ := attrOps_some num h
    rw [hl'] at hl
    cases hl
    simp only [testsOf, List.nil_append, List.nodup_cons] at hn
    have ih := ih hn.2 (fun u hu v hv => hs u (by simp [testsOf, hu]) v (by simp [testsOf, hv])) l' hl'
    rw [List.flatMap_cons, ih]
    simp only [evalT]
    by_cases ht : t.ok n = true
    · have hnone : ∀ tr, Chain tr → (∀ u ∈ testsOf tr, ¬ u.ok n = true) → AChain tr → evalT (fun t => t.ok n) tr = [] := by
        intro tr hc hno ha
        induction ha with
        | leaf => rfl
        | @branch u s hs b h ih =>
          rw [evalT, if_neg (hno u (by simp [testsOf]))]
          cases hc with
          | branch _ _ hc => exact ih hc fun v hv => hno v (by simp [testsOf, hv])
      have hch : ∀ {tr}, AChain tr → Chain tr := by
        intro tr ha
        induction ha with
        | leaf => exact .leaf _
        | branch t hs h ih => exact .branch t _ ih
      have h0 := hnone b (hch h) (fun u hu hc => hn.1 (by
        have := hs u (by simp [testsOf, hu]) t (by simp [testsOf]) hc ht
        rw [← this]; exact hu)) h
      simp [ht, h0, hne]
    · simp [ht]

end Verif.Push
