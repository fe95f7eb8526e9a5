import Verif.Template.SelectSpec
import Verif.Template.PatternProps

/-
Lemmas for Verif.Template.SelectProps.
-/
namespace Verif.Template
open Verif Verif.XPath Verif.Dom Verif.Dom.Spec Verif.Eval Verif.Eval.Spec
open Verif.Template.Spec (lstep anyBelow steps last front TestOk StepOk LastOk RelOk CallOk PatOk AllDouble AllSingle
  DoubleFirst NoBacktracking Selects defaultPriority Applies priority Survives Chosen First lastStep OtherKind RuleOk
  PriorityOk SheetOk Info.le RuntimeOk)

variable {d : Doc} {root : Nat}

/-! Building the tables -/

/-- The entry made for an alternative. -/
def entryOf (t : Tmpl) (pos idx : Nat) (steps : List CPat) : Info :=
  ⟨t.prec, t.priority.getD (patPriority steps), pos, steps, idx⟩

/-- The entry `i` under the key `k` was made for one of the alternatives. -/
def FromAlts (d : Doc) (t : Tmpl) (pos idx : Nat) (ps : List Pat) (k : FKey) (i : Info) : Prop :=
  ∃ p ∈ ps, ∃ steps, compilePat d p = .ok steps ∧ k = patKey steps ∧ i = entryOf t pos idx steps

theorem set_getD {tb : Table} {k k' : FKey} {l : List Info} :
    (tb.set k l k').getD [] = if k' = k then l else (tb k').getD [] := by
  unfold Table.set; split <;> rfl

theorem add_mem {tb : Table} {k k' : FKey} {i j : Info} :
    j ∈ ((tb.add k i) k').getD [] ↔ j ∈ (tb k').getD [] ∨ (k' = k ∧ j = i) := by
  have plain : ∀ tb : Table, j ∈ (tb.set k ((tb k).getD [] ++ [i]) k').getD [] ↔
      j ∈ (tb k').getD [] ∨ (k' = k ∧ j = i) := by
    intro tb
    rw [set_getD]
    by_cases h : k' = k
    · subst h; simp
    · simp [h]
  cases k with
  | named n =>
    have e : (tb.add (.named n) i) = (tb.set .wild ((tb .wild).getD [])).set (.named n)
      (((tb.set .wild ((tb .wild).getD [])) (.named n)).getD [] ++ [i]) := by
      rw [set_getD]; rfl
    rw [e, plain, set_getD]
    by_cases h : k' = .wild
    · subst h; simp
    · simp [h]
  | any => exact plain tb
  | kind k => exact plain tb
  | wild => exact plain tb

/-- A table with names has a list of wildcards. -/
def WildOk (tb : Table) : Prop := ∀ n, tb (.named n) ≠ none → tb .wild ≠ none

theorem add_wild {tb : Table} (h : WildOk tb) (k : FKey) (i : Info) : WildOk (tb.add k i) := by
  intro n hn
  cases k with
  | named m => simp [Table.add, Table.set]
  | wild => simp [Table.add, Table.set]
  | any =>
    have := h n (by simpa [Table.add, Table.set] using hn)
    simpa [Table.add, Table.set] using this
  | kind k =>
    have := h n (by simpa [Table.add, Table.set] using hn)
    simpa [Table.add, Table.set] using this

theorem addAlts_right {t : Tmpl} {pos idx : Nat} {ps : List Pat} {tb tb' : Table}
    (h : addAlts d t pos idx ps tb = .ok tb') :
    (∀ k j, j ∈ (tb' k).getD [] ↔ j ∈ (tb k).getD [] ∨ FromAlts d t pos idx ps k j) ∧
    (∀ p ∈ ps, ∃ steps, compilePat d p = .ok steps) ∧ (WildOk tb → WildOk tb') := by
  induction ps generalizing tb with
  | nil => cases h; exact ⟨by simp [FromAlts], nofun, id⟩
  | cons p ps ih =>
    simp only [addAlts] at h
    split at h
    · cases h
    rename_i steps hs
    obtain ⟨h1, h2, h3⟩ := ih h
    refine ⟨fun k j => ?_, ?_, fun hw => h3 (add_wild hw _ _)⟩
    · rw [h1, add_mem, or_assoc]
      refine or_congr_right ⟨?_, ?_⟩
      · rintro (⟨rfl, rfl⟩ | ⟨q, hq, s, g⟩)
        · exact ⟨p, by simp, steps, hs, rfl, rfl⟩
        · exact ⟨q, by simp [hq], s, g⟩
      · rintro ⟨q, hq, s, g1, g2, g3⟩
        rcases List.mem_cons.1 hq with rfl | hq
        · rw [hs] at g1; cases g1; exact .inl ⟨g2, g3⟩
        · exact .inr ⟨q, hq, s, g1, g2, g3⟩
    · intro q hq
      rcases List.mem_cons.1 hq with rfl | hq
      · exact ⟨steps, hs⟩
      · exact h2 q hq

/-- The entry is in the table of the mode. -/
def InTables (tbs : Tables) (m : Option Name) (k : FKey) (j : Info) : Prop := j ∈ (((tbs m).getD Table.empty) k).getD []

theorem addTmpl_right {t : Tmpl} {pos idx : Nat} {tbs tbs' : Tables} (h : addTmpl d t pos idx tbs = .ok tbs') :
    (∀ m k j, InTables tbs' m k j ↔ InTables tbs m k j ∨ (t.mode = m ∧ FromAlts d t pos idx t.alts k j)) ∧
    (∀ p ∈ t.alts, ∃ steps, compilePat d p = .ok steps) ∧
    ((∀ m, WildOk ((tbs m).getD Table.empty)) → ∀ m, WildOk ((tbs' m).getD Table.empty)) := by
  unfold addTmpl at h
  split at h
  · rename_i ha
    cases h
    rw [ha]
    exact ⟨by simp [FromAlts], nofun, id⟩
  split at h
  · cases h
  rename_i tb ht
  cases h
  obtain ⟨h1, h2, h3⟩ := addAlts_right ht
  refine ⟨fun m k j => ?_, h2, fun hw m => ?_⟩
  · unfold InTables
    by_cases hm : m = t.mode
    · subst hm
      simp only [if_true, Option.getD_some, h1, true_and]
    · simp only [hm, if_false, Ne.symm hm, false_and, or_false]
  · by_cases hm : m = t.mode
    · subst hm
      simp only [if_true, Option.getD_some]
      exact h3 (hw _)
    · simp only [hm, if_false]; exact hw m

theorem buildFrom_right {n : Nat} {l : List (Tmpl × Nat)} {tbs tbs' : Tables} (h : buildFrom d n l tbs = .ok tbs') :
    (∀ m k j, InTables tbs' m k j ↔ InTables tbs m k j ∨
      ∃ x t idx, l[x]? = some (t, idx) ∧ t.mode = m ∧ FromAlts d t (n + x) idx t.alts k j) ∧
    (∀ t idx, (t, idx) ∈ l → ∀ p ∈ t.alts, ∃ steps, compilePat d p = .ok steps) ∧
    ((∀ m, WildOk ((tbs m).getD Table.empty)) → ∀ m, WildOk ((tbs' m).getD Table.empty)) := by
  induction l generalizing n tbs with
  | nil => cases h; exact ⟨by simp, nofun, id⟩
  | cons e l ih =>
    obtain ⟨t, idx⟩ := e
    simp only [buildFrom] at h
    split at h
    · cases h
    rename_i tbs1 h1
    obtain ⟨a1, a2, a3⟩ := addTmpl_right h1
    obtain ⟨b1, b2, b3⟩ := ih h
    refine ⟨fun m k j => ?_, ?_, fun hw => b3 (a3 hw)⟩
    · rw [b1, a1, or_assoc]
      refine or_congr_right ⟨?_, ?_⟩
      · rintro (⟨g1, g2⟩ | ⟨x, t', idx', g1, g2, g3⟩)
        · exact ⟨0, t, idx, by simp, g1, g2⟩
        · refine ⟨x + 1, t', idx', by simpa using g1, g2, ?_⟩
          rw [show n + (x + 1) = n + 1 + x by omega]; exact g3
      · rintro ⟨x, t', idx', g1, g2, g3⟩
        cases x with
        | zero =>
          simp at g1; obtain ⟨rfl, rfl⟩ := g1
          exact .inl ⟨g2, g3⟩
        | succ x =>
          refine .inr ⟨x, t', idx', by simpa using g1, g2, ?_⟩
          rw [show n + 1 + x = n + (x + 1) by omega]; exact g3
    · intro t' idx' hm p hp
      rcases List.mem_cons.1 hm with he | hm
      · cases he; exact a2 p hp
      · exact b2 _ _ hm p hp

/-- The position of a template in the reversed list. -/
theorem rev_zipIdx {ts : List Tmpl} {x idx : Nat} {t : Tmpl} :
    ts.zipIdx.reverse[x]? = some (t, idx) ↔ ts[idx]? = some t ∧ x + idx + 1 = ts.length := by
  by_cases hx : x < ts.length
  · rw [List.getElem?_reverse (by simpa using hx), List.length_zipIdx]
    rw [List.getElem?_zipIdx]
    simp only [Option.map_eq_some_iff, Prod.mk.injEq]
    constructor
    · rintro ⟨a, h1, rfl, h2⟩
      have : idx = ts.length - 1 - x := by omega
      subst this
      exact ⟨h1, by omega⟩
    · rintro ⟨h1, h2⟩
      refine ⟨t, ?_, rfl, by omega⟩
      rw [show ts.length - 1 - x = idx by omega]; exact h1
  · rw [List.getElem?_eq_none (by simpa using hx)]
    constructor
    · nofun
    · rintro ⟨_, h2⟩; omega

theorem build_right {ts : List Tmpl} {tbs : Tables} (h : build d ts = .ok tbs) :
    (∀ m k j, InTables tbs m k j ↔ ∃ i t pos, ts[i]? = some t ∧ pos + i + 1 = ts.length ∧ t.mode = m ∧
      FromAlts d t pos i t.alts k j) ∧
    (∀ t ∈ ts, ∀ p ∈ t.alts, ∃ steps, compilePat d p = .ok steps) ∧
    ∀ m, WildOk ((tbs m).getD Table.empty) := by
  obtain ⟨h1, h2, h3⟩ := buildFrom_right h
  refine ⟨fun m k j => ?_, fun t ht => ?_, h3 fun m n hn => ?_⟩
  · rw [h1]
    constructor
    · rintro (g | ⟨x, t, idx, g1, g2, g3⟩)
      · simp [InTables, Table.empty] at g
      · obtain ⟨a, b⟩ := rev_zipIdx.1 g1
        rw [Nat.zero_add] at g3
        exact ⟨idx, t, x, a, b, g2, g3⟩
    · rintro ⟨i, t, pos, g1, g2, g3, g4⟩
      refine .inr ⟨pos, t, i, rev_zipIdx.2 ⟨g1, g2⟩, g3, ?_⟩
      rw [Nat.zero_add]; exact g4
  · obtain ⟨i, hi⟩ := List.getElem?_of_mem ht
    refine h2 t i ?_
    rw [List.mem_reverse]
    exact List.mem_iff_getElem?.2 ⟨i, by rw [List.getElem?_zipIdx, hi]; simp⟩
  · simp [Table.empty] at hn

/-! Expanding them -/

/-- The entries that belong to a key after the expansion. -/
def Full (tb : Table) (k : FKey) (i : Info) : Prop :=
  i ∈ (tb k).getD [] ∨ ((∃ n, k = .named n) ∧ i ∈ (tb .wild).getD []) ∨ i ∈ (tb .any).getD []

/-- The state of the loop. -/
structure Stage (R : Info → Info → Prop) (tb cur : Table) (done : List FKey) : Prop where
  any : cur .any ≠ none
  keys : ∀ k, k ≠ .any → (cur k = none ↔ tb k = none)
  old : ∀ k i, i ∈ (tb k).getD [] → i ∈ (cur k).getD []
  sound : ∀ k i, i ∈ (cur k).getD [] → Full tb k i
  full : ∀ k ∈ done, ∀ i, Full tb k i → i ∈ (cur k).getD []
  sorted : ∀ k ∈ done, ((cur k).getD []).Pairwise R

theorem expandKey_stage {R : Info → Info → Prop} {sort : List Info → List Info} (hm : ∀ l i, i ∈ sort l ↔ i ∈ l)
    (hs : ∀ l, (sort l).Pairwise R) {tb cur : Table} {done : List FKey} (st : Stage R tb cur done)
    {k : FKey} (hk : k = .any ∨ tb k ≠ none) : Stage R tb (expandKey sort cur k) (k :: done) := by
  have mem : ∀ i, i ∈ ((expandKey sort cur k) k).getD [] ↔
      i ∈ (cur k).getD [] ∨ ((∃ n, k = .named n) ∧ i ∈ (cur .wild).getD []) ∨ i ∈ (cur .any).getD [] := by
    intro i
    rw [expandKey, set_getD, if_pos rfl, hm, List.mem_append, List.mem_append, or_assoc]
    cases k <;> simp [wildFor]
  have other : ∀ k', k' ≠ k → (expandKey sort cur k) k' = cur k' := by
    intro k' h
    simp [expandKey, Table.set, h]
  have ok : ∀ i, i ∈ ((expandKey sort cur k) k).getD [] ↔ Full tb k i := by
    intro i
    rw [mem]
    constructor
    · rintro (h | ⟨⟨n, rfl⟩, h⟩ | h)
      · exact st.sound _ _ h
      · rcases st.sound _ _ h with h | ⟨⟨n, h⟩, _⟩ | h
        · exact .inr (.inl ⟨⟨n, rfl⟩, h⟩)
        · cases h
        · exact .inr (.inr h)
      · rcases st.sound _ _ h with h | ⟨⟨n, h⟩, _⟩ | h
        · exact .inr (.inr h)
        · cases h
        · exact .inr (.inr h)
    · rintro (h | ⟨hn, h⟩ | h)
      · exact .inl (st.old _ _ h)
      · exact .inr (.inl ⟨hn, st.old _ _ h⟩)
      · exact .inr (.inr (st.old _ _ h))
  refine ⟨?_, ?_, ?_, ?_, ?_, ?_⟩
  · by_cases h : FKey.any = k
    · subst h; simp [expandKey, Table.set]
    · rw [other _ h]; exact st.any
  · intro k' h'
    by_cases h : k' = k
    · subst h
      rcases hk with hk | hk
      · exact absurd hk h'
      · constructor
        · intro h; simp [expandKey, Table.set] at h
        · intro h; exact absurd h hk
    · rw [other _ h]; exact st.keys k' h'
  · intro k' i hi
    by_cases h : k' = k
    · subst h; exact (ok i).2 (.inl hi)
    · rw [other _ h]; exact st.old k' i hi
  · intro k' i hi
    by_cases h : k' = k
    · subst h; exact (ok i).1 hi
    · rw [other _ h] at hi; exact st.sound k' i hi
  · intro k' hk' i hi
    by_cases h : k' = k
    · subst h; exact (ok i).2 hi
    · rw [other _ h]
      exact st.full k' ((List.mem_cons.1 hk').resolve_left h) i hi
  · intro k' hk'
    by_cases h : k' = k
    · subst h
      rw [expandKey, set_getD, if_pos rfl]
      exact hs _
    · rw [other _ h]
      exact st.sorted k' ((List.mem_cons.1 hk').resolve_left h)

theorem foldl_stage {R : Info → Info → Prop} {sort : List Info → List Info} (hm : ∀ l i, i ∈ sort l ↔ i ∈ l)
    (hs : ∀ l, (sort l).Pairwise R) {tb : Table} {ord : List FKey}
    (hk : ∀ k ∈ ord, k = .any ∨ tb k ≠ none) {cur : Table} {done : List FKey} (st : Stage R tb cur done) :
    ∃ done', Stage R tb (ord.foldl (expandKey sort) cur) done' ∧ (∀ k ∈ ord, k ∈ done') ∧ ∀ k ∈ done, k ∈ done' := by
  induction ord generalizing cur done with
  | nil => exact ⟨done, st, nofun, fun _ => id⟩
  | cons k ord ih =>
    obtain ⟨done', h1, h2, h3⟩ := ih (fun k h => hk k (by simp [h])) (expandKey_stage hm hs st (hk k (by simp)))
    refine ⟨done', h1, ?_, fun k' h => h3 k' (by simp [h])⟩
    intro k' hk'
    rcases List.mem_cons.1 hk' with rfl | h
    · exact h3 _ (by simp)
    · exact h2 _ h

/-- The expanded table. -/
theorem expand_right {R : Info → Info → Prop} {sort : List Info → List Info} (hm : ∀ l i, i ∈ sort l ↔ i ∈ l)
    (hs : ∀ l, (sort l).Pairwise R) {tb : Table} {ord : List FKey}
    (hk : ∀ k, k ∈ ord ↔ (k = .any ∨ tb k ≠ none)) :
    (∀ k, (expand sort ord tb) k = none ↔ (k ≠ .any ∧ tb k = none)) ∧
    ∀ k, (k = .any ∨ tb k ≠ none) → (∀ i, i ∈ ((expand sort ord tb) k).getD [] ↔ Full tb k i) ∧
      (((expand sort ord tb) k).getD []).Pairwise R := by
  have st : Stage R tb (tb.set .any ((tb .any).getD [])) [] := by
    have e : ∀ k, ((tb.set .any ((tb .any).getD [])) k).getD [] = (tb k).getD [] := by
      intro k; rw [set_getD]; split
      · rename_i h; subst h; rfl
      · rfl
    refine ⟨by simp [Table.set], fun k h => by simp [Table.set, h], fun k i h => by rw [e]; exact h, fun k i h => ?_,
      nofun, nofun⟩
    rw [e] at h; exact .inl h
  obtain ⟨done, h1, h2, _⟩ := foldl_stage hm hs (fun k h => (hk k).1 h) st
  refine ⟨fun k => ?_, fun k h => ?_⟩
  · by_cases h : k = .any
    · subst h
      simp only [ne_eq, not_true_eq_false, false_and, iff_false]
      exact h1.any
    · simp only [ne_eq, h, not_false_eq_true, true_and]
      exact h1.keys k h
  · have := h2 k ((hk k).2 h)
    exact ⟨fun i => ⟨h1.sound k i, h1.full k this i⟩, h1.sorted k this⟩

/-- The key is one under which rules for the node are found. -/
def Covers (d : Doc) (n : Nat) : FKey → Prop
  | .any => True
  | .kind k => d.h.kind n = k ∧ k ≠ .element
  | .wild => d.h.kind n = .element
  | .named x => d.h.kind n = .element ∧ d.name n = x

theorem lookup_right {R : Info → Info → Prop} {sort : List Info → List Info} (hm : ∀ l i, i ∈ sort l ↔ i ∈ l)
    (hs : ∀ l, (sort l).Pairwise R) {tb : Table} (hw : WildOk tb) {ord : List FKey}
    (hk : ∀ k, k ∈ ord ↔ (k = .any ∨ tb k ≠ none)) (n : Nat) :
    (∀ i, i ∈ lookup d (expand sort ord tb) n ↔ ∃ k, Covers d n k ∧ i ∈ (tb k).getD []) ∧
    (lookup d (expand sort ord tb) n).Pairwise R := by
  obtain ⟨h1, h2⟩ := expand_right hm hs hk
  have absent : ∀ k, tb k = none → ∀ i, i ∉ (tb k).getD [] := by intro k h i; simp [h]
  have hany := h2 .any (.inl rfl)
  -- nothing but the patterns without type
  have onlyAny : (∀ k, Covers d n k → k ≠ .any → tb k = none) →
      (∀ i, i ∈ ((expand sort ord tb) .any).getD [] ↔ ∃ k, Covers d n k ∧ i ∈ (tb k).getD []) := by
    intro h i
    rw [hany.1]
    constructor
    · rintro (h | ⟨⟨_, h⟩, _⟩ | h)
      · exact ⟨.any, trivial, h⟩
      · cases h
      · exact ⟨.any, trivial, h⟩
    · rintro ⟨k, hc, hi⟩
      by_cases hk : k = .any
      · subst hk; exact .inl hi
      · exact absurd hi (absent k (h k hc hk) i)
  by_cases he : d.h.kind n = .element
  · unfold lookup
    simp only [he]
    cases hwild : (expand sort ord tb) .wild with
    | none =>
      have hn := ((h1 .wild).1 hwild).2
      refine ⟨onlyAny ?_, hany.2⟩
      intro k hc hk
      cases k with
      | any => exact absurd rfl hk
      | kind k => simp only [Covers, he] at hc; exact absurd hc.1.symm hc.2
      | wild => exact hn
      | named x =>
        cases h : tb (.named x) with
        | none => rfl
        | some l => exact absurd hn (hw x (by simp [h]))
    | some wild =>
      have hn : tb .wild ≠ none := by
        intro h
        rw [(h1 .wild).2 ⟨by simp, h⟩] at hwild; cases hwild
      cases hnm : (expand sort ord tb) (.named (d.name n)) with
      | none =>
        have hno := ((h1 _).1 hnm).2
        have := h2 .wild (.inr hn)
        rw [hwild] at this
        simp only [Option.getD_some, Option.getD_none] at this ⊢
        refine ⟨fun i => ?_, this.2⟩
        rw [this.1]
        constructor
        · rintro (h | ⟨⟨_, h⟩, _⟩ | h)
          · exact ⟨.wild, he, h⟩
          · cases h
          · exact ⟨.any, trivial, h⟩
        · rintro ⟨k, hc, hi⟩
          cases k with
          | any => exact .inr (.inr hi)
          | kind k => simp only [Covers, he] at hc; exact absurd hc.1.symm hc.2
          | wild => exact .inl hi
          | named x =>
            obtain ⟨_, rfl⟩ := hc
            exact absurd hi (absent _ hno i)
      | some l =>
        have hno : tb (.named (d.name n)) ≠ none := by
          intro h
          rw [(h1 _).2 ⟨by simp, h⟩] at hnm; cases hnm
        have := h2 _ (.inr hno)
        rw [hnm] at this
        simp only [Option.getD_some] at this ⊢
        refine ⟨fun i => ?_, this.2⟩
        rw [this.1]
        constructor
        · rintro (h | ⟨_, h⟩ | h)
          · exact ⟨.named _, ⟨he, rfl⟩, h⟩
          · exact ⟨.wild, he, h⟩
          · exact ⟨.any, trivial, h⟩
        · rintro ⟨k, hc, hi⟩
          cases k with
          | any => exact .inr (.inr hi)
          | kind k => simp only [Covers, he] at hc; exact absurd hc.1.symm hc.2
          | wild => exact .inr (.inl ⟨⟨_, rfl⟩, hi⟩)
          | named x =>
            obtain ⟨_, rfl⟩ := hc
            exact .inl hi
  · have e : lookup d (expand sort ord tb) n = match (expand sort ord tb) (.kind (d.h.kind n)) with
        | some l => l
        | none => ((expand sort ord tb) .any).getD [] := by
      unfold lookup
      cases hkk : d.h.kind n <;> first | exact absurd hkk he | rfl
    rw [e]
    cases hkn : (expand sort ord tb) (.kind (d.h.kind n)) with
    | none =>
      have hno := ((h1 _).1 hkn).2
      refine ⟨onlyAny ?_, hany.2⟩
      intro k hc hk
      cases k with
      | any => exact absurd rfl hk
      | kind k => obtain ⟨rfl, _⟩ := hc; exact hno
      | wild => exact absurd hc he
      | named x => exact absurd hc.1 he
    | some l =>
      have hno : tb (.kind (d.h.kind n)) ≠ none := by
        intro h
        rw [(h1 _).2 ⟨by simp, h⟩] at hkn; cases hkn
      have := h2 _ (.inr hno)
      rw [hkn] at this
      simp only [Option.getD_some] at this ⊢
      refine ⟨fun i => ?_, this.2⟩
      rw [this.1]
      constructor
      · rintro (h | ⟨⟨_, h⟩, _⟩ | h)
        · exact ⟨.kind _, ⟨rfl, he⟩, h⟩
        · cases h
        · exact ⟨.any, trivial, h⟩
      · rintro ⟨k, hc, hi⟩
        cases k with
        | any => exact .inr (.inr hi)
        | kind k => obtain ⟨rfl, _⟩ := hc; exact .inl hi
        | wild => exact absurd hc he
        | named x => exact absurd hc.1 he

/-! The search -/

theorem findRule_right {fuel n : Nat} {D : Info → Prop} {l : List Info}
    (hD : ∀ i ∈ l, ∀ c b c', InDoc d root c.node → matchPat d fuel i.steps n c = .ok b c' → (b = true ↔ D i) ∧ Same c c')
    {c c' : Ctx} (hc : InDoc d root c.node) {r : Option Nat} (h : findRule d fuel l n c = .ok r c') :
    match r with
    | none => ∀ i ∈ l, ¬ D i
    | some x => ∃ pre i post, l = pre ++ i :: post ∧ x = i.tmpl ∧ D i ∧ ∀ j ∈ pre, ¬ D j := by
  induction l generalizing c with
  | nil => cases h; exact nofun
  | cons i l ih =>
    simp only [findRule] at h
    obtain ⟨b, c1, h1, h2⟩ := bind_ok' h
    obtain ⟨hb, hs⟩ := hD i (by simp) _ _ _ hc h1
    cases b with
    | true =>
      cases h2
      exact ⟨[], i, l, rfl, rfl, hb.1 rfl, nofun⟩
    | false =>
      have hi : ¬ D i := fun h => by cases hb.2 h
      have := ih (fun i h => hD i (by simp [h])) (same_inDoc hs hc) h2
      cases r with
      | none =>
        intro j hj
        rcases List.mem_cons.1 hj with rfl | hj
        · exact hi
        · exact this j hj
      | some x =>
        obtain ⟨pre, k, post, rfl, g1, g2, g3⟩ := this
        refine ⟨i :: pre, k, post, rfl, g1, g2, ?_⟩
        intro j hj
        rcases List.mem_cons.1 hj with rfl | hj
        · exact hi
        · exact g3 j hj

theorem misspelt_ok {α : Type} {o : Out α} {a : α} {c : Ctx} (h : misspelt o = .ok a c) : o = .ok a c := by
  cases o <;> first | exact h | cases h

theorem findImport_rule {fuel below n : Nat} {l : List Info} {c c' : Ctx} {r : Option Nat}
    (h : findImport d fuel below l n c = .ok r c') :
    findRule d fuel (l.filter fun i => i.prec < below) n c = .ok r c' := by
  induction l generalizing c with
  | nil => exact h
  | cons i l ih =>
    simp only [findImport] at h
    by_cases hp : i.prec < below
    · rw [if_pos hp] at h
      obtain ⟨b, c1, h1, h2⟩ := bind_ok' h
      rw [List.filter_cons, if_pos (by simpa using hp)]
      simp only [findRule, misspelt_ok h1, Out.bind]
      cases b with
      | true => exact h2
      | false => exact ih h2
    · rw [if_neg hp] at h
      rw [List.filter_cons, if_neg (by simpa using hp)]
      exact ih h

/-- The order of the entries. -/
theorem le_refl (i : Info) : Info.le i i := .inr ⟨rfl, .inr ⟨rfl, Nat.le_refl _⟩⟩

theorem first_le {l pre post : List Info} {i : Info} (hs : l.Pairwise fun a b => Info.le b a)
    (hl : l = pre ++ i :: post) {D : Info → Prop} (hpre : ∀ j ∈ pre, ¬ D j) {j : Info} (hj : j ∈ l) (hd : D j) :
    Info.le j i := by
  subst hl
  rcases List.mem_append.1 hj with h | h
  · exact absurd hd (hpre j h)
  · rcases List.mem_cons.1 h with rfl | h
    · exact le_refl _
    · rw [List.pairwise_append] at hs
      exact (List.pairwise_cons.1 hs.2.1).1 j h

/-! The keys of patterns -/

theorem relOf_last {r : Rel} {l : List CPat} (h : relOf d r = .ok l) :
    ∃ k x, l = k ++ [x] ∧ stepOf d (last r) = .ok x := by
  cases r with
  | one s =>
    simp only [relOf] at h
    split at h
    · cases h
    · rename_i x hx; cases h; exact ⟨[], x, rfl, hx⟩
  | slash r s =>
    simp only [relOf] at h
    split at h
    · cases h
    · cases h
    · rename_i x _ hx; cases h; exact ⟨_, x, rfl, hx⟩
  | dslash r s =>
    simp only [relOf] at h
    split at h
    · cases h
    · cases h
    · rename_i x _ hx; cases h; exact ⟨_, x, rfl, hx⟩

theorem compile_last {p : Pat} {l : List CPat} (h : compilePat d p = .ok l) {s : PatStep} (hs : lastStep p = some s) :
    ∃ x k, l = x :: k ∧ stepOf d s = .ok x := by
  unfold compilePat at h
  split at h
  · cases h
  rename_i m hm
  cases h
  have rel : ∀ r, relOf d r = .ok m → last r = s → ∃ x k, m.reverse = x :: k ∧ stepOf d s = .ok x := by
    rintro r hr rfl
    obtain ⟨k, x, rfl, hx⟩ := relOf_last hr
    exact ⟨x, k.reverse, by simp, hx⟩
  have front : ∀ t r, withFirst t (relOf d r) = .ok m → last r = s → ∃ x k, m.reverse = x :: k ∧ stepOf d s = .ok x := by
    rintro t r hr rfl
    obtain ⟨m', hm', rfl⟩ := withFirst_ok hr
    obtain ⟨k, x, rfl, hx⟩ := relOf_last hm'
    exact ⟨x, k.reverse ++ [⟨t, false⟩], by simp, hx⟩
  cases p with
  | root => cases hs
  | idKey fn => cases hs
  | abs r => exact front _ r hm (Option.some.inj hs)
  | dabs r => exact rel r hm (Option.some.inj hs)
  | rel r => exact rel r hm (Option.some.inj hs)
  | idKeySlash fn r => exact front _ r hm (Option.some.inj hs)
  | idKeyDslash fn r => exact front _ r hm (Option.some.inj hs)

/-- The key of a step. -/
def stepKey (s : PatStep) : FKey :=
  match s.axis with
  | .attr => .kind .attr
  | .child => testKey s.test

theorem stepOf_key {s : PatStep} {x : CPat} (h : stepOf d s = .ok x) : x.test.key = stepKey s := by
  unfold stepOf at h
  split at h
  · cases h; unfold stepKey; cases s.axis <;> rfl
  · split at h
    · cases h
    · cases h; unfold stepKey; cases s.axis <;> rfl

theorem patKey_last {p : Pat} {l : List CPat} (h : compilePat d p = .ok l) {s : PatStep} (hs : lastStep p = some s) :
    patKey l = stepKey s ∨ patKey l = (stepKey s).noName := by
  obtain ⟨x, k, rfl, hx⟩ := compile_last h hs
  rw [← stepOf_key hx]
  cases k with
  | nil => exact .inl rfl
  | cons y k => exact .inr rfl

theorem covers_noName {n : Nat} {k : FKey} (h : Covers d n k) : Covers d n k.noName := by
  cases k <;> first | exact h | exact h.1

/-- A node that matches a pattern satisfies its last step. -/
theorem matches_last (w : DocWF d root) {p : Pat} {n : Nat} (hn : InDoc d root n) (h : Spec.Matches d p n)
    {s : PatStep} (hs : lastStep p = some s) : Holds d s n := by
  have rel : ∀ {r y}, Reaches d (steps r) y n → last r = s → Holds d s n := by
    rintro r y hr rfl
    exact ((reaches_any w hn).1 ⟨y, hr⟩).1
  have below : ∀ {r y}, Reaches d (anyBelow :: steps r) y n → last r = s → Holds d s n := by
    intro r y hr hl
    obtain ⟨m, _, h2⟩ := (reaches_append (a := [anyBelow])).1 hr
    exact rel h2 hl
  obtain ⟨y, _, h⟩ := h
  cases p with
  | root => cases hs
  | idKey fn => cases hs
  | abs r => obtain ⟨z, _, h⟩ := h; exact rel h (Option.some.inj hs)
  | dabs r => obtain ⟨z, _, h⟩ := h; exact below h (Option.some.inj hs)
  | rel r => exact rel h (Option.some.inj hs)
  | idKeySlash fn r => obtain ⟨l, z, _, _, h⟩ := h; exact rel h (Option.some.inj hs)
  | idKeyDslash fn r => obtain ⟨l, z, _, _, h⟩ := h; exact below h (Option.some.inj hs)

theorem holds_test (w : DocWF d root) (hae : AttrsOnElements d) {s : PatStep} {n : Nat} (hn : InDoc d root n)
    (h : Holds d s n) :
    (match s.axis with | .child => TreeNode d.h n | .attr => d.h.kind n = .attr) ∧
    Eval.Spec.Matches d s.axis.l n s.test := by
  obtain ⟨p, k, hp, hk, hm⟩ := h
  rw [lstep_eq, StepSelects] at hk
  obtain ⟨l, hl, rfl⟩ := hk
  have := (hl.1 n).1 (kept_sublist.subset hm)
  exact ⟨(onAxis_iff w hae hn hp).1 this.1, this.2⟩

/-- A node that satisfies a step is found under its key. -/
theorem holds_covers (w : DocWF d root) (hae : AttrsOnElements d) {s : PatStep} {n : Nat} (hn : InDoc d root n)
    (h : Holds d s n) (hk : s.test ≠ .kind .element) : Covers d n (stepKey s) := by
  obtain ⟨h1, h2⟩ := holds_test w hae hn h
  unfold stepKey
  cases ha : s.axis with
  | attr => rw [ha] at h1; exact ⟨h1, by decide⟩
  | child =>
    rw [ha] at h2
    cases ht : s.test with
    | node => trivial
    | kind k =>
      rw [ht] at h2
      refine ⟨h2, ?_⟩
      rintro rfl; exact hk ht
    | pi t => rw [ht] at h2; exact ⟨h2.1, by decide⟩
    | any => rw [ht] at h2; exact h2
    | inNs ns => rw [ht] at h2; exact h2.1
    | name ns l =>
      rw [ht] at h2
      exact ⟨h2.1, Prod.ext h2.2.1 h2.2.2⟩

end Verif.Template
