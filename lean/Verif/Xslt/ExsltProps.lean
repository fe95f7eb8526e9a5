import Verif.Xslt.Exslt

/-
C39 and C40.
-/
namespace Verif.Xslt.Spec
open Verif
open Verif.XPath (Dbl)

/-- A strict weak order, such as document order (attributes of one element are not ordered among each
other). -/
structure WeakOrder {α : Type} (lt : α → α → Bool) : Prop where
  irrefl : ∀ x, lt x x = false
  trans : ∀ x y z, lt x y = true → lt y z = true → lt x z = true
  incomp : ∀ x y z, lt x y = false → lt y z = false → lt x z = false

/-- `out` is the node-set of the nodes with `p`: no duplicates, document order. -/
structure IsNodeset {α : Type} (lt : α → α → Bool) (p : α → Prop) (out : List α) : Prop where
  nodup : out.Nodup
  sorted : out.Pairwise fun a b => lt b a = false
  mem : ∀ x, x ∈ out ↔ p x

/-- `x` is the first node of the list that has its string-value. -/
def FirstWith {α : Type} (str : α → Str) (ns : List α) (x : α) : Prop :=
  ∃ a b, ns = a ++ x :: b ∧ ∀ y ∈ a, str y ≠ str x

/-- `m` is the maximum of the numbers as EXSLT defines it. -/
def IsMax (l : List Dbl) (m : Dbl) : Prop :=
  ((l = [] ∨ Dbl.nan ∈ l) → m = .nan) ∧ (l ≠ [] → Dbl.nan ∉ l → m ∈ l ∧ ∀ x ∈ l, Dbl.le x m = true)

def IsMin (l : List Dbl) (m : Dbl) : Prop :=
  ((l = [] ∨ Dbl.nan ∈ l) → m = .nan) ∧ (l ≠ [] → Dbl.nan ∉ l → m ∈ l ∧ ∀ x ∈ l, Dbl.le m x = true)

end Verif.Xslt.Spec

namespace Verif.Xslt
open Verif Verif.Xslt.Spec

section Sets
variable {α : Type} [DecidableEq α] {lt : α → α → Bool}
set_option linter.unusedSectionVars false

theorem insertSorted_perm (x : α) (l : List α) : (insertSorted lt x l).Perm (x :: l) := by
  induction l with
  | nil => exact .refl _
  | cons y ys ih =>
    rw [insertSorted]
    split
    · exact .refl _
    · exact (List.Perm.cons y ih).trans (.swap x y ys)

theorem foldr_insert_perm (l : List α) : (l.foldr (insertSorted lt) []).Perm l := by
  induction l with
  | nil => exact .refl _
  | cons x l ih => exact (insertSorted_perm x _).trans (ih.cons x)

theorem nodeset_perm (l : List α) : (nodeset lt l).Perm l :=
  (foldr_insert_perm l.reverse).trans (List.reverse_perm l)

theorem insertSorted_sorted (h : WeakOrder lt) (x : α) (l : List α) (hl : l.Pairwise fun a b => lt b a = false) :
    (insertSorted lt x l).Pairwise fun a b => lt b a = false := by
  induction l with
  | nil => simp [insertSorted]
  | cons y ys ih =>
    rw [List.pairwise_cons] at hl
    rw [insertSorted]
    split
    · rename_i hx
      have hasym : lt y x = false := by
        cases hyx : lt y x with
        | false => rfl
        | true => have := h.trans _ _ _ hx hyx; rw [h.irrefl] at this; cases this
      rw [List.pairwise_cons, List.pairwise_cons]
      refine ⟨fun z hz => ?_, hl⟩
      rcases List.mem_cons.1 hz with rfl | hz
      · exact hasym
      · exact h.incomp _ _ _ (hl.1 z hz) hasym
    · rename_i hx
      rw [List.pairwise_cons]
      refine ⟨fun z hz => ?_, ih hl.2⟩
      rcases List.mem_cons.1 ((insertSorted_perm x ys).mem_iff.1 hz) with rfl | hz
      · simpa using hx
      · exact hl.1 z hz

theorem nodeset_sorted (h : WeakOrder lt) (l : List α) : (nodeset lt l).Pairwise fun a b => lt b a = false := by
  unfold nodeset
  induction l.reverse with
  | nil => simp
  | cons x l ih => exact insertSorted_sorted h x _ ih

theorem mem_pySet (l : List α) (x : α) : x ∈ pySet l ↔ x ∈ l := by
  induction l with
  | nil => simp [pySet]
  | cons y l ih =>
    rw [pySet]
    split
    · rename_i hy
      rw [ih, List.mem_cons]
      constructor
      · exact Or.inr
      · rintro (rfl | h)
        · exact ih.1 hy
        · exact h
    · rw [List.mem_cons, List.mem_cons, ih]

theorem pySet_nodup (l : List α) : (pySet l).Nodup := by
  induction l with
  | nil => simp [pySet]
  | cons y l ih =>
    rw [pySet]
    split
    · exact ih
    · rename_i hy
      rw [List.nodup_cons]
      exact ⟨hy, ih⟩

/-! C39 -/

/-- set:difference. -/
theorem C39_difference (h : WeakOrder lt) {ord : List α → List α} (ho : ∀ l, (ord l).Perm l) (ns1 ns2 : List α) :
    IsNodeset lt (fun x => x ∈ ns1 ∧ x ∉ ns2) (difference lt ord ns1 ns2) := by
  have hp := (nodeset_perm (lt := lt) (ord ((pySet ns1).filter (!(pySet ns2).contains ·)))).trans (ho _)
  refine ⟨hp.nodup_iff.2 ((pySet_nodup ns1).filter _), nodeset_sorted h _, fun x => ?_⟩
  rw [difference, hp.mem_iff]
  simp [mem_pySet]

/-- set:intersection. -/
theorem C39_intersection (h : WeakOrder lt) {ord : List α → List α} (ho : ∀ l, (ord l).Perm l) (ns1 ns2 : List α) :
    IsNodeset lt (fun x => x ∈ ns1 ∧ x ∈ ns2) (intersection lt ord ns1 ns2) := by
  have hp := (nodeset_perm (lt := lt) (ord ((pySet ns1).filter ((pySet ns2).contains ·)))).trans (ho _)
  refine ⟨hp.nodup_iff.2 ((pySet_nodup ns1).filter _), nodeset_sorted h _, fun x => ?_⟩
  rw [intersection, hp.mem_iff]
  simp [mem_pySet]

/-- set:has-same-node. -/
theorem C39_has_same_node (ns1 ns2 : List α) : hasSameNode ns1 ns2 = true ↔ ∃ x, x ∈ ns1 ∧ x ∈ ns2 := by
  induction ns1 with
  | nil => simp [hasSameNode]
  | cons x ns1 ih =>
    rw [hasSameNode]
    split
    · rename_i hx
      rw [List.contains_iff_mem, mem_pySet] at hx
      simp only [true_iff]
      exact ⟨x, by simp, hx⟩
    · rename_i hx
      rw [List.contains_iff_mem, mem_pySet] at hx
      rw [ih]
      constructor
      · rintro ⟨y, h1, h2⟩; exact ⟨y, by simp [h1], h2⟩
      · rintro ⟨y, h1, h2⟩
        rcases List.mem_cons.1 h1 with rfl | h1
        · exact absurd h2 hx
        · exact ⟨y, h1, h2⟩

theorem assign_keys (d : List (Str × α)) (k : Str) (v : α) (hd : (d.map (·.1)).Nodup) :
    ((assign d k v).map (·.1)).Nodup ∧ ∀ e, e ∈ assign d k v ↔ (e.1 ≠ k ∧ e ∈ d) ∨ e = (k, v) := by
  induction d with
  | nil => simp [assign]
  | cons p d ih =>
    obtain ⟨k', v'⟩ := p
    rw [List.map_cons, List.nodup_cons] at hd
    obtain ⟨i1, i2⟩ := ih hd.2
    rw [assign]
    split
    · rename_i hk
      subst hk
      refine ⟨by rw [List.map_cons, List.nodup_cons]; exact hd, fun e => ?_⟩
      constructor
      · intro he
        rcases List.mem_cons.1 he with rfl | he
        · exact Or.inr rfl
        · refine Or.inl ⟨?_, by simp [he]⟩
          intro h
          exact hd.1 (List.mem_map.2 ⟨e, he, h⟩)
      · rintro (⟨h1, h2⟩ | rfl)
        · rcases List.mem_cons.1 h2 with rfl | h2
          · exact absurd rfl h1
          · simp [h2]
        · simp
    · rename_i hk
      refine ⟨?_, fun e => ?_⟩
      · rw [List.map_cons, List.nodup_cons]
        refine ⟨?_, i1⟩
        intro hm
        obtain ⟨e, he, hek⟩ := List.mem_map.1 hm
        rcases (i2 e).1 he with ⟨_, he⟩ | rfl
        · exact hd.1 (List.mem_map.2 ⟨e, he, hek⟩)
        · exact hk hek.symm
      · constructor
        · intro he
          rcases List.mem_cons.1 he with rfl | he
          · exact Or.inl ⟨hk, by simp⟩
          · rcases (i2 e).1 he with ⟨h1, h2⟩ | rfl
            · exact Or.inl ⟨h1, by simp [h2]⟩
            · exact Or.inr rfl
        · rintro (⟨h1, h2⟩ | rfl)
          · rcases List.mem_cons.1 h2 with rfl | h2
            · simp
            · exact List.mem_cons_of_mem _ ((i2 e).2 (Or.inl ⟨h1, h2⟩))
          · exact List.mem_cons_of_mem _ ((i2 _).2 (Or.inr rfl))

theorem toDict_snoc (l : List (Str × α)) (p : Str × α) : toDict (l ++ [p]) = assign (toDict l) p.1 p.2 := by
  simp [toDict]

/-- The dictionary has the first node (in the original order) for each string. -/
theorem toDict_first (str : α → Str) (ns : List α) :
    ((toDict (ns.reverse.map fun n => (str n, n))).map (·.1)).Nodup ∧
    ∀ e, e ∈ toDict (ns.reverse.map fun n => (str n, n)) ↔ e.1 = str e.2 ∧ FirstWith str ns e.2 := by
  induction ns with
  | nil =>
    refine ⟨by simp [toDict], fun e => ⟨fun h => by simp [toDict] at h, ?_⟩⟩
    rintro ⟨_, a, b, h, _⟩
    simp at h
  | cons n ns ih =>
    rw [List.reverse_cons, List.map_append, List.map_singleton, toDict_snoc]
    obtain ⟨h1, h2⟩ := assign_keys _ (str n) n ih.1
    refine ⟨h1, fun e => ?_⟩
    rw [h2, ih.2]
    constructor
    · rintro (⟨hne, he, a, b, h3, h4⟩ | rfl)
      · refine ⟨he, n :: a, b, by simp [h3], ?_⟩
        intro y hy
        rcases List.mem_cons.1 hy with rfl | hy
        · intro h; exact hne (he.trans h.symm)
        · exact h4 y hy
      · exact ⟨rfl, [], ns, rfl, by simp⟩
    · rintro ⟨he, a, b, h3, h4⟩
      match a, h3 with
      | [], h3 =>
        rw [List.nil_append, List.cons.injEq] at h3
        right
        rw [h3.1]
        exact Prod.ext he rfl
      | x :: a, h3 =>
        rw [List.cons_append, List.cons.injEq] at h3
        refine Or.inl ⟨?_, he, a, b, h3.2, fun y hy => h4 y (by simp [hy])⟩
        intro h
        have := h4 x (by simp)
        rw [← h3.1, ← he] at this
        exact this h.symm

/-- set:distinct of a node-set in document order: the first node with each string-value. -/
theorem C39_distinct (h : WeakOrder lt) {ord : List α → List α} (ho : ∀ l, (ord l).Perm l) (str : α → Str) (ns : List α) :
    IsNodeset lt (fun x => FirstWith str ns x) (distinct lt ord str ns).1 := by
  obtain ⟨h1, h2⟩ := toDict_first str ns
  have hp := (nodeset_perm (lt := lt) (ord ((toDict (ns.reverse.map fun n => (str n, n))).map (·.2)))).trans (ho _)
  refine ⟨hp.nodup_iff.2 ?_, nodeset_sorted h _, fun x => ?_⟩
  · have hk : ∀ d : List (Str × α), (d.map (·.1)).Nodup → (∀ e ∈ d, e.1 = str e.2) → (d.map (·.2)).Nodup := by
      intro d
      induction d with
      | nil => simp
      | cons e d ih =>
        intro hn he
        rw [List.map_cons, List.nodup_cons] at hn ⊢
        refine ⟨?_, ih hn.2 (fun x hx => he x (by simp [hx]))⟩
        intro hm
        obtain ⟨f, hf, hfe⟩ := List.mem_map.1 hm
        refine hn.1 (List.mem_map.2 ⟨f, hf, ?_⟩)
        rw [he f (by simp [hf]), he e (by simp), hfe]
    exact hk _ h1 (fun e he => ((h2 e).1 he).1)
  · show x ∈ (distinct lt ord str ns).1 ↔ _
    unfold distinct
    rw [hp.mem_iff, List.mem_map]
    constructor
    · rintro ⟨e, he, rfl⟩; exact ((h2 e).1 he).2
    · intro hx; exact ⟨(str x, x), (h2 _).2 ⟨rfl, hx⟩, rfl⟩

end Sets

/-- Document order on positions is such an order; three nodes, two with the same string-value. -/
example : WeakOrder (fun a b : Nat => decide (a < b)) ∧
    (distinct (fun a b : Nat => decide (a < b)) List.reverse (fun n => if n = 3 then ['x'] else ['y']) [1, 3, 5]).1 = [1, 3] ∧
    difference (fun a b : Nat => decide (a < b)) List.reverse [1, 3, 5, 7] [3] = [1, 5, 7] := by
  refine ⟨⟨by simp, fun x y z => by simp; omega, fun x y z => by simp; omega⟩, by decide, by decide +kernel⟩

/-- set:leading and set:trailing always raise NameError (sets.py:77, 99). -/
theorem C39_refuted_leading {α : Type} (ns1 ns2 : List α) :
    leading ns1 ns2 = .error .nameError ∧ trailing ns1 ns2 = .error .nameError := ⟨rfl, rfl⟩

/-- set:distinct reverses its argument in place: called twice for a variable, it returns the first node of
two with the same string-value the first time, and the last one the second time (sets.py:33). -/
theorem C39_refuted_distinct_twice :
    let lt := fun a b : Nat => decide (a < b)
    let first := distinct lt id (fun _ => ['y']) [1, 5]
    first = ([1], [5, 1]) ∧ (distinct lt id (fun _ => ['y']) first.2).1 = [5] := by decide +kernel

/-! C40 -/

open Verif.XPath (Dbl)

theorem lt_trans {a b c : Dbl} (h1 : Dbl.lt a b = true) (h2 : Dbl.lt b c = true) : Dbl.lt a c = true := by
  cases a <;> cases b <;> cases c <;> simp_all [Dbl.lt, Dbl.toRat?] <;> grind

theorem le_iff {a b : Dbl} (ha : a ≠ .nan) (hb : b ≠ .nan) : Dbl.le a b = true ↔ Dbl.lt b a = false := by
  cases a <;> cases b <;> simp_all [Dbl.le, Dbl.lt, Dbl.eq, Dbl.toRat?] <;> grind

theorem maxLoop_spec (m : Dbl) (l : List Dbl) :
    ((m = .nan ∨ Dbl.nan ∈ l) → maxLoop m l = .nan) ∧
    (m ≠ .nan → Dbl.nan ∉ l → maxLoop m l ∈ m :: l ∧ Dbl.lt (maxLoop m l) m = false ∧
      ∀ x ∈ l, Dbl.lt (maxLoop m l) x = false) := by
  have irr : ∀ a : Dbl, Dbl.lt a a = false := by intro a; cases a <;> simp [Dbl.lt, Dbl.toRat?]
  induction l generalizing m with
  | nil =>
    refine ⟨?_, fun h _ => ⟨by simp [maxLoop], irr m, by simp⟩⟩
    rintro (rfl | h)
    · rfl
    · simp at h
  | cons n l ih =>
    rw [maxLoop]
    split
    · rename_i hlt
      have hm : m ≠ .nan := by rintro rfl; simp [Dbl.lt] at hlt
      have hn : n ≠ .nan := by rintro rfl; cases m <;> simp [Dbl.lt] at hlt
      obtain ⟨i1, i2⟩ := ih n
      refine ⟨?_, ?_⟩
      · rintro (h | h)
        · exact absurd h hm
        · rcases List.mem_cons.1 h with h | h
          · exact absurd h.symm hn
          · exact i1 (Or.inr h)
      · intro _ h
        have h' : Dbl.nan ∉ l := fun hl => h (by simp [hl])
        obtain ⟨j1, j2, j3⟩ := i2 hn h'
        refine ⟨List.mem_cons_of_mem _ j1, ?_, ?_⟩
        · cases hc : Dbl.lt (maxLoop n l) m with
          | false => rfl
          | true => have := lt_trans hc hlt; rw [j2] at this; cases this
        · intro x hx
          rcases List.mem_cons.1 hx with rfl | hx
          · exact j2
          · exact j3 x hx
    · rename_i hlt
      split
      · rename_i hn
        subst hn
        exact ⟨fun _ => rfl, fun _ h => absurd (List.mem_cons_self ..) h⟩
      · rename_i hn
        obtain ⟨i1, i2⟩ := ih m
        refine ⟨?_, ?_⟩
        · rintro (h | h)
          · exact i1 (Or.inl h)
          · rcases List.mem_cons.1 h with h | h
            · exact absurd h.symm hn
            · exact i1 (Or.inr h)
        · intro hm h
          have h' : Dbl.nan ∉ l := fun hl => h (by simp [hl])
          obtain ⟨j1, j2, j3⟩ := i2 hm h'
          refine ⟨?_, j2, ?_⟩
          · rcases List.mem_cons.1 j1 with j | j
            · rw [j]; simp
            · simp [j]
          · intro x hx
            rcases List.mem_cons.1 hx with rfl | hx
            · cases hc : Dbl.lt (maxLoop m l) x with
              | false => rfl
              | true =>
                have hmm : maxLoop m l ≠ .nan := by
                  rcases List.mem_cons.1 j1 with j | j
                  · rw [j]; exact hm
                  · exact fun e => h' (e ▸ j)
                -- m ≤ maxLoop and maxLoop < x, so m < x
                have : Dbl.lt m x = true := by
                  have a1 := (le_iff hm hmm).2 j2
                  unfold Dbl.le at a1
                  rcases Bool.or_eq_true .. ▸ a1 with a1 | a1
                  · exact lt_trans a1 hc
                  · revert hc a1 hm hmm
                    generalize maxLoop m l = k
                    cases m <;> cases k <;> cases x <;> simp [Dbl.lt, Dbl.eq, Dbl.toRat?] <;> grind
                rw [this] at hlt
                exact absurd rfl hlt
            · exact j3 x hx

/-- math:max. -/
theorem C40_max (l : List Dbl) : IsMax l (mathMax l) := by
  cases l with
  | nil => exact ⟨fun _ => rfl, fun h => absurd rfl h⟩
  | cons n l =>
    obtain ⟨h1, h2⟩ := maxLoop_spec n l
    refine ⟨?_, ?_⟩
    · rintro (h | h)
      · cases h
      · refine h1 ?_
        rcases List.mem_cons.1 h with h | h
        · exact Or.inl h.symm
        · exact Or.inr h
    · intro _ h
      have hn : n ≠ .nan := fun e => h (by simp [e])
      have hl : Dbl.nan ∉ l := fun e => h (by simp [e])
      obtain ⟨j1, j2, j3⟩ := h2 hn hl
      have hm : mathMax (n :: l) ≠ .nan := fun e => h (e ▸ j1)
      refine ⟨j1, fun x hx => ?_⟩
      have hx' : x ≠ .nan := fun e => h (e ▸ hx)
      refine (le_iff hx' hm).2 ?_
      rcases List.mem_cons.1 hx with rfl | hx
      · exact j2
      · exact j3 x hx

theorem lt_neg (a b : Dbl) : Dbl.lt a.neg b.neg = Dbl.lt b a := by
  cases a <;> cases b <;> simp only [Dbl.neg] <;> (repeat' split) <;> simp_all [Dbl.lt, Dbl.toRat?] <;> grind

theorem neg_neg (a : Dbl) : a.neg.neg = a := by
  cases a with
  | fin q =>
    by_cases h : q = 0
    · simp [Dbl.neg, h]
    · have : -q ≠ 0 := by grind
      simp [Dbl.neg, h, this]
  | _ => simp [Dbl.neg]

theorem neg_nan (a : Dbl) : a.neg = .nan ↔ a = .nan := by
  constructor
  · intro h
    rw [← neg_neg a, h]; rfl
  · rintro rfl; rfl

theorem minLoop_neg (m : Dbl) (l : List Dbl) : minLoop m l = (maxLoop m.neg (l.map Dbl.neg)).neg := by
  induction l generalizing m with
  | nil => simp [minLoop, maxLoop, neg_neg]
  | cons n l ih =>
    rw [List.map_cons, minLoop, maxLoop, lt_neg]
    simp only [neg_nan]
    split
    · exact ih n
    · split
      · rw [neg_neg]
      · exact ih m

/-- math:min. -/
theorem C40_min (l : List Dbl) : IsMin l (mathMin l) := by
  have key : mathMin l = (mathMax (l.map Dbl.neg)).neg := by
    cases l with
    | nil => rfl
    | cons n l => exact minLoop_neg n l
  obtain ⟨h1, h2⟩ := C40_max (l.map Dbl.neg)
  have hn : Dbl.nan ∈ l.map Dbl.neg ↔ Dbl.nan ∈ l := by
    rw [List.mem_map]
    constructor
    · rintro ⟨a, h, ha⟩; rw [neg_nan] at ha; exact ha ▸ h
    · intro h; exact ⟨_, h, rfl⟩
  rw [key]
  refine ⟨fun h => ?_, fun h h' => ?_⟩
  · rw [h1 (by rw [hn]; simpa using h)]; rfl
  · obtain ⟨j1, j2⟩ := h2 (by simpa using h) (by rw [hn]; exact h')
    obtain ⟨a, ha, hae⟩ := List.mem_map.1 j1
    refine ⟨by rw [← hae, neg_neg]; exact ha, fun x hx => ?_⟩
    have hx' : x ≠ .nan := fun e => h' (e ▸ hx)
    have hm : mathMax (l.map Dbl.neg) ≠ .nan := fun e => h' (hn.1 (e ▸ j1))
    have := j2 x.neg (List.mem_map.2 ⟨x, hx, rfl⟩)
    rw [le_iff (by rwa [ne_eq, neg_nan]) hm] at this
    rw [le_iff (by rwa [ne_eq, neg_nan]) hx']
    rwa [← lt_neg, neg_neg]

example : mathMax [.fin 3, .pinf, .fin 7] = .pinf ∧ mathMin [.fin 3, .nzero, .fin (-2)] = .fin (-2) := by
  decide +kernel

section
variable {α : Type} (num : α → Dbl)

theorem pyMax_eq (m : α) (l : List α) (h : ∀ x ∈ l, num x ≠ .nan) :
    num (pyMax num m l) = maxLoop (num m) (l.map num) := by
  induction l generalizing m with
  | nil => rfl
  | cons x l ih =>
    have hx := h x (by simp)
    have ih' := fun m => ih m (fun y hy => h y (by simp [hy]))
    rw [List.map_cons, pyMax, maxLoop, if_neg hx]
    split
    · exact ih' x
    · exact ih' m

theorem pyMin_eq (m : α) (l : List α) (h : ∀ x ∈ l, num x ≠ .nan) :
    num (pyMin num m l) = minLoop (num m) (l.map num) := by
  induction l generalizing m with
  | nil => rfl
  | cons x l ih =>
    have hx := h x (by simp)
    have ih' := fun m => ih m (fun y hy => h y (by simp [hy]))
    rw [List.map_cons, pyMin, minLoop, if_neg hx]
    split
    · exact ih' x
    · exact ih' m

/-- math:highest of a node-set that is not empty and has only nodes with numeric values: the nodes whose
value is the maximum.  (Missing: the other node-sets, see the refutations.) -/
theorem C40_highest_partial (ns : List α) (hne : ns ≠ []) (hn : ∀ x ∈ ns, num x ≠ .nan) :
    ∃ m, IsMax (ns.map num) m ∧ highest num ns = some (ns.filter fun x => Dbl.eq (num x) m) := by
  refine ⟨_, C40_max _, ?_⟩
  cases ns with
  | nil => exact absurd rfl hne
  | cons x l =>
    rw [highest, pyMax_eq num x l (fun y hy => hn y (by simp [hy]))]
    rfl

/-- math:lowest, likewise. -/
theorem C40_lowest_partial (ns : List α) (hne : ns ≠ []) (hn : ∀ x ∈ ns, num x ≠ .nan) :
    ∃ m, IsMin (ns.map num) m ∧ lowest num ns = some (ns.filter fun x => Dbl.eq (num x) m) := by
  refine ⟨_, C40_min _, ?_⟩
  cases ns with
  | nil => exact absurd rfl hne
  | cons x l =>
    rw [lowest, pyMin_eq num x l (fun y hy => hn y (by simp [hy]))]
    rfl

/-- The nodes selected are not none: at least one has the maximum. -/
theorem C40_highest_exists (ns : List α) (hne : ns ≠ []) (hn : ∀ x ∈ ns, num x ≠ .nan) :
    ∃ out, highest num ns = some out ∧ out ≠ [] := by
  obtain ⟨m, hm, h⟩ := C40_highest_partial num ns hne hn
  refine ⟨_, h, ?_⟩
  have hnan : Dbl.nan ∉ ns.map num := by
    intro h
    obtain ⟨x, hx, he⟩ := List.mem_map.1 h
    exact hn x hx he
  obtain ⟨x, hx, he⟩ := List.mem_map.1 (hm.2 (by simpa using hne) hnan).1
  have : Dbl.eq m m = true := by
    have : m ≠ .nan := he ▸ hn x hx
    revert this
    cases m <;> simp [Dbl.eq, Dbl.toRat?]
  exact List.ne_nil_of_mem (List.mem_filter.2 ⟨hx, by rw [he]; exact this⟩)

end

example : highest (fun n : Nat => if n = 2 then Dbl.fin 9 else if n = 5 then .fin 9 else .fin 1) [1, 2, 4, 5]
    = some [2, 5] := by decide +kernel

/-- math:highest and math:lowest of an empty node-set raise ValueError; the property asks for an empty
node-set (math.py:121, 148). -/
theorem C40_refuted_empty {α : Type} (num : α → Dbl) : highest num [] = none ∧ lowest num [] = none := ⟨rfl, rfl⟩

/-- If a node other than the first has no numeric value, math:max is NaN and nothing is equal to it, but
math:highest returns nodes (math.py:121: Python's max() ignores NaN there). -/
theorem C40_refuted_nan :
    let num := fun n : Nat => if n = 2 then Dbl.nan else Dbl.fin n
    mathMax ([1, 2, 3].map num) = .nan ∧ highest num [1, 2, 3] = some [3] ∧ lowest num [1, 2, 3] = some [1] := by
  decide +kernel

end Verif.Xslt
