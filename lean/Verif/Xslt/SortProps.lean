import Verif.Xslt.SortSpec
import Verif.Eval.Props
import Verif.Eval.TermProps
import Verif.Eval.Sample

/-
C60: xsl:sort.
-/
namespace Verif.Xslt
open Verif Verif.XPath Verif.Dom Verif.Dom.Spec Verif.Eval Verif.Eval.Spec
open Verif.Xslt.Spec

variable {d : Doc} {r : Nat}

/-! Stable sorting -/

/-- The comparison is that of a total preorder on the elements with property `P`. -/
structure Consistent {α : Type} (cmp : α → α → Ordering) (P : α → Prop) : Prop where
  swap : ∀ a b, P a → P b → (cmp a b = .lt ↔ cmp b a = .gt)
  trans : ∀ a b c, P a → P b → P c → cmp a b ≠ .gt → cmp b c ≠ .gt → cmp a c ≠ .gt

theorem insertBy_perm {α : Type} {cmp : α → α → Ordering} {x : α} {l : List α} :
    (insertBy cmp x l).Perm (x :: l) := by
  induction l with
  | nil => exact .refl _
  | cons y l ih =>
    rw [insertBy]
    split
    · exact (ih.cons y).trans (.swap x y l)
    · exact .refl _

theorem stableSort_perm {α : Type} {cmp : α → α → Ordering} (l : List α) : (stableSort cmp l).Perm l := by
  induction l with
  | nil => exact .refl _
  | cons x l ih => exact insertBy_perm.trans (ih.cons x)

/-- Ordered by the comparison, else by `R`. -/
def Refines {α : Type} (cmp : α → α → Ordering) (R : α → α → Prop) (a b : α) : Prop :=
  cmp a b = .lt ∨ (cmp a b = .eq ∧ R a b)

theorem Refines.le {α : Type} {cmp : α → α → Ordering} {R : α → α → Prop} {a b : α} (h : Refines cmp R a b) :
    cmp a b ≠ .gt := by
  rcases h with h | h
  · simp [h]
  · simp [h.1]

theorem refines_of {α : Type} {cmp : α → α → Ordering} {R : α → α → Prop} {a b : α} (h : cmp a b ≠ .gt) (hr : R a b) :
    Refines cmp R a b := by
  cases hc : cmp a b with
  | lt => exact .inl hc
  | eq => exact .inr ⟨hc, hr⟩
  | gt => exact absurd hc h

theorem insertBy_sorted {α : Type} {cmp : α → α → Ordering} {P : α → Prop} (hc : Consistent cmp P)
    {R : α → α → Prop} {x : α} {l : List α} (hx : P x) (hl : ∀ y ∈ l, P y) (hR : ∀ y ∈ l, R x y)
    (h : l.Pairwise (Refines cmp R)) : (insertBy cmp x l).Pairwise (Refines cmp R) := by
  induction l with
  | nil => simp [insertBy]
  | cons y l ih =>
    rw [insertBy]
    have hp := List.pairwise_cons.1 h
    split
    · rename_i hlt
      refine List.pairwise_cons.2 ⟨?_, ih (fun z hz => hl z (by simp [hz])) (fun z hz => hR z (by simp [hz])) hp.2⟩
      intro z hz
      rcases List.mem_cons.1 (insertBy_perm.mem_iff.1 hz) with rfl | hz
      · exact .inl hlt
      · exact hp.1 z hz
    · rename_i hlt
      refine List.pairwise_cons.2 ⟨?_, h⟩
      have hxy : cmp x y ≠ .gt := fun hg => hlt ((hc.swap y x (hl y (by simp)) hx).2 hg)
      intro z hz
      rcases List.mem_cons.1 hz with rfl | hz'
      · exact refines_of hxy (hR _ (by simp))
      · exact refines_of (hc.trans x y z hx (hl y (by simp)) (hl z hz) hxy (hp.1 z hz').le) (hR z hz)

theorem stableSort_sorted {α : Type} {cmp : α → α → Ordering} {P : α → Prop} (hc : Consistent cmp P)
    {R : α → α → Prop} {l : List α} (hl : ∀ y ∈ l, P y) (h : l.Pairwise R) :
    (stableSort cmp l).Pairwise (Refines cmp R) := by
  induction l with
  | nil => exact .nil
  | cons x l ih =>
    have hp := List.pairwise_cons.1 h
    exact insertBy_sorted hc (hl x (by simp)) (fun y hy => hl y (by simp [(stableSort_perm l).mem_iff.1 hy]))
      (fun y hy => hp.1 y ((stableSort_perm l).mem_iff.1 hy)) (ih (fun y hy => hl y (by simp [hy])) hp.2)

/-- The order of a key: `order="descending"` reverses the comparison, not the order of equal nodes. -/
def ordered {α : Type} (cmp : α → α → Ordering) (reverse : Bool) (a b : α) : Ordering :=
  if reverse then cmp b a else cmp a b

theorem listSort_perm {α : Type} {cmp : α → α → Ordering} {rev : Bool} (l : List α) : (listSort cmp rev l).Perm l := by
  unfold listSort
  split
  · exact (List.reverse_perm _).trans ((stableSort_perm _).trans (List.reverse_perm _))
  · exact stableSort_perm l

theorem listSort_sorted {α : Type} {cmp : α → α → Ordering} {P : α → Prop} (hc : Consistent cmp P) {rev : Bool}
    {R : α → α → Prop} {l : List α} (hl : ∀ y ∈ l, P y) (h : l.Pairwise R) :
    (listSort cmp rev l).Pairwise (Refines (ordered cmp rev) R) := by
  unfold listSort
  cases rev with
  | false => exact stableSort_sorted hc hl h
  | true =>
    have := stableSort_sorted hc (R := fun a b => R b a) (l := l.reverse) (by simpa using hl)
      (List.pairwise_reverse.2 h)
    exact List.pairwise_reverse.2 this

/-! The sorts of all keys -/

/-- What the loop over the keys gives, when the list was ordered by `R`. -/
def chainOrder (tbl : CaseTable) : List SortKey → Nat → (Row → Row → Prop) → Row → Row → Prop
  | [], _, R => R
  | k :: ks, i, R => chainOrder tbl ks (i + 1) (Refines (ordered (rowCompare tbl k i) k.descending) R)

theorem sortLoop_perm {tbl : CaseTable} {ks : List SortKey} {i : Nat} {l : List Row} : (sortLoop tbl ks i l).Perm l := by
  induction ks generalizing i l with
  | nil => exact .refl _
  | cons k ks ih => exact ih.trans (listSort_perm l)

theorem sortLoop_sorted {tbl : CaseTable} {P : Row → Prop} {ks : List SortKey} {i : Nat} {l : List Row}
    {R : Row → Row → Prop} (hc : ∀ j k, ks[j]? = some k → Consistent (rowCompare tbl k (i + j)) P)
    (hl : ∀ y ∈ l, P y) (h : l.Pairwise R) : (sortLoop tbl ks i l).Pairwise (chainOrder tbl ks i R) := by
  induction ks generalizing i l R with
  | nil => exact h
  | cons k ks ih =>
    refine ih (fun j k' hj => ?_) (fun y hy => hl y ((listSort_perm l).mem_iff.1 hy))
      (listSort_sorted (hc 0 k rfl) hl h)
    have := hc (j + 1) k' hj
    rwa [show i + 1 + j = i + (j + 1) by omega]

/-- The last key in which two rows differ decides. -/
theorem chainOrder_iff {tbl : CaseTable} {ks : List SortKey} {i : Nat} {R : Row → Row → Prop} {a b : Row}
    (h : chainOrder tbl ks i R a b) :
    (∃ j k, ks[j]? = some k ∧ ordered (rowCompare tbl k (i + j)) k.descending a b = .lt ∧
      ∀ j' k', j < j' → ks[j']? = some k' → ordered (rowCompare tbl k' (i + j')) k'.descending a b = .eq) ∨
    ((∀ j k, ks[j]? = some k → ordered (rowCompare tbl k (i + j)) k.descending a b = .eq) ∧ R a b) := by
  induction ks generalizing i R with
  | nil => exact .inr ⟨by simp, h⟩
  | cons k ks ih =>
    rcases ih h with ⟨j, k', h1, h2, h3⟩ | ⟨h1, h2⟩
    · refine .inl ⟨j + 1, k', h1, by rwa [show i + (j + 1) = i + 1 + j by omega], ?_⟩
      intro j' k'' hj hk
      obtain ⟨m, rfl⟩ : ∃ m, j' = m + 1 := ⟨j' - 1, by omega⟩
      have := h3 m k'' (by omega) hk
      rwa [show i + (m + 1) = i + 1 + m by omega]
    · have rest : ∀ j k', (k :: ks)[j + 1]? = some k' →
          ordered (rowCompare tbl k' (i + (j + 1))) k'.descending a b = .eq := by
        intro j k' hk
        have := h1 j k' hk
        rwa [show i + (j + 1) = i + 1 + j by omega]
      rcases h2 with h2 | ⟨h2, h4⟩
      · refine .inl ⟨0, k, rfl, h2, ?_⟩
        intro j' k' hj hk
        obtain ⟨m, rfl⟩ : ∃ m, j' = m + 1 := ⟨j' - 1, by omega⟩
        exact rest m k' hk
      · refine .inr ⟨?_, h4⟩
        intro j k' hk
        cases j with
        | zero => cases hk; exact h2
        | succ j => exact rest j k' hk

/-! The comparisons are consistent -/

theorem cmpText_lt {a b : Str} : cmpText a b = .lt ↔ a < b := by
  induction a generalizing b with
  | nil => cases b <;> simp [cmpText]
  | cons x a ih =>
    cases b with
    | nil => simp [cmpText]
    | cons y b =>
      rw [cmpText, List.cons_lt_cons_iff]
      split
      · simp_all
      · rename_i h1
        split
        · rename_i h2
          have : x ≠ y := fun e => Char.lt_irrefl _ (e ▸ h2)
          simp [h1, this]
        · rename_i h2
          have : x = y := Char.le_antisymm (Char.not_lt.1 h2) (Char.not_lt.1 h1)
          simp [this, ih]

theorem cmpText_gt {a b : Str} : cmpText a b = .gt ↔ b < a := by
  rw [← cmpText_lt]
  induction a generalizing b with
  | nil => cases b <;> simp [cmpText]
  | cons x a ih =>
    cases b with
    | nil => simp [cmpText]
    | cons y b =>
      rw [cmpText, cmpText]
      by_cases h1 : x < y
      · have h2 := Char.lt_asymm h1
        simp [h1, h2]
      · by_cases h2 : y < x
        · simp [h1, h2]
        · simp [h1, h2, ih]

/-- The place of a number: NaN, negative infinity, the rationals, infinity. -/
def place (x : XNum) : Nat × Rat :=
  match x.val with
  | .nan => (0, 0)
  | .ninf => (1, 0)
  | .nzero => (2, 0)
  | .fin q => (2, q)
  | .pinf => (3, 0)

def placeLess (a b : Nat × Rat) : Prop := a.1 < b.1 ∨ (a.1 = b.1 ∧ a.2 < b.2)

theorem numLess_place {x y : XNum} : NumLess x y ↔ placeLess (place x) (place y) := by
  unfold NumLess placeLess place
  cases x.val <;> cases y.val <;> simp [Dbl.lt, Dbl.toRat?, Rat.lt_irrefl]

theorem cmpNumber_lt {x y : XNum} : cmpNumber x y = .lt ↔ NumLess x y := by
  unfold cmpNumber NumLess
  cases hx : x.val <;> cases hy : y.val <;> simp [Dbl.lt, Dbl.toRat?] <;> grind

theorem cmpNumber_gt {x y : XNum} : cmpNumber x y = .gt ↔ NumLess y x := by
  unfold cmpNumber NumLess
  cases hx : x.val <;> cases hy : y.val <;> simp [Dbl.lt, Dbl.toRat?] <;> grind

theorem placeLess_trans {a b c : Nat × Rat} (h1 : ¬ placeLess b a) (h2 : ¬ placeLess c b) : ¬ placeLess c a := by
  unfold placeLess at *
  grind

/-- Is the value of the type that the key has? -/
def HasType (k : SortKey) : KVal → Prop
  | .num _ => k.number = true
  | .str _ => k.number = false

theorem compare_less {tbl : CaseTable} {k : SortKey} (hk : k.number = true ∨ k.caseOrder = none) {u v : KVal}
    (hu : HasType k u) (hv : HasType k v) :
    (k.compare tbl u v = .lt ↔ Less u v) ∧ (k.compare tbl u v = .gt ↔ Less v u) := by
  cases u with
  | num x =>
    cases v with
    | num y => exact ⟨cmpNumber_lt, cmpNumber_gt⟩
    | str s =>
      simp only [HasType] at hu hv
      rw [hu] at hv; cases hv
  | str s =>
    cases v with
    | num x =>
      simp only [HasType] at hu hv
      rw [hv] at hu; cases hu
    | str t =>
      have hn : k.caseOrder = none := by
        rcases hk with h | h
        · simp only [HasType] at hu; rw [h] at hu; cases hu
        · exact h
      simp only [SortKey.compare, hn, Less]
      exact ⟨cmpText_lt, cmpText_gt⟩

theorem less_trans {k : SortKey} {u v z : KVal} (hu : HasType k u) (hv : HasType k v) (hz : HasType k z)
    (h1 : ¬ Less v u) (h2 : ¬ Less z v) : ¬ Less z u := by
  cases u <;> cases v <;> cases z <;> simp only [HasType] at hu hv hz <;> simp_all only [Bool.true_eq_false, reduceCtorEq]
  · simp only [Less] at *
    intro h3
    have h1' : _ ≤ _ := List.not_lt.1 h1
    have h2' : _ ≤ _ := List.not_lt.1 h2
    exact List.not_lt.2 (List.le_trans h1' h2') h3
  · simp only [Less, numLess_place] at *
    exact placeLess_trans h1 h2

theorem compare_consistent {tbl : CaseTable} {k : SortKey} (hk : k.number = true ∨ k.caseOrder = none) :
    Consistent (k.compare tbl) (HasType k) where
  swap := by
    intro a b ha hb
    rw [(compare_less hk ha hb).1, (compare_less hk hb ha).2]
  trans := by
    intro a b c ha hb hc h1 h2
    rw [ne_eq, (compare_less hk ha hb).2] at h1
    rw [ne_eq, (compare_less hk hb hc).2] at h2
    rw [ne_eq, (compare_less hk ha hc).2]
    exact less_trans ha hb hc h1 h2

/-- A row with the values of the keys. -/
def RowTyped (keys : List SortKey) (row : Row) : Prop :=
  ∀ (j : Nat) (k : SortKey), keys[j]? = some k → ∃ v, row.2[j]? = some v ∧ HasType k v

theorem row_consistent {tbl : CaseTable} {keys : List SortKey} {j : Nat} {k : SortKey} (hj : keys[j]? = some k)
    (hk : k.number = true ∨ k.caseOrder = none) : Consistent (rowCompare tbl k j) (RowTyped keys) where
  swap := by
    intro a b ha hb
    obtain ⟨u, hu, tu⟩ := ha j k hj
    obtain ⟨v, hv, tv⟩ := hb j k hj
    simp only [rowCompare, hu, hv]
    exact (compare_consistent hk).swap u v tu tv
  trans := by
    intro a b c ha hb hc
    obtain ⟨u, hu, tu⟩ := ha j k hj
    obtain ⟨v, hv, tv⟩ := hb j k hj
    obtain ⟨z, hz, tz⟩ := hc j k hj
    simp only [rowCompare, hu, hv, hz]
    exact (compare_consistent hk).trans u v z tu tv tz

/-! The values of the keys -/

theorem value_right (w : DocWF d r) {fuel : Nat} {k : SortKey} (hk : KeyOk d r k) {nodes : List Nat} {c c' : Ctx}
    {v : KVal} (hc : InDoc d r c.node) (hs : c.size = nodes.length) (h : k.value d fuel c = .ok v c') :
    KeyValue d k nodes c.node c.position v ∧ Same c c' := by
  unfold SortKey.value at h
  have hg := hk.2
  split at h
  · rename_i hn
    simp only [hn, if_true] at hg
    obtain ⟨x, c1, h1, h2⟩ := bind_ok h
    obtain ⟨g1, _, g2⟩ := (sound w fuel).eval _ _ _ _ _ h1 hg hc
    split at h2
    · cases h2
      exact ⟨⟨hn, hs ▸ g1⟩, g2⟩
    · cases h2
  · rename_i hn
    simp only [hn] at hg
    obtain ⟨x, c1, h1, h2⟩ := bind_ok h
    obtain ⟨g1, _, g2⟩ := (sound w fuel).eval _ _ _ _ _ h1 hg hc
    split at h2
    · cases h2
      exact ⟨⟨by simpa using hn, hs ▸ g1⟩, g2⟩
    · cases h2

theorem keyValue_typed {k : SortKey} {nodes : List Nat} {n p : Nat} {v : KVal} (h : KeyValue d k nodes n p v) :
    HasType k v := by
  cases v with
  | num x => exact h.1
  | str s => exact h.1

theorem keyValues_right (w : DocWF d r) {fuel : Nat} {keys : List SortKey} (hk : ∀ k ∈ keys, KeyOk d r k)
    {nodes : List Nat} {c c' : Ctx} {vs : List KVal} (hc : InDoc d r c.node) (hs : c.size = nodes.length)
    (h : keyValues d fuel keys c = .ok vs c') :
    (∀ (j : Nat) (k : SortKey), keys[j]? = some k → ∃ v, vs[j]? = some v ∧ KeyValue d k nodes c.node c.position v) ∧ Same c c' := by
  induction keys generalizing c vs with
  | nil => cases h; exact ⟨by simp, .refl⟩
  | cons k ks ih =>
    obtain ⟨v, c1, h1, h2⟩ := bind_ok h
    obtain ⟨vs', c2, h3, h4⟩ := bind_ok h2
    cases h4
    obtain ⟨g1, g2⟩ := value_right w (hk k (by simp)) hc hs h1
    obtain ⟨g3, g4⟩ := ih (fun k h => hk k (by simp [h])) (by rw [g2.1]; exact hc) (by rw [g2.2.2]; exact hs) h3
    refine ⟨?_, g2.trans g4⟩
    intro j k' hj
    cases j with
    | zero => cases hj; exact ⟨v, rfl, g1⟩
    | succ j =>
      obtain ⟨v', hv, g5⟩ := g3 j k' hj
      rw [g2.1, g2.2.1] at g5
      exact ⟨v', hv, g5⟩

theorem decorate_right (w : DocWF d r) {fuel : Nat} {keys : List SortKey} (hk : ∀ k ∈ keys, KeyOk d r k)
    {nodes l : List Nat} {p : Nat} {c c' : Ctx} {rows : List Row} (hl : ∀ n ∈ l, InDoc d r n)
    (hs : c.size = nodes.length) (h : decorate d fuel keys p l c = .ok rows c') :
    rows.map (·.1) = l ∧ c'.size = c.size ∧
    ∀ (i : Nat) (row : Row), rows[i]? = some row → ∀ (j : Nat) (k : SortKey), keys[j]? = some k →
      ∃ v, row.2[j]? = some v ∧ KeyValue d k nodes row.1 (p + i + 1) v := by
  induction l generalizing p c rows with
  | nil => cases h; exact ⟨rfl, rfl, by simp⟩
  | cons n l ih =>
    obtain ⟨vs, c1, h1, h2⟩ := bind_ok h
    obtain ⟨rows', c2, h3, h4⟩ := bind_ok h2
    cases h4
    obtain ⟨g1, g2⟩ := keyValues_right w (nodes := nodes) hk (c := { c with node := n, current := n, position := p + 1 })
      (hl n (by simp)) hs h1
    obtain ⟨g3, g4, g5⟩ := ih (fun m hm => hl m (by simp [hm])) (g2.2.2.trans hs) h3
    refine ⟨by simp [g3], g4.trans g2.2.2, ?_⟩
    intro i row hi
    cases i with
    | zero => cases hi; exact g1
    | succ i =>
      have := g5 i row hi
      rwa [show p + (i + 1) + 1 = p + 1 + i + 1 by omega]

theorem kids_sorted {n : Nat} : Sorted d (d.h.kids n) := by
  have := kids_pairwise (h := d.h) (p := n) [] (d.h.kids n) rfl
  exact this.imp fun h => .tree h

theorem kids_inDoc (w : DocWF d r) {n x : Nat} (hn : InDoc d r n) (hx : x ∈ d.h.kids n) : InDoc d r x :=
  onLAxis_inDoc w (ax := .tree .child) hn 
    ⟨w.wf.kids_parent n x hx, .inl (childKind_tree (w.wf.child_kind n x hx))⟩

theorem sortInput_right (w : DocWF d r) {fuel : Nat} {e : Option Expr} (he : SelectOk d r e) {c c' : Ctx}
    {nodes : List Nat} (hc : InDoc d r c.node) (h : sortInput d fuel e c = .ok nodes c') :
    SelectedBy d e c.node c.position c.size nodes ∧ Sorted d nodes ∧ (∀ n ∈ nodes, InDoc d r n) ∧ Same c c' := by
  cases e with
  | none => cases h; exact ⟨rfl, kids_sorted, fun n hn => kids_inDoc w hc hn, .refl⟩
  | some e =>
    obtain ⟨v, c1, h1, h2⟩ := bind_ok h
    obtain ⟨⟨u, g1, g2⟩, g3, g4⟩ := (sound w fuel).eval _ _ _ _ _ h1 he hc
    split at h2
    · rename_i l
      cases h2
      obtain ⟨rfl, _⟩ := g2
      exact ⟨g1, g3.1, g3.2, g4⟩
    · cases h2

theorem sorted_nodup (w : DocWF d r) {l : List Nat} (h : Sorted d l) : l.Nodup :=
  List.Pairwise.imp (fun {a b} (hab : DocBefore d a b) (e : a = b) => docBefore_irrefl w (e ▸ hab)) h

/-- C60: the nodes are in the order that the sort keys demand; the first key counts most, and nodes that no key tells
apart stay in document order, also for `order="descending"`.  Missing: texts with a `case-order`. -/
theorem C60_order_partial (w : DocWF d r) {tbl : CaseTable} {fuel : Nat} {e : Option Expr} {keys : List SortKey}
    (he : SelectOk d r e) (hk : ∀ k ∈ keys, KeyOk d r k) {c c' : Ctx} {res : List Nat} (hc : InDoc d r c.node)
    (h : sortedNodes d tbl fuel e keys c = .ok res c') :
    ∃ nodes, SelectedBy d e c.node c.position c.size nodes ∧ SortedBy d keys nodes res := by
  obtain ⟨nodes, c1, h1, h2⟩ := bind_ok h
  obtain ⟨g1, g2, g3, g4⟩ := sortInput_right w he hc h1
  obtain ⟨rows, c2, h3, h5⟩ := bind_ok h2
  cases h5
  obtain ⟨g5, _, g6⟩ := decorate_right w (nodes := nodes) (by simpa using hk) g3 rfl h3
  refine ⟨nodes, g1, ?_, ?_⟩
  · rw [← g5]
    exact sortLoop_perm.map _
  have nd := sorted_nodup w g2
  -- the values of the keys, for a node
  let kv : Nat → Nat → KVal := fun n j =>
    (((rows.find? (·.1 == n)).bind (·.2[keys.length - 1 - j]?)).getD (.str []))
  have find : ∀ row ∈ rows, rows.find? (·.1 == row.1) = some row := by
    rw [← g5] at nd
    clear g5 g6 h3 h2 h
    induction rows with
    | nil => simp
    | cons x rows ih =>
      intro row hrow
      rw [List.map_cons, List.nodup_cons] at nd
      rcases List.mem_cons.1 hrow with rfl | hrow
      · simp
      · have : x.1 ≠ row.1 := fun e => nd.1 (e ▸ List.mem_map_of_mem hrow)
        rw [List.find?_cons_of_neg (by simpa using this)]
        exact ih nd.2 row hrow
  have rev : ∀ {j : Nat} {k : SortKey}, keys[j]? = some k → keys.reverse[keys.length - 1 - j]? = some k := by
    intro j k hj
    have : j < keys.length := by
      rcases Nat.lt_or_ge j keys.length with h | h
      · exact h
      · rw [List.getElem?_eq_none h] at hj; cases hj
    rw [List.getElem?_reverse (by omega), ← hj]
    congr 1; omega
  have val : ∀ row ∈ rows, ∀ (j : Nat) (k : SortKey), keys[j]? = some k →
      row.2[keys.length - 1 - j]? = some (kv row.1 j) := by
    intro row hrow j k hj
    obtain ⟨i, hi⟩ := List.mem_iff_getElem?.1 hrow
    obtain ⟨v, hv, _⟩ := g6 i row hi _ k (rev hj)
    simp only [kv, find row hrow, Option.bind_some, hv, Option.getD_some]
  refine ⟨kv, ?_, ?_⟩
  · intro i n j k hi hj
    have hi' := hi
    rw [← g5, List.getElem?_map, Option.map_eq_some_iff] at hi'
    obtain ⟨row, hrow, rfl⟩ := hi'
    obtain ⟨v, hv, hkv⟩ := g6 i row hrow _ k (rev hj)
    rw [val row (List.mem_of_getElem? hrow) j k hj] at hv
    cases hv
    simpa using hkv
  · rw [List.pairwise_map]
    have typed : ∀ row ∈ rows, RowTyped keys.reverse row := by
      intro row hrow j k hj
      obtain ⟨i, hi⟩ := List.mem_iff_getElem?.1 hrow
      obtain ⟨v, hv, g⟩ := g6 i row hi j k hj
      exact ⟨v, hv, keyValue_typed g⟩
    have start : rows.Pairwise fun a b => DocBefore d a.1 b.1 := by
      have g7 : (rows.map fun x : Row => x.1).Pairwise (DocBefore d) := by rw [g5]; exact g2
      exact List.pairwise_map.1 g7
    have key := sortLoop_sorted (tbl := tbl) (P := RowTyped keys.reverse) (ks := keys.reverse) (i := 0) (by
      intro j k hj
      rw [Nat.zero_add]
      exact row_consistent hj (hk k (by simpa using List.mem_of_getElem? hj)).1) typed start
    have key' := List.Pairwise.and_mem.1 key
    refine key'.imp ?_
    · rintro a b ⟨ha, hb, hab⟩
      have ha := sortLoop_perm.mem_iff.1 ha
      have hb := sortLoop_perm.mem_iff.1 hb
      -- the comparison of two rows by one key
      have cmp : ∀ {j : Nat} {k : SortKey}, keys[j]? = some k →
          (ordered (rowCompare tbl k (keys.length - 1 - j)) k.descending a b = .lt ↔
            Precedes k (kv a.1 j) (kv b.1 j)) ∧
          (ordered (rowCompare tbl k (keys.length - 1 - j)) k.descending a b = .gt ↔
            Precedes k (kv b.1 j) (kv a.1 j)) := by
        intro j k hj
        have ok := (hk k (List.mem_of_getElem? hj)).1
        obtain ⟨u, hu, tu⟩ := typed a ha _ k (rev hj)
        obtain ⟨v, hv, tv⟩ := typed b hb _ k (rev hj)
        rw [val a ha j k hj] at hu
        rw [val b hb j k hj] at hv
        cases hu; cases hv
        unfold ordered Precedes rowCompare
        rw [val a ha j k hj, val b hb j k hj]
        cases k.descending
        · exact compare_less ok tu tv
        · exact compare_less ok tv tu
      have tie : ∀ {j : Nat} {k : SortKey}, keys[j]? = some k →
          ordered (rowCompare tbl k (keys.length - 1 - j)) k.descending a b = .eq →
          ¬ Precedes k (kv a.1 j) (kv b.1 j) ∧ ¬ Precedes k (kv b.1 j) (kv a.1 j) := by
        intro j k hj he
        obtain ⟨h1, h2⟩ := cmp hj
        rw [he] at h1 h2
        exact ⟨fun h => (nomatch h1.2 h), fun h => (nomatch h2.2 h)⟩
      have back : ∀ {j : Nat} {k : SortKey}, keys.reverse[j]? = some k → j < keys.length ∧
          keys[keys.length - 1 - j]? = some k := by
        intro j k hj
        have : j < keys.length := by
          rcases Nat.lt_or_ge j keys.length with h | h
          · exact h
          · rw [List.getElem?_eq_none (by simpa using h)] at hj; cases hj
        rw [List.getElem?_reverse (by omega)] at hj
        exact ⟨this, hj⟩
      rcases chainOrder_iff hab with ⟨j, k, h1, h2, h3⟩ | ⟨h1, h2⟩
      · obtain ⟨hj, hk'⟩ := back h1
        refine .inl ⟨keys.length - 1 - j, k, hk', ?_, ?_⟩
        · refine (cmp hk').1.1 ?_
          rwa [show keys.length - 1 - (keys.length - 1 - j) = 0 + j by omega]
        · intro i k' hi hk''
          have hi' : i < keys.length := by omega
          refine tie hk'' ?_
          have := h3 (keys.length - 1 - i) k' (by omega) (rev hk'')
          rwa [Nat.zero_add] at this
      · refine .inr ⟨?_, h2⟩
        intro i k hi
        refine tie hi ?_
        have := h1 (keys.length - 1 - i) k (rev hi)
        rwa [Nat.zero_add] at this

/-- C60: sorting leaves the context node, position and size as they were, whatever the expressions. -/
theorem C60_focus {tbl : CaseTable} {fuel : Nat} {e : Option Expr} {keys : List SortKey} {c c' : Ctx} {res : List Nat}
    (h : sortedNodes d tbl fuel e keys c = .ok res c') :
    c'.node = c.node ∧ c'.position = c.position ∧ c'.size = c.size := by
  obtain ⟨nodes, c1, h1, h2⟩ := bind_ok h
  have g4 : Same c c1 := by
    cases e with
    | none => cases h1; exact .refl
    | some e =>
      obtain ⟨v, c2, h3, h4⟩ := bind_ok h1
      have := (keeps fuel).eval _ _ _ _ _ h3
      split at h4
      · cases h4; exact this
      · cases h4
  obtain ⟨rows, c2, h3, h5⟩ := bind_ok h2
  cases h5
  exact ⟨g4.1, g4.2.1, g4.2.2⟩

def asNum (v : EVal) (c : Ctx) : Out KVal :=
  match v with
  | .sc (.num x) => .ok (.num x) c
  | _ => .raise .typeError

def asStr (v : EVal) (c : Ctx) : Out KVal :=
  match v with
  | .sc (.str x) => .ok (.str x) c
  | _ => .raise .typeError

def asNodes (v : EVal) (c : Ctx) : Out (List Nat) :=
  match v with
  | .nodes l => .ok l c
  | .sc _ => .raise .typeError

theorem value_halts (w : WF d.h) (k : SortKey) (c : Ctx) :
    Halts (fun f => k.value d f c) ∧ Mono fun f => k.value d f c := by
  cases hn : k.number with
  | true =>
    have e : (fun f => k.value d f c) = fun f => (eval d f .num k.select c).bind asNum := by
      funext f; simp only [SortKey.value, hn, if_true]; rfl
    have h : ∀ v c, asNum v c ≠ .stuck := by intro v c; unfold asNum; split <;> simp
    rw [e]
    exact ⟨((term w k.select).1 .num c).bind (eval_mono _ _ _) fun v c _ => ⟨halts_const (h v c), mono_const⟩,
      (eval_mono _ _ _).bind fun _ _ => mono_const⟩
  | false =>
    have e : (fun f => k.value d f c) = fun f => (eval d f .str k.select c).bind asStr := by
      funext f; simp only [SortKey.value, hn]; rfl
    have h : ∀ v c, asStr v c ≠ .stuck := by intro v c; unfold asStr; split <;> simp
    rw [e]
    exact ⟨((term w k.select).1 .str c).bind (eval_mono _ _ _) fun v c _ => ⟨halts_const (h v c), mono_const⟩,
      (eval_mono _ _ _).bind fun _ _ => mono_const⟩

theorem keyValues_halts (w : WF d.h) (ks : List SortKey) (c : Ctx) :
    Halts (fun f => keyValues d f ks c) ∧ Mono fun f => keyValues d f ks c := by
  induction ks generalizing c with
  | nil => exact ⟨halts_const (by simp), mono_const⟩
  | cons k ks ih =>
    have g : ∀ (v : KVal) c, Halts (fun f => (keyValues d f ks c).bind fun vs c => .ok (v :: vs) c) ∧
        Mono fun f => (keyValues d f ks c).bind fun vs c => .ok (v :: vs) c := fun v c =>
      ⟨(ih c).1.bind (ih c).2 fun vs c _ => ⟨halts_const (by simp), mono_const⟩, (ih c).2.bind fun _ _ => mono_const⟩
    exact ⟨(value_halts w k c).1.bind (value_halts w k c).2 fun v c _ => g v c,
      (value_halts w k c).2.bind fun v c => (g v c).2⟩

theorem decorate_halts (w : WF d.h) (ks : List SortKey) (p : Nat) (l : List Nat) (c : Ctx) :
    Halts (fun f => decorate d f ks p l c) ∧ Mono fun f => decorate d f ks p l c := by
  induction l generalizing p c with
  | nil => exact ⟨halts_const (by simp), mono_const⟩
  | cons n l ih =>
    have g : ∀ (vs : List KVal) c, Halts (fun f => (decorate d f ks (p + 1) l c).bind fun rs c => .ok ((n, vs) :: rs) c) ∧
        Mono fun f => (decorate d f ks (p + 1) l c).bind fun rs c => .ok ((n, vs) :: rs) c := fun v c =>
      ⟨(ih _ c).1.bind (ih _ c).2 fun vs c _ => ⟨halts_const (by simp), mono_const⟩,
        (ih _ c).2.bind fun _ _ => mono_const⟩
    have k := keyValues_halts w ks { c with node := n, current := n, position := p + 1 }
    exact ⟨k.1.bind k.2 fun v c _ => g v c, k.2.bind fun v c => (g v c).2⟩

theorem sortInput_halts (w : WF d.h) (e : Option Expr) (c : Ctx) :
    Halts (fun f => sortInput d f e c) ∧ Mono fun f => sortInput d f e c := by
  cases e with
  | none => exact ⟨halts_const (by simp), mono_const⟩
  | some e =>
    have h : ∀ v c, asNodes v c ≠ .stuck := by intro v c; unfold asNodes; split <;> simp
    have e' : (fun f => sortInput d f (some e) c) = fun f => (eval d f .nodes e c).bind asNodes := by
      funext f; simp only [sortInput]; rfl
    rw [e']
    exact ⟨((term w e).1 .nodes c).bind (eval_mono _ _ _) fun v c _ => ⟨halts_const (h v c), mono_const⟩,
      (eval_mono _ _ _).bind fun _ _ => mono_const⟩

/-- C60: sorting ends, whatever the expressions. -/
theorem C60_ends (w : WF d.h) {tbl : CaseTable} {e : Option Expr} {keys : List SortKey} {c : Ctx} :
    ∃ fuel, sortedNodes d tbl fuel e keys c ≠ .stuck := by
  refine Halts.bind (F := fun f => sortInput d f e c) (G := fun nodes c f =>
    (decorate d f keys.reverse 0 nodes { c with size := nodes.length }).bind fun rows c' =>
      .ok ((sortLoop tbl keys.reverse 0 rows).map (·.1))
        { c' with node := c.node, position := c.position, size := c.size })
    (sortInput_halts w e c).1 (sortInput_halts w e c).2 fun nodes c' _ => ?_
  have k := decorate_halts w keys.reverse 0 nodes { c' with size := nodes.length }
  exact ⟨k.1.bind k.2 fun _ _ _ => ⟨halts_const (by simp), mono_const⟩, k.2.bind fun _ _ => mono_const⟩

example : ∃ fuel, sortedNodes sample ⟨id, fun _ => false, fun _ => false⟩ fuel none [] top ≠ .stuck :=
  C60_ends sample_wf.wf

/-! Examples and refutations -/

/-- The cases of the letters of ASCII. -/
def ascii : CaseTable := ⟨Char.toLower, Char.isLower, Char.isUpper⟩

/-- `<xsl:sort select="." data-type="number"/>` etc. -/
def byValue (number descending : Bool) (o : Option CaseOrder) : SortKey :=
  ⟨.path false [.mk (.tree .self) .node []], number, o, descending⟩

/-- `//text()` -/
def texts : Expr := .path true [desc (.kind .text)]

theorem texts_ok : SelectOk sample 0 (some texts) := by
  show Good sample 0 .nodes texts
  simp [texts, desc, Good, GoodSteps, GoodStep, GoodPreds, StepsOk, ShapeOk, stepsShape, LStep.axis, stepShape]

theorem byValue_ok {number descending : Bool} : KeyOk sample 0 (byValue number descending none) := by
  refine ⟨.inr rfl, ?_⟩
  cases number <;> simp [byValue, Good, GoodSteps, GoodStep, GoodPreds, StepsOk, ShapeOk, stepsShape, LStep.axis, stepShape]

/-- The sample has the texts 1 and 2, in nodes 6 and 7. -/
example : sortedNodes sample ascii 30 (some texts) [byValue true true none] top = .ok [7, 6] { top with current := 7 } := by
  decide +kernel
example : sortedNodes sample ascii 30 (some texts) [byValue true false none] top = .ok [6, 7] { top with current := 7 } := by
  decide +kernel
example : ∃ nodes, SelectedBy sample (some texts) 0 1 1 nodes ∧ SortedBy sample [byValue true true none] nodes [7, 6] :=
  C60_order_partial sample_wf (tbl := ascii) (fuel := 30) (c := top) (c' := { top with current := 7 }) texts_ok
    (by intro k hk; rw [List.mem_singleton.1 hk]; exact byValue_ok) (sample_inDoc (by decide)) (by decide +kernel)

/-- C60 is refuted for the current node: after the nodes of an `xsl:apply-templates` have been sorted, `current()` is
the last of them in document order. -/
theorem C60_refuted_current : ∃ c', sortedNodes sample ascii 30 (some texts) [byValue true true none] top = .ok [7, 6] c' ∧
    top.current = 0 ∧ c'.current = 7 :=
  ⟨{ top with current := 7 }, by decide +kernel, rfl, rfl⟩

/-- The strings A, a, B and b are sorted by `case-order="upper-first"` as A a B b (XSLT 1.0, 10); they are sorted by
code points. -/
theorem C60_refuted_case :
    stableSort (cmpCase ascii .upperFirst) [s!! "a", s!! "B", s!! "A", s!! "b"] = [s!! "A", s!! "B", s!! "a", s!! "b"] := by
  decide +kernel

/-- With `case-order="lower-first"` there is not even an order: "a" comes before "A", "A" before "B" and "B" before
"a".  However the three are arranged, one of them comes before one that it should follow. -/
theorem C60_refuted_cycle {l : List Str} (h : l.Perm [s!! "a", s!! "A", s!! "B"]) :
    ¬ l.Pairwise fun a b => cmpCase ascii .lowerFirst b a ≠ .lt := by
  intro hp
  have nd : l.Nodup := h.nodup_iff.2 (by decide)
  have lt1 : cmpCase ascii .lowerFirst (s!! "a") (s!! "A") = .lt := by decide +kernel
  have lt2 : cmpCase ascii .lowerFirst (s!! "A") (s!! "B") = .lt := by decide +kernel
  have lt3 : cmpCase ascii .lowerFirst (s!! "B") (s!! "a") = .lt := by decide +kernel
  match l, h.length_eq with
  | [x, y, z], _ =>
    have hx := h.mem_iff (a := x)
    have hy := h.mem_iff (a := y)
    have hz := h.mem_iff (a := z)
    simp only [List.mem_cons, List.not_mem_nil, or_false, true_or, or_true, true_iff] at hx hy hz
    simp only [List.pairwise_cons, List.mem_cons, List.not_mem_nil, or_false, forall_eq_or_imp, forall_eq] at hp
    simp only [List.nodup_cons, List.mem_cons, List.not_mem_nil, or_false, not_or] at nd
    rcases hx with rfl | rfl | rfl <;> rcases hy with rfl | rfl | rfl <;> rcases hz with rfl | rfl | rfl <;>
      simp_all

end Verif.Xslt
