import Verif.Dom.EditProps
import Verif.Dom.BuildSpec

/-
The arrays hold the lists of children, no two nodes share one, and the spare ones of the builder belong to nobody.
-/
namespace Verif.Dom.Build
open Verif.Dom Verif.Dom.Spec

/-- `cnt` are the counts (which differ from the number of children in the middle of an edit), `F` the spare arrays
with their sizes, `W` the nodes which must have an array. -/
structure Rep (m : Mem) (h : Heap) (cnt : NodeId → Nat) (F : List (Ptr × Nat)) (W : List NodeId) : Prop where
  size : m.size = h.size
  kind : ∀ n, (m.node n).kind = h.kind n
  parent : ∀ n, (m.node n).parent = h.parent n
  count : ∀ n, (m.node n).count = cnt n
  len : ∀ n, (m.cells n).length = (m.node n).allocated
  cells : ∀ n, (m.cells n).take (h.kids n).length = (h.kids n).map some
  cap : ∀ n, cnt n ≤ (m.node n).allocated
  live : ∀ n p, (m.node n).nodes = some p → p < m.brk ∧ m.arr p ≠ none
  inj : ∀ a b p, (m.node a).nodes = some p → (m.node b).nodes = some p → a = b
  free_live : ∀ f ∈ F, f.1 < m.brk ∧ ∃ cells, m.arr f.1 = some cells ∧ cells.length = f.2
  free_off : ∀ f ∈ F, ∀ n, (m.node n).nodes ≠ some f.1
  free_nodup : (F.map (·.1)).Nodup
  work : ∀ n ∈ W, (m.node n).nodes ≠ none

def lens (h : Heap) : NodeId → Nat := fun n => (h.kids n).length

def upd (f : NodeId → Nat) (n : NodeId) (k : Nat) : NodeId → Nat := fun x => if x = n then k else f x

theorem Rep.fits {m h cnt F W} (r : Rep m h cnt F W) (n : NodeId) : (h.kids n).length ≤ (m.cells n).length := by
  have := congrArg List.length (r.cells n)
  simp only [List.length_take, List.length_map] at this
  omega

theorem cells_setNode_other {m : Mem} {n : NodeId} {c : CNode} {x : NodeId} (hx : x ≠ n) :
    (m.setNode n c).cells x = m.cells x := by
  simp [Mem.cells, Mem.setNode, hx]

theorem cells_setNode_same {m : Mem} {n : NodeId} {c : CNode} (hc : c.nodes = (m.node n).nodes) (x : NodeId) :
    (m.setNode n c).cells x = m.cells x := by
  by_cases hx : x = n
  · subst hx; simp [Mem.cells, Mem.setNode, hc]
  · exact cells_setNode_other hx

/-- Changing the count. -/
theorem Rep.setCount {m h cnt F W} (r : Rep m h cnt F W) {n : NodeId} {k : Nat} (hk : k ≤ (m.node n).allocated) :
    Rep (m.setCount n k) h (upd cnt n k) F W := by
  have hc : ∀ x, (m.setCount n k).cells x = m.cells x := cells_setNode_same rfl
  have hn : ∀ x, ((m.setCount n k).node x).nodes = (m.node x).nodes := by
    intro x; by_cases hx : x = n
    · subst hx; simp [Mem.setCount, Mem.setNode]
    · simp [Mem.setCount, Mem.setNode, hx]
  have ha : ∀ x, ((m.setCount n k).node x).allocated = (m.node x).allocated := by
    intro x; by_cases hx : x = n
    · subst hx; simp [Mem.setCount, Mem.setNode]
    · simp [Mem.setCount, Mem.setNode, hx]
  constructor
  · exact r.size
  · intro x; by_cases hx : x = n
    · subst hx; simp [Mem.setCount, Mem.setNode, r.kind]
    · simp [Mem.setCount, Mem.setNode, hx, r.kind]
  · intro x; by_cases hx : x = n
    · subst hx; simp [Mem.setCount, Mem.setNode, r.parent]
    · simp [Mem.setCount, Mem.setNode, hx, r.parent]
  · intro x; by_cases hx : x = n
    · subst hx; simp [Mem.setCount, Mem.setNode, upd]
    · simp [Mem.setCount, Mem.setNode, hx, upd, r.count]
  · intro x; rw [hc, ha]; exact r.len x
  · intro x; rw [hc]; exact r.cells x
  · intro x; rw [ha]; by_cases hx : x = n
    · subst hx; simpa [upd] using hk
    · simpa [upd, hx] using r.cap x
  · intro x p hp; rw [hn] at hp; exact r.live x p hp
  · intro a b p h1 h2; rw [hn] at h1 h2; exact r.inj a b p h1 h2
  · exact r.free_live
  · intro f hf x; rw [hn]; exact r.free_off f hf x
  · exact r.free_nodup
  · intro x hx; rw [hn]; exact r.work x hx

theorem cells_setParent (m : Mem) (c : NodeId) (p : Option NodeId) (x : NodeId) :
    (m.setParent c p).cells x = m.cells x := by
  exact cells_setNode_same (c := { m.node c with parent := p }) rfl x

/-- Changing a parent. -/
theorem Rep.setParent {m h cnt F W} (r : Rep m h cnt F W) (n : NodeId) (p : Option NodeId) :
    Rep (m.setParent n p) (h.setParent n p) cnt F W := by
  have hc : ∀ x, (m.setParent n p).cells x = m.cells x := cells_setNode_same rfl
  have hn : ∀ x, ((m.setParent n p).node x).nodes = (m.node x).nodes := by
    intro x; by_cases hx : x = n
    · subst hx; simp [Mem.setParent, Mem.setNode]
    · simp [Mem.setParent, Mem.setNode, hx]
  have ha : ∀ x, ((m.setParent n p).node x).allocated = (m.node x).allocated := by
    intro x; by_cases hx : x = n
    · subst hx; simp [Mem.setParent, Mem.setNode]
    · simp [Mem.setParent, Mem.setNode, hx]
  constructor
  · exact r.size
  · intro x; by_cases hx : x = n
    · subst hx; simp [Mem.setParent, Mem.setNode, Heap.setParent, r.kind]
    · simp [Mem.setParent, Mem.setNode, Heap.setParent, hx, r.kind]
  · intro x; by_cases hx : x = n
    · subst hx; simp [Mem.setParent, Mem.setNode, Heap.setParent]
    · simp [Mem.setParent, Mem.setNode, Heap.setParent, hx, r.parent]
  · intro x; by_cases hx : x = n
    · subst hx; simp [Mem.setParent, Mem.setNode, r.count]
    · simp [Mem.setParent, Mem.setNode, hx, r.count]
  · intro x; rw [hc, ha]; exact r.len x
  · intro x; rw [hc]; exact r.cells x
  · intro x; rw [ha]; exact r.cap x
  · intro x p hp; rw [hn] at hp; exact r.live x p hp
  · intro a b p h1 h2; rw [hn] at h1 h2; exact r.inj a b p h1 h2
  · exact r.free_live
  · intro f hf x; rw [hn]; exact r.free_off f hf x
  · exact r.free_nodup
  · intro x hx; rw [hn]; exact r.work x hx

/-- Writing to the array of a node. -/
theorem Rep.setCells {m h cnt F W} (r : Rep m h cnt F W) {n : NodeId} {cells : List Slot} {l : List NodeId}
    (hlen : cells.length = (m.cells n).length) (hl : cells.take l.length = l.map some) :
    Rep (m.setCells n cells) (h.setKids n l) cnt F W := by
  have hnode : (m.setCells n cells).node = m.node := by
    unfold Mem.setCells; split <;> rfl
  have hbrk : (m.setCells n cells).brk = m.brk := by
    unfold Mem.setCells; split <;> rfl
  have hsize : (m.setCells n cells).size = m.size := by
    unfold Mem.setCells; split <;> rfl
  have hself : (m.setCells n cells).cells n = cells := by
    cases hp : (m.node n).nodes with
    | none =>
      have h0 : m.cells n = [] := by simp [Mem.cells, hp]
      rw [h0] at hlen
      have : cells = [] := List.length_eq_zero_iff.1 (by simpa using hlen)
      subst this
      simp [Mem.setCells, hp, h0]
    | some p => simp [Mem.setCells, hp, Mem.cells, Mem.setArr]
  have hother : ∀ x, x ≠ n → (m.setCells n cells).cells x = m.cells x := by
    intro x hx
    cases hp : (m.node n).nodes with
    | none => simp [Mem.setCells, hp]
    | some p =>
      cases hq : (m.node x).nodes with
      | none => simp [Mem.setCells, hp, Mem.cells, Mem.setArr, hq]
      | some q =>
        have : q ≠ p := fun e => hx (r.inj x n p (by rw [hq, e]) hp)
        simp [Mem.setCells, hp, Mem.cells, Mem.setArr, hq, this]
  have harr : ∀ p, m.arr p ≠ none → (m.setCells n cells).arr p ≠ none := by
    intro p hp
    unfold Mem.setCells
    split
    · exact hp
    · simp only [Mem.setArr]; split
      · simp
      · exact hp
  constructor
  · rw [hsize]; exact r.size
  · intro x; rw [hnode]; exact r.kind x
  · intro x; rw [hnode]; exact r.parent x
  · intro x; rw [hnode]; exact r.count x
  · intro x; rw [hnode]; by_cases hx : x = n
    · subst hx; rw [hself, hlen]; exact r.len _
    · rw [hother x hx]; exact r.len x
  · intro x; by_cases hx : x = n
    · subst hx; rw [hself]; simpa [Heap.setKids] using hl
    · rw [hother x hx]; simpa [Heap.setKids, hx] using r.cells x
  · intro x; rw [hnode]; exact r.cap x
  · intro x p hp; rw [hnode] at hp; rw [hbrk]; exact ⟨(r.live x p hp).1, harr p (r.live x p hp).2⟩
  · intro a b p h1 h2; rw [hnode] at h1 h2; exact r.inj a b p h1 h2
  · intro f hf
    rw [hbrk]
    obtain ⟨h1, c, h2, h3⟩ := r.free_live f hf
    refine ⟨h1, c, ?_, h3⟩
    unfold Mem.setCells
    split
    · exact h2
    · rename_i p hp
      have : f.1 ≠ p := fun e => r.free_off f hf n (by rw [hp, e])
      simpa [Mem.setArr, this] using h2
  · intro f hf x; rw [hnode]; exact r.free_off f hf x
  · exact r.free_nodup
  · intro x hx; rw [hnode]; exact r.work x hx

theorem fit_length (cells : List Slot) (k : Nat) : (fit cells k).length = k := by
  simp [fit]

theorem fit_take {cells : List Slot} {j k : Nat} (hj : j ≤ k) (hc : j ≤ cells.length) :
    (fit cells k).take j = cells.take j := by
  rw [fit, List.take_take, Nat.min_eq_left hj, List.take_append_of_le_length hc]

/-- What resizing the array of a node gives. -/
theorem Rep.realloc {m h cnt F W} (r : Rep m h cnt F W) {n : NodeId} {k : Nat} (hk : (h.kids n).length ≤ k) (j : Nat)
    (hj : j ≤ k) :
    ∃ p m', m.realloc (m.node n).nodes k = some (p, m') ∧
      Rep (m'.setNode n { m.node n with nodes := some p, count := j, allocated := k }) h (upd cnt n j) F W := by
  have key : ∀ (p : Ptr) (m' : Mem) (cells : List Slot), m'.node = m.node → m'.size = m.size → m'.arr p = some cells →
      cells.length = k → cells.take (h.kids n).length = (h.kids n).map some → m.brk ≤ m'.brk → p < m'.brk →
      (∀ q, q < m.brk → (m.node n).nodes ≠ some q → m'.arr q = m.arr q) →
      ((m.node n).nodes = some p ∨ m.brk ≤ p) →
      Rep (m'.setNode n { m.node n with nodes := some p, count := j, allocated := k }) h (upd cnt n j) F W := by
    intro p m' cells hnode hsize harr hlen htake hbrk hp hoth hfresh
    let c : CNode := { m.node n with nodes := some p, count := j, allocated := k }
    have hself : (m'.setNode n c).node n = c := by simp [Mem.setNode]
    have hother : ∀ x, x ≠ n → (m'.setNode n c).node x = m.node x := by
      intro x hx; simp [Mem.setNode, hx, hnode]
    have pne : ∀ x, x ≠ n → (m.node x).nodes ≠ some p := by
      intro x hx e
      rcases hfresh with h1 | h1
      · exact hx (r.inj x n p e h1)
      · have := (r.live x p e).1; omega
    have hcn : (m'.setNode n c).cells n = cells := by
      unfold Mem.cells; rw [hself]; simp [c, Mem.setNode, harr]
    have hcx : ∀ x, x ≠ n → (m'.setNode n c).cells x = m.cells x := by
      intro x hx
      unfold Mem.cells; rw [hother x hx]
      cases hq : (m.node x).nodes with
      | none => rfl
      | some q =>
        have h1 : (m.node n).nodes ≠ some q := fun e => hx (r.inj x n q hq e)
        simp [Mem.setNode, hoth q (r.live x q hq).1 h1]
    constructor
    · exact hsize.trans r.size
    · intro x; by_cases hx : x = n
      · subst hx; rw [hself]; exact r.kind _
      · rw [hother x hx]; exact r.kind x
    · intro x; by_cases hx : x = n
      · subst hx; rw [hself]; exact r.parent _
      · rw [hother x hx]; exact r.parent x
    · intro x; by_cases hx : x = n
      · subst hx; rw [hself]; simp [upd, c]
      · rw [hother x hx]; simp [upd, hx, r.count]
    · intro x; by_cases hx : x = n
      · subst hx; rw [hself, hcn]; exact hlen
      · rw [hother x hx, hcx x hx]; exact r.len x
    · intro x; by_cases hx : x = n
      · subst hx; rw [hcn]; exact htake
      · rw [hcx x hx]; exact r.cells x
    · intro x; by_cases hx : x = n
      · subst hx; rw [hself]; simpa [upd, c] using hj
      · rw [hother x hx]; simpa [upd, hx] using r.cap x
    · intro x q hq
      by_cases hx : x = n
      · subst hx; rw [hself] at hq; simp only [c, Option.some.injEq] at hq; subst hq
        exact ⟨hp, by simp [Mem.setNode, harr]⟩
      · rw [hother x hx] at hq
        refine ⟨Nat.lt_of_lt_of_le (r.live x q hq).1 hbrk, ?_⟩
        show m'.arr q ≠ none
        rw [hoth q (r.live x q hq).1 (fun e => hx (r.inj x n q hq e))]
        exact (r.live x q hq).2
    · intro a b q ha hb
      by_cases hx : a = n <;> by_cases hy : b = n
      · rw [hx, hy]
      · subst hx; rw [hself] at ha; rw [hother b hy] at hb
        simp only [c, Option.some.injEq] at ha; subst ha
        exact absurd hb (pne b hy)
      · subst hy; rw [hself] at hb; rw [hother a hx] at ha
        simp only [c, Option.some.injEq] at hb; subst hb
        exact absurd ha (pne a hx)
      · rw [hother a hx] at ha; rw [hother b hy] at hb; exact r.inj a b q ha hb
    · intro f hf
      obtain ⟨h1, cs, h2, h3⟩ := r.free_live f hf
      refine ⟨Nat.lt_of_lt_of_le h1 hbrk, cs, ?_, h3⟩
      show m'.arr f.1 = some cs
      rw [hoth f.1 h1 (r.free_off f hf n)]; exact h2
    · intro f hf x
      by_cases hx : x = n
      · subst hx; rw [hself]
        intro e; simp only [c, Option.some.injEq] at e
        rcases hfresh with h1 | h1
        · exact r.free_off f hf _ (e ▸ h1)
        · have := (r.free_live f hf).1; omega
      · rw [hother x hx]; exact r.free_off f hf x
    · exact r.free_nodup
    · intro x hx
      by_cases hxn : x = n
      · subst hxn; rw [hself]; simp [c]
      · rw [hother x hxn]; exact r.work x hx
  have hfits := r.fits n
  have hcells := r.cells n
  cases hp : (m.node n).nodes with
  | none =>
    refine ⟨_, _, rfl, ?_⟩
    have h0 : m.cells n = [] := by simp [Mem.cells, hp]
    rw [h0] at hfits
    have hk0 : h.kids n = [] := List.length_eq_zero_iff.1 (by simpa using hfits)
    refine key m.brk _ (List.replicate k none) rfl rfl (by simp [Mem.malloc, Mem.setArr]) (by simp) (by simp [hk0])
      (by simp [Mem.malloc]) (by simp [Mem.malloc]) ?_ (.inr (Nat.le_refl _))
    intro q hq _
    have : q ≠ m.brk := by omega
    simp [Mem.malloc, Mem.setArr, this]
  | some p =>
    obtain ⟨hpb, hpa⟩ := r.live n p hp
    cases ha : m.arr p with
    | none => exact absurd ha hpa
    | some cells =>
      have hcs : m.cells n = cells := by simp [Mem.cells, hp, ha]
      rw [hcs] at hfits hcells
      simp only [Mem.realloc, ha]
      have htake : (fit cells k).take (h.kids n).length = (h.kids n).map some := by
        rw [fit_take hk hfits]; exact hcells
      by_cases hm : m.moves m.tick = true
      · simp only [hm, if_true]
        refine ⟨_, _, rfl, ?_⟩
        refine key m.brk _ (fit cells k) rfl rfl (by simp [Mem.malloc, Mem.setArr, Mem.free]) (fit_length _ _) htake
          (by simp [Mem.malloc, Mem.free, Mem.setArr]) (by simp [Mem.malloc, Mem.free, Mem.setArr]) ?_
          (.inr (Nat.le_refl _))
        intro q hq hq2
        have h1 : q ≠ m.brk := by omega
        have h2 : q ≠ p := fun e => hq2 (by rw [e, hp])
        simp [Mem.malloc, Mem.free, Mem.setArr, h1, h2]
      · simp only [hm]
        refine ⟨_, _, rfl, ?_⟩
        refine key p _ (fit cells k) rfl rfl (by simp [Mem.setArr]) (fit_length _ _) htake
          (by simp [Mem.setArr]) (by simpa [Mem.setArr] using hpb) ?_ (.inl hp)
        intro q hq hq2
        have h2 : q ≠ p := fun e => hq2 (by rw [e, hp])
        simp [Mem.setArr, h2]

/-- `container_resize` keeps the children that are there, and gives room. -/
theorem Rep.resize {m h cnt F W} (r : Rep m h cnt F W) {n : NodeId} {k : Nat} (hk : (h.kids n).length ≤ k) :
    ∃ m', resize m n k = some m' ∧ Rep m' h (upd cnt n k) F W := by
  unfold Build.resize
  by_cases hc : (m.node n).allocated ≥ k ∧ (k ≥ (m.node n).allocated / 2 ∨ (m.node n).frozen = false)
  · simp only [hc]
    exact ⟨_, rfl, r.setCount hc.1⟩
  · simp only [if_neg hc]
    generalize hna : (if k = 0 then 0 else k / 8 + (if k < 9 then 3 else 6) + k) = na
    have hle : k ≤ na := by
      subst hna; split
      · omega
      · split <;> omega
    obtain ⟨p, m', h1, h2⟩ := r.realloc (Nat.le_trans hk hle) k hle
    simp only [h1]
    exact ⟨_, rfl, h2⟩

theorem lastIdx_append {l : List NodeId} {x c : NodeId} :
    lastIdx (l ++ [x]) c = if x = c then some l.length else lastIdx l c := by
  induction l with
  | nil => simp [lastIdx]
  | cons y ys ih =>
    simp only [List.cons_append, lastIdx, ih]
    by_cases hx : x = c
    · simp [hx]
    · simp [hx]

theorem scanBack_eq {cells : List Slot} {c : NodeId} : ∀ {k : Nat} {l : List NodeId}, l.length = k →
    cells.take k = l.map some → scanBack cells c k = some (lastIdx l c)
  | 0, l, hl, _ => by
    rw [List.length_eq_zero_iff.1 hl]; rfl
  | k + 1, l, hl, ht => by
    obtain ⟨l', x, rfl⟩ : ∃ l' x, l = l' ++ [x] := by
      have hne : l ≠ [] := by intro e; subst e; simp at hl
      exact ⟨l.dropLast, l.getLast hne, (List.dropLast_concat_getLast hne).symm⟩
    have hl' : l'.length = k := by simpa using hl
    have hk : cells[k]? = some (some x) := by
      have : (cells.take (k + 1))[k]? = some (some x) := by
        rw [ht]; simp [← hl']
      rw [List.getElem?_take] at this
      simpa using this
    have ht' : cells.take k = l'.map some := by
      have := congrArg (List.take k) ht
      rw [List.take_take, Nat.min_eq_left (by omega)] at this
      rw [this, List.map_append, List.take_append_of_le_length (by simp [hl'])]
      rw [List.take_of_length_le (by simp [hl'])]
    rw [lastIdx_append, scanBack, hk]
    by_cases hx : x = c
    · simp [hx, hl']
    · simp only [if_neg hx]
      exact scanBack_eq hl' ht'

theorem moveDown_length {cells : List Slot} {i k : Nat} (hi : i < k) (hk : k ≤ cells.length) :
    (moveDown cells i k).length = cells.length := by
  simp only [moveDown, List.length_append, List.length_take, List.length_drop]; omega

theorem moveDown_take {cells : List Slot} {l : List NodeId} {i : Nat} (hi : i < l.length)
    (ht : cells.take l.length = l.map some) (hk : l.length ≤ cells.length) :
    (moveDown cells i l.length).take (l.eraseIdx i).length = (l.eraseIdx i).map some := by
  have hlen : (l.eraseIdx i).length = l.length - 1 := by rw [List.length_eraseIdx]; simp [hi]
  have h1 : cells.take i = (l.take i).map some := by
    have := congrArg (List.take i) ht
    rw [List.take_take, Nat.min_eq_left (by omega)] at this
    rw [this, List.map_take]
  have h2 : (cells.drop (i + 1)).take (l.length - (i + 1)) = (l.drop (i + 1)).map some := by
    have := congrArg (List.drop (i + 1)) ht
    rw [List.drop_take] at this
    rw [this, List.map_drop]
  unfold moveDown
  rw [h1, h2, hlen, ← List.append_assoc, ← List.map_append, ← List.eraseIdx_eq_take_drop_succ]
  rw [List.take_append_of_le_length (by simp [hlen]), List.take_of_length_le (by simp [hlen])]

theorem upd_upd (f : NodeId → Nat) (n : NodeId) (a b : Nat) : upd (upd f n a) n b = upd f n b := by
  funext x; simp only [upd]; split <;> rfl

theorem setParent_kids (h : Heap) (c : NodeId) (p : Option NodeId) : (h.setParent c p).kids = h.kids := rfl

/-- What a result at the level of memory has to be, for a result at the level of lists. -/
def Agrees (m : Mem) (h : Heap) (cnt : NodeId → Nat) (F : List (Ptr × Nat)) (W : List NodeId)
    (cnt' : Heap → NodeId → Nat) (res : MRes) : Res → Prop
  | .ok h' => ∃ m', res = .ok m' ∧ Rep m' h' (cnt' h') F W
  | .raised e => res = .raised e m ∧ Rep m h cnt F W
  | .undefined => False

/-- `Container_Remove` of a node whose count is right. -/
theorem Rep.remove {m h cnt F W} (r : Rep m h cnt F W) {q c : NodeId} (hq : cnt q = (h.kids q).length) :
    Agrees m h cnt F W (fun h' => upd cnt q (h'.kids q).length) (removeM m q c) (containerRemove h q c) := by
  unfold removeM containerRemove
  rw [r.kind]
  cases hk : isContainer (h.kind q) with
  | false => exact ⟨rfl, r⟩
  | true =>
    simp only [if_true]
    rw [r.count, hq, scanBack_eq rfl (r.cells q)]
    cases hl : lastIdx (h.kids q) c with
    | none => exact ⟨rfl, r⟩
    | some i =>
      have hi := lastIdx_some hl
      have hi' : i < (h.kids q).length := (List.getElem?_eq_some_iff.1 hi).1
      have r1 := r.setParent c none
      have hcs : (m.setParent c none).cells q = m.cells q := cells_setParent m c none q
      have r2 := r1.setCells (n := q) (cells := moveDown (m.cells q) i (h.kids q).length)
        (l := (h.kids q).eraseIdx i) (by rw [hcs]; exact moveDown_length hi' (r.fits q))
        (moveDown_take hi' (r.cells q) (r.fits q))
      have hlen : ((h.kids q).eraseIdx i).length = (h.kids q).length - 1 := by
        rw [List.length_eraseIdx]; simp [hi']
      obtain ⟨m', h1, h2⟩ := r2.resize (n := q) (k := (h.kids q).length - 1) (by simp [Heap.setKids, hlen])
      refine ⟨m', by simp only [h1], ?_⟩
      simpa [Heap.setKids, hlen] using h2

theorem Rep.hier {m h cnt F W} (r : Rep m h cnt F W) (s c : NodeId) :
    ensureHierarchy m.shape s c = ensureHierarchy h s c := by
  have hch : ∀ f x, onChain m.shape c f x = onChain h c f x := by
    intro f
    induction f with
    | zero => intro x; rfl
    | succ f ih =>
      intro x
      simp only [onChain]
      split
      · rfl
      · have : m.shape.parent x = h.parent x := r.parent x
        rw [this]
        cases h.parent x with
        | none => rfl
        | some p => exact ih p
  unfold ensureHierarchy
  have h1 : m.shape.kind = h.kind := funext r.kind
  have h2 : m.shape.size = h.size := r.size
  rw [h1, h2, hch]

theorem upd_lens {h h' : Heap} {n : NodeId} {k : Nat} (hk : (h'.kids n).length = k)
    (ho : ∀ x, x ≠ n → (h'.kids x).length = (h.kids x).length) : upd (lens h) n k = lens h' := by
  funext x
  simp only [upd, lens]
  split
  · rename_i e; rw [e, hk]
  · rename_i e; exact (ho x e).symm

/-- Taking a child out of another container. -/
theorem Rep.detach {m h cnt F W} (r : Rep m h cnt F W) (w : WF h) {c s : NodeId} (hc : h.parent c ≠ some s)
    (hk : isChildKind (h.kind c) = true) (hcnt : ∀ x, x ≠ s → cnt x = (h.kids x).length) :
    ∃ m', detachM m c = .ok m' ∧ Rep m' (freed h c) (fun x => if x = s then cnt s else lens (freed h c) x) F W := by
  unfold detachM
  rw [r.parent]
  cases hp : h.parent c with
  | none =>
    refine ⟨m, rfl, ?_⟩
    have hf : freed h c = h := by simp [freed, hp]
    rw [hf]
    have : (fun x => if x = s then cnt s else lens h x) = cnt := by
      funext x; split
      · rename_i e; rw [e]
      · rename_i e; exact (hcnt x e).symm
    rw [this]; exact r
  | some q =>
    have hqs : q ≠ s := fun e => hc (by rw [hp, e])
    have hag := r.remove (c := c) (hcnt q hqs)
    rw [containerRemove_ok w (w.parent_kids _ _ hp hk)] at hag
    have hf : freed h c = unlink h q c := by simp [freed, hp]
    rw [hf]
    obtain ⟨m', h1, h2⟩ := hag
    refine ⟨m', h1, ?_⟩
    have : (fun x => if x = s then cnt s else lens (unlink h q c) x) = upd cnt q ((unlink h q c).kids q).length := by
      funext x
      simp only [upd, lens]
      by_cases hx : x = s
      · subst hx; simp [Ne.symm hqs]
      · by_cases hxq : x = q
        · subst hxq; simp [hx]
        · simp only [hx, hxq, if_false]
          rw [hcnt x hx]
          simp [unlink, Heap.setParent, Heap.setKids, hxq]
    rw [this]; exact h2

theorem set_last {cells : List Slot} {l : List NodeId} {c : NodeId} (ht : cells.take l.length = l.map some)
    (hl : l.length < cells.length) :
    (cells.set l.length (some c)).take (l ++ [c]).length = (l ++ [c]).map some := by
  rw [List.length_append, List.length_singleton, List.take_set, List.map_append, List.map_singleton]
  have h1 : cells.take (l.length + 1) = l.map some ++ [cells[l.length]] := by
    rw [List.take_add_one, ht, List.getElem?_eq_getElem hl]; rfl
  rw [h1, List.set_append_right _ _ (by simp)]
  simp

theorem shiftUp_length {cells : List Slot} {w k : Nat} {c : NodeId} (hw : w ≤ k) (hk : k < cells.length) :
    (shiftUp cells w k c).length = cells.length := by
  simp only [shiftUp, List.length_append, List.length_take, List.length_drop, List.length_cons]; omega

theorem shiftUp_take {cells : List Slot} {l : List NodeId} {w : Nat} {c : NodeId} (hw : w ≤ l.length)
    (ht : cells.take l.length = l.map some) (hl : l.length < cells.length) :
    (shiftUp cells w l.length c).take (l.take w ++ c :: l.drop w).length = (l.take w ++ c :: l.drop w).map some := by
  have h1 : cells.take w = (l.take w).map some := by
    have := congrArg (List.take w) ht
    rw [List.take_take, Nat.min_eq_left (by omega)] at this
    rw [this, List.map_take]
  have h2 : (cells.drop w).take (l.length - w) = (l.drop w).map some := by
    have := congrArg (List.drop w) ht
    rw [List.drop_take] at this
    rw [this, List.map_drop]
  unfold shiftUp
  rw [h1, h2, ← List.cons_append, ← List.append_assoc]
  have : (l.take w).map some ++ some c :: (l.drop w).map some = (l.take w ++ c :: l.drop w).map some := by simp
  rw [this, List.take_append_of_le_length (by simp), List.take_of_length_le (by simp)]

theorem freed_kids_len {h : Heap} (w : WF h) {c s : NodeId} (hc : h.parent c ≠ some s) :
    (freed h c).kids s = h.kids s := by
  rw [freed_kids w, kids_of_foreign w hc]

/-- Making room in a container and taking the child out of another one. -/
theorem Rep.room {m h F W} (r : Rep m h (lens h) F W) (w : WF h) {c s : NodeId} (hc : h.parent c ≠ some s)
    (hk : isChildKind (h.kind c) = true) :
    ∃ m1 m2, Build.resize m s ((h.kids s).length + 1) = some m1 ∧ detachM m1 c = .ok m2 ∧
      Rep m2 (freed h c) (fun x => if x = s then (h.kids s).length + 1 else lens (freed h c) x) F W := by
  obtain ⟨m1, h1, r1⟩ := r.resize (n := s) (k := (h.kids s).length + 1) (by omega)
  obtain ⟨m2, h2, r2⟩ := r1.detach w hc hk (fun x hx => by simp [upd, hx, lens])
  refine ⟨m1, m2, h1, h2, ?_⟩
  simpa [upd] using r2

/-- Writing the new list into the array. -/
theorem Rep.link {m h F W} (w : WF h) {s c : NodeId} {l : List NodeId} {cells : List Slot} (hc : h.parent c ≠ some s)
    (r : Rep m (freed h c) (fun x => if x = s then (h.kids s).length + 1 else lens (freed h c) x) F W)
    (hl : l.length = (h.kids s).length + 1)
    (hlen : cells.length = (m.cells s).length) (ht : cells.take l.length = l.map some) :
    Rep ((m.setCells s cells).setParent c (some s)) (link (freed h c) s l c) (lens (link (freed h c) s l c)) F W := by
  have := (r.setCells (n := s) hlen ht).setParent c (some s)
  have he : (fun x => if x = s then (h.kids s).length + 1 else lens (freed h c) x) =
      lens (Verif.Dom.link (freed h c) s l c) := by
    funext x
    simp only [lens, Verif.Dom.link, Heap.setParent, Heap.setKids]
    split
    · exact hl.symm
    · rfl
  rw [he] at this
  exact this

/-- Every edit for which the lists are right does the same in the memory. -/
theorem Rep.edit {m h F W} (r : Rep m h (lens h) F W) (w : WF h) (e : Edit) (he : Legal h e) :
    Agrees m h (lens h) F W lens (editM m e) (e.run h) := by
  cases e with
  | append s c =>
    obtain ⟨_, _, h3⟩ := he
    simp only [editM, appendM, Edit.run]
    rw [r.hier]
    rcases ensureHierarchy_spec w s c with ⟨e, h4, _⟩ | ⟨h4, h5, h6, h7⟩
    · simp only [h4, containerAppend]; exact ⟨rfl, r⟩
    · rw [append_ok w h3 h5 h6 h7]
      simp only [h4]
      obtain ⟨m1, m2, e1, e2, r2⟩ := r.room w h3 h6
      have hcount : (m.node s).count = (h.kids s).length := r.count s
      rw [hcount]
      simp only [e1, e2]
      have hroom : (h.kids s).length < (m2.cells s).length := by
        have h1 := r2.cap s
        have h2 := r2.len s
        simp only [if_true] at h1; omega
      have hkids := r2.cells s
      rw [freed_kids_len w h3] at hkids
      simp only [Mem.store, if_pos hroom]
      exact ⟨_, rfl, Rep.link w h3 r2 (by simp) (by simp) (set_last hkids hroom)⟩
  | insert s i c =>
    obtain ⟨_, _, h3⟩ := he
    simp only [editM, insertM, Edit.run]
    rw [r.hier]
    rcases ensureHierarchy_spec w s c with ⟨e, h4, _⟩ | ⟨h4, h5, h6, h7⟩
    · simp only [h4, containerInsert]; exact ⟨rfl, r⟩
    · rw [insert_foreign w h3 h5 h6 h7]
      simp only [h4]
      obtain ⟨m1, m2, e1, e2, r2⟩ := r.room w h3 h6
      have hcount : (m.node s).count = (h.kids s).length := r.count s
      rw [hcount]
      simp only [e1, e2]
      have hroom : (h.kids s).length < (m2.cells s).length := by
        have h1 := r2.cap s
        have h2 := r2.len s
        simp only [if_true] at h1; omega
      have hkids := r2.cells s
      rw [freed_kids_len w h3] at hkids
      simp only [if_pos hroom]
      have hw := clampWhere_le i (h.kids s).length
      refine ⟨_, rfl, Rep.link w h3 r2 ?_ (shiftUp_length hw hroom) (shiftUp_take hw hkids hroom)⟩
      simp; omega
  | remove s c =>
    have := r.remove (q := s) (c := c) rfl
    simp only [editM, Edit.run]
    cases hr : containerRemove h s c with
    | ok h' =>
      rw [hr] at this
      obtain ⟨m', h1, h2⟩ := this
      refine ⟨m', h1, ?_⟩
      dsimp only at h2
      rw [upd_lens rfl] at h2
      · exact h2
      · intro x hx
        have hh : h'.kids x = h.kids x := by
          unfold containerRemove at hr
          split at hr
          · split at hr
            · cases hr
            · cases hr; simp [Heap.setKids, Heap.setParent, hx]
          · cases hr
        rw [hh]
    | raised e => rw [hr] at this; exact this
    | undefined => rw [hr] at this; exact this.elim
  | replace s o n =>
    obtain ⟨h1, h2, h3, h4, h5⟩ := he
    simp only [editM, replaceM, Edit.run]
    have hcount : (m.node s).count = (h.kids s).length := r.count s
    rw [hcount, scanBack_eq rfl (r.cells s)]
    by_cases ho : o ∈ h.kids s
    · obtain ⟨i, hi⟩ := List.getElem?_of_mem ho
      have hli := lastIdx_eq (w.nodup s) hi
      rw [hli]
      by_cases hon : o = n
      · subst hon
        simp only [if_true, containerReplace, hli]
        exact ⟨m, rfl, r⟩
      · simp only [if_neg hon]
        obtain ⟨hrun, _⟩ := replace_ok w ho hon h3 h5
        obtain ⟨m1, e1, r1⟩ : ∃ m1, detachM m n = .ok m1 ∧ Rep m1 (freed h n) (lens (freed h n)) F W := by
          unfold detachM
          rw [r.parent]
          cases hp : h.parent n with
          | none => exact ⟨m, rfl, by simpa [freed, hp] using r⟩
          | some q =>
            have hag := r.remove (c := n) (q := q) rfl
            rw [containerRemove_ok w (w.parent_kids _ _ hp h3)] at hag
            obtain ⟨m', e1, e2⟩ := hag
            refine ⟨m', e1, ?_⟩
            have hf : freed h n = unlink h q n := by simp [freed, hp]
            rw [hf]
            dsimp only at e2
            rw [upd_lens rfl] at e2
            · exact e2
            · intro x hx; simp [unlink, Heap.setParent, Heap.setKids, hx]
        have hfi : ((freed h n).kids s)[i]? = some o := by
          rw [freed_kids w]; exact filter_getElem hi hon h5
        have hil : i < ((freed h n).kids s).length := (List.getElem?_eq_some_iff.1 hfi).1
        have hic : i < (m1.cells s).length := Nat.lt_of_lt_of_le hil (r1.fits s)
        simp only [e1, Mem.store, cells_setParent, if_pos hic]
        have hres : containerReplace h s o n = .ok ((((freed h n).setParent o none).setKids s
            (((freed h n).kids s).set i n)).setParent n (some s)) := by
          unfold containerReplace freed
          simp only [hli, if_neg hon]
          cases hp : h.parent n with
          | none => rfl
          | some q => simp only [containerRemove_ok w (w.parent_kids _ _ hp h3)]
        rw [hres]
        refine ⟨_, rfl, ?_⟩
        have r2 := ((r1.setParent o none).setCells (n := s) (cells := (m1.cells s).set i (some n))
          (l := ((freed h n).kids s).set i n) (by simp [cells_setParent]) ?_).setParent n (some s)
        · have hl : lens ((((freed h n).setParent o none).setKids s
              (((freed h n).kids s).set i n)).setParent n (some s)) = lens (freed h n) := by
            funext x
            simp only [lens, Heap.setParent, Heap.setKids]
            split
            · rename_i e; rw [e]; simp
            · rfl
          rw [hl]; exact r2
        · rw [List.length_set, List.take_set, r1.cells s, List.map_set]
    · simp only [lastIdx_none.2 ho, containerReplace]
      exact ⟨rfl, r⟩

/-- What the program sees. -/
theorem Rep.shows {m h F W} (r : Rep m h (lens h) F W) : Shows m h := by
  refine ⟨r.size, r.kind, r.parent, fun n => ?_⟩
  have h1 : (m.node n).count = (h.kids n).length := r.count n
  unfold Mem.children
  rw [h1, if_pos (r.fits n), r.cells n]
  exact allSome_map _

/-- A new node. -/
theorem Rep.alloc {m h F W} (r : Rep m h (lens h) F W) (k : Kind) :
    Rep (m.alloc k) (h.alloc k) (lens (h.alloc k)) F (W.filter (· ≠ h.size)) := by
  have hs := r.size
  have hcs : ∀ x, (m.alloc k).cells x = if x = h.size then [] else m.cells x := by
    intro x; simp only [Mem.cells, Mem.alloc, hs]
    by_cases hx : x = h.size <;> simp [hx]
  constructor
  · simp [Mem.alloc, Heap.alloc, hs]
  · intro x; by_cases hx : x = h.size <;> simp [Mem.alloc, Heap.alloc, hs, hx, r.kind]
  · intro x; by_cases hx : x = h.size <;> simp [Mem.alloc, Heap.alloc, hs, hx, r.parent]
  · intro x; by_cases hx : x = h.size
    · simp [Mem.alloc, Heap.alloc, lens, hs, hx]
    · have := r.count x; simp [Mem.alloc, Heap.alloc, lens, hs, hx] at this ⊢; exact this
  · intro x; rw [hcs]; by_cases hx : x = h.size
    · simp [Mem.alloc, hs, hx]
    · simpa [Mem.alloc, hs, hx] using r.len x
  · intro x; rw [hcs]; by_cases hx : x = h.size
    · simp [Heap.alloc, hx]
    · simpa [Heap.alloc, hx] using r.cells x
  · intro x; by_cases hx : x = h.size
    · simp [Mem.alloc, Heap.alloc, lens, hs, hx]
    · have := r.cap x; simp [Mem.alloc, Heap.alloc, lens, hs, hx] at this ⊢; exact this
  · intro x p hp
    by_cases hx : x = h.size
    · simp [Mem.alloc, hs, hx] at hp
    · simp [Mem.alloc, hs, hx] at hp; exact r.live x p hp
  · intro a b p ha hb
    by_cases hx : a = h.size
    · simp [Mem.alloc, hs, hx] at ha
    · by_cases hy : b = h.size
      · simp [Mem.alloc, hs, hy] at hb
      · simp [Mem.alloc, hs, hx] at ha; simp [Mem.alloc, hs, hy] at hb; exact r.inj a b p ha hb
  · exact r.free_live
  · intro f hf x; by_cases hx : x = h.size
    · simp [Mem.alloc, hs, hx]
    · simpa [Mem.alloc, hs, hx] using r.free_off f hf x
  · exact r.free_nodup
  · intro x hx
    rw [List.mem_filter] at hx
    have hne : x ≠ h.size := by simpa using hx.2
    simpa [Mem.alloc, hs, hne] using r.work x hx.1

end Verif.Dom.Build
