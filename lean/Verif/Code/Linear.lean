import Verif.Code.Spec

/-
A graph whose blocks are linked one after the other, as a list; what running the list means; how the list grows.
-/
namespace Verif.Code

open Verif.Py

variable {V W : Type}

/-- An element of the list: the beginning of a block, or an instruction. -/
inductive Item (V : Type) where
  | label (b : Nat)
  | ins (i : Ins V)

/-- The labels. -/
def labels : List (Item V) → List Nat
  | [] => []
  | .label b :: r => b :: labels r
  | .ins _ :: r => labels r

theorem labels_append (a b : List (Item V)) : labels (a ++ b) = labels a ++ labels b := by
  induction a with
  | nil => rfl
  | cons x a ih => cases x <;> simp [labels, ih]

theorem labels_map (is : List (Ins V)) : labels (is.map .ins) = [] := by
  induction is with
  | nil => rfl
  | cons x a ih => simpa [labels] using ih

/-- The list after a label. -/
def after (t : Nat) : List (Item V) → List (Item V)
  | [] => []
  | .label b :: r => if b = t then r else after t r
  | .ins _ :: r => after t r

theorem after_append {t : Nat} {a : List (Item V)} (h : t ∉ labels a) (b : List (Item V)) :
    after t (a ++ b) = after t b := by
  induction a with
  | nil => rfl
  | cons x a ih =>
    cases x with
    | label c =>
      simp only [labels, List.mem_cons, not_or] at h
      show (if c = t then _ else _) = _
      rw [if_neg (Ne.symm h.1)]; exact ih h.2
    | ins i => exact ih h

theorem after_label (t : Nat) (r : List (Item V)) : after t (.label t :: r) = r := if_pos rfl

/-- Every jump is to a label further on. -/
def Closed : List (Item V) → Prop
  | [] => True
  | .label _ :: r => Closed r
  | .ins i :: r => (∀ t, i.target = some t → t ∈ labels r) ∧ Closed r

theorem closed_append {a b : List (Item V)} (ha : Closed a) (hb : Closed b) : Closed (a ++ b) := by
  induction a with
  | nil => exact hb
  | cons x a ih =>
    cases x with
    | label c => exact ih ha
    | ins i =>
      refine ⟨fun t h => ?_, ih ha.2⟩
      show t ∈ labels (a ++ b)
      rw [labels_append]; exact List.mem_append_left _ (ha.1 t h)

theorem closed_map {is : List (Ins V)} (h : ∀ i ∈ is, i.target = none) : Closed (is.map .ins) := by
  induction is with
  | nil => trivial
  | cons x a ih =>
    refine ⟨fun t ht => ?_, ih fun i hi => h i (.tail _ hi)⟩
    rw [h x (.head _)] at ht; exact nomatch ht

/-- The meaning of an instruction. -/
def Ins.dec : Ins V → Dec V Str
  | .op o => .op o
  | .num o n => .num o n
  | .const v => .const v
  | .fast o s => .fast o s
  | .attr o s => .attr o s
  | .cmp c => .cmp c
  | .jump o _ => .jump o

/-- Running a list. -/
inductive Exec (H : Host V W) : List (Item V) → Frame V Str → W → Out V W → Prop where
  | label {b r f w o} : Exec H r f w o → Exec H (.label b :: r) f w o
  | out {i r f w o} : step H i.dec f w = .out o → Exec H (.ins i :: r) f w o
  | go {i r f w f' w' o} : step H i.dec f w = .go f' w' → Exec H r f' w' o → Exec H (.ins i :: r) f w o
  | jump {i r f w f' w' o t} : i.target = some t → step H i.dec f w = .jump f' w' → Exec H (after t r) f' w' o →
      Exec H (.ins i :: r) f w o

/-- The blocks are linked. -/
def Links (g : Graph V) : List Nat → Prop
  | [] => True
  | [b] => (g.block b).next = none
  | a :: b :: r => (g.block a).next = some b ∧ Links g (b :: r)

/-- Blocks as a list. -/
def items (g : Graph V) (ch : List Nat) : List (Item V) :=
  ch.flatMap fun b => .label b :: (g.block b).ins.map .ins

theorem items_append (g : Graph V) (a b : List Nat) : items g (a ++ b) = items g a ++ items g b :=
  List.flatMap_append

theorem labels_items (g : Graph V) (ch : List Nat) : labels (items g ch) = ch := by
  induction ch with
  | nil => rfl
  | cons b r ih =>
    show labels (.label b :: ((g.block b).ins.map .ins ++ items g r)) = _
    simp [labels, labels_append, labels_map, ih]

/-- The blocks of `g`, but for empty ones that nothing follows, are the list `L`. -/
structure LayAt (g : Graph V) (init : List Nat) (L : List (Item V)) : Prop where
  links : Links g (init ++ [g.current])
  first : (init ++ [g.current]).head? = some 0
  nodup : (init ++ [g.current]).Nodup
  bound : ∀ b ∈ init ++ [g.current], b < g.blocks.length
  rest : ∀ b, b ∉ init ++ [g.current] → g.block b = ⟨[], none⟩
  eq : L = items g (init ++ [g.current])

/-- See `LayAt`. -/
def Lay (g : Graph V) (L : List (Item V)) : Prop := ∃ init, LayAt g init L

theorem Lay.labels_lt {g : Graph V} {L : List (Item V)} (h : Lay g L) : ∀ b ∈ labels L, b < g.blocks.length := by
  obtain ⟨init, h⟩ := h
  rw [h.eq, labels_items]; exact h.bound

theorem Lay.nodup {g : Graph V} {L : List (Item V)} (h : Lay g L) : (labels L).Nodup := by
  obtain ⟨init, h⟩ := h
  rw [h.eq, labels_items]; exact h.nodup

theorem Links.congr {g g' : Graph V} {ch : List Nat} (h : Links g ch) (he : ∀ b ∈ ch, (g'.block b).next = (g.block b).next) :
    Links g' ch := by
  induction ch with
  | nil => trivial
  | cons a r ih =>
    cases r with
    | nil => exact (he a (.head _)).trans h
    | cons b r => exact ⟨(he a (.head _)).trans h.1, ih h.2 fun b hb => he b (.tail _ hb)⟩

theorem items_congr {g g' : Graph V} {ch : List Nat} (he : ∀ b ∈ ch, (g'.block b).ins = (g.block b).ins) :
    items g' ch = items g ch := by
  induction ch with
  | nil => rfl
  | cons a r ih =>
    show .label a :: ((g'.block a).ins.map .ins) ++ items g' r = .label a :: ((g.block a).ins.map .ins) ++ items g r
    rw [he a (.head _), ih fun b hb => he b (.tail _ hb)]

theorem Links.snoc {g : Graph V} {ch : List Nat} {a b : Nat} (h : Links g (ch ++ [a]))
    (g' : Graph V) (hold : ∀ x ∈ ch, (g'.block x).next = (g.block x).next)
    (ha : (g'.block a).next = some b) (hb : (g'.block b).next = none) : Links g' (ch ++ [a] ++ [b]) := by
  induction ch with
  | nil => exact ⟨ha, hb⟩
  | cons x r ih =>
    cases r with
    | nil => exact ⟨(hold x (.head _)).trans h.1, ha, hb⟩
    | cons y r =>
      refine ⟨(hold x (.head _)).trans h.1, ih h.2 fun z hz => hold z (.tail _ hz)⟩

theorem block_new (b : Nat) : (Graph.new : Graph V).block b = ⟨[], none⟩ := by
  unfold Graph.block Graph.new
  cases b <;> simp

theorem Lay.new : Lay (Graph.new : Graph V) [.label 0] := by
  refine ⟨[], ?_, rfl, (by simp), fun b hb => ?_, fun b _ => block_new b, ?_⟩
  · show ((Graph.new : Graph V).block 0).next = none
    rw [block_new]
  · simp only [List.nil_append, List.mem_singleton] at hb
    subst hb; exact Nat.one_pos
  · show _ = items _ [0]
    simp [items, block_new]

theorem block_newBlock (g : Graph V) (b : Nat) : g.newBlock.block b = g.block b := by
  unfold Graph.block Graph.newBlock
  simp only [List.getD_eq_getElem?_getD]
  by_cases h : b < g.blocks.length
  · rw [List.getElem?_append_left h]
  · rw [List.getElem?_append_right (by omega), List.getElem?_eq_none (l := g.blocks) (by omega)]
    cases h' : b - g.blocks.length <;> simp

theorem Lay.newBlock {g : Graph V} {L : List (Item V)} (h : Lay g L) : Lay g.newBlock L := by
  obtain ⟨init, h⟩ := h
  refine ⟨init, ⟨h.links.congr fun b _ => by rw [block_newBlock], h.first, h.nodup, fun b hb => ?_, fun b hb => ?_, ?_⟩⟩
  · have := h.bound b hb
    simp only [Graph.newBlock, List.length_append, List.length_singleton]; omega
  · rw [block_newBlock]; exact h.rest b hb
  · rw [h.eq]; exact (items_congr fun b _ => by rw [block_newBlock]).symm

theorem length_newBlock (g : Graph V) : g.newBlock.blocks.length = g.blocks.length + 1 := by
  simp [Graph.newBlock]

theorem block_emit_ne {g : Graph V} {b : Nat} (is : List (Ins V)) (h : b ≠ g.current) : (g.emit is).block b = g.block b := by
  unfold Graph.block Graph.emit
  simp only [List.getD_eq_getElem?_getD, List.getElem?_modify]
  simp [Ne.symm h]

theorem block_emit {g : Graph V} (is : List (Ins V)) (h : g.current < g.blocks.length) :
    (g.emit is).block g.current = ⟨(g.block g.current).ins ++ is, (g.block g.current).next⟩ := by
  unfold Graph.block Graph.emit
  simp only [List.getD_eq_getElem?_getD, List.getElem?_modify]
  rw [List.getElem?_eq_getElem h]; simp

theorem length_emit (g : Graph V) (is : List (Ins V)) : (g.emit is).blocks.length = g.blocks.length := by
  simp [Graph.emit]

theorem Lay.emit {g : Graph V} {L : List (Item V)} (h : Lay g L) (is : List (Ins V)) :
    Lay (g.emit is) (L ++ is.map .ins) := by
  obtain ⟨init, h⟩ := h
  have hc : g.current < g.blocks.length := h.bound _ (by simp)
  have hi : ∀ b ∈ init, b ≠ g.current := fun b hb he => by
    have := List.nodup_append.1 h.nodup
    exact this.2.2 b hb b (by rw [he]; exact .head _) rfl
  refine ⟨init, ⟨h.links.congr fun b hb => ?_, h.first, h.nodup, fun b hb => ?_, fun b hb => ?_, ?_⟩⟩
  · by_cases hb' : b = g.current
    · rw [hb', block_emit is hc]
    · rw [block_emit_ne is hb']
  · rw [length_emit]; exact h.bound b hb
  · have : b ≠ g.current := fun he => hb (by rw [he]; simp [Graph.emit])
    rw [block_emit_ne is this]; exact h.rest b hb
  · rw [h.eq]
    show _ = items _ (init ++ [g.current])
    rw [items_append, items_append, items_congr (g := g) (g' := g.emit is) (ch := init) fun b hb => by rw [block_emit_ne is (hi b hb)]]
    simp [items, block_emit is hc]

theorem block_next_ne {g : Graph V} {b : Nat} (t : Nat) (h : b ≠ g.current) : (g.nextBlock t).block b = g.block b := by
  unfold Graph.block Graph.nextBlock
  simp only [List.getD_eq_getElem?_getD, List.getElem?_modify]
  simp [Ne.symm h]

theorem block_next {g : Graph V} (t : Nat) (h : g.current < g.blocks.length) :
    (g.nextBlock t).block g.current = ⟨(g.block g.current).ins, some t⟩ := by
  unfold Graph.block Graph.nextBlock
  simp only [List.getD_eq_getElem?_getD, List.getElem?_modify]
  rw [List.getElem?_eq_getElem h]; simp

theorem length_next (g : Graph V) (t : Nat) : (g.nextBlock t).blocks.length = g.blocks.length := by
  simp [Graph.nextBlock]

theorem Lay.next {g : Graph V} {L : List (Item V)} (h : Lay g L) {t : Nat} (ht : t < g.blocks.length) (hn : t ∉ labels L) :
    Lay (g.nextBlock t) (L ++ [.label t]) := by
  obtain ⟨init, h⟩ := h
  have hc : g.current < g.blocks.length := h.bound _ (by simp)
  rw [h.eq, labels_items] at hn
  have hi : ∀ b ∈ init, b ≠ g.current := fun b hb he => by
    have := List.nodup_append.1 h.nodup
    exact this.2.2 b hb b (by rw [he]; exact .head _) rfl
  have htc : t ≠ g.current := fun he => hn (by rw [he]; simp)
  have hbt : (g.nextBlock t).block t = ⟨[], none⟩ := by rw [block_next_ne t htc]; exact h.rest t hn
  refine ⟨init ++ [g.current], ⟨?_, ?_, ?_, fun b hb => ?_, fun b hb => ?_, ?_⟩⟩
  · refine h.links.snoc _ (fun x hx => by rw [block_next_ne t (hi x hx)]) ?_ ?_
    · rw [block_next t hc]; rfl
    · show ((g.nextBlock t).block t).next = none
      rw [hbt]
  · have := h.first
    rw [List.head?_append, this]; rfl
  · show (init ++ [g.current] ++ [t]).Nodup
    refine List.nodup_append.2 ⟨h.nodup, (by simp), fun a ha b hb he => hn ?_⟩
    rw [List.mem_singleton] at hb
    rwa [← hb, ← he]
  · rw [length_next]
    rcases List.mem_append.1 hb with hb | hb
    · exact h.bound b hb
    · rw [List.mem_singleton] at hb; rw [hb]; exact ht
  · have hb' : b ∉ init ++ [g.current] := fun hx => hb (List.mem_append_left _ hx)
    have : b ≠ g.current := fun he => hb' (by rw [he]; simp)
    rw [block_next_ne t this]; exact h.rest b hb'
  · rw [h.eq]
    show _ = items _ (init ++ [g.current] ++ [t])
    rw [items_append _ (init ++ [g.current]), items_congr (g := g) (g' := g.nextBlock t) (ch := init ++ [g.current])]
    · simp [items, hbt]
    · intro b hb
      by_cases hb' : b = g.current
      · rw [hb', block_next t hc]
      · rw [block_next_ne t hb']

theorem Lay.nextNew {g : Graph V} {L : List (Item V)} (h : Lay g L) : Lay g.nextNew (L ++ [.label g.blocks.length]) := by
  refine h.newBlock.next ?_ ?_
  · rw [length_newBlock]; omega
  · intro hm
    have := h.labels_lt _ hm
    omega

theorem length_nextNew (g : Graph V) : g.nextNew.blocks.length = g.blocks.length + 1 := by
  unfold Graph.nextNew
  rw [length_next, length_newBlock]

end Verif.Code
