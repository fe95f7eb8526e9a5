import Verif.Code.Linear

/-
The order of the blocks and the size of the stack of a graph whose blocks are linked one after the other.
-/
namespace Verif.Code

open Verif.Py

variable {V W : Type}

/-- Jumps are to blocks further on. -/
def Fwd (g : Graph V) : List Nat → Prop
  | [] => True
  | b :: r => (∀ i ∈ (g.block b).ins, ∀ t, i.target = some t → t ∈ r) ∧ Fwd g r

theorem closed_split {is : List (Ins V)} {r : List (Item V)} (h : Closed (is.map .ins ++ r)) :
    (∀ i ∈ is, ∀ t, i.target = some t → t ∈ labels r) ∧ Closed r := by
  induction is with
  | nil => exact ⟨(fun _ hi => nomatch hi), h⟩
  | cons x a ih =>
    obtain ⟨h1, h2⟩ := h
    obtain ⟨h3, h4⟩ := ih h2
    refine ⟨fun i hi t ht => ?_, h4⟩
    cases hi with
    | head =>
      have := h1 t ht
      have e : labels (a.map Item.ins ++ r) = labels r := by rw [labels_append, labels_map, List.nil_append]
      exact e ▸ this
    | tail _ hi => exact h3 i hi t ht

theorem fwd_of_closed {g : Graph V} {ch : List Nat} (h : Closed (items g ch)) : Fwd g ch := by
  induction ch with
  | nil => trivial
  | cons b r ih =>
    have h : Closed ((g.block b).ins.map .ins ++ items g r) := h
    obtain ⟨h1, h2⟩ := closed_split h
    rw [labels_items] at h1
    exact ⟨h1, ih h2⟩

theorem orderIns_seen {rec : Nat → List Nat × List Nat → List Nat × List Nat} {is : List (Ins V)} {s : List Nat × List Nat}
    (h : ∀ i ∈ is, ∀ t, i.target = some t → t ∈ s.1) : orderIns rec is s = s := by
  induction is with
  | nil => rfl
  | cons i is ih =>
    unfold orderIns
    have hr := ih fun j hj => h j (.tail _ hj)
    cases ht : i.target with
    | none => exact hr
    | some t =>
      dsimp only
      rw [if_pos (h i (.head _) t ht)]; exact hr

theorem order_chain {g : Graph V} {ch : List Nat} {b : Nat} {r : List Nat} (hch : ch = b :: r) (hl : Links g ch)
    (hf : Fwd g ch) (hn : ch.Nodup) {fuel : Nat} (hfuel : ch.length ≤ fuel) {sn po : List Nat}
    (hs : ∀ x ∈ ch, x ∉ sn) :
    ∃ sn', order g fuel b (sn, po) = (sn', po ++ ch.reverse) ∧ ∀ x, x ∈ sn' ↔ x ∈ sn ∨ x ∈ ch := by
  induction ch generalizing b r fuel sn po with
  | nil => exact nomatch hch
  | cons c ch ih =>
    obtain ⟨rfl, rfl⟩ := List.cons.inj hch
    cases fuel with
    | zero => simp at hfuel
    | succ fuel =>
    have hn' := List.nodup_cons.1 hn
    unfold order
    dsimp only
    cases ch with
    | nil =>
      have hl : (g.block c).next = none := hl
      rw [hl]
      dsimp only
      rw [orderIns_seen]
      · exact ⟨c :: sn, rfl, fun x => by simp only [List.mem_cons, List.not_mem_nil, or_false]; exact Or.comm⟩
      · intro i hi t ht
        exact nomatch hf.1 i hi t ht
    | cons d ch =>
      rw [hl.1]
      dsimp only
      have hd : d ∉ c :: sn := by
        simp only [List.mem_cons, not_or]
        refine ⟨fun he => hn'.1 (by rw [← he]; exact .head _), hs d (by simp)⟩
      rw [if_neg hd]
      obtain ⟨sn', h1, h2⟩ := ih (b := d) (r := ch) rfl hl.2 hf.2 hn'.2 (fuel := fuel) (by simp at hfuel ⊢; omega)
        (sn := c :: sn) (po := po) (by
          intro x hx
          simp only [List.mem_cons, not_or]
          refine ⟨fun he => hn'.1 (by rw [← he]; exact hx), hs x (.tail _ hx)⟩)
      rw [h1, orderIns_seen]
      · refine ⟨sn', ?_, fun x => ?_⟩
        · simp
        · rw [h2]; simp only [List.mem_cons]
          constructor
          · rintro ((h | h) | h | h) <;> simp [h]
          · rintro (h | h | h | h) <;> simp [h]
      · intro i hi t ht
        exact (h2 t).2 (.inr (hf.1 i hi t ht))

/-- No path through a list needs more than `M` places, if at its beginning the size is that. -/
inductive Fits (M : Int) : List (Item V) → Int → Prop where
  | nil {s} : Fits M [] s
  | label {b r s} : Fits M r s → Fits M (.label b :: r) s
  | ins {i r s} : s + i.effect ≤ M → (∀ t, i.target = some t → Fits M (after t r) (s + i.effect)) →
      ((∀ t, i ≠ .jump .jumpForward t) → Fits M r (s + i.effect)) → Fits M (.ins i :: r) s

theorem walkIns_fits {seen : List Nat} {rec : Nat → Int → Int → Nat → Int × Nat} {R : List (Item V)} {is : List (Ins V)}
    (hrec : ∀ t ∈ labels R, ∀ size max calls, max ≤ (rec t size max calls).1 ∧
      ∀ M, (rec t size max calls).1 ≤ M → Fits M (after t R) size)
    (hseen : ∀ t ∈ labels R, t ∉ seen)
    (ht : ∀ i ∈ is, ∀ t, i.target = some t → t ∈ labels R) (size max : Int) (calls : Nat) :
    max ≤ (walkIns seen rec is size max calls).2.1 ∧
      ∀ M, (walkIns seen rec is size max calls).2.1 ≤ M →
        ((walkIns seen rec is size max calls).2.2.2 = false → Fits M R (walkIns seen rec is size max calls).1) →
        Fits M (is.map .ins ++ R) size := by
  induction is generalizing size max calls with
  | nil => exact ⟨Int.le_refl _, fun M _ h => h rfl⟩
  | cons i is ih =>
    have ih := ih fun j hj => ht j (.tail _ hj)
    have hmax : ∀ size max : Int, max ≤ (if size > max then size else max) ∧ size ≤ (if size > max then size else max) := by
      intro size max; split <;> omega
    have plain : i.target = none → walkIns seen rec (i :: is) size max calls =
        walkIns seen rec is (size + i.effect) (if size + i.effect > max then size + i.effect else max) calls := by
      intro h
      cases i <;> first | rfl | exact nomatch h
    have hnone : i.target = none → (max ≤ (walkIns seen rec (i :: is) size max calls).2.1 ∧
      ∀ M, (walkIns seen rec (i :: is) size max calls).2.1 ≤ M →
        ((walkIns seen rec (i :: is) size max calls).2.2.2 = false → Fits M R (walkIns seen rec (i :: is) size max calls).1) →
        Fits M ((i :: is).map .ins ++ R) size) := by
      intro hi
      rw [plain hi]
      obtain ⟨h1, h2⟩ := ih (size + i.effect) (if size + i.effect > max then size + i.effect else max) calls
      have hm := hmax (size + i.effect) max
      refine ⟨by omega, fun M hM hf => .ins (by omega) (fun t h => ?_) fun _ => h2 M hM hf⟩
      rw [hi] at h; exact nomatch h
    cases i with
    | jump o t =>
      have htR := ht _ (.head _) t rfl
      have hafter : after t (is.map Item.ins ++ R) = after t R := after_append (by rw [labels_map]; exact List.not_mem_nil) R
      have hm := hmax (size + (Ins.jump o t : Ins V).effect) max
      generalize hsz : size + (Ins.jump o t : Ins V).effect = size' at *
      generalize hmx : (if size' > max then size' else max) = max' at *
      obtain ⟨r1, r2⟩ := hrec t htR size' max' calls
      by_cases ho : o = .jumpForward
      · have e : walkIns seen rec (.jump o t :: is) size max calls =
            (size', (rec t size' max' calls).1, (rec t size' max' calls).2, true) := by
          simp only [walkIns, hsz, hmx]
          rw [if_neg (hseen t htR), if_pos ho]
        rw [e]
        refine ⟨by dsimp only; omega, fun M hM _ => .ins ?_ (fun u hu => ?_) fun h => ?_⟩
        · dsimp only at hM; omega
        · cases hu
          have := r2 M hM
          rw [hsz]
          exact hafter ▸ this
        · exact absurd (by rw [ho]) (h t)
      · have e : walkIns seen rec (.jump o t :: is) size max calls =
            walkIns seen rec is size' (rec t size' max' calls).1 (rec t size' max' calls).2 := by
          simp only [walkIns, hsz, hmx]
          rw [if_neg (hseen t htR), if_neg ho]
        rw [e]
        obtain ⟨h1, h2⟩ := ih size' (rec t size' max' calls).1 (rec t size' max' calls).2
        refine ⟨by omega, fun M hM hf => .ins ?_ (fun u hu => ?_) fun h => ?_⟩
        · omega
        · cases hu
          have := r2 M (by omega)
          rw [hsz]
          exact hafter ▸ this
        · rw [hsz]; exact h2 M hM hf
    | _ => exact hnone rfl

theorem Links.tail {g : Graph V} {a : Nat} {r : List Nat} (h : Links g (a :: r)) : Links g r := by
  cases r with
  | nil => trivial
  | cons b r => exact h.2

theorem Links.suffix {g : Graph V} {p r : List Nat} (h : Links g (p ++ r)) : Links g r := by
  induction p with
  | nil => exact h
  | cons a p ih => exact ih h.tail

theorem Fwd.suffix {g : Graph V} {p r : List Nat} (h : Fwd g (p ++ r)) : Fwd g r := by
  induction p with
  | nil => exact h
  | cons a p ih => exact ih h.2

theorem walk_fits {g : Graph V} (fuel : Nat) : ∀ {seen r : List Nat} {b : Nat}, Links g (b :: r) → Fwd g (b :: r) →
    (b :: r).Nodup → (b :: r).length ≤ fuel → (∀ x ∈ b :: r, x ∉ seen) → ∀ size max calls,
    max ≤ (walk g fuel seen b size max calls).1 ∧
      ∀ M, (walk g fuel seen b size max calls).1 ≤ M → Fits M ((g.block b).ins.map .ins ++ items g r) size := by
  induction fuel with
  | zero => intro _ _ _ _ _ _ h; simp at h
  | succ fuel ih =>
    intro seen r b hl hf hn hlen hs size max calls
    have hn' := List.nodup_cons.1 hn
    have hseen : ∀ x ∈ r, x ∉ b :: seen := fun x hx => by
      simp only [List.mem_cons, not_or]
      exact ⟨fun he => hn'.1 (he ▸ hx), hs x (.tail _ hx)⟩
    have hrec : ∀ t ∈ labels (items g r), ∀ size max calls, max ≤ (walk g fuel (b :: seen) t size max calls).1 ∧
        ∀ M, (walk g fuel (b :: seen) t size max calls).1 ≤ M → Fits M (after t (items g r)) size := by
      intro t ht size max calls
      rw [labels_items] at ht
      obtain ⟨p, q, hpq⟩ := List.append_of_mem ht
      have hl' : Links g (t :: q) := by
        have := hl.tail
        rw [hpq] at this; exact this.suffix
      have hf' : Fwd g (t :: q) := by
        have := hf.2
        rw [hpq] at this; exact this.suffix
      have hn2 := hn'.2
      rw [hpq] at hn2
      have hn3 := List.nodup_append.1 hn2
      have htp : t ∉ p := fun h => hn3.2.2 t h t (.head _) rfl
      have := ih (seen := b :: seen) hl' hf' hn3.2.1 (by
        rw [hpq] at hlen; simp at hlen ⊢; omega) (fun x hx => hseen x (by rw [hpq]; exact List.mem_append_right _ hx)) size max calls
      refine ⟨this.1, fun M hM => ?_⟩
      rw [hpq, items_append, after_append (by rw [labels_items]; exact htp)]
      show Fits M (after t (.label t :: ((g.block t).ins.map .ins ++ items g q))) size
      rw [after_label]
      exact this.2 M hM
    have hw := walkIns_fits (seen := b :: seen) (rec := walk g fuel (b :: seen)) (R := items g r) (is := (g.block b).ins) hrec
      (fun t ht => hseen t (by rwa [labels_items] at ht))
      (fun i hi t ht => by rw [labels_items]; exact hf.1 i hi t ht) size max (calls + 1)
    unfold walk
    generalize walkIns (b :: seen) (walk g fuel (b :: seen)) (g.block b).ins size max (calls + 1) = res at *
    obtain ⟨sz, mx, cl, brk⟩ := res
    cases brk with
    | true => exact ⟨hw.1, fun M hM => hw.2 M hM nofun⟩
    | false =>
      dsimp only at hw ⊢
      cases r with
      | nil =>
        have hl : (g.block b).next = none := hl
        rw [hl]
        exact ⟨hw.1, fun M hM => hw.2 M hM fun _ => .nil⟩
      | cons d r =>
        rw [hl.1]
        dsimp only
        rw [if_neg (hseen d (.head _))]
        obtain ⟨h1, h2⟩ := ih (seen := b :: seen) hl.2 hf.2 hn'.2 (by simp at hlen ⊢; omega) hseen sz mx cl
        refine ⟨by omega, fun M hM => hw.2 M (by omega) fun _ => ?_⟩
        exact .label (h2 M hM)

end Verif.Code
