import Verif.Code.Final

/-
The number of calls in the computation of the size of the stack; when there is code.
-/
namespace Verif.Code

open Verif.Py Verif.Code.Spec Gen

variable {V W : Type} {K : Known V} {env : Env V}

theorem after_le (t : Nat) (r : List (Item V)) : (after t r).length ≤ r.length := by
  induction r with
  | nil => exact Nat.le_refl _
  | cons x r ih =>
    cases x with
    | label b =>
      show (if b = t then r else after t r).length ≤ r.length + 1
      split <;> omega
    | ins i => exact Nat.le_succ_of_le ih

/-- The calls of `walk` in a list. -/
def cost : List (Item V) → Nat
  | [] => 0
  | .label _ :: r => 1 + cost r
  | .ins i :: r =>
    match i with
    | .jump o t =>
      have : (after t r).length ≤ r.length := after_le t r
      (1 + cost (after t r)) + (if o = .jumpForward then 0 else cost r)
    | _ => cost r
termination_by l => l.length
decreasing_by all_goals simp <;> omega

theorem cost_label (b : Nat) (r : List (Item V)) : cost (.label b :: r) = 1 + cost r := by rw [cost]

theorem cost_jump (o : JumpOp) (t : Nat) (r : List (Item V)) :
    cost (.ins (.jump o t) :: r) = (1 + cost (after t r)) + (if o = .jumpForward then 0 else cost r) := by rw [cost]

theorem cost_ins {i : Ins V} (h : i.target = none) (r : List (Item V)) : cost (.ins i :: r) = cost r := by
  rw [cost.eq_def]
  cases i <;> first | rfl | exact nomatch h

theorem walkIns_cost {seen : List Nat} {rec : Nat → Int → Int → Nat → Int × Nat} {R : List (Item V)} {is : List (Ins V)}
    (hrec : ∀ t ∈ labels R, ∀ size max calls, calls + (1 + cost (after t R)) ≤ (rec t size max calls).2)
    (hseen : ∀ t ∈ labels R, t ∉ seen) (ht : ∀ i ∈ is, ∀ t, i.target = some t → t ∈ labels R) (size max : Int) (calls k : Nat)
    (hbrk : (walkIns seen rec is size max calls).2.2.2 = false → (walkIns seen rec is size max calls).2.2.1 + cost R ≤ k)
    (hbrk' : (walkIns seen rec is size max calls).2.2.2 = true → (walkIns seen rec is size max calls).2.2.1 ≤ k) :
    calls + cost (is.map .ins ++ R) ≤ k := by
  induction is generalizing size max calls with
  | nil => exact hbrk rfl
  | cons i is ih =>
    have ih := fun size max calls => ih (fun j hj => ht j (.tail _ hj)) size max calls
    show calls + cost (.ins i :: (is.map .ins ++ R)) ≤ k
    have hi := ht i (.head _)
    unfold walkIns at hbrk hbrk'
    cases i with
    | jump o t =>
      have htR := hi t rfl
      dsimp only at hbrk hbrk'
      rw [if_neg (hseen t htR)] at hbrk hbrk'
      rw [cost_jump, after_append (by rw [labels_map]; exact nofun)]
      have hr := hrec t htR (size + (Ins.jump o t : Ins V).effect)
        (if size + (Ins.jump o t : Ins V).effect > max then size + (Ins.jump o t : Ins V).effect else max) calls
      generalize rec t (size + (Ins.jump o t : Ins V).effect)
        (if size + (Ins.jump o t : Ins V).effect > max then size + (Ins.jump o t : Ins V).effect else max) calls = res at *
      obtain ⟨mx, cl⟩ := res
      dsimp only at hbrk hbrk' hr
      by_cases ho : o = .jumpForward
      · rw [if_pos ho] at hbrk hbrk' ⊢
        have := hbrk' rfl
        dsimp only at this
        omega
      · rw [if_neg ho] at hbrk hbrk' ⊢
        have := ih _ _ _ hbrk hbrk'
        omega
    | op o => rw [cost_ins rfl]; exact ih _ _ _ hbrk hbrk'
    | num o n => rw [cost_ins rfl]; exact ih _ _ _ hbrk hbrk'
    | const v => rw [cost_ins rfl]; exact ih _ _ _ hbrk hbrk'
    | fast o s => rw [cost_ins rfl]; exact ih _ _ _ hbrk hbrk'
    | attr o s => rw [cost_ins rfl]; exact ih _ _ _ hbrk hbrk'
    | cmp c => rw [cost_ins rfl]; exact ih _ _ _ hbrk hbrk'

theorem walk_cost {g : Graph V} (fuel : Nat) : ∀ {seen r : List Nat} {b : Nat}, Links g (b :: r) → Fwd g (b :: r) →
    (b :: r).Nodup → (b :: r).length ≤ fuel → (∀ x ∈ b :: r, x ∉ seen) → ∀ size max calls,
    calls + (1 + cost ((g.block b).ins.map .ins ++ items g r)) ≤ (walk g fuel seen b size max calls).2 := by
  induction fuel with
  | zero => intro _ _ _ _ _ _ h; simp at h
  | succ fuel ih =>
    intro seen r b hl hf hn hlen hs size max calls
    have hn' := List.nodup_cons.1 hn
    have hseen : ∀ x ∈ r, x ∉ b :: seen := fun x hx => by
      simp only [List.mem_cons, not_or]
      exact ⟨fun he => hn'.1 (he ▸ hx), hs x (.tail _ hx)⟩
    have hrec : ∀ t ∈ labels (items g r), ∀ size max calls,
        calls + (1 + cost (after t (items g r))) ≤ (walk g fuel (b :: seen) t size max calls).2 := by
      intro t ht size max calls
      rw [labels_items] at ht
      obtain ⟨p, q, hpq⟩ := List.append_of_mem ht
      have hl' : Links g (t :: q) := by
        have := hl.tail
        rw [hpq] at this; exact this.suffix
      have hf' : Fwd g (t :: q) := by
        have := hf.2
        rw [hpq] at this; exact this.suffix
      have hn2 := hn'.2
      rw [hpq] at hn2
      have hn3 := List.nodup_append.1 hn2
      have htp : t ∉ p := fun h => hn3.2.2 t h t (.head _) rfl
      have := ih (seen := b :: seen) hl' hf' hn3.2.1 (by
        rw [hpq] at hlen; simp at hlen ⊢; omega) (fun x hx => hseen x (by rw [hpq]; exact List.mem_append_right _ hx)) size max calls
      rw [hpq, items_append, after_append (by rw [labels_items]; exact htp)]
      show calls + (1 + cost (after t (.label t :: ((g.block t).ins.map .ins ++ items g q)))) ≤ _
      rw [after_label]
      exact this
    rw [← Nat.add_assoc]
    refine walkIns_cost (seen := b :: seen) (rec := walk g fuel (b :: seen)) (R := items g r) (is := (g.block b).ins) hrec
      (fun t ht => hseen t (by rwa [labels_items] at ht))
      (fun i hi t ht => by rw [labels_items]; exact hf.1 i hi t ht) size max (calls + 1) _ ?_ ?_
    · unfold walk
      generalize walkIns (b :: seen) (walk g fuel (b :: seen)) (g.block b).ins size max (calls + 1) = res at *
      obtain ⟨sz, mx, cl, brk⟩ := res
      intro hb
      cases hb
      dsimp only
      cases r with
      | nil =>
        have hl : (g.block b).next = none := hl
        rw [hl]
        show cl + cost [] ≤ cl
        rw [cost]
        exact Nat.le_refl _
      | cons d r =>
        rw [hl.1]
        dsimp only
        rw [if_neg (hseen d (.head _))]
        have := ih (seen := b :: seen) hl.2 hf.2 hn'.2 (by simp at hlen ⊢; omega) hseen sz mx cl
        show cl + cost (.label d :: ((g.block d).ins.map .ins ++ items g r)) ≤ _
        rw [cost_label]
        exact this
    · unfold walk
      generalize walkIns (b :: seen) (walk g fuel (b :: seen)) (g.block b).ins size max (calls + 1) = res at *
      obtain ⟨sz, mx, cl, brk⟩ := res
      intro hb
      cases hb
      exact Nat.le_refl _

/-- `v or v or … or v`, with so many `or`. -/
def Spec.orChain (v : V) : Nat → Expr V
  | 0 => .known v v
  | n + 1 => .logic true (orChain v n) (.known v v)

theorem emits_orChain (v : V) (n : Nat) :
    Emits (compile K env (orChain v n) .boolean) (fun _ _ seg => ∀ rest, 2 ^ n * (cost rest + 1) ≤ cost (seg ++ rest) + 1) := by
  have hc : Emits (compile K env (.known v v) .boolean) (fun _ _ seg => seg = [.ins (.const v)]) := by
    unfold compile
    exact .emit (by intro i hi; cases List.mem_singleton.1 hi; rfl) fun _ => rfl
  induction n with
  | zero =>
    refine hc.mono fun lo hi x _ h rest => ?_
    subst h
    show _ ≤ cost (.ins (.const v) :: rest) + 1
    rw [cost_ins rfl]; omega
  | succ n ih =>
    unfold orChain compile
    refine emits_branch ih hc fun lo mid hi x y stop k _ _ hk _ hx hy rest => ?_
    subst hy
    have := hx ((Item.ins (.jump (if true then .jumpIfTrue else .jumpIfFalse) stop) :: .label k ::
      .ins (.op .popTop) :: ([.ins (.const v)] ++ [.label stop])) ++ rest)
    rw [List.append_assoc]
    refine Nat.le_trans ?_ this
    have hcost : 2 * (cost rest + 1) ≤ cost ((Item.ins (.jump (if true then .jumpIfTrue else .jumpIfFalse) stop) :: .label k ::
      .ins (.op .popTop) :: ([.ins (.const v)] ++ [.label stop])) ++ rest) + 1 := by
      simp only [List.cons_append, List.nil_append]
      rw [cost_jump]
      have h1 : after stop (Item.label k :: .ins (.op .popTop) :: .ins (.const v) :: .label stop :: rest) = rest := by
        show (if k = stop then _ else if stop = stop then rest else _) = _
        rw [if_neg hk, if_pos rfl]
      rw [h1, if_neg (by decide), cost_label, cost_ins rfl, cost_ins rfl, cost_label]
      omega
    rw [Nat.pow_succ, Nat.mul_assoc]
    exact Nat.mul_le_mul_left _ hcost

end Verif.Code
