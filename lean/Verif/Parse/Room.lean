import Verif.Parse.Cert
import Verif.Parse.GrammarSpec
/-
How much of the stack a phrase takes at most, in terms of its length.
-/
namespace Verif.Parse
open Spec

/-- Bounds for the symbols of a grammar: a phrase for the symbol `x` has at
least `least x` tokens and takes at most `2 * length + over x - 2` entries. -/
structure Bounds where
  least : List Nat
  over : List Nat

def leastAll (B : Bounds) : List Nat → Nat
  | [] => 0
  | x :: xs => B.least.getD x 0 + leastAll B xs

/-- The `i`-th kid starts when `i` entries are taken; `before` is what the kids
before it have at least. -/
def fitsAll (B : Bounds) (lhs : Nat) : Nat → Nat → List Nat → Bool
  | _, _, [] => true
  | i, before, x :: xs =>
    decide (i + B.over.getD x 0 ≤ B.over.getD lhs 0 + 2 * (before + leastAll B xs)) &&
    fitsAll B lhs (i + 1) (before + B.least.getD x 0) xs

def fits (T : Tables) (B : Bounds) (r : Nat) : Bool :=
  let rhs := T.rhs.getD r []
  let lhs := T.derives.getD r 0
  decide (B.least.getD lhs 0 ≤ leastAll B rhs) &&
  decide (3 ≤ B.over.getD lhs 0 + 2 * leastAll B rhs) && fitsAll B lhs 0 0 rhs

def checkRoom (T : Tables) (B : Bounds) : Bool :=
  (List.range T.ntBase).all (fun k => decide (B.least.getD k 0 ≤ 1 ∧ 1 ≤ B.over.getD k 0)) &&
  (List.range T.rhs.length).all (fun r => r == 0 || fits T B r)

theorem room_pos : ∀ t : Tree, 1 ≤ room t
  | .leaf _ => Nat.le_refl _
  | .node _ ks => Nat.le_max_left 1 (roomAll ks)

set_option linter.unusedSectionVars false

variable {T : Tables} {B : Bounds} (h : checkRoom T B = true)
include h

theorem checkRoom_term {k : Nat} (hk : k < T.ntBase) :
    B.least.getD k 0 ≤ 1 ∧ 1 ≤ B.over.getD k 0 := by
  have := (List.all_eq_true.mp (Bool.and_eq_true _ _ ▸ h).1) k (List.mem_range.mpr hk)
  exact of_decide_eq_true this

theorem checkRoom_rule {r : Nat} (h0 : 0 < r) (hr : r < T.rhs.length) : fits T B r = true := by
  have := (List.all_eq_true.mp (Bool.and_eq_true _ _ ▸ h).2) r (List.mem_range.mpr hr)
  rcases Bool.or_eq_true _ _ ▸ this with h1 | h1
  · exact absurd (eq_of_beq h1) (by omega)
  · exact h1

mutual
theorem least_le : ∀ {t : Tree}, Derives (grammar T) t →
    B.least.getD (root (grammar T).lhs t) 0 ≤ (yield t).length
  | .leaf t, .leaf _ ht => (checkRoom_term h ht.2).1
  | .node r ks, .node _ _ hr he hd => by
    have hf := checkRoom_rule h hr.1 hr.2
    have := leastAll_le hd
    rw [he] at this
    rw [fits] at hf
    simp only [Bool.and_eq_true, decide_eq_true_eq] at hf
    exact Nat.le_trans hf.1.1 this
theorem leastAll_le : ∀ {ts : Trees}, DerivesAll (grammar T) ts →
    leastAll B (roots (grammar T).lhs ts) ≤ (yields ts).length
  | .nil, _ => Nat.le_refl _
  | .cons t ts, .cons _ _ h1 h2 => by
    have a := least_le h1
    have b := leastAll_le h2
    rw [roots, yields, leastAll, List.length_append]
    omega
end

mutual
theorem room_le : ∀ {t : Tree}, Derives (grammar T) t →
    room t + 2 ≤ 2 * (yield t).length + B.over.getD (root (grammar T).lhs t) 0
  | .leaf t, .leaf _ ht => by
    have := (checkRoom_term h ht.2).2
    show 1 + 2 ≤ 2 * 1 + B.over.getD t.kind 0
    omega
  | .node r ks, .node _ _ hr he hd => by
    have hf := checkRoom_rule h hr.1 hr.2
    rw [fits] at hf
    simp only [Bool.and_eq_true, decide_eq_true_eq] at hf
    have h1 := leastAll_le h hd
    rw [he] at h1
    have h2 := roomAll_le (lhs := T.derives.getD r 0) (i := 0) (before := 0) (n := 0)
      (rhs := roots (grammar T).lhs ks) hd rfl (by rw [he]; exact hf.2) (Nat.zero_le _)
    have h3 := hf.1.2
    have h4 : leastAll B (T.rhs.getD r []) ≤ (yields ks).length := h1
    show max 1 (roomAll ks) + 2 ≤ 2 * (yields ks).length + B.over.getD (T.derives.getD r 0) 0
    rcases h2 with h2 | h2 <;> omega
theorem roomAll_le : ∀ {ts : Trees} {lhs i before n : Nat} {rhs : List Nat},
    DerivesAll (grammar T) ts → roots (grammar T).lhs ts = rhs →
    fitsAll B lhs i before rhs = true → before ≤ n →
    roomAll ts = 0 ∨
      i + roomAll ts + 2 ≤ 2 * (n + (yields ts).length) + B.over.getD lhs 0
  | .nil, _, _, _, _, _, _, _, _, _ => .inl rfl
  | .cons t ts, lhs, i, before, n, _, .cons _ _ h1 h2, rfl, hf, hn => by
    right
    rw [roots, fitsAll] at hf
    simp only [Bool.and_eq_true, decide_eq_true_eq] at hf
    have a := room_le h1
    have b := least_le h h1
    have c := leastAll_le h h2
    have d := roomAll_le (i := i + 1) (n := n + (yield t).length) h2 rfl hf.2 (by omega)
    have e := hf.1
    rw [yields, roomAll, List.length_append]
    rcases d with d | d
    · rw [d]
      have := room_pos t
      omega
    · omega
end

end Verif.Parse
