/-
Common helpers: the fragment of Python's string API that the modelled code uses.

Strings are lists of characters.  Python 2 `unicode` strings are modelled as
`List Char` (a lone surrogate code unit has no counterpart; definitions where
that matters use `List Nat` code units instead and say so).
-/
namespace Verif

/-- A Python string. -/
abbrev Str := List Char

open Lean in
/-- `s!! "abc"` is the list literal `['a','b','c']`, which the kernel evaluates directly. -/
macro "s!!" s:str : term => do
  let cs := s.getString.toList.map (fun c => Syntax.mkCharLit c)
  `(([$(cs.toArray),*] : List Char))

deriving instance DecidableEq for Except

namespace Py
variable {α : Type} [DecidableEq α]

/-- Python `s.split(c)` for a one-character separator (always at least one piece). -/
def split (c : α) : List α → List (List α)
  | [] => [[]]
  | x :: xs =>
    if x = c then [] :: split c xs
    else match split c xs with
      | [] => [[x]]
      | p :: ps => (x :: p) :: ps

/-- Python `sep.join(pieces)`. -/
def join (sep : List α) : List (List α) → List α
  | [] => []
  | [p] => p
  | p :: q :: ps => p ++ sep ++ join sep (q :: ps)

/-- Python `s.startswith(t)`. -/
def startsWith : List α → List α → Bool
  | _, [] => true
  | [], _ :: _ => false
  | x :: xs, y :: ys => x = y && startsWith xs ys

/-- Python `s.find(t)`; `none` is -1. -/
def find (t : List α) : List α → Option Nat
  | [] => if t = [] then some 0 else none
  | x :: xs => if startsWith (x :: xs) t then some 0 else (find t xs).map (· + 1)

/-- Python `s.rfind(c)` for one character; `none` is -1. -/
def rfind (c : α) : List α → Option Nat
  | [] => none
  | x :: xs => match rfind c xs with
    | some i => some (i + 1)
    | none => if x = c then some 0 else none

theorem split_ne_nil (c : α) (s : List α) : split c s ≠ [] := by
  cases s with
  | nil => simp [split]
  | cons x xs =>
    unfold split; split
    · simp
    · split <;> simp

theorem join_split (c : α) (s : List α) : join [c] (split c s) = s := by
  induction s with
  | nil => simp [split, join]
  | cons x xs ih =>
    unfold split
    split
    · rename_i h
      cases hs : split c xs with
      | nil => exact absurd hs (split_ne_nil c xs)
      | cons p ps => rw [hs] at ih; simp [join, ih, h]
    · cases hs : split c xs with
      | nil => exact absurd hs (split_ne_nil c xs)
      | cons p ps =>
        rw [hs] at ih
        cases ps with
        | nil => simpa [join] using ih
        | cons q qs => simp [join] at ih ⊢; exact ih

theorem not_mem_of_mem_split {c : α} {s p : List α} (h : p ∈ split c s) : c ∉ p := by
  induction s generalizing p with
  | nil => simp [split] at h; simp [h]
  | cons x xs ih =>
    unfold split at h
    split at h
    · rcases List.mem_cons.1 h with h | h
      · simp [h]
      · exact ih h
    · rename_i hx
      cases hs : split c xs with
      | nil => exact absurd hs (split_ne_nil c xs)
      | cons q qs =>
        rw [hs] at h ih
        rcases List.mem_cons.1 h with h | h
        · subst h
          have := ih (p := q) (by simp)
          simp [this, Ne.symm hx]
        · exact ih (List.mem_cons_of_mem _ h)

theorem split_of_not_mem {c : α} {s : List α} (h : c ∉ s) : split c s = [s] := by
  induction s with
  | nil => rfl
  | cons x xs ih =>
    have h1 : x ≠ c := fun e => h (by simp [e])
    have h2 : c ∉ xs := fun e => h (by simp [e])
    simp [split, h1, ih h2]

theorem split_append_cons {c : α} {p s : List α} (h : c ∉ p) :
    split c (p ++ c :: s) = p :: split c s := by
  induction p with
  | nil => simp [split]
  | cons x xs ih =>
    have h1 : x ≠ c := fun e => h (by simp [e])
    have h2 : c ∉ xs := fun e => h (by simp [e])
    simp [split, h1, ih h2]

theorem split_join {c : α} {l : List (List α)} (hne : l ≠ []) (h : ∀ p ∈ l, c ∉ p) :
    split c (join [c] l) = l := by
  induction l with
  | nil => exact absurd rfl hne
  | cons p ps ih =>
    cases ps with
    | nil => simpa [join] using split_of_not_mem (h p (by simp))
    | cons q qs =>
      have : join [c] (p :: q :: qs) = p ++ c :: join [c] (q :: qs) := by simp [join]
      rw [this, split_append_cons (h p (by simp)), ih (by simp) (fun r hr => h r (by simp [hr]))]

theorem startsWith_iff {s t : List α} : startsWith s t = true ↔ ∃ r, s = t ++ r := by
  induction t generalizing s with
  | nil => cases s <;> simp [startsWith]
  | cons y ys ih =>
    cases s with
    | nil => simp [startsWith]
    | cons x xs =>
      simp only [startsWith, Bool.and_eq_true, decide_eq_true_eq, ih, List.cons_append,
        List.cons.injEq]
      constructor
      · rintro ⟨h, r, hr⟩; exact ⟨r, h, hr⟩
      · rintro ⟨r, h, hr⟩; exact ⟨h, r, hr⟩

theorem rfind_none {c : α} {s : List α} : rfind c s = none ↔ c ∉ s := by
  induction s with
  | nil => simp [rfind]
  | cons x xs ih =>
    unfold rfind
    cases h : rfind c xs with
    | some i =>
      have hm : c ∈ xs := by
        by_cases hc : c ∈ xs
        · exact hc
        · rw [ih.2 hc] at h; cases h
      simp [hm]
    | none =>
      have hm : c ∉ xs := ih.1 h
      by_cases hx : x = c
      · simp [hx]
      · simp [hx, hm, Ne.symm hx]

theorem rfind_some {c : α} {s : List α} {i : Nat} (h : rfind c s = some i) :
    s = s.take i ++ c :: s.drop (i + 1) ∧ c ∉ s.drop (i + 1) := by
  induction s generalizing i with
  | nil => simp [rfind] at h
  | cons x xs ih =>
    unfold rfind at h
    cases hr : rfind c xs with
    | some j =>
      rw [hr] at h
      simp at h
      subst h
      have := ih hr
      simp only [List.take_succ_cons, List.drop_succ_cons, List.cons_append]
      exact ⟨by rw [← this.1], this.2⟩
    | none =>
      rw [hr] at h
      by_cases hx : x = c
      · simp [hx] at h
        subst h
        simp [hx, rfind_none.1 hr]
      · simp [hx] at h

end Py
end Verif
