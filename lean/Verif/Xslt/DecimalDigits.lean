import Verif.Xslt.DecimalSpec
import Verif.XPath.FmtLemmas

/-
Lemmas on the digits of a number: what `parse_number` makes of the printed number.
-/
namespace Verif.Decimal
open Verif Verif.XPath Spec

/-! ### Digits -/

/-- The decimal digits without leading zeros. -/
def dg (n : Nat) : List Nat := if n = 0 then [] else dg (n / 10) ++ [n % 10]
termination_by n
decreasing_by omega

theorem dg_zero : dg 0 = [] := by rw [dg]; rfl

theorem dg_pos {n : Nat} (h : n ≠ 0) : dg n = dg (n / 10) ++ [n % 10] := by
  rw [dg]; simp [h]

theorem dg_cons (k d : Nat) (hd : d < 10) (h : 10 * k + d ≠ 0) : dg (10 * k + d) = dg k ++ [d] := by
  rw [dg_pos h]
  have h1 : (10 * k + d) / 10 = k := by omega
  have h2 : (10 * k + d) % 10 = d := by omega
  rw [h1, h2]

theorem dg_lt (n : Nat) : ∀ d ∈ dg n, d < 10 := by
  induction n using Nat.strongRecOn with
  | ind n ih =>
    by_cases h : n = 0
    · subst h; rw [dg_zero]; simp
    · rw [dg_pos h]
      intro d hd
      rcases List.mem_append.mp hd with h1 | h1
      · exact ih (n / 10) (by omega) d h1
      · have := List.mem_singleton.mp h1; omega

theorem dg_head (n : Nat) : (dg n).head? ≠ some 0 := by
  induction n using Nat.strongRecOn with
  | ind n ih =>
    by_cases h : n = 0
    · subst h; rw [dg_zero]; simp
    · rw [dg_pos h]
      by_cases h1 : n / 10 = 0
      · rw [h1, dg_zero]
        simp; omega
      · have := ih (n / 10) (by omega)
        rw [dg_pos h1] at this ⊢
        cases hx : dg (n / 10 / 10) with
        | nil => rw [hx] at this; simpa using this
        | cons a l => rw [hx] at this; simpa using this

theorem dg_ne_nil {n : Nat} (h : n ≠ 0) : dg n ≠ [] := by rw [dg_pos h]; simp

theorem value_append (a b : List Nat) : value (a ++ b) = value a * 10 ^ b.length + value b := by
  induction a with
  | nil => simp [value]
  | cons d ds ih =>
    simp only [List.cons_append, value, ih, List.length_append, Nat.pow_add]
    rw [Nat.add_mul, ← Nat.mul_assoc, Nat.add_assoc]

theorem value_zeros (k : Nat) : value (List.replicate k 0) = 0 := by
  induction k with
  | zero => rfl
  | succ k ih => rw [List.replicate_succ, value, ih]; simp

theorem value_dg (n : Nat) : value (dg n) = n := by
  induction n using Nat.strongRecOn with
  | ind n ih =>
    by_cases h : n = 0
    · subst h; rw [dg_zero]; rfl
    · rw [dg_pos h, value_append, ih (n / 10) (by omega)]
      simp [value]; omega

theorem dg_pow (n w : Nat) (h : n < 10 ^ w) : (dg n).length ≤ w := by
  induction w generalizing n with
  | zero => simp at h; subst h; rw [dg_zero]; simp
  | succ w ih =>
    by_cases hn : n = 0
    · subst hn; rw [dg_zero]; simp
    · rw [dg_pos hn, List.length_append]
      have := ih (n / 10) (by rw [Nat.pow_succ] at h; omega)
      simpa using this

theorem lastDigits_length (w n : Nat) : (lastDigits w n).length = w := by
  induction w generalizing n with
  | zero => rfl
  | succ w ih => simp [lastDigits, ih]

theorem lastDigits_lt (w n : Nat) : ∀ d ∈ lastDigits w n, d < 10 := by
  induction w generalizing n with
  | zero => simp [lastDigits]
  | succ w ih =>
    intro d hd
    rw [lastDigits] at hd
    rcases List.mem_append.mp hd with h1 | h1
    · exact ih _ d h1
    · have := List.mem_singleton.mp h1; omega

/-- The digits of the integer part and those of the fraction. -/
theorem dg_split (w n : Nat) (h : n / 10 ^ w ≠ 0) : dg n = dg (n / 10 ^ w) ++ lastDigits w n := by
  induction w generalizing n with
  | zero => simp [lastDigits]
  | succ w ih =>
    have e : n / 10 ^ (w + 1) = n / 10 / 10 ^ w := by
      rw [Nat.div_div_eq_div_mul, Nat.pow_succ, Nat.mul_comm]
    rw [e] at h ⊢
    have hn : n ≠ 0 := by intro h0; subst h0; simp at h
    rw [dg_pos hn, lastDigits, ih (n / 10) h, List.append_assoc]

theorem lastDigits_small (w n : Nat) (h : n < 10 ^ w) :
    lastDigits w n = List.replicate (w - (dg n).length) 0 ++ dg n := by
  induction w generalizing n with
  | zero => simp at h; subst h; simp [lastDigits, dg_zero]
  | succ w ih =>
    rw [lastDigits, ih (n / 10) (by rw [Nat.pow_succ] at h; omega)]
    by_cases hn : n = 0
    · subst hn; simp [dg_zero, ← List.replicate_succ']
    · rw [dg_pos hn]; simp

/-! ### The printed number -/

theorem decAux_dg (fuel n : Nat) (h : n < fuel) (hn : n ≠ 0) :
    decAux fuel n = (dg n).map digitChar := by
  induction fuel generalizing n with
  | zero => omega
  | succ f ih =>
    rw [decAux, dg_pos hn]
    by_cases h1 : n < 10
    · have e : n / 10 = 0 := by omega
      have e2 : n % 10 = n := by omega
      simp [h1, e, e2, dg_zero]
    · rw [if_neg h1, ih (n / 10) (by omega) (by omega)]; simp

theorem decimal_dg (n : Nat) : decimal n = if n = 0 then ['0'] else (dg n).map digitChar := by
  by_cases h : n = 0
  · subst h; rfl
  · rw [decimal, decAux_dg _ _ (by omega) h, if_neg h]

theorem digitChar_ne_dot {d : Nat} (h : d < 10) : digitChar d ≠ '.' := by
  intro e
  have := digitChar_toNat h
  rw [e] at this
  simp at this; omega

theorem digitChar_zero_iff {d : Nat} (h : d < 10) : digitChar d = '0' ↔ d = 0 := by
  constructor
  · intro e
    have := digitChar_toNat h
    rw [e] at this
    simp at this; omega
  · intro e; subst e; rfl

/-- The digits as the code stores them. -/
abbrev ints (l : List Nat) : List Int := l.map Int.ofNat

theorem scanStep_nonzero (s : Scan) (h : s.nonZero = true) (d : Nat) (hd : d < 10) :
    scanStep s (digitChar d) = { s with digits := s.digits ++ [(d : Int)] } := by
  rw [scanStep, if_neg (digitChar_ne_dot hd)]
  simp only [h, ↓reduceIte]
  rw [digitChar_toNat hd]
  have : ((48 + d : Nat) : Int) - ('0'.toNat : Int) = d := by
    have : '0'.toNat = 48 := rfl
    omega
  rw [this]

theorem foldl_nonzero (l : List Nat) (hl : ∀ d ∈ l, d < 10) (s : Scan) (h : s.nonZero = true) :
    (l.map digitChar).foldl scanStep s = { s with digits := s.digits ++ ints l } := by
  induction l generalizing s with
  | nil => simp
  | cons d l ih =>
    rw [List.map_cons, List.foldl_cons, scanStep_nonzero s h d (hl d (by simp)),
      ih (fun x hx => hl x (List.mem_cons_of_mem _ hx)) _ (by simpa using h)]
    simp

theorem scanStep_zero (s : Scan) (h : s.nonZero = false) :
    scanStep s '0' = { s with zerosSkipped := s.zerosSkipped + 1 } := by
  rw [scanStep, if_neg (by decide)]
  simp [h]

theorem foldl_zeros (k : Nat) (s : Scan) (h : s.nonZero = false) :
    (List.replicate k '0').foldl scanStep s = { s with zerosSkipped := s.zerosSkipped + k } := by
  induction k generalizing s with
  | zero => simp
  | succ k ih =>
    rw [List.replicate_succ, List.foldl_cons, scanStep_zero s h, ih _ (by simpa using h)]
    simp; omega

/-- A number that does not start with a zero. -/
theorem foldl_dg (n : Nat) (hn : n ≠ 0) (s : Scan) (h : s.nonZero = false) :
    ((dg n).map digitChar).foldl scanStep s =
      { s with digits := s.digits ++ ints (dg n), nonZero := true,
               zerosSkipped := s.zerosSkipped + 1 } := by
  have hh := dg_head n
  have hlt := dg_lt n
  cases hx : dg n with
  | nil => exact absurd hx (dg_ne_nil hn)
  | cons d l =>
    rw [hx] at hh hlt
    have hd0 : d ≠ 0 := by simpa using hh
    have hd : d < 10 := hlt d (by simp)
    rw [List.map_cons, List.foldl_cons]
    have e : scanStep s (digitChar d) =
        { s with digits := s.digits ++ [(d : Int)], nonZero := true,
                 zerosSkipped := s.zerosSkipped + 1 } := by
      rw [scanStep, if_neg (digitChar_ne_dot hd)]
      have h0 : digitChar d ≠ '0' := fun e => hd0 ((digitChar_zero_iff hd).mp e)
      have h1 : (digitChar d != '0') = true := by simpa using h0
      simp only [h, h1, Bool.false_eq_true, ↓reduceIte]
      rw [digitChar_toNat hd]
      have : ((48 + d : Nat) : Int) - ('0'.toNat : Int) = d := by
        have : '0'.toNat = 48 := rfl
        omega
      rw [this]
    rw [e, foldl_nonzero l (fun x hx => hlt x (List.mem_cons_of_mem _ hx)) _ rfl]
    simp

/-- What the loop finds in the printed number `n / 10^w`. -/
theorem scan_printed (n w : Nat) (hw : 0 < w) :
    scan (decimal (n / 10 ^ w) ++ '.' :: (lastDigits w n).map digitChar) =
      { digits := ints (dg n)
        decimalAt := if n = 0 then 1 - (w : Int) else (dg n).length - w
        nonZero := n != 0
        zerosSkipped := if n / 10 ^ w ≠ 0 then 0 else if n = 0 then w else w - (dg n).length + 1 } := by
  rw [scan]
  rw [List.foldl_append, List.foldl_cons, decimal_dg]
  by_cases hi : n / 10 ^ w = 0
  · rw [if_pos hi]
    have hlt : n < 10 ^ w := by
      rcases Nat.lt_or_ge n (10 ^ w) with h | h
      · exact h
      · have := Nat.div_pos h (Nat.pow_pos (by decide)); omega
    rw [lastDigits_small w n hlt, List.map_append, List.map_replicate, List.foldl_append]
    have hz : digitChar 0 = '0' := rfl
    have e1 : scanStep (List.foldl scanStep {} ['0']) '.' = { decimalAt := 0 } := by
      simp [scanStep]
    rw [e1, hz, foldl_zeros _ _ rfl]
    dsimp only
    by_cases hn : n = 0
    · subst hn
      rw [dg_zero]
      simp
      rw [if_neg (by omega)]
      simp; omega
    · rw [foldl_dg n hn _ rfl]
      have hl := dg_pow n w hlt
      simp [hn, hi]
      omega
  · have hn : n ≠ 0 := by intro h; subst h; simp at hi
    rw [if_neg hi, foldl_dg _ hi _ rfl]
    have e : ∀ s : Scan, scanStep s '.' = { s with decimalAt := s.digits.length, zerosSkipped := 0 } := by
      intro s; rw [scanStep, if_pos rfl]
    rw [e, foldl_nonzero _ (lastDigits_lt w n) _ rfl]
    have hs := dg_split w n hi
    simp [hs, hn, hi, lastDigits_length]

/-! ### Rounding -/

theorem carry_length (l : List Int) : (carry l).1.length = l.length := by
  induction l with
  | nil => rfl
  | cons d l ih =>
    rw [carry]
    by_cases h : d = 9
    · simp [h, ih]
    · simp [h]

/-- Carrying adds one, unless the next number is a power of ten. -/
theorem carry_dg (k : Nat) (h : ∀ j, k + 1 ≠ 10 ^ j) :
    carry (ints (dg k)).reverse = ((ints (dg (k + 1))).reverse, false) := by
  induction k using Nat.strongRecOn with
  | ind k ih =>
    have hk : k ≠ 0 := by intro h0; subst h0; exact h 0 rfl
    rw [dg_pos hk]
    simp only [ints, List.map_append, List.map_cons, List.map_nil, List.reverse_append,
      List.reverse_cons, List.reverse_nil, List.nil_append, List.singleton_append]
    rw [carry]
    by_cases h9 : k % 10 = 9
    · have e : Int.ofNat (k % 10) = 9 := by rw [h9]; rfl
      rw [if_pos e]
      have hnext : ∀ j, k / 10 + 1 ≠ 10 ^ j := by
        intro j hj
        apply h (j + 1)
        rw [Nat.pow_succ, ← hj]; omega
      have := ih (k / 10) (by omega) hnext
      simp only [ints] at this
      rw [this]
      have e2 : k + 1 = 10 * (k / 10 + 1) + 0 := by omega
      rw [e2, dg_cons _ 0 (by decide) (by omega)]
      simp
    · have e : Int.ofNat (k % 10) ≠ 9 := by
        intro h'; apply h9
        have : ((k % 10 : Nat) : Int) = 9 := h'
        omega
      rw [if_neg e]
      have e2 : k + 1 = 10 * (k / 10) + (k % 10 + 1) := by omega
      rw [e2, dg_cons _ _ (by omega) (by omega)]
      simp

theorem dg_succ_length (k : Nat) (h : ∀ j, k + 1 ≠ 10 ^ j) : (dg (k + 1)).length = (dg k).length := by
  have h1 := carry_dg k h
  have h2 := carry_length (ints (dg k)).reverse
  rw [h1] at h2
  simpa using h2

/-- The rounded number. -/
def rounded (k d : Nat) : Nat := if d < 5 then k else k + 1

theorem roundLast_dg (k d : Nat) (hd : d < 10) (h : 5 ≤ d → ∀ j, k + 1 ≠ 10 ^ j) :
    roundLast (ints (dg (10 * k + d))) = (ints (dg (rounded k d)), decide (10 * k + d = 0)) := by
  by_cases h0 : 10 * k + d = 0
  · have hk : k = 0 := by omega
    have hd0 : d = 0 := by omega
    subst hk; subst hd0
    rw [dg_zero]; simp [roundLast, rounded, dg_zero]
  · rw [dg_cons k d hd h0, roundLast]
    simp only [ints, List.map_append, List.map_cons, List.map_nil, List.reverse_append,
      List.reverse_cons, List.reverse_nil, List.nil_append, List.singleton_append]
    by_cases h5 : d < 5
    · have : ¬ (Int.ofNat d ≥ 5) := by
        intro h'; have : ((d : Nat) : Int) ≥ 5 := h'; omega
      rw [if_neg this]
      simp [rounded, h5]
      omega
    · have e : Int.ofNat d ≥ 5 := by
        show ((d : Nat) : Int) ≥ 5
        omega
      rw [if_pos e]
      have := carry_dg k (h (by omega))
      simp only [ints] at this
      rw [this]
      simp [rounded, h5]
      omega

theorem rounded_length (k d : Nat) (h : 5 ≤ d → ∀ j, k + 1 ≠ 10 ^ j) :
    (dg (rounded k d)).length = (dg k).length := by
  rw [rounded]
  by_cases h5 : d < 5
  · rw [if_pos h5]
  · rw [if_neg h5]; exact dg_succ_length k (h (by omega))

/-! ### Trailing zeros -/

theorem trim_le (l : List Int) (D : Int) (c : Nat) : trim l D c ≤ c := by
  induction c with
  | zero => simp [trim]
  | succ c ih =>
    rw [trim]
    split
    · split
      · omega
      · omega
    · omega

/-- What is cut off are zeros. -/
theorem trim_zero (l : List Int) (D : Int) (c : Nat) (j : Nat) (h1 : trim l D c ≤ j) (h2 : j < c) :
    l[j]? = some 0 := by
  induction c with
  | zero => omega
  | succ c ih =>
    rw [trim] at h1
    split at h1
    · split at h1
      · by_cases hj : j = c
        · subst hj; assumption
        · exact ih h1 (by omega)
      · omega
    · omega

/-- Digits up to the first one behind the point stay. -/
theorem trim_keep (l : List Int) (D : Int) (c : Nat) : D < (trim l D c : Int) ∨ trim l D c = c ∨ D < 0 := by
  induction c with
  | zero => simp [trim]
  | succ c ih =>
    rw [trim]
    split
    · split
      · rcases ih with h | h | h
        · exact .inl h
        · rename_i hc _
          rw [h]
          by_cases hD : D < 0
          · exact .inr (.inr hD)
          · omega
        · exact .inr (.inr h)
      · exact .inr (.inl rfl)
    · exact .inr (.inl rfl)

/-- Behind the first digit after the point no trailing zero stays. -/
theorem trim_last (l : List Int) (D : Int) (c : Nat) :
    (trim l D c : Int) ≤ D + 1 ∨ trim l D c = 0 ∨ l[trim l D c - 1]? ≠ some 0 := by
  induction c with
  | zero => simp [trim]
  | succ c ih =>
    rw [trim]
    split
    · split
      · exact ih
      · right; right; simpa using ‹¬ _›
    · left; omega

end Verif.Decimal
