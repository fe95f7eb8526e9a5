import Verif.Xslt.DecimalDigits

/-
Lemmas on the layout of the digits: `format_number` writes the number as the picture wants it.
-/
namespace Verif.Decimal
open Verif Verif.XPath Spec

theorem dig_eq (sy : Symbols) (d : Nat) : sy.dig (d : Int) = digitText sy d := by
  rw [Symbols.dig, digitText]
  have : ((sy.zero.toNat : Int) + (d : Int)).toNat = sy.zero.toNat + d := by omega
  rw [this]

theorem digitText_zero (sy : Symbols) : digitText sy 0 = sy.zero := by
  rw [digitText]; simp

/-- The grouping that the parser records. -/
def Grouping (info : Info) (group : Option Nat) : Prop :=
  info.grouping = group.getD 0 ∧ group ≠ some 0

theorem group_eq (sy : Symbols) (info : Info) (group : Option Nat) (hg : Grouping info group)
    (n : Nat) (t : Str) :
    (if n > 0 ∧ info.grouping ≠ 0 ∧ n % info.grouping = 0 then sy.grouping :: t else t) =
      separator sy group n ++ t := by
  obtain ⟨h1, h2⟩ := hg
  rw [separator.eq_def]
  cases group with
  | none => simp at h1; simp [h1]
  | some g =>
    have hg0 : g ≠ 0 := by simpa using h2
    simp at h1
    rw [h1]
    dsimp only
    by_cases hc : 0 < n ∧ g ∣ n
    · rw [if_pos ⟨hc.1, hg0, Nat.mod_eq_zero_of_dvd hc.2⟩, if_pos hc]; rfl
    · rw [if_neg (fun h => hc ⟨h.1, Nat.dvd_of_mod_eq_zero h.2.2⟩), if_neg hc]; rfl

/-- Digits of the integer part, without leading zeros. -/
theorem intPart_digits (sy : Symbols) (info : Info) (group : Option Nat) (hg : Grouping info group)
    (D : Int) (i : Nat) (T : List Nat) (h1 : (i : Int) ≤ D) (h2 : i ≤ T.length) :
    intPart sy info D i (ints T) = (grouped sy group (T.take i), ints (T.drop i)) := by
  induction i generalizing T with
  | zero => simp [intPart, grouped]
  | succ i ih =>
    cases T with
    | nil => simp at h2
    | cons d T =>
      have h2' : i ≤ T.length := by simpa using h2
      have hlt : (i : Int) < D := by omega
      simp only [intPart, intDigit, ints, List.map_cons, hlt, ↓reduceIte]
      have := ih T (by omega) h2'
      simp only [ints] at this
      rw [this]
      simp only [List.take_succ_cons, List.drop_succ_cons, grouped]
      have hl : (T.take i).length = i := by simp; omega
      rw [hl, group_eq sy info group hg]
      have e : Int.ofNat d = (d : Int) := rfl
      rw [e, dig_eq]

/-- The integer part with its leading zeros. -/
theorem intPart_eq (sy : Symbols) (info : Info) (group : Option Nat) (hg : Grouping info group)
    (D : Int) (i : Nat) (T : List Nat) (h1 : D ≤ i) (h2 : D.toNat ≤ T.length) :
    intPart sy info D i (ints T) =
      (grouped sy group (List.replicate (i - D.toNat) 0 ++ T.take D.toNat), ints (T.drop D.toNat)) := by
  induction i with
  | zero =>
    have : D.toNat = 0 := by omega
    rw [this]; simp [intPart, grouped]
  | succ i ih =>
    by_cases hD : D = ((i + 1 : Nat) : Int)
    · have e : D.toNat = i + 1 := by omega
      rw [e, intPart_digits sy info group hg D (i + 1) T (by omega) (by omega)]
      simp
    · have hle : D ≤ i := by omega
      have hnlt : ¬ ((i : Int) < D) := by omega
      have e : intDigit sy D i (ints T) = (sy.zero, ints T) := by
        rw [intDigit.eq_def]
        cases hT : ints T with
        | nil => rfl
        | cons d ds' => simp only [if_neg hnlt]
      rw [intPart.eq_def]
      dsimp only
      rw [e, ih hle]
      dsimp only
      have e3 : i + 1 - D.toNat = (i - D.toNat) + 1 := by omega
      rw [e3, List.replicate_succ, List.cons_append, grouped, digitText_zero]
      have hl : (List.replicate (i - D.toNat) 0 ++ T.take D.toNat).length = i := by
        simp; omega
      rw [hl, group_eq sy info group hg]

theorem fracPart_nil (sy : Symbols) (info : Info) (D : Int) (n i : Nat) :
    fracPart sy info D n i [] = List.replicate (min n (info.minFrac - i)) sy.zero := by
  induction n generalizing i with
  | zero => simp [fracPart]
  | succ n ih =>
    rw [fracPart]
    by_cases hi : i ≥ info.minFrac
    · have e : info.minFrac - i = 0 := by omega
      simp [hi, e]
    · have e : min (n + 1) (info.minFrac - i) = min n (info.minFrac - (i + 1)) + 1 := by omega
      rw [if_neg (fun h => hi h.1), e, List.replicate_succ, ih]
      split <;> rfl

theorem fracPart_eq (sy : Symbols) (info : Info) (D : Int) (n i Z : Nat) (T : List Nat) (hT : T ≠ [])
    (hZ : Z = (-D - i).toNat) (h : Z + T.length ≤ n) :
    fracPart sy info D n i (ints T) =
      (List.replicate Z 0 ++ T ++
        List.replicate (min (n - Z - T.length) (info.minFrac - i - Z - T.length)) 0).map (digitText sy) := by
  induction n generalizing i Z T with
  | zero =>
    have := List.length_pos_iff.mpr hT
    omega
  | succ n ih =>
    rw [fracPart.eq_def]
    dsimp only
    have hne : ints T ≠ [] := by simpa [ints] using hT
    rw [if_neg (fun h => hne h.2)]
    by_cases hc : -1 - (i : Int) > D - 1
    · rw [if_pos hc]
      obtain ⟨z, hz⟩ : ∃ z, Z = z + 1 := ⟨Z - 1, by omega⟩
      rw [ih (i + 1) z T hT (by omega) (by omega), hz, List.replicate_succ]
      simp only [List.cons_append, List.map_cons, digitText_zero]
      have e1 : min (n - z - T.length) (info.minFrac - (i + 1) - z - T.length) =
          min (n + 1 - (z + 1) - T.length) (info.minFrac - i - (z + 1) - T.length) := by omega
      rw [e1]
    · rw [if_neg hc]
      have hz : Z = 0 := by omega
      cases T with
      | nil => exact absurd rfl hT
      | cons d T =>
        simp only [ints, List.map_cons]
        have e : Int.ofNat d = (d : Int) := rfl
        rw [e, dig_eq, hz]
        simp only [List.replicate_zero, List.nil_append, List.cons_append, List.map_cons,
          List.length_cons]
        congr 1
        by_cases hT' : T = []
        · subst hT'
          rw [List.map_nil, fracPart_nil]
          simp [digitText_zero]
          omega
        · have := ih (i + 1) 0 T hT' (by omega) (by simp at h; omega)
          simp only [ints] at this
          rw [this]
          simp
          congr 1
          omega

/-- The printed number and what `parse_number` makes of it. -/
theorem parseNumber_eq (q : Rat) (m k d : Nat) (hq : 0 ≤ q) (hd : d < 10)
    (hN : roundHalfEven (q * (10 : Rat) ^ (m + 1)) = 10 * k + d)
    (h : 5 ≤ d → ∀ j, k + 1 ≠ 10 ^ j) :
    parseNumber (.fin q) m =
      (ints ((dg (rounded k d)).take
          (trim (ints (dg (rounded k d))) ((dg (rounded k d)).length - m) (dg (rounded k d)).length)),
        ((dg (rounded k d)).length : Int) - m, decide (10 * k + d = 0)) := by
  have hneg : ¬ q < 0 := Rat.not_lt.mpr hq
  rw [parseNumber.eq_def]
  dsimp only [printF]
  rw [Rat.abs_of_nonneg hq, hN, if_neg hneg, List.nil_append, scan_printed _ _ (by omega)]
  dsimp only
  rw [roundLast_dg k d hd h]
  dsimp only
  have hD : (if 10 * k + d = 0 then 1 - ((m + 1 : Nat) : Int)
      else ((dg (10 * k + d)).length : Int) - ((m + 1 : Nat) : Int)) =
      ((dg (rounded k d)).length : Int) - m := by
    rw [rounded_length k d h]
    by_cases h0 : 10 * k + d = 0
    · have hk : k = 0 := by omega
      rw [if_pos h0, hk, dg_zero]; simp; omega
    · rw [if_neg h0, dg_cons k d hd h0]; simp; omega
  rw [hD]
  simp [ints, List.map_take]

theorem getElem?_ints (l : List Nat) (j : Nat) : (ints l)[j]? = some 0 ↔ l[j]? = some 0 := by
  simp only [ints, List.getElem?_map]
  cases l[j]? with
  | none => simp
  | some x =>
    simp only [Option.map_some, Option.some.injEq]
    constructor
    · intro h
      have : ((x : Nat) : Int) = 0 := h
      omega
    · intro h; subst h; rfl

/-- The fields of the record that the layout uses, as the picture has them. -/
structure Fits (p : Picture) (info : Info) : Prop where
  minInt : info.minInt = p.minInt
  minFrac : info.minFrac = p.minFrac
  maxFrac : info.maxFrac = p.maxFrac
  showPoint : info.showPoint = p.alwaysPoint
  grouping : Grouping info (groupOf p.int)
  le : p.minFrac ≤ p.maxFrac

theorem drop_zeros (L : List Nat) (c : Nat) (h : ∀ j, c ≤ j → j < L.length → L[j]? = some 0) :
    L.drop c = List.replicate (L.length - c) 0 := by
  apply List.ext_getElem?
  intro j
  rw [List.getElem?_drop, List.getElem?_replicate]
  by_cases hj : c + j < L.length
  · rw [h (c + j) (by omega) hj, if_pos (by omega)]
  · rw [List.getElem?_eq_none (by omega), if_neg (by omega)]

set_option maxHeartbeats 1000000 in
/-- The digits that are written: those of the integer part and those of the fraction. -/
theorem layout_eq (sy : Symbols) (p : Picture) (info : Info) (hf : Fits p info) (v c : Nat) (D : Int)
    (hD : D = (dg v).length - (p.maxFrac : Int))
    (hc : c = trim (ints (dg v)) D (dg v).length) :
    ∃ ip fp : List Nat,
      layout sy info (ints ((dg v).take c)) D (intCount info D) =
        grouped sy (groupOf p.int) ip ++
          (if p.alwaysPoint ∨ fp ≠ [] then [sy.decimal] else []) ++ fp.map (digitText sy) ∧
      (∀ d ∈ ip, d < 10) ∧ (∀ d ∈ fp, d < 10) ∧
      value ip * 10 ^ p.maxFrac + value fp * 10 ^ (p.maxFrac - fp.length) = v ∧
      p.minFrac ≤ fp.length ∧ fp.length ≤ p.maxFrac ∧
      (p.minFrac < fp.length → fp.getLast? = some 0 →
        fp = [0] ∧ v % 10 ^ p.maxFrac = 0 ∧ v / 10 ^ p.maxFrac ≠ 0) ∧
      p.minInt ≤ ip.length ∧
      (p.minInt < ip.length → ip.head? ≠ some 0 ∨ (ip = [0] ∧ fp = [])) ∧
      (ip ≠ [] ∨ fp ≠ []) ∧ (ip.length ≤ 1 ∨ ip.length ≤ p.minInt ∨ (ip.length : Int) = D) ∧
      (fp = [] → p.maxFrac = 0 ∨ D ≤ 0) := by
  have hLlt := dg_lt v
  have hLhead := dg_head v
  have hLval := value_dg v
  have hv0 : v ≠ 0 → dg v ≠ [] := dg_ne_nil
  generalize hL : dg v = L at *
  have hc1 : c ≤ L.length := by rw [hc]; exact trim_le _ _ _
  have hzero : ∀ j, c ≤ j → j < L.length → L[j]? = some 0 := by
    intro j h1 h2
    have := trim_zero (ints L) D L.length j (by omega) h2
    exact (getElem?_ints L j).mp this
  have hkeep : D < (c : Int) ∨ c = L.length ∨ D < 0 := by
    rw [hc]; exact trim_keep _ _ _
  have hlast : (c : Int) ≤ D + 1 ∨ c = 0 ∨ L[c - 1]? ≠ some 0 := by
    have := trim_last (ints L) D L.length
    rw [← hc] at this
    rcases this with h | h | h
    · exact .inl h
    · exact .inr (.inl h)
    · exact .inr (.inr (fun h' => h ((getElem?_ints L _).mpr h')))
  have hcD : D.toNat ≤ c := by omega
  have hDL : D.toNat ≤ L.length := by omega
  have hm := hf.minFrac
  have hM := hf.maxFrac
  have hle := hf.le
  -- the number of integer digits
  have hcount : intCount info D = max p.minInt D.toNat := by
    rw [intCount, hf.minInt]
    split <;> omega
  have hi := intPart_eq sy info (groupOf p.int) hf.grouping D (max p.minInt D.toNat) (L.take c)
    (by omega) (by simp; omega)
  have etake : (L.take c).take D.toNat = L.take D.toNat := by
    rw [List.take_take, Nat.min_eq_left hcD]
  have hdc := drop_zeros L c hzero
  -- the value
  have hval : value (L.take D.toNat) * 10 ^ (L.length - D.toNat) + value (L.drop D.toNat) = v := by
    have := value_append (L.take D.toNat) (L.drop D.toNat)
    rw [List.take_append_drop, hLval] at this
    rw [this]; simp
  have hval0 : D < 0 → value (L.take D.toNat) = 0 := by
    intro h
    have : D.toNat = 0 := by omega
    rw [this]; rfl
  have hvalI : value (L.take D.toNat) * 10 ^ p.maxFrac + value (L.drop D.toNat) = v := by
    by_cases h : D < 0
    · rw [hval0 h] at hval ⊢; simpa using hval
    · have : L.length - D.toNat = p.maxFrac := by omega
      rw [this] at hval; exact hval
  generalize hU : (L.take c).drop D.toNat = U at *
  have hUlen : U.length = c - D.toNat := by rw [← hU]; simp; omega
  have hdropeq : L.drop D.toNat = U ++ List.replicate (L.length - c) 0 := by
    rw [← hU, ← hdc, List.drop_take]
    have : L.drop c = (L.drop D.toNat).drop (c - D.toNat) := by
      rw [List.drop_drop]; congr 1; omega
    rw [this, List.take_append_drop]
  have hUlt : ∀ d ∈ U, d < 10 := by
    intro d hd
    rw [← hU] at hd
    exact hLlt d (List.mem_of_mem_take (List.mem_of_mem_drop hd))
  have hIlt : ∀ d ∈ List.replicate (max p.minInt D.toNat - D.toNat) 0 ++ L.take D.toNat, d < 10 := by
    intro d hd
    rcases List.mem_append.mp hd with h | h
    · have := List.eq_of_mem_replicate h; omega
    · exact hLlt d (List.mem_of_mem_take h)
  have hIval : value (List.replicate (max p.minInt D.toNat - D.toNat) 0 ++ L.take D.toNat) =
      value (L.take D.toNat) := by
    rw [value_append, value_zeros]; simp
  have hIlen : (List.replicate (max p.minInt D.toNat - D.toNat) 0 ++ L.take D.toNat).length =
      max p.minInt D.toNat := by simp; omega
  have hIhead : p.minInt < max p.minInt D.toNat →
      (List.replicate (max p.minInt D.toNat - D.toNat) 0 ++ L.take D.toNat).head? ≠ some 0 := by
    intro h
    have e : max p.minInt D.toNat - D.toNat = 0 := by omega
    rw [e]
    cases hl : L with
    | nil => simp
    | cons a l =>
      rw [hl] at hLhead
      obtain ⟨z, hz⟩ : ∃ z, D.toNat = z + 1 := ⟨D.toNat - 1, by omega⟩
      rw [hz]
      simpa using hLhead
  generalize hX : List.replicate (max p.minInt D.toNat - D.toNat) 0 ++ L.take D.toNat = X at *
  rw [layout, hcount, hi, etake, hX]
  dsimp only
  by_cases hUe : U = []
  · -- no digit is left for the fraction
    subst hUe
    have hfin : p.maxFrac = 0 ∨ D ≤ 0 := by
      simp only [List.length_nil] at hUlen
      omega
    have hdv : value (L.drop D.toNat) = 0 := by
      rw [hdropeq]; simp [value_zeros]
    have hfp : fracPart sy info D info.maxFrac 0 (ints []) =
        (List.replicate p.minFrac 0).map (digitText sy) := by
      rw [show ints [] = [] from rfl, fracPart_nil, List.map_replicate, digitText_zero, hm, hM]
      congr 1; omega
    rw [hfp]
    have hvx : value X * 10 ^ p.maxFrac = v := by
      rw [hIval]; omega
    by_cases hmf : p.minFrac = 0
    · by_cases hXe : X = []
      · -- nothing at all: a zero
        subst hXe
        refine ⟨[0], [], ?_, by simp, by simp, ?_, by simp [hmf], by simp, by simp, ?_, ?_, by simp, by simp,
          fun _ => hfin⟩
        · simp [hm, hmf, grouped, separator, digitText_zero, hf.showPoint, ints]
          cases groupOf p.int <;> simp
        · simp [value] at hvx ⊢; exact hvx
        · simp at hIlen; simp; omega
        · intro _; simp
      · refine ⟨X, [], ?_, hIlt, by simp, ?_, by simp [hmf], by simp, by simp, by omega, ?_, .inl hXe, by omega,
          fun _ => hfin⟩
        · have hg : grouped sy (groupOf p.int) X ≠ [] := by
            cases X with
            | nil => exact absurd rfl hXe
            | cons a l => simp [grouped]
          simp [hm, hmf, hg, hf.showPoint, ints]
        · simp [value]; exact hvx
        · intro h; exact .inl (hIhead (by omega))
    · have hne : List.replicate p.minFrac 0 ≠ [] := by
        intro h
        have := congrArg List.length h
        simp at this; exact hmf this
      refine ⟨X, List.replicate p.minFrac 0, ?_, hIlt, ?_, ?_, by simp, by simpa using hle, by simp,
        by omega, ?_, .inr hne, by omega, fun _ => hfin⟩
      · have hpos : p.minFrac > 0 := by omega
        simp [hm, hpos, hmf]
      · intro d hd; have := List.eq_of_mem_replicate hd; omega
      · rw [value_zeros]; simpa using hvx
      · intro h; exact .inl (hIhead (by omega))
  · -- digits of the fraction
    have hUpos := List.length_pos_iff.mpr hUe
    have hZlen : (-D - (0 : Nat)).toNat + U.length ≤ info.maxFrac := by
      rw [hM, hUlen]; omega
    have hfr := fracPart_eq sy info D info.maxFrac 0 ((-D - (0 : Nat)).toNat) U hUe rfl hZlen
    rw [hfr]
    have hne : ints U ≠ [] := by simpa [ints] using hUe
    have hE : (ints U).isEmpty = false := by
      cases h : ints U with
      | nil => exact absurd h hne
      | cons => rfl
    generalize hZ : (-D - ((0 : Nat) : Int)).toNat = Z at *
    generalize hW : min (info.maxFrac - Z - U.length) (info.minFrac - 0 - Z - U.length) = W at *
    have hWle : Z + U.length + W ≤ p.maxFrac := by omega
    have hfpne : List.replicate Z 0 ++ U ++ List.replicate W 0 ≠ [] := by simp [hUe]
    refine ⟨X, List.replicate Z 0 ++ U ++ List.replicate W 0, ?_, hIlt, ?_, ?_, ?_, ?_, ?_, by omega, ?_,
      .inr hfpne, by omega, fun h => absurd h hfpne⟩
    · simp [hE, hUe]
    · intro d hd
      rcases List.mem_append.mp hd with h | h
      · rcases List.mem_append.mp h with h | h
        · have := List.eq_of_mem_replicate h; omega
        · exact hUlt d h
      · have := List.eq_of_mem_replicate h; omega
    · -- the value
      have e : L.length - c = W + (p.maxFrac - (Z + U.length + W)) ∨ L.length - c ≤ p.maxFrac := by omega
      have hlen : (List.replicate Z 0 ++ U ++ List.replicate W 0).length = Z + U.length + W := by
        simp [Nat.add_assoc]
      rw [hlen, hIval]
      have hfv : value (List.replicate Z 0 ++ U ++ List.replicate W 0) = value U * 10 ^ W := by
        rw [value_append, value_append, value_zeros, value_zeros]; simp
      rw [hfv, Nat.mul_assoc, ← Nat.pow_add]
      have hsum : W + (p.maxFrac - (Z + U.length + W)) = L.length - c := by omega
      rw [hsum]
      have : value (L.drop D.toNat) = value U * 10 ^ (L.length - c) := by
        rw [hdropeq, value_append, value_zeros]; simp
      rw [← this]; exact hvalI
    · simp; omega
    · simp; omega
    · intro h1 h2
      have hlen : (List.replicate Z 0 ++ U ++ List.replicate W 0).length = Z + U.length + W := by
        simp [Nat.add_assoc]
      rw [hlen] at h1
      have hW0 : W = 0 := by omega
      rw [hW0] at h2 ⊢
      simp only [List.replicate_zero, List.append_nil] at h2 ⊢
      have hUl : U.getLast? = some 0 := by
        rw [List.getLast?_append] at h2
        cases hx : U.getLast? with
        | none => rw [List.getLast?_eq_none_iff] at hx; exact absurd hx hUe
        | some x => rw [hx] at h2; simpa using h2
      have hUc : L[c - 1]? = some 0 := by
        rw [List.getLast?_eq_getElem?, hUlen, ← hU, List.getElem?_drop,
          List.getElem?_take_of_lt (by omega)] at hUl
        rw [← hUl]; congr 1; omega
      rcases hlast with h | h | h
      · have hD0 : 0 ≤ D := by omega
        have hU1 : U.length = 1 := by omega
        have hZ0 : Z = 0 := by omega
        obtain ⟨u, hu⟩ := List.length_eq_one_iff.mp hU1
        rw [hu] at hUl
        have hu0 : u = 0 := by simpa using hUl
        have hDpos : D ≠ 0 := by
          intro h0
          have hc1 : c - 1 = 0 := by omega
          rw [hc1, ← List.head?_eq_getElem?] at hUc
          exact hLhead hUc
        have hdv : value (L.drop D.toNat) = 0 := by
          rw [hdropeq, hu, hu0, value_append, value_zeros]; simp [value]
        have hv : v = value (L.take D.toNat) * 10 ^ p.maxFrac := by omega
        refine ⟨by simp [hZ0, hu, hu0], ?_, ?_⟩
        · rw [hv]; simp
        · rw [hv, Nat.mul_div_cancel _ (Nat.pow_pos (by decide))]
          intro h0
          rw [h0] at hv
          have : v = 0 := by simpa using hv
          rw [this, dg_zero] at hL
          rw [← hL] at hD
          simp at hD
          omega
      · omega
      · exact absurd hUc h
    · intro h; exact .inl (hIhead (by omega))

theorem grouped_length (sy : Symbols) (g : Option Nat) (l : List Nat) :
    (grouped sy g l).length ≤ 2 * l.length := by
  induction l with
  | nil => simp [grouped]
  | cons d l ih =>
    have h : (separator sy g l.length).length ≤ 1 := by
      rw [separator.eq_def]
      split
      · split <;> simp
      · simp
    simp only [grouped, List.length_cons, List.length_append]
    omega

end Verif.Decimal
