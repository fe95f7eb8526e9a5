import Verif.Xslt.DecimalParse

/-
C70: what `format-number()` returns.
-/
namespace Verif.Decimal
open Verif Verif.XPath Spec

theorem subpattern_positive (sy : Symbols) (hd : Distinct sy) (p : Picture) (hp : p.WF sy) (B : Str)
    (o : Option Str) (hB : B = p.text sy ++ sepTail sy o) :
    ∃ st, subpattern sy true B 0 B = .ok (st, o) ∧ st.buf = B ∧
      (∀ pos neg, Fits p (record st pos neg)) ∧
      st.prefixEnd = some p.pre.length ∧ st.multiplier = p.factor sy ∧
      slice B st.suffix st.suffixEnd = p.suf ∧ (o ≠ none → st.pos = (p.text sy).length + 1) := by
  obtain ⟨st, k1, k2, k3, k4, k5, k6, k7, k8, k9, k10, k11, k12⟩ := loop_positive sy hd p hp B o hB
  have hf := fun pos neg => record_fits sy p hp st k3 k4 k5 k6 k7 k9 pos neg
  have hm := (hf ⟨none, []⟩ none).1
  have hadj : (adjust st).prefixEnd = st.prefixEnd ∧ (adjust st).multiplier = st.multiplier ∧
      (adjust st).suffix = st.suffix ∧ (adjust st).suffixEnd = st.suffixEnd := by
    rw [adjust.eq_def]; split
    · split <;> exact ⟨rfl, rfl, rfl, rfl⟩
    · exact ⟨rfl, rfl, rfl, rfl⟩
  refine ⟨adjust st, ?_, ?_, fun pos neg => (hf pos neg).2, ?_, ?_, ?_, ?_⟩
  · rw [subpattern, k1]; dsimp only; rw [hm, if_neg (by decide)]
  · rw [(adjust_buf st).1]; exact k2
  · rw [hadj.1]; exact k8
  · rw [hadj.2.1]; exact k10
  · rw [hadj.2.2.1, hadj.2.2.2]; exact k11
  · rw [(adjust_buf st).2]; exact k12

theorem subpattern_negative (sy : Symbols) (hd : Distinct sy) (p : Picture) (hp : p.WF sy) (B : Str)
    (P : Nat) (hB : B.drop P = p.text sy) :
    ∃ st, subpattern sy false B P (p.text sy) = .ok (st, none) ∧ st.buf = B ∧
      st.prefixEnd = some (P + p.pre.length) ∧ slice B st.suffix st.suffixEnd = p.suf := by
  obtain ⟨st, k1, k2, k3, k4, k5, k6, k7, k8⟩ := loop_negative sy hd p hp B P hB
  have hm : malformed (adjust st) = false := by
    rw [adjust_none st k5, malformed, k5, k4, k7, k3]; rfl
  refine ⟨st, ?_, k2, k6, k8⟩
  rw [subpattern, k1]; dsimp only; rw [hm, if_neg (by decide), adjust_none st k5]

/-- What the parser records for a pattern of the grammar. -/
theorem parsePattern_eq (sy : Symbols) (hd : Distinct sy) (p : Picture) (hp : p.WF sy)
    (neg : Option Picture) (hn : ∀ n, neg = some n → n.WF sy) :
    ∃ info, parsePattern sy (patternText sy p neg) = .ok (info, patternText sy p neg) ∧ Fits p info ∧
      info.positive = ⟨some p.pre, p.suf⟩ ∧
      info.negative = neg.map (fun n => ⟨some n.pre, n.suf⟩) ∧ info.multiplier = p.factor sy := by
  have hpre : ∀ r, slice (p.text sy ++ r) 0 p.pre.length = p.pre := by
    intro r; rw [text_eq]; simp [slice]
  cases neg with
  | none =>
    have hB : patternText sy p none = p.text sy ++ sepTail sy none := by simp [patternText, sepTail]
    generalize hb : patternText sy p none = B at *
    obtain ⟨st, k1, k2, k3, k4, k5, k6, _⟩ := subpattern_positive sy hd p hp B none hB
    refine ⟨record st (parts st.buf 0 st) none, ?_, k3 _ _, ?_, rfl, k5⟩
    · rw [parsePattern.eq_def, k1]
      dsimp only
      rw [k2]
    · show parts st.buf 0 st = _
      rw [parts, k2, k4, k6, hB, Option.map_some, hpre]
  | some n =>
    have hB : patternText sy p (some n) = p.text sy ++ sepTail sy (some (n.text sy)) := rfl
    generalize hb : patternText sy p (some n) = B at *
    obtain ⟨st, k1, k2, k3, k4, k5, k6, k7⟩ :=
      subpattern_positive sy hd p hp B (some (n.text sy)) hB
    have hpos := k7 (by simp)
    have hdrop : B.drop st.pos = n.text sy := by
      rw [hpos, hB, sepTail, ← List.drop_drop, List.drop_left]; rfl
    obtain ⟨st2, j1, j2, j3, j4⟩ := subpattern_negative sy hd n (hn n rfl) B st.pos hdrop
    refine ⟨record st (parts st2.buf 0 st) (some (parts st2.buf st.pos st2)), ?_, k3 _ _, ?_, ?_, k5⟩
    · rw [parsePattern.eq_def, k1]
      dsimp only
      rw [k2, j1]
      dsimp only
      rw [j2]
    · show parts st2.buf 0 st = _
      rw [parts, j2, k4, k6, hB, Option.map_some, hpre]
    · show some (parts st2.buf st.pos st2) = _
      rw [parts, j2, j3, j4, Option.map_some, Option.map_some]
      have : slice B st.pos (st.pos + n.pre.length) = n.pre := by
        rw [slice, hdrop, text_eq]; simp
      rw [this]

/-! ### The number -/

theorem abs_lt_iff (a b : Rat) : a.abs < b ↔ -b < a ∧ a < b := by
  rcases Rat.le_total (a := 0) (b := a) with h | h
  · rw [Rat.abs_of_nonneg h]; constructor
    · intro h'; exact ⟨by grind, h'⟩
    · exact fun h' => h'.2
  · rw [Rat.abs_of_nonpos h]; constructor
    · intro h'; exact ⟨by grind, by grind⟩
    · intro h'; grind

/-- The printed number is the integer that is closer than one half. -/
theorem roundHalfEven_eq (x : Rat) (h : 0 ≤ x) (n : Nat) (hn : (x - (n : Rat)).abs < 1 / 2) :
    roundHalfEven x = n := by
  obtain ⟨h1, _, _⟩ := roundHalfEven_spec x h
  generalize roundHalfEven x = r at *
  have hle : ∀ a b : Rat, a.abs ≤ b → -b ≤ a ∧ a ≤ b := by
    intro a b hab
    rcases Rat.le_total (a := 0) (b := a) with h | h
    · rw [Rat.abs_of_nonneg h] at hab; exact ⟨by grind, hab⟩
    · rw [Rat.abs_of_nonpos h] at hab; exact ⟨by grind, by grind⟩
  obtain ⟨a1, a2⟩ := hle _ _ h1
  obtain ⟨b1, b2⟩ := (abs_lt_iff _ _).mp hn
  have c1 : (r : Rat) < (n : Rat) + 1 := by grind
  have c2 : (n : Rat) < (r : Rat) + 1 := by grind
  have d1 : r < n + 1 := by
    have : ((r : Nat) : Rat) < ((n + 1 : Nat) : Rat) := by simpa using c1
    exact Rat.natCast_lt_natCast.mp this
  have d2 : n < r + 1 := by
    have : ((n : Nat) : Rat) < ((r + 1 : Nat) : Rat) := by simpa using c2
    exact Rat.natCast_lt_natCast.mp this
  omega

/-- `x`, written with one digit more than the `m` fraction digits, is `(10 * k + d) / 10^(m+1)`, and
not a tie; it has at most 309 integer digits. -/
structure Printed (x : Rat) (m k d : Nat) : Prop where
  nonneg : 0 ≤ x
  digit : d < 10
  close : (x * (10 : Rat) ^ (m + 1) - ((10 * k + d : Nat) : Rat)).abs < 1 / 2
  size : k < 10 ^ (309 + m)

/-- Rounding up does not produce one more digit. -/
def NoCarry (k d : Nat) : Prop := 5 ≤ d → ∀ j, k + 1 ≠ 10 ^ j

theorem printF_length (x : Rat) (m k d : Nat) (h : Printed x m k d) (hm : m ≤ 28) :
    (printF (m + 1) (.fin x)).length < bufSize := by
  have hneg : ¬ x < 0 := Rat.not_lt.mpr h.nonneg
  have hx : (0 : Rat) ≤ x * (10 : Rat) ^ (m + 1) :=
    Rat.mul_nonneg h.nonneg (Rat.le_of_lt (Rat.pow_pos (by decide +kernel)))
  rw [printF.eq_def]
  dsimp only
  rw [Rat.abs_of_nonneg h.nonneg, roundHalfEven_eq _ hx _ h.close, if_neg hneg]
  simp only [List.nil_append, List.length_append, List.length_cons, List.length_map, lastDigits_length]
  have hd : (10 * k + d) / 10 ^ (m + 1) < 10 ^ 309 := by
    apply Nat.div_lt_of_lt_mul
    rw [← Nat.pow_add]
    have e : m + 1 + 309 = (309 + m) + 1 := by omega
    rw [e, Nat.pow_succ]
    have := h.size
    have := h.digit
    omega
  have hl : (decimal ((10 * k + d) / 10 ^ (m + 1))).length ≤ 309 := by
    rw [decimal_dg]
    split
    · simp
    · rw [List.length_map]; exact dg_pow _ _ hd
  rw [bufSize]; omega

theorem value_lt (l : List Nat) (h : ∀ d ∈ l, d < 10) : value l < 10 ^ l.length := by
  induction l with
  | nil => decide
  | cons a l ih =>
    have h1 := ih (fun d hd => h d (.tail _ hd))
    have h2 := h a (.head _)
    rw [value, List.length_cons, Nat.pow_succ]
    have h3 : a * 10 ^ l.length ≤ 9 * 10 ^ l.length := Nat.mul_le_mul_right _ (by omega)
    omega

/-- The last digit of a zero. -/
theorem getLast_zero (l : List Nat) (h : value l = 0) (hn : l ≠ []) : l.getLast? = some 0 := by
  have e := List.dropLast_concat_getLast hn
  rw [← e, value_append] at h
  rw [List.getLast?_eq_some_getLast hn]
  simp [value] at h
  rw [h.2]

/-- The digits, whatever the last of them is. -/
theorem formatNumber_eq (sy : Symbols) (p : Picture) (info : Info) (hf : Fits p info) (x : Rat)
    (k d : Nat) (h : Printed x p.maxFrac k d) (hc : NoCarry k d) (hs1 : p.maxFrac ≤ 28)
    (hs2 : p.minInt ≤ 309) :
    ∃ (ip fp : List Nat) (t : Str),
      formatNumber sy info (.fin x) = some (t, decide (10 * k + d = 0)) ∧
      t = grouped sy (groupOf p.int) ip ++
        (if p.alwaysPoint ∨ fp ≠ [] then [sy.decimal] else []) ++ fp.map (digitText sy) ∧
      (∀ d ∈ ip, d < 10) ∧ (∀ d ∈ fp, d < 10) ∧
      value ip * 10 ^ p.maxFrac + value fp * 10 ^ (p.maxFrac - fp.length) = rounded k d ∧
      p.minFrac ≤ fp.length ∧ fp.length ≤ p.maxFrac ∧
      (p.minFrac < fp.length → fp.getLast? = some 0 →
        fp = [0] ∧ rounded k d % 10 ^ p.maxFrac = 0 ∧ rounded k d / 10 ^ p.maxFrac ≠ 0) ∧
      p.minInt ≤ ip.length ∧
      (p.minInt < ip.length → ip.head? ≠ some 0 ∨ (ip = [0] ∧ fp = [])) ∧
      (ip ≠ [] ∨ fp ≠ []) ∧
      (fp = [] → p.maxFrac = 0 ∨ rounded k d / 10 ^ p.maxFrac = 0) := by
  have hx : (0 : Rat) ≤ x * (10 : Rat) ^ (p.maxFrac + 1) :=
    Rat.mul_nonneg h.nonneg (Rat.le_of_lt (Rat.pow_pos (by decide +kernel)))
  have hpn := parseNumber_eq x p.maxFrac k d h.nonneg h.digit (roundHalfEven_eq _ hx _ h.close) hc
  have hlen := printF_length x p.maxFrac k d h hs1
  obtain ⟨ip, fp, h1, h2, h3, h4, h5, h6, h7, h8, h9, h10, h11, h12⟩ := layout_eq sy p info hf (rounded k d) _ _ rfl rfl
  -- the number of integer digits
  have hDle : ((dg (rounded k d)).length : Int) - (p.maxFrac : Int) ≤ 309 := by
    rw [rounded_length k d hc]
    have := dg_pow k _ h.size
    omega
  have hcount : ¬ intCount info ((dg (rounded k d)).length - (p.maxFrac : Int)) > maxInt := by
    rw [intCount, hf.minInt, maxInt]
    split <;> omega
  have h13 : fp = [] → p.maxFrac = 0 ∨ rounded k d / 10 ^ p.maxFrac = 0 := by
    intro he
    rcases h12 he with g | g
    · exact .inl g
    · right
      apply Nat.div_eq_of_lt
      have a1 := value_lt (dg (rounded k d)) (dg_lt _)
      rw [value_dg] at a1
      exact Nat.lt_of_lt_of_le a1 (Nat.pow_le_pow_right (by decide) (by omega))
  refine ⟨ip, fp, _, ?_, rfl, h2, h3, h4, h5, h6, h7, h8, h9, h10, h13⟩
  rw [formatNumber.eq_def]
  dsimp only
  rw [hf.maxFrac, hpn]
  dsimp only
  rw [if_neg hcount, h1, if_neg]
  rintro (g | g | g)
  · omega
  · have a1 := grouped_length sy (groupOf p.int) ip
    have a2 : (if p.alwaysPoint = true ∨ fp ≠ [] then [sy.decimal] else []).length ≤ 1 := by
      split <;> simp
    have a3 : ip.length ≤ 309 := by
      rcases h11 with h | h | h <;> omega
    simp only [List.length_append, List.length_map] at g
    rw [bufSize] at g
    omega
  · exact hcount g.1

/-- How close the rounded number is. -/
theorem rounded_close (x : Rat) (m k d : Nat) (h : Printed x m k d) :
    (x * (10 : Rat) ^ m - ((rounded k d : Nat) : Rat)).abs < 11 / 20 ∧
      (d ≠ 5 → Closest x m (rounded k d)) := by
  obtain ⟨a1, a2⟩ := (abs_lt_iff _ _).mp h.close
  have hd := h.digit
  rw [Rat.pow_succ, ← Rat.mul_assoc] at a1 a2
  rw [Closest]
  generalize x * (10 : Rat) ^ m = y at *
  have e : ((10 * k + d : Nat) : Rat) = 10 * (k : Rat) + (d : Rat) := by simp
  rw [e] at a1 a2
  have hd0 : (0 : Rat) ≤ (d : Rat) := Rat.natCast_nonneg
  have cast : ∀ a b : Nat, a ≤ b → (a : Rat) ≤ (b : Rat) := fun a b h => Rat.natCast_le_natCast.mpr h
  rw [abs_lt_iff, abs_lt_iff, rounded]
  by_cases h5 : d < 5
  · rw [if_pos h5]
    have h4 : (d : Rat) ≤ 4 := cast d 4 (by omega)
    exact ⟨⟨by grind, by grind⟩, fun _ => ⟨by grind, by grind⟩⟩
  · rw [if_neg h5]
    have h5' : (5 : Rat) ≤ (d : Rat) := cast 5 d (by omega)
    have h9 : (d : Rat) ≤ 9 := cast d 9 (by omega)
    have e1 : ((k + 1 : Nat) : Rat) = (k : Rat) + 1 := by simp
    rw [e1]
    refine ⟨⟨by grind, by grind⟩, fun hne => ?_⟩
    have h6 : (6 : Rat) ≤ (d : Rat) := cast 6 d (by omega)
    exact ⟨by grind, by grind⟩

/-! ### C70 -/

/-- The affixes of a result. -/
def affixes (sy : Symbols) (p : Picture) (neg : Option Picture) (q : Rat) : Str × Str :=
  if q < 0 then negative sy p neg else (p.pre, p.suf)

/-- A negative number has the affixes of a second subpattern with affixes, or the pattern is a single
subpattern without affixes. -/
def GoodSign (p : Picture) (neg : Option Picture) (q : Rat) : Prop :=
  q < 0 → match neg with
    | some n => n.pre ≠ [] ∨ n.suf ≠ []
    | none => p.pre = [] ∧ p.suf = []

/-- `x` is the number that is written: without its sign, and times 100 or 1000 for a percent or
per-mille sign. -/
def Scaled (R : Rounding) (f : Nat) (q x : Rat) : Prop :=
  if f = 1 ∨ q = 0 then x = q.abs else R.rnd (q.abs * (f : Rat)) = .fin x

theorem scale_eq (R : Rounding) (f : Nat) (q x : Rat) (h : Scaled R f q x) :
    scale R f (.fin q.abs) = .fin x := by
  rw [Scaled] at h
  rw [scale.eq_def]
  by_cases hf : f = 1
  · rw [if_pos (.inl hf)] at h
    rw [if_pos hf, h]
  · rw [if_neg hf]
    dsimp only
    by_cases hq : q = 0
    · subst hq
      rw [if_pos (.inr rfl)] at h
      rw [h]; rfl
    · have : ¬ q.abs = 0 := by
        intro h0
        rcases Rat.le_total (a := 0) (b := q) with g | g
        · rw [Rat.abs_of_nonneg g] at h0; exact hq h0
        · rw [Rat.abs_of_nonpos g] at h0; apply hq; grind
      rw [if_neg (by rintro (g | g) <;> contradiction)] at h
      rw [if_neg this, h]

theorem negativeParts_eq (sy : Symbols) (p : Picture) (neg : Option Picture) (q : Rat) (hq : q < 0)
    (hg : GoodSign p neg q) (info : Info) (hpos : info.positive = ⟨some p.pre, p.suf⟩)
    (hneg : info.negative = neg.map (fun n => ⟨some n.pre, n.suf⟩)) (buf : Str) :
    negativeParts sy info buf = ⟨some (negative sy p neg).1, (negative sy p neg).2⟩ := by
  have hg := hg hq
  cases neg with
  | none =>
    obtain ⟨e1, e2⟩ := hg
    rw [negativeParts, hneg, Option.map_none]
    dsimp only
    rw [negativeParts.implied, hpos, e1]
    simp [negative, e1, e2]
  | some n =>
    rw [negativeParts, hneg, Option.map_some]
    dsimp only
    rw [if_neg]
    · rfl
    · rintro ⟨g1, g2⟩
      rcases hg with g | g
      · exact g (by simpa using g1)
      · exact g g2

theorem patternText_ne (sy : Symbols) (p : Picture) (hp : p.WF sy) (neg : Option Picture) :
    patternText sy p neg ≠ [] := by
  have h : p.text sy ≠ [] := by
    rw [text_eq]
    intro h
    exact numberText_ne sy p hp (List.append_eq_nil_iff.mp (List.append_eq_nil_iff.mp h).2).1
  cases neg with
  | none => exact h
  | some n => simp [patternText]

theorem decimalFormat_fin (R : Rounding) (sy : Symbols) (hd : Distinct sy) (p : Picture)
    (hp : p.WF sy) (neg : Option Picture) (hn : ∀ n, neg = some n → n.WF sy) (q x : Rat)
    (hg : GoodSign p neg q) (hx : Scaled R (p.factor sy) q x) :
    ∃ info, Fits p info ∧ ∀ t o, formatNumber sy info (.fin x) = some (t, o) →
      decimalFormat R sy (.fin q) (patternText sy p neg) =
        (.text ((affixes sy p neg q).1 ++ t ++ (affixes sy p neg q).2) o, patternText sy p neg) := by
  obtain ⟨info, k1, k2, k3, k4, k5⟩ := parsePattern_eq sy hd p hp neg hn
  refine ⟨info, k2, fun t o ht => ?_⟩
  rw [decimalFormat, if_neg (by simp), if_neg (patternText_ne sy p hp neg), k1]
  dsimp only
  have hsc := scale_eq R _ q x hx
  by_cases hq : q < 0
  · have e1 : isNegative (.fin q) = true := by simp [isNegative, hq]
    have hq0 : q ≠ 0 := by intro h; subst h; exact absurd hq (by decide +kernel)
    have e2 : negD (.fin q) = .fin q.abs := by
      rw [negD, if_neg hq0, Rat.abs_of_nonpos (Rat.le_of_lt hq)]
    rw [if_pos e1, negativeParts_eq sy p neg q hq hg info k3 k4, e2, assemble.eq_def]
    dsimp only
    rw [k5, hsc, ht, affixes, if_pos hq]
  · have e1 : ¬ isNegative (.fin q) = true := by simpa [isNegative] using hq
    have e2 : Dbl.fin q = .fin q.abs := by rw [Rat.abs_of_nonneg (Rat.not_lt.mp hq)]
    rw [if_neg e1, k3, e2, assemble.eq_def]
    dsimp only
    rw [k5, hsc, ht, affixes, if_neg hq]

/-- **C70.**  For every pattern of the grammar without quotes, `format-number()` of a finite number
writes, between the affixes of the pattern, the number as the picture wants it: with the greatest
number of fraction digits as the precision, the least numbers of digits filled up with zeros, no
other needless zeros, and groups of the given size; and the pattern string stays as it is.  The
number written is off by less than 0.55 units of the last place, and is the closest one unless
the digit behind the last place is a 5.  (*Partial*: it is not for numbers that get one digit more by
rounding, nor for integers in a picture that has only optional fraction digits, nor for negative
numbers in a single subpattern with affixes; see the refutations.  Quotes are left out.) -/
theorem C70_partial (R : Rounding) (sy : Symbols) (hd : Distinct sy) (p : Picture) (hp : p.WF sy)
    (neg : Option Picture) (hn : ∀ n, neg = some n → n.WF sy) (hs1 : p.maxFrac ≤ 28)
    (hs2 : p.minInt ≤ 309) (q x : Rat) (hg : GoodSign p neg q) (hx : Scaled R (p.factor sy) q x)
    (k d v : Nat) (h : Printed x p.maxFrac k d) (hc : NoCarry k d) (hv : v = if d < 5 then k else k + 1)
    (hz : v % 10 ^ p.maxFrac ≠ 0 ∨ v / 10 ^ p.maxFrac = 0 ∨ 0 < p.minFrac ∨
      p.maxFrac = 0) :
    ∃ t, decimalFormat R sy (.fin q) (patternText sy p neg) =
        (.text ((affixes sy p neg q).1 ++ t ++ (affixes sy p neg q).2) (decide (10 * k + d = 0)),
          patternText sy p neg) ∧
      IsFormatted sy p v t ∧
      (x * (10 : Rat) ^ p.maxFrac - (v : Rat)).abs < 11 / 20 ∧
      (d ≠ 5 → Closest x p.maxFrac v) := by
  obtain ⟨info, hf, hdf⟩ := decimalFormat_fin R sy hd p hp neg hn q x hg hx
  obtain ⟨ip, fp, t, e, k0, k1, k2, k3, k4, k5, k6, k7, k8, k9, _⟩ :=
    formatNumber_eq sy p info hf x k d h hc hs1 hs2
  have ev : v = rounded k d := hv
  rw [ev] at hz ⊢
  obtain ⟨c1, c2⟩ := rounded_close x p.maxFrac k d h
  refine ⟨t, hdf t _ e, ⟨ip, fp, k1, k2, k3, k4, k5, ?_, k7, k8, k9, k0⟩, c1, c2⟩
  intro hlt hl
  obtain ⟨f1, f2, f3⟩ := k6 hlt hl
  rcases hz with g | g | g | g
  · exact g f2
  · exact f3 g
  · rw [f1] at hlt; simp at hlt; omega
  · rw [f1, g] at k5; simp at k5

/-- **C70, integers.**  In a picture without a fraction, integers are written as they are. -/
theorem C70_integer (R : Rounding) (sy : Symbols) (hd : Distinct sy) (p : Picture)
    (hp : p.WF sy) (neg : Option Picture) (hn : ∀ n, neg = some n → n.WF sy) (hs : p.maxFrac = 0)
    (hs2 : p.minInt ≤ 309) (n : Nat) (hb : n < 10 ^ 309) (q : Rat) (hg : GoodSign p neg q)
    (hx : Scaled R (p.factor sy) q (n : Rat)) :
    ∃ t, decimalFormat R sy (.fin q) (patternText sy p neg) =
        (.text ((affixes sy p neg q).1 ++ t ++ (affixes sy p neg q).2) (decide (n = 0)),
          patternText sy p neg) ∧ IsFormatted sy p n t := by
  have hP : Printed (n : Rat) p.maxFrac n 0 := by
    refine ⟨Rat.natCast_nonneg, by decide, ?_, by rw [hs]; exact hb⟩
    rw [hs, abs_lt_iff]
    have e : ((10 * n + 0 : Nat) : Rat) = 10 * (n : Rat) := by simp
    rw [e]
    constructor <;> grind
  obtain ⟨t, h1, h2, _⟩ := C70_partial R sy hd p hp neg hn (by omega) hs2 q n hg hx n 0 n hP
    (fun h => absurd h (by decide)) rfl (.inr (.inr (.inr hs)))
  refine ⟨t, ?_, h2⟩
  rw [h1]
  have : decide (10 * n + 0 = 0) = decide (n = 0) := by
    rw [decide_eq_decide]; omega
  rw [this]

/-- **C70, integers with optional fraction digits.**  Where the fraction is zero and none of its
digits is required, one zero is written after all. -/
theorem C70_needless_zero (R : Rounding) (sy : Symbols) (hd : Distinct sy) (p : Picture)
    (hp : p.WF sy) (neg : Option Picture) (hn : ∀ n, neg = some n → n.WF sy) (hs1 : p.maxFrac ≤ 28)
    (hs2 : p.minInt ≤ 309) (q x : Rat) (hg : GoodSign p neg q) (hx : Scaled R (p.factor sy) q x)
    (k d v : Nat) (h : Printed x p.maxFrac k d) (hc : NoCarry k d) (hv : v = if d < 5 then k else k + 1)
    (hz : v % 10 ^ p.maxFrac = 0) (hi : v / 10 ^ p.maxFrac ≠ 0) (hm : p.minFrac = 0)
    (hM : 0 < p.maxFrac) :
    ∃ ip : List Nat, value ip = v / 10 ^ p.maxFrac ∧ (∀ d ∈ ip, d < 10) ∧ p.minInt ≤ ip.length ∧
      (p.minInt < ip.length → ip.head? ≠ some 0) ∧
      decimalFormat R sy (.fin q) (patternText sy p neg) =
        (.text ((affixes sy p neg q).1 ++
            (grouped sy (groupOf p.int) ip ++ [sy.decimal, sy.zero]) ++ (affixes sy p neg q).2) false,
          patternText sy p neg) := by
  obtain ⟨info, hf, hdf⟩ := decimalFormat_fin R sy hd p hp neg hn q x hg hx
  obtain ⟨ip, fp, t, e, k0, k1, k2, k3, k4, k5, k6, k7, k8, k9, k10⟩ :=
    formatNumber_eq sy p info hf x k d h hc hs1 hs2
  have ev : v = rounded k d := hv
  rw [← ev] at k3 k6 k10
  have hne : fp ≠ [] := by
    intro he
    rcases k10 he with g | g
    · omega
    · exact hi g
  have hval : value fp * 10 ^ (p.maxFrac - fp.length) < 10 ^ p.maxFrac := by
    have a1 := value_lt fp k2
    have a2 : 10 ^ p.maxFrac = 10 ^ fp.length * 10 ^ (p.maxFrac - fp.length) := by
      rw [← Nat.pow_add]; congr 1; omega
    rw [a2]
    exact Nat.mul_lt_mul_of_pos_right a1 (Nat.pow_pos (by decide))
  have hz0 : value fp * 10 ^ (p.maxFrac - fp.length) = 0 := by
    rw [← k3, Nat.mul_add_mod_self_right, Nat.mod_eq_of_lt hval] at hz
    exact hz
  have hv0 : value fp = 0 := by
    rcases Nat.mul_eq_zero.mp hz0 with g | g
    · exact g
    · exact absurd g (Nat.ne_of_gt (Nat.pow_pos (by decide)))
  have hl := List.length_pos_iff.mpr hne
  obtain ⟨f1, _, _⟩ := k6 (by omega) (getLast_zero fp hv0 hne)
  refine ⟨ip, ?_, k1, k7, ?_, ?_⟩
  · rw [← k3, hz0, Nat.add_zero, Nat.mul_div_cancel _ (Nat.pow_pos (by decide))]
  · intro hlt
    rcases k8 hlt with g | g
    · exact g
    · exact absurd g.2 hne
  · rw [hdf t _ e, k0, f1]
    have e0 : decide (10 * k + d = 0) = false := by
      rw [decide_eq_false_iff_not]
      intro h0
      have : v = 0 := by rw [hv, if_pos (by omega)]; omega
      rw [this] at hi; simp at hi
    have e1 : digitText sy 0 = sy.zero := digitText_zero sy
    rw [e0]
    simp [e1]

/-- **C70, the pattern.**  A pattern string without quotes is not changed by the call. -/
theorem C70_pattern_kept (R : Rounding) (sy : Symbols) (d : Dbl) (pat : Str) (h : '\'' ∉ pat) :
    (decimalFormat R sy d pat).2 = pat := by
  rw [decimalFormat]
  split
  · rfl
  · split
    · rfl
    · cases hp : parsePattern sy pat with
      | error e => rfl
      | ok v =>
        obtain ⟨info, buf⟩ := v
        have := parsePattern_clean sy pat h info buf hp
        dsimp only
        split <;> exact this

/-- **C70, NaN.** -/
theorem C70_nan (R : Rounding) (sy : Symbols) (pat : Str) :
    decimalFormat R sy .nan pat = (.text sy.nan false, pat) := rfl

/-- **C70, infinities.**  They are written as the symbol between the affixes. -/
theorem C70_infinity (R : Rounding) (sy : Symbols) (hd : Distinct sy) (p : Picture)
    (hp : p.WF sy) (neg : Option Picture) (hn : ∀ n, neg = some n → n.WF sy) :
    decimalFormat R sy .pinf (patternText sy p neg) =
        (.text (p.pre ++ sy.infinity ++ p.suf) false, patternText sy p neg) ∧
    (GoodSign p neg (-1) → decimalFormat R sy .ninf (patternText sy p neg) =
        (.text ((negative sy p neg).1 ++ sy.infinity ++ (negative sy p neg).2) false,
          patternText sy p neg)) := by
  obtain ⟨info, k1, k2, k3, k4, k5⟩ := parsePattern_eq sy hd p hp neg hn
  constructor
  · rw [decimalFormat, if_neg (by simp), if_neg (patternText_ne sy p hp neg), k1]
    dsimp only
    rw [if_neg (by simp [isNegative]), k3]
    rfl
  · intro hg
    rw [decimalFormat, if_neg (by simp), if_neg (patternText_ne sy p hp neg), k1]
    dsimp only
    rw [if_pos (show isNegative .ninf = true from rfl), negativeParts_eq sy p neg (-1) (by decide +kernel) hg info k3 k4]
    rfl

end Verif.Decimal
