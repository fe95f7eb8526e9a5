import Verif.Util.Iso8601Lemmas
import Verif.XPath.FmtLemmas

/-
C42 and C56.
-/
namespace Verif.Util
open Verif Verif.Util.Spec
open Verif.XPath (Rounding Dbl)

/-! Numbers as text -/

theorem digitChar_eq (n : Nat) : XPath.digitChar n = digit n := rfl

theorem decimal_two {n : Nat} (h : n < 100) : Xslt.zeroPad 2 n = two n := by
  unfold Xslt.zeroPad XPath.decimal two
  by_cases h1 : n < 10
  · rw [XPath.decAux, if_pos h1, digitChar_eq]
    have e1 : n / 10 = 0 := by omega
    have e2 : n % 10 = n := by omega
    rw [e1, e2]
    rfl
  · rw [XPath.decAux, if_neg h1]
    obtain ⟨k, rfl⟩ : ∃ k, n = k + 1 := ⟨n - 1, by omega⟩
    rw [XPath.decAux, if_pos (by omega)]
    rfl

theorem padZero_two {n : Int} (h : 0 ≤ n ∧ n < 100) : padZero 2 n = two n.toNat := by
  unfold padZero
  rw [if_neg (by omega)]
  have : n.natAbs = n.toNat := by omega
  rw [this, decimal_two (by omega)]

theorem pad4_four {n : Int} (h : 1000 ≤ n ∧ n ≤ 9999) : pad4 n = four n.toNat := by
  unfold pad4 XPath.decimalInt XPath.decimal
  rw [if_neg (by omega)]
  have : n.natAbs = n.toNat := by omega
  rw [this]
  generalize hk : n.toNat = k
  have hk' : 1000 ≤ k ∧ k ≤ 9999 := by omega
  obtain ⟨j, rfl⟩ : ∃ j, k = j + 3 := ⟨k - 3, by omega⟩
  have : XPath.decAux (j + 3 + 1) (j + 3) = four (j + 3) := by
    rw [XPath.decAux, if_neg (by omega), XPath.decAux, if_neg (by omega), XPath.decAux, if_neg (by omega),
      XPath.decAux, if_pos (by omega)]
    unfold four two
    simp only [digitChar_eq, List.cons_append, List.nil_append]
    have e1 : (j + 3) / 10 / 10 / 10 = (j + 3) / 100 / 10 := by omega
    have e2 : (j + 3) / 10 / 10 % 10 = (j + 3) / 100 % 10 := by omega
    have e3 : (j + 3) / 10 % 10 = (j + 3) % 100 / 10 := by omega
    have e4 : (j + 3) % 10 = (j + 3) % 100 % 10 := by omega
    rw [e1, e2, e3, ← e4]
  rw [this]
  rfl

/-! C42 -/

/-- What `tostring` writes for an offset of whole minutes is a designator of the W3C's note for it. -/
theorem tz_zone {tz : Int} (hm : tz % 60 = 0) (hr : tz.natAbs < 360000) : Zone (tzspecifier tz) (tz / 60) := by
  unfold tzspecifier
  split
  · rename_i h; subst h; exact .utc
  · dsimp only
    rw [padZero_two (by omega), padZero_two (by omega)]
    split
    · rename_i h0 h
      have e : tz / 60 = -(((tz.natAbs : Int) / 3600).toNat * 60 + ((tz.natAbs : Int) % 3600 / 60).toNat : Nat) := by omega
      rw [e, List.cons_append]
      exact .east (by omega) (by omega)
    · rename_i h0 h
      have e : tz / 60 = (((tz.natAbs : Int) / 3600).toNat * 60 + ((tz.natAbs : Int) % 3600 / 60).toNat : Nat) := by omega
      rw [e, List.cons_append]
      exact .west (by omega) (by omega)

/-- `parse_timezone` reads each designator of the note. -/
theorem C42_parse {z : Str} {off : Int} (hz : Zone z off) : parseTimezone z = .ok (off * 60) := by
  obtain ⟨g, h1, h2, -⟩ := first_tzd hz []
  rw [parseTimezone, first_fullmatch h1]
  simp [h2]

/-- The designator written for an offset of whole minutes, below 100 hours, is read back as that offset. -/
theorem C42_roundtrip {tz : Int} (hm : tz % 60 = 0) (hr : tz.natAbs < 360000) :
    parseTimezone (tzspecifier tz) = .ok tz := by
  rw [C42_parse (tz_zone hm hr)]
  congr 1
  omega

example : tzspecifier (-19800) = s!! "+05:30" ∧ parseTimezone (s!! "+05:30") = .ok (-19800) := by decide +kernel

/-- The seconds of other offsets are dropped. -/
theorem C42_refuted_seconds : parseTimezone (tzspecifier 90) = .ok 60 := by decide +kernel

/-! C56 -/

theorem isDouble_nat {n : Nat} (h : n < 2 ^ 53) : XPath.IsDouble (n : Rat) := by
  refine ⟨n, 0, by omega, by omega, by omega, by omega, ?_⟩
  rw [Rat.zpow_zero, Rat.mul_one]
  rfl

theorem takeWhile_two {s : Nat} (hs : s < 100) (r : Str) (hr : r.takeWhile isDigit = []) :
    (two s ++ r).takeWhile isDigit = two s ∧ (two s ++ r).dropWhile isDigit = r := by
  have hd : ∀ c ∈ two s, isDigit c = true := by
    intro c hc
    simp only [two, List.mem_cons, List.not_mem_nil, or_false] at hc
    rcases hc with rfl | rfl
    · exact isDigit_digit (by omega)
    · exact isDigit_digit (by omega)
  have hr' : r.dropWhile isDigit = r := by
    have := List.takeWhile_append_dropWhile (p := isDigit) (l := r)
    rwa [hr, List.nil_append] at this
  rw [List.takeWhile_append_of_pos hd, List.dropWhile_append_of_pos hd, hr, hr', List.append_nil]
  exact ⟨rfl, rfl⟩

theorem extractSeconds_whole (R : Rounding) {s : Nat} (hs : s ≤ 59) : extractSeconds R (two s) = .ok (s : Int) := by
  obtain ⟨h1, h2⟩ := takeWhile_two (s := s) (by omega) [] rfl
  rw [List.append_nil] at h1 h2
  unfold extractSeconds
  simp only [h1, h2, toInt_two (show s < 100 by omega)]
  have : R.rnd (((s : Int) : Rat)) = .fin ((s : Int) : Rat) := by
    apply R.exact
    exact isDouble_nat (by omega)
  rw [this]
  dsimp only
  have : (0 : Rat) ≤ ((s : Int) : Rat) ∧ ((s : Int) : Rat) ≤ 60 := by
    constructor
    · exact_mod_cast (by omega : (0 : Int) ≤ s)
    · exact_mod_cast (by omega : (s : Int) ≤ 60)
  rw [if_pos this, Rat.floor_intCast]

theorem extractSeconds_frac (R : Rounding) {s : Nat} (hs : s ≤ 59) (f : Str)
    (hR : ∃ v : Rat, R.rnd ((s : Rat) + (value f : Rat) / 10 ^ f.length) = .fin v ∧ v.floor = s) :
    extractSeconds R (two s ++ '.' :: f) = .ok (s : Int) := by
  obtain ⟨h1, h2⟩ := takeWhile_two (s := s) (by omega) ('.' :: f) (by rw [List.takeWhile_cons, if_neg (by decide)])
  obtain ⟨v, hv, hfl⟩ := hR
  unfold extractSeconds
  simp only [h1, h2, toInt_two (show s < 100 by omega), toInt_value]
  have : (((s : Int) : Rat) + ((value f : Int) : Rat) / 10 ^ f.length) = (s : Rat) + (value f : Rat) / 10 ^ f.length := rfl
  rw [this, hv]
  dsimp only
  have hb : (0 : Rat) ≤ v ∧ v ≤ 60 := by
    have a1 := Rat.floor_le v
    have a2 := Rat.lt_floor_add_one v
    rw [hfl] at a1 a2
    have b1 : (0 : Rat) ≤ ((s : Int) : Rat) := by exact_mod_cast (by omega : (0 : Int) ≤ s)
    have b2 : ((s : Int) : Rat) + 1 ≤ 60 := by exact_mod_cast (by omega : (s : Int) + 1 ≤ 60)
    constructor <;> grind
  rw [if_pos hb, hfl]

theorem parse_of (R : Rounding) (fuel : Nat) (zone : Int) {s : Str} {g : Groups} {m : Moment} (hv : m.Valid)
    (hy : 1900 ≤ m.year) (hm : datetimeRe.fullmatch s = some g)
    (hd : extractDate fuel zone g = .ok ((m.year : Int), (m.month : Int), (m.day : Int)))
    (ht : extractTime R g = .ok ((m.hour : Int), (m.minute : Int), (m.second : Int)))
    (hz : extractTzd g = m.off * 60) : parse R fuel zone s = .ok m.seconds := by
  unfold parse
  simp only [hm, hd, ht, hz, mktime_eq hy hv.month hv.day.1]
  refine congrArg Except.ok ?_
  unfold Moment.seconds
  generalize dayNumber 1970 1 1 = e
  omega

/-- The groups of a date. -/
def gDate (y mo d : Nat) : Groups := [(.day, two d), (.month, two mo), (.dsep, ['-']), (.year, four y)]

theorem extractDate_day (fuel : Nat) (zone : Int) {g : Groups} {y mo d : Nat} (hy : y < 10000) (hm : 1 ≤ mo ∧ mo ≤ 12)
    (hd : 1 ≤ d ∧ d ≤ 31) (h : ∀ n, n = .year ∨ n = .julian ∨ n = .month ∨ n = .day → g.lookup n = (gDate y mo d).lookup n) :
    extractDate fuel zone g = .ok ((y : Int), (mo : Int), (d : Int)) := by
  unfold extractDate
  rw [h .year (by simp), h .julian (by simp), h .month (by simp), h .day (by simp)]
  have e1 : (gDate y mo d).lookup .year = some (four y) := rfl
  have e2 : (gDate y mo d).lookup .julian = none := rfl
  have e3 : (gDate y mo d).lookup .month = some (two mo) := rfl
  have e4 : (gDate y mo d).lookup .day = some (two d) := rfl
  simp only [e1, e2, e3, e4, Option.getD_some, toInt_four hy, toInt_two (show mo < 100 by omega),
    toInt_two (show d < 100 by omega)]
  rw [if_pos (by omega), if_pos (by omega)]

theorem extractTime_of (R : Rounding) {g : Groups} {h mi s : Nat} (hh : h ≤ 23) (hm : mi ≤ 59)
    (h1 : g.lookup .hours = some (two h)) (h2 : g.lookup .minutes = some (two mi))
    (h3 : (g.lookup .seconds = none ∧ s = 0) ∨ ∃ t, g.lookup .seconds = some t ∧ extractSeconds R t = .ok (s : Int)) :
    extractTime R g = .ok ((h : Int), (mi : Int), (s : Int)) := by
  unfold extractTime
  simp only [h1, h2, Option.getD_some, toInt_two (show h < 100 by omega), toInt_two (show mi < 100 by omega)]
  rw [if_pos (by omega), if_pos (by omega)]
  rcases h3 with ⟨h3, rfl⟩ | ⟨t, h3, h4⟩
  · simp only [h3]; rfl
  · simp only [h3, h4]

theorem monthDays_le (y m : Nat) : monthDays y m ≤ 31 := by
  unfold monthDays
  split <;> (try split) <;> omega

theorem lookup_gs {n : Grp} (g : Groups) (h : n = .year ∨ n = .julian ∨ n = .month ∨ n = .day) (hh mi : Nat) (t : Str) :
    List.lookup n ((.seconds, t) :: gMin hh mi g) = g.lookup n ∧ List.lookup n (gMin hh mi g) = g.lookup n := by
  rcases h with rfl | rfl | rfl | rfl <;> exact ⟨rfl, rfl⟩

/-- A text of the formats with a time of day. -/
theorem parse_time (R : Rounding) (fuel : Nat) (zone : Int) {m : Moment} (hv : m.Valid) (hy : 1900 ≤ m.year)
    {rest z : Str} (hz : Zone z m.off) {gs : Groups}
    (hs : First secondsRe rest (gMin m.hour m.minute (gDate m.year m.month m.day)) (z, gs))
    (hg : (gs = gMin m.hour m.minute (gDate m.year m.month m.day) ∧ m.second = 0) ∨
      ∃ t, gs = (.seconds, t) :: gMin m.hour m.minute (gDate m.year m.month m.day) ∧
        extractSeconds R t = .ok (m.second : Int)) :
    parse R fuel zone (four m.year ++ '-' :: (two m.month ++ '-' :: (two m.day ++ 'T' ::
      (two m.hour ++ ':' :: (two m.minute ++ rest))))) = .ok m.seconds := by
  have hmd := monthDays_le m.year m.month
  have hv' := hv
  obtain ⟨v1, v2, v3, v4, v5, v6, v7⟩ := hv'
  obtain ⟨gz, z1, z2, z3⟩ := first_tzd hz gs
  have hlk : ∀ n, n = .year ∨ n = .julian ∨ n = .month ∨ n = .day → gs.lookup n = (gDate m.year m.month m.day).lookup n := by
    intro n hn
    rcases hg with ⟨rfl, -⟩ | ⟨t, rfl, -⟩
    · exact (lookup_gs _ hn _ _ []).2
    · exact (lookup_gs _ hn _ _ t).1
  refine parse_of R fuel zone (g := gz) hv hy ?_ ?_ ?_ z2
  · refine first_fullmatch ?_
    refine first_seq (first_date (by omega) (by omega) (by omega) _) ?_
    refine first_yes (first_seq (first_chr (by decide)) ?_)
    exact first_time (by omega) (by omega) hs z1
  · refine extractDate_day fuel zone (by omega) v2 (by omega) fun n hn => ?_
    rw [z3 n (by rintro rfl; simp at hn) (by rintro rfl; simp at hn) (by rintro rfl; simp at hn), hlk n hn]
  · refine extractTime_of R v4 v5 ?_ ?_ ?_
    · rw [z3 .hours (by decide) (by decide) (by decide)]
      rcases hg with ⟨rfl, -⟩ | ⟨t, rfl, -⟩ <;> rfl
    · rw [z3 .minutes (by decide) (by decide) (by decide)]
      rcases hg with ⟨rfl, -⟩ | ⟨t, rfl, -⟩ <;> rfl
    · rw [z3 .seconds (by decide) (by decide) (by decide)]
      rcases hg with ⟨rfl, h0⟩ | ⟨t, rfl, ht⟩
      · exact Or.inl ⟨rfl, h0⟩
      · exact Or.inr ⟨t, rfl, ht⟩

theorem value_lt (f : Str) (hf : ∀ c ∈ f, ∃ n < 10, c = digit n) : value f < 10 ^ f.length := by
  induction f with
  | nil => simp [value]
  | cons c f ih =>
    obtain ⟨n, hn, rfl⟩ := hf c (by simp)
    have := ih (fun d hd => hf d (by simp [hd]))
    have e : (digit n).toNat - 48 = n := digit_toNat hn
    rw [value, e, List.length_cons, Nat.pow_succ]
    have : n * 10 ^ f.length ≤ 9 * 10 ^ f.length := Nat.mul_le_mul_right _ (by omega)
    omega

/-- The whole seconds of an instant. -/
theorem instant_floor {m : Moment} (hv : m.Valid) : m.instant.floor = m.seconds := by
  have h := value_lt m.frac hv.frac
  have hp : (0 : Rat) < (10 ^ m.frac.length : Nat) := by exact_mod_cast (Nat.pow_pos (by decide) : 0 < 10 ^ m.frac.length)
  have e : ((10 : Rat) ^ m.frac.length) = ((10 ^ m.frac.length : Nat) : Rat) := by norm_cast
  have h0 : 0 ≤ m.fraction ∧ m.fraction < 1 := by
    unfold Moment.fraction
    rw [e]
    constructor
    · rw [← Rat.not_lt, Rat.div_lt_iff hp, Rat.zero_mul, Rat.not_lt]
      exact_mod_cast Nat.zero_le _
    · rw [Rat.div_lt_iff hp, Rat.one_mul]
      exact_mod_cast h
  unfold Moment.instant
  apply Int.le_antisymm
  · refine Int.lt_add_one_iff.1 ?_
    rw [Rat.floor_lt_iff]
    rw [Rat.intCast_add]
    have : ((1 : Int) : Rat) = 1 := rfl
    rw [this]
    grind
  · rw [Rat.le_floor_iff]
    grind

/-- `parse` reads each text of the note's six formats, from the year 1900 on: it returns the instant without
the fraction of the second.  The assumption on the rounding says that `float` does not round the seconds up
to the next whole number; it is void if there is no fraction. -/
theorem C56_parse {s : Str} {m : Moment} (ht : Text s m) (hv : m.Valid) (hy : 1900 ≤ m.year) (R : Rounding)
    (hR : m.frac ≠ [] → ∃ v : Rat, R.rnd ((m.second : Rat) + m.fraction) = .fin v ∧ v.floor = m.second)
    (fuel : Nat) (zone : Int) : parse R fuel zone s = .ok m.instant.floor := by
  rw [instant_floor hv]
  have hv' := hv
  obtain ⟨v1, v2, v3, v4, v5, v6, v7⟩ := hv'
  cases ht with
  | year y =>
    refine parse_of R fuel zone (g := [(.year, four y)]) hv hy ?_ ?_ ?_ (by rfl)
    · refine first_fullmatch (first_seq (first_year (by simpa using Nat.lt_succ_of_le v1.2)) (first_no ?_))
      simp [Re.run, lit]
    · have : extractDate fuel zone [(.year, four y)] = .ok (toInt (four y), 1, 1) := rfl
      rw [this, toInt_four (by simpa using Nat.lt_succ_of_le v1.2)]
      rfl
    · rfl
  | month y mo =>
    dsimp only at v1 v2
    refine parse_of R fuel zone (g := [(.month, two mo), (.dsep, ['-']), (.year, four y)]) hv hy ?_ ?_ ?_ (by rfl)
    · refine first_fullmatch (first_seq (first_month (by omega) (by omega)) (first_no ?_))
      simp [Re.run, lit]
    · have : extractDate fuel zone [(.month, two mo), (.dsep, ['-']), (.year, four y)]
          = if 1 ≤ toInt (two mo) ∧ toInt (two mo) ≤ 12 then .ok (toInt (four y), toInt (two mo), 1) else .error .valueError := rfl
      rw [this, toInt_four (by omega), toInt_two (by omega), if_pos (by omega)]
      rfl
    · rfl
  | day y mo d =>
    dsimp only at v1 v2 v3
    have hmd := monthDays_le y mo
    refine parse_of R fuel zone (g := gDate y mo d) hv hy ?_ ?_ ?_ (by rfl)
    · have := first_date (y := y) (mo := mo) (d := d) (by omega) (by omega) (by omega) []
      rw [List.append_nil] at this
      refine first_fullmatch (first_seq this (first_no ?_))
      simp [Re.run, lit]
    · exact extractDate_day fuel zone (by dsimp only; omega) v2 (by dsimp only; omega) fun n _ => rfl
    · rfl
  | minutes y mo d h mi hz =>
    exact parse_time R fuel zone hv hy hz (first_noSeconds hz _ _ _) (Or.inl ⟨rfl, rfl⟩)
  | seconds y mo d h mi s hz =>
    dsimp only at v6
    exact parse_time R fuel zone hv hy hz (first_seconds hz _ _ s (by omega) _)
      (Or.inr ⟨_, rfl, extractSeconds_whole R v6⟩)
  | fraction y mo d h mi s hf hz =>
    dsimp only at v6 v7
    refine parse_time R fuel zone hv hy hz (first_fraction hz _ _ s (by omega) _ hf ?_)
      (Or.inr ⟨_, rfl, extractSeconds_frac R v6 _ (hR hf)⟩)
    intro c hc
    obtain ⟨n, hn, rfl⟩ := v7 c hc
    exact isDigit_digit hn

/-! Writing -/

theorem monthLen_eq (y : Nat) (k : Nat) (hk : k < 12) :
    (monthLens (isLeap y))[k]'(by simpa [monthLens] using hk) = (monthDays y (k + 1) : Int) := by
  have : k = 0 ∨ k = 1 ∨ k = 2 ∨ k = 3 ∨ k = 4 ∨ k = 5 ∨ k = 6 ∨ k = 7 ∨ k = 8 ∨ k = 9 ∨ k = 10 ∨ k = 11 := by omega
  simp only [isLeap_eq]
  rcases this with rfl | rfl | rfl | rfl | rfl | rfl | rfl | rfl | rfl | rfl | rfl | rfl <;> try rfl
  by_cases h : leap y <;> simp [monthLens, monthDays, h]

/-- The broken-down time of a second that falls into the years 1000 to 9999. -/
theorem gmtime_spec {t : Int} (h1 : daysBeforeYear 1000 - epochDay ≤ t / 86400)
    (h2 : t / 86400 < daysBeforeYear 10000 - epochDay) :
    ∃ m : Moment, m.Valid ∧ 1000 ≤ m.year ∧ m.frac = [] ∧ m.off = 0 ∧ m.seconds = t ∧
      (gmtime t).year = m.year ∧ (gmtime t).mon = m.month ∧ (gmtime t).day = m.day ∧
      (gmtime t).hour = m.hour ∧ (gmtime t).min = m.minute ∧ (gmtime t).sec = m.second := by
  have k1 : daysBeforeYear 1000 = 364877 := by decide +kernel
  have k2 : daysBeforeYear 10000 = 3652059 := by decide +kernel
  have k3 : epochDay = 719162 := rfl
  have hy := yearLoop_spec (t / 86400 + epochDay).toNat 1 (t / 86400 + epochDay) (by omega) (by omega)
  generalize hr : yearLoop (t / 86400 + epochDay).toNat 1 (t / 86400 + epochDay) = r at hy
  obtain ⟨y, yd⟩ := r
  dsimp only at hy
  obtain ⟨y1, y2, y3, y4⟩ := hy
  have k4 : daysBeforeYear 1 = 0 := by decide +kernel
  obtain ⟨Y, rfl⟩ : ∃ Y : Nat, y = Y := ⟨y.toNat, by omega⟩
  have hyl : yearLen Y = (monthLens (isLeap Y)).foldr (· + ·) 0 := by
    unfold yearLen monthLens
    cases isLeap Y <;> rfl
  obtain ⟨k, hk, m1, m2, m3, m4⟩ := monthLoop_spec (monthLens (isLeap Y)) 1 yd y2 (hyl ▸ y3)
  have hk' : k < 12 := by simpa [monthLens] using hk
  rw [monthLen_eq Y k hk'] at m4
  generalize hmd : monthLoop (monthLens (isLeap Y)) 1 yd = md at m1 m2 m3 m4
  obtain ⟨mo, d⟩ := md
  dsimp only at m1 m2 m3 m4
  have hY : 1000 ≤ Y ∧ Y ≤ 9999 := by
    have hsucc := daysBeforeYear_succ Y
    have mono : ∀ a b : Int, a ≤ b → daysBeforeYear a ≤ daysBeforeYear b := by
      intro a b h; unfold daysBeforeYear; omega
    constructor
    · rcases Nat.lt_or_ge Y 1000 with h | h
      · have := mono (Y + 1) 1000 (by omega)
        omega
      · exact h
    · rcases Nat.lt_or_ge Y 10000 with h | h
      · omega
      · have := mono 10000 Y (by omega)
        omega
  have hg : gmtime t = ⟨Y, mo, d + 1, t % 86400 / 3600, t % 86400 % 3600 / 60, t % 86400 % 60, yd + 1⟩ := by
    unfold gmtime
    simp only [hr, hmd]
  refine ⟨⟨Y, k + 1, (d + 1).toNat, (t % 86400 / 3600).toNat, (t % 86400 % 3600 / 60).toNat, (t % 86400 % 60).toNat, [], 0⟩,
    ⟨by dsimp only; omega, by dsimp only; omega, by dsimp only; omega, by dsimp only; omega, by dsimp only; omega,
      by dsimp only; omega, by intro c hc; simp at hc⟩, hY.1, rfl, rfl, ?_, ?_⟩
  · unfold Moment.seconds
    rw [dayNumber_epoch]
    dsimp only
    rw [dayNumber_eq (by omega) (by omega) (by omega)]
    have e : (((k + 1 : Nat) : Int) - 1).toNat = k := by omega
    rw [e]
    have : daysBeforeMonth (isLeap Y) k = ((monthLens (isLeap Y)).take k).foldr (· + ·) 0 := rfl
    rw [this]
    omega
  · rw [hg]
    dsimp only
    omega

/-- The first second of the year 1000 and of the year 10000. -/
def firstSecond : Int := (dayNumber 1000 1 1 - dayNumber 1970 1 1) * 86400
def lastSecond : Int := (dayNumber 10000 1 1 - dayNumber 1970 1 1) * 86400

theorem trunc_int (t : Int) : trunc (t : Rat) = t := by
  unfold trunc
  split
  · rw [← Rat.intCast_neg, Rat.floor_intCast]; omega
  · exact Rat.floor_intCast t

/-- The instant that the text denotes. -/
theorem tostring_text {t tz : Int} (hm : tz % 60 = 0) (hr : tz.natAbs < 360000)
    (h1 : firstSecond ≤ t - tz.natAbs) (h2 : t - tz.natAbs < lastSecond) :
    ∃ m : Moment, Text (tostring t tz) m ∧ m.Valid ∧ m.instant = (t - tz.natAbs + tz : Int) ∧ m.frac = [] ∧
      m.seconds - m.off * 60 = t - tz.natAbs := by
  have b1 : firstSecond = (daysBeforeYear 1000 - epochDay) * 86400 := by
    unfold firstSecond; rw [dayNumber_eq (by decide) (by decide) (by decide), dayNumber_epoch]; decide +kernel
  have b2 : lastSecond = (daysBeforeYear 10000 - epochDay) * 86400 := by
    unfold lastSecond; rw [dayNumber_eq (by decide) (by decide) (by decide), dayNumber_epoch]; decide +kernel
  obtain ⟨m, v, hy, hf, ho, hs, g1, g2, g3, g4, g5, g6⟩ := gmtime_spec (t := t - tz.natAbs) (by omega) (by omega)
  have hz := tz_zone hm hr
  have v' := v
  obtain ⟨v1, v2, v3, v4, v5, v6, v7⟩ := v'
  have hmd := monthDays_le m.year m.month
  have hsec : (⟨m.year, m.month, m.day, m.hour, m.minute, m.second, [], tz / 60⟩ : Moment).seconds = t - tz.natAbs + tz := by
    unfold Moment.seconds at hs ⊢
    rw [ho] at hs
    dsimp only
    generalize dayNumber 1970 1 1 = e at *
    omega
  refine ⟨⟨m.year, m.month, m.day, m.hour, m.minute, m.second, [], tz / 60⟩, ?_,
    ⟨v1, v2, v3, v4, v5, v6, by intro c hc; simp at hc⟩, ?_, rfl, by rw [hsec]; dsimp only; omega⟩
  · have hp : (t : Rat) - (t : Rat) = 0 := by grind
    unfold tostring
    simp only [trunc_int, hp, g1, g2, g3, g4, g5, g6]
    rw [pad4_four (by omega), padZero_two (by omega), padZero_two (by omega), padZero_two (by omega), padZero_two (by omega)]
    simp only [Int.toNat_natCast, ne_eq, not_true, or_false, if_false]
    split
    · rw [padZero_two (by omega)]
      simp only [Int.toNat_natCast]
      have := Text.seconds m.year m.month m.day m.hour m.minute m.second hz
      simpa only [List.append_assoc, List.cons_append] using this
    · rename_i hs0
      have hs0 : m.second = 0 := by omega
      have := Text.minutes m.year m.month m.day m.hour m.minute hz
      rw [hs0]
      simpa only [List.append_assoc, List.cons_append] using this
  · unfold Moment.instant
    rw [hsec]
    unfold Moment.fraction
    simp [value]
    grind

/-- For an offset that is not negative, what `tostring` writes for a whole number of seconds denotes this
instant. -/
theorem C56_tostring {t tz : Int} (h0 : 0 ≤ tz) (hm : tz % 60 = 0) (hr : tz < 360000)
    (h1 : firstSecond ≤ t - tz) (h2 : t - tz < lastSecond) :
    ∃ m : Moment, Text (tostring t tz) m ∧ m.Valid ∧ m.instant = t ∧ m.frac = [] ∧
      m.seconds - m.off * 60 = t - tz := by
  have e : ((tz.natAbs : Nat) : Int) = tz := by omega
  obtain ⟨m, ht, hv, hi, hf, hs⟩ := tostring_text (t := t) hm (by omega) (by omega) (by omega)
  have e2 : t - (tz.natAbs : Int) + tz = t := by omega
  exact ⟨m, ht, hv, by rw [hi, e2], hf, by omega⟩

/-- 1900-01-01 -/
def year1900 : Int := (dayNumber 1900 1 1 - dayNumber 1970 1 1) * 86400

theorem year_ge {m : Moment} (hv : m.Valid) (h : year1900 ≤ m.seconds - m.off * 60) : 1900 ≤ m.year := by
  obtain ⟨v1, v2, v3, v4, v5, v6, v7⟩ := hv
  rcases Nat.lt_or_ge m.year 1900 with hlt | hge
  · exfalso
    have hms : monthsDays m.year (m.month - 1) + (m.day - 1) < if leap m.year then 366 else 365 := by
      have : m.month = 1 ∨ m.month = 2 ∨ m.month = 3 ∨ m.month = 4 ∨ m.month = 5 ∨ m.month = 6 ∨ m.month = 7 ∨ m.month = 8
        ∨ m.month = 9 ∨ m.month = 10 ∨ m.month = 11 ∨ m.month = 12 := by omega
      by_cases hl : leap m.year
      · rcases this with e | e | e | e | e | e | e | e | e | e | e | e <;> rw [e] at v3 ⊢ <;>
          simp [monthsDays, monthDays, hl] at v3 ⊢ <;> omega
      · rcases this with e | e | e | e | e | e | e | e | e | e | e | e <;> rw [e] at v3 ⊢ <;>
          simp [monthsDays, monthDays, hl] at v3 ⊢ <;> omega
    have mono : ∀ b, m.year ≤ b → yearsDays m.year ≤ yearsDays b := by
      intro b hb
      induction b with
      | zero => have : m.year = 0 := by omega
                rw [this]; exact Nat.le_refl _
      | succ b ih =>
        rcases Nat.lt_or_ge b m.year with hl | hl
        · have : m.year = b + 1 := by omega
          rw [this]; exact Nat.le_refl _
        · rw [yearsDays]; have := ih hl; omega
    have h1 := mono 1899 (by omega)
    have h2 : yearsDays m.year = yearsDays (m.year - 1) + if leap m.year then 366 else 365 := by
      obtain ⟨k, hk⟩ : ∃ k, m.year = k + 1 := ⟨m.year - 1, by omega⟩
      rw [hk]; rfl
    have h3 : dayNumber m.year m.month m.day < yearsDays 1899 := by
      unfold dayNumber; omega
    unfold year1900 Moment.seconds at h
    have h4 : dayNumber 1900 1 1 = yearsDays 1899 := by unfold dayNumber; simp [monthsDays]
    rw [h4] at h
    generalize dayNumber 1970 1 1 = e at h
    omega
  · exact hge

/-- Round trip, for an offset that is not negative and a local time from the year 1900 on. -/
theorem C56_roundtrip {t tz : Int} (h0 : 0 ≤ tz) (hm : tz % 60 = 0) (hr : tz < 360000)
    (h1 : year1900 ≤ t - tz) (h2 : t - tz < lastSecond) (R : Rounding) (fuel : Nat) (zone : Int) :
    parse R fuel zone (tostring t tz) = .ok t := by
  have hf : firstSecond ≤ year1900 := by decide +kernel
  obtain ⟨m, ht, hv, hi, hfr, hs⟩ := C56_tostring h0 hm hr (by omega) h2
  rw [C56_parse ht hv (year_ge hv (by omega)) R (fun h => absurd hfr h), hi, Rat.floor_intCast]

/-- Any rounding will do; this one is exact. -/
def exactRounding : Rounding := ⟨.fin, fun _ _ => rfl, fun _ h => by cases h⟩

example : tostring 1081572248 28800 = s!! "2004-04-09T20:44:08-08:00" ∧
    parse exactRounding 0 0 (s!! "2004-04-09T20:44:08-08:00") = .ok 1081572248 ∧
    year1900 ≤ 1081572248 - 28800 ∧ 1081572248 - 28800 < lastSecond := by decide +kernel

/-- For all offsets east of Greenwich the text is that of the wrong instant, twice the offset away
(iso8601.py:76 uses the absolute value from line 69). -/
theorem C56_refuted_east {t tz : Int} (h0 : tz < 0) (hm : tz % 60 = 0) (hr : -360000 < tz)
    (h1 : year1900 ≤ t + tz) (h2 : t + tz < lastSecond) (R : Rounding) (fuel : Nat) (zone : Int) :
    parse R fuel zone (tostring t tz) = .ok (t + 2 * tz) := by
  have hf : firstSecond ≤ year1900 := by decide +kernel
  obtain ⟨m, ht, hv, hi, hfr, hs⟩ := tostring_text (t := t) hm (by omega) (by omega) (by omega)
  rw [C56_parse ht hv (year_ge hv (by omega)) R (fun h => absurd hfr h), hi, Rat.floor_intCast]
  exact congrArg _ (by omega)

example : tostring 1081572248 (-28800) = s!! "2004-04-09T20:44:08+08:00" ∧
    parse exactRounding 0 0 (s!! "2004-04-09T20:44:08+08:00") = .ok (1081572248 - 2 * 28800) := by decide +kernel

/-- Before 1900, `parse` refuses what `tostring` writes. -/
theorem C56_refuted_before_1900 : tostring (-2208988801) 0 = s!! "1899-12-31T23:59:59Z" ∧
    parse exactRounding 0 0 (s!! "1899-12-31T23:59:59Z") = .error .valueError := by decide +kernel

/-- The hundredths are wrong if they are rounded up to 100, and for negative times (iso8601.py:80). -/
theorem C56_refuted_fraction : tostring (999 / 1000) 0 = s!! "1970-01-01T00:00:00.100Z" ∧
    tostring (-1 / 2) 0 = s!! "1970-01-01T00:00:00.-50Z" := by decide +kernel

/-- A date given by the day of the year is one day off if the machine's time zone is east of Greenwich
(iso8601.py:191-192: the day of the year is that of local midnight, in UTC). -/
theorem C56_refuted_ordinal :
    parse exactRounding 40 0 (s!! "2004-100") = parse exactRounding 0 0 (s!! "2004-04-09") ∧
    parse exactRounding 40 (-3600) (s!! "2004-100") = parse exactRounding 0 0 (s!! "2004-04-10") := by decide +kernel

end Verif.Util
