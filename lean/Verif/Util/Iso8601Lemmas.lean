import Verif.Util.Iso8601
import Verif.Util.Iso8601Spec

/-
Lemmas for C42 and C56: the regular expressions, digits, the calendar.
-/
namespace Verif.Util
open Verif Verif.Util.Spec

/-! Digits -/

theorem isDigit_digit {n : Nat} (h : n < 10) : isDigit (digit n) = true := by
  have : n = 0 ∨ n = 1 ∨ n = 2 ∨ n = 3 ∨ n = 4 ∨ n = 5 ∨ n = 6 ∨ n = 7 ∨ n = 8 ∨ n = 9 := by omega
  rcases this with rfl | rfl | rfl | rfl | rfl | rfl | rfl | rfl | rfl | rfl <;> decide

theorem digit_toNat {n : Nat} (h : n < 10) : (digit n).toNat - '0'.toNat = n := by
  have : n = 0 ∨ n = 1 ∨ n = 2 ∨ n = 3 ∨ n = 4 ∨ n = 5 ∨ n = 6 ∨ n = 7 ∨ n = 8 ∨ n = 9 := by omega
  rcases this with rfl | rfl | rfl | rfl | rfl | rfl | rfl | rfl | rfl | rfl <;> decide

theorem toInt_two {n : Nat} (h : n < 100) : toInt (two n) = n := by
  simp only [toInt, two, List.foldl_cons, List.foldl_nil, digit_toNat (show n / 10 < 10 by omega),
    digit_toNat (show n % 10 < 10 by omega)]
  omega

theorem toInt_four {n : Nat} (h : n < 10000) : toInt (four n) = n := by
  simp only [toInt, four, two, List.cons_append, List.nil_append, List.foldl_cons, List.foldl_nil,
    digit_toNat (show n / 100 / 10 < 10 by omega), digit_toNat (show n / 100 % 10 < 10 by omega),
    digit_toNat (show n % 100 / 10 < 10 by omega), digit_toNat (show n % 100 % 10 < 10 by omega)]
  omega

theorem toInt_foldl (s : Str) (k : Int) : s.foldl (fun n c => 10 * n + ((c.toNat - '0'.toNat : Nat) : Int)) k
    = k * 10 ^ s.length + value s := by
  induction s generalizing k with
  | nil => simp [value]
  | cons c s ih =>
    rw [List.foldl_cons, ih, value, List.length_cons, Int.pow_succ]
    have : '0'.toNat = 48 := by decide
    rw [this, Int.add_mul]
    simp only [Int.natCast_add, Int.natCast_mul, Int.natCast_pow]
    rw [Int.add_assoc, Int.mul_comm 10 k, Int.mul_assoc, Int.mul_comm 10 (10 ^ s.length)]
    rfl

theorem toInt_value (s : Str) : toInt s = value s := by
  rw [toInt, toInt_foldl]; simp

/-! Matching -/

def First (r : Re) (s : Str) (g : Groups) (x : Str × Groups) : Prop := (r.run s g).head? = some x

theorem first_seq {a b : Re} {s : Str} {g : Groups} {x y : Str × Groups} (h1 : First a s g x) (h2 : First b x.1 x.2 y) :
    First (.seq a b) s g y := by
  unfold First at *
  rw [Re.run]
  match ha : a.run s g with
  | [] => rw [ha] at h1; simp at h1
  | z :: more =>
    rw [ha] at h1
    have : z = x := by simpa using h1
    subst this
    rw [List.flatMap_cons, List.head?_append, h2]
    rfl

theorem first_grp {a : Re} {n : Grp} {p s : Str} {g g' : Groups} (h : First a (p ++ s) g (s, g')) :
    First (.grp n a) (p ++ s) g (s, (n, p) :: g') := by
  unfold First at *
  rw [Re.run, List.head?_map, h]
  simp

theorem first_left {a b : Re} {s : Str} {g : Groups} {x : Str × Groups} (h : First a s g x) : First (.alt a b) s g x := by
  unfold First at *
  rw [Re.run, List.head?_append, h]; rfl

theorem first_right {a b : Re} {s : Str} {g : Groups} {x : Str × Groups} (h1 : a.run s g = []) (h : First b s g x) :
    First (.alt a b) s g x := by
  unfold First at *
  rw [Re.run, h1]; exact h

theorem first_yes {a : Re} {s : Str} {g : Groups} {x : Str × Groups} (h : First a s g x) : First (.opt a) s g x := by
  unfold First at *
  rw [Re.run, List.head?_append, h]; rfl

theorem first_no {a : Re} {s : Str} {g : Groups} (h : a.run s g = []) : First (.opt a) s g (s, g) := by
  unfold First at *
  rw [Re.run, h]; rfl

theorem first_ref {n : Grp} {t s : Str} {g : Groups} (h : g.lookup n = some t) : First (.ref n) (t ++ s) g (s, g) := by
  unfold First
  rw [Re.run, h]
  simp

theorem first_chr {p : Char → Bool} {c : Char} {s : Str} {g : Groups} (h : p c = true) : First (.chr p) (c :: s) g (s, g) := by
  unfold First
  rw [Re.run, if_pos h]; rfl

theorem first_digits {f s : Str} {g : Groups} (hf : f ≠ []) (hd : ∀ c ∈ f, isDigit c = true)
    (hs : s.takeWhile isDigit = []) : First .digits (f ++ s) g (s, g) := by
  unfold First
  have : (f ++ s).takeWhile isDigit = f := by
    rw [List.takeWhile_append_of_pos hd, hs, List.append_nil]
  rw [Re.run, this]
  match f, hf with
  | c :: f, _ => simp [digitRuns]

theorem first_two {n : Nat} (h : n < 100) {s : Str} {g : Groups} : First d2 (two n ++ s) g (s, g) :=
  first_seq (first_chr (isDigit_digit (by omega))) (first_chr (isDigit_digit (by omega)))

theorem first_fullmatch {r : Re} {s : Str} {g : Groups} (h : First r s [] ([], g)) : r.fullmatch s = some g := by
  unfold First at h
  unfold Re.fullmatch
  match hr : r.run s [] with
  | [] => rw [hr] at h; simp at h
  | z :: more =>
    rw [hr] at h
    have : z = ([], g) := by simpa using h
    subst this
    rfl

/-! Time zone designators -/

theorem tzd_of (c : Char) {h m : Nat} (hh : h < 100) (hm : m < 100) (g : Groups) :
    extractTzd ((.tzd, c :: (two h ++ ':' :: two m)) :: (.tzdminutes, two m) :: (.tzdhours, two h) :: g)
      = if c = '+' then -((h * 60 + m : Int) * 60) else (h * 60 + m : Int) * 60 := by
  show (if c :: (two h ++ ':' :: two m) = ['Z'] then 0 else
    (if some c = some '+' then -((toInt (two h) * 60 + toInt (two m)) * 60) else (toInt (two h) * 60 + toInt (two m)) * 60)) = _
  rw [if_neg (by simp [two]), toInt_two hh, toInt_two hm]
  simp

/-- The groups that a designator leaves. -/
theorem first_tzd {z : Str} {off : Int} (hz : Zone z off) (g : Groups) :
    ∃ g', First tzdRe z g ([], g') ∧ extractTzd g' = off * 60 ∧
      ∀ n, n ≠ .tzd → n ≠ .tzdhours → n ≠ .tzdminutes → g'.lookup n = g.lookup n := by
  have aux : ∀ (c : Char) (h m : Nat), h ≤ 99 → m ≤ 59 → (c == '-' || c == '+') = true →
      First tzdRe (c :: (two h ++ ':' :: two m)) g
        ([], (.tzd, c :: (two h ++ ':' :: two m)) :: (.tzdminutes, two m) :: (.tzdhours, two h) :: g) := by
    intro c h m hh hm hc
    have := @first_grp (.alt (.seq (.chr fun c => c == '-' || c == '+') (.seq (.grp .tzdhours d2)
      (.seq (.opt (lit ':')) (.grp .tzdminutes d2)))) (lit 'Z')) .tzd (c :: (two h ++ ':' :: two m)) [] g
      ((.tzdminutes, two m) :: (.tzdhours, two h) :: g) (by
        rw [List.append_nil]
        refine first_left (first_seq (x := (two h ++ ':' :: two m, g)) (first_chr hc) ?_)
        refine first_seq (x := (':' :: two m, (.tzdhours, two h) :: g)) (first_grp (first_two (by omega))) ?_
        refine first_seq (x := (two m, (.tzdhours, two h) :: g)) (first_yes (first_chr (by decide))) ?_
        have := @first_grp d2 .tzdminutes (two m) [] ((.tzdhours, two h) :: g) _ (first_two (by omega))
        rwa [List.append_nil] at this)
    rwa [List.append_nil] at this
  cases hz with
  | utc =>
    refine ⟨(.tzd, ['Z']) :: g, ?_, by simp [extractTzd], ?_⟩
    · have := @first_grp (.alt (.seq (.chr fun c => c == '-' || c == '+') (.seq (.grp .tzdhours d2)
        (.seq (.opt (lit ':')) (.grp .tzdminutes d2)))) (lit 'Z')) .tzd ['Z'] [] g g
        (first_right (by simp [Re.run]) (first_chr (by decide)))
      exact this
    · intro n h1 _ _
      cases n <;> first | rfl | contradiction
  | @east h m hh hm =>
    refine ⟨_, aux '+' h m hh hm (by decide), ?_, ?_⟩
    · rw [tzd_of '+' (by omega) (by omega), if_pos rfl]
      omega
    · intro n h1 h2 h3
      cases n <;> first | rfl | contradiction
  | @west h m hh hm =>
    refine ⟨_, aux '-' h m hh hm (by decide), ?_, ?_⟩
    · rw [tzd_of '-' (by omega) (by omega), if_neg (by decide)]
      omega
    · intro n h1 h2 h3
      cases n <;> first | rfl | contradiction

theorem zone_noColon {z : Str} {off : Int} (hz : Zone z off) : ∃ c s, z = c :: s ∧ c ≠ ':' ∧ c ≠ '.' ∧ c ≠ ',' ∧ isDigit c = false := by
  cases hz with
  | utc => exact ⟨_, _, rfl, by decide, by decide, by decide, by decide⟩
  | east _ _ => exact ⟨_, _, rfl, by decide, by decide, by decide, by decide⟩
  | west _ _ => exact ⟨_, _, rfl, by decide, by decide, by decide, by decide⟩

/-! Dates -/

theorem first_four {n : Nat} (h : n < 10000) {s : Str} {g : Groups} : First (.seq d2 d2) (four n ++ s) g (s, g) := by
  rw [four, List.append_assoc]
  exact first_seq (first_two (by omega)) (first_two (by omega))

theorem first_dsep (s : Str) (g : Groups) :
    First (.grp .dsep (.alt (lit '-') .empty)) ('-' :: s) g (s, (.dsep, ['-']) :: g) :=
  first_grp (p := ['-']) (first_left (first_chr (by decide)))

theorem no_julian (a b : Char) (s : Str) (hs : s.head?.any isDigit = false) (g : Groups) :
    (Re.grp .julian d3).run (a :: b :: s) g = [] := by
  match s with
  | [] =>
    simp only [Re.run, d3, d2, d1]
    cases isDigit a <;> cases isDigit b <;> simp [Re.run]
  | c :: s =>
    have hc : isDigit c = false := by simpa using hs
    simp only [Re.run, d3, d2, d1]
    cases isDigit a <;> cases hb : isDigit b <;> simp [Re.run, hc, hb]

theorem first_date {y mo d : Nat} (hy : y < 10000) (hm : mo < 100) (hd : d < 100) (s : Str) :
    First dateRe (four y ++ '-' :: (two mo ++ '-' :: (two d ++ s))) []
      (s, [(.day, two d), (.month, two mo), (.dsep, ['-']), (.year, four y)]) := by
  refine first_seq (first_grp (first_four hy)) (first_yes (first_seq (first_dsep _ _) ?_))
  refine first_right (no_julian _ _ _ (by simp; decide) _) ?_
  refine first_seq (first_grp (first_two hm)) (first_yes ?_)
  exact first_seq (first_ref (t := ['-']) rfl) (first_grp (first_two hd))

theorem first_month {y mo : Nat} (hy : y < 10000) (hm : mo < 100) :
    First dateRe (four y ++ '-' :: two mo) [] ([], [(.month, two mo), (.dsep, ['-']), (.year, four y)]) := by
  refine first_seq (first_grp (first_four hy)) (first_yes (first_seq (first_dsep _ _) ?_))
  refine first_right (no_julian _ _ _ (by rfl) _) ?_
  have := @first_grp d2 .month (two mo) [] [(.dsep, ['-']), (.year, four y)] _ (first_two hm)
  rw [List.append_nil] at this
  refine first_seq this (first_no ?_)
  have : List.lookup Grp.dsep [(Grp.month, two mo), (.dsep, ['-']), (.year, four y)] = some ['-'] := rfl
  simp only [Re.run, this]
  rfl

theorem first_year {y : Nat} (hy : y < 10000) : First dateRe (four y) [] ([], [(.year, four y)]) := by
  have := @first_grp (.seq d2 d2) .year (four y) [] [] _ (first_four hy)
  rw [List.append_nil] at this
  exact first_seq this (first_no (by simp [Re.run, lit, d3, d2, d1]))

/-! Times of day -/

/-- The part of the expression for the seconds. -/
def secondsRe : Re :=
  .opt (.seq (.ref .tsep) (.grp .seconds (.seq d2 (.opt (.seq (.chr fun c => c == '.' || c == ',') .digits)))))

/-- The groups after the minutes. -/
def gMin (h mi : Nat) (g : Groups) : Groups := (.minutes, two mi) :: (.tsep, [':']) :: (.hours, two h) :: g

theorem first_time {h mi : Nat} (hh : h < 100) (hm : mi < 100) {rest z : Str} {g gs gz : Groups}
    (h1 : First secondsRe rest (gMin h mi g) (z, gs)) (h2 : First tzdRe z gs ([], gz)) :
    First timeRe (two h ++ ':' :: (two mi ++ rest)) g ([], gz) := by
  refine first_seq (first_grp (first_two hh)) ?_
  refine first_seq (first_grp (p := [':']) (first_left (first_chr (by decide)))) ?_
  refine first_seq (first_grp (first_two hm)) ?_
  exact first_seq h1 h2

theorem first_noSeconds {z : Str} {off : Int} (hz : Zone z off) (h mi : Nat) (g : Groups) :
    First secondsRe z (gMin h mi g) (z, gMin h mi g) := by
  obtain ⟨c, s, rfl, hc, -⟩ := zone_noColon hz
  refine first_no ?_
  have : (gMin h mi g).lookup .tsep = some [':'] := rfl
  simp only [Re.run, this]
  rw [if_neg (by simp [List.isPrefixOf]; exact fun e => hc e.symm)]
  rfl

theorem first_seconds {z : Str} {off : Int} (hz : Zone z off) (h mi s : Nat) (hs : s < 100) (g : Groups) :
    First secondsRe (':' :: (two s ++ z)) (gMin h mi g) (z, (.seconds, two s) :: gMin h mi g) := by
  obtain ⟨c, s', rfl, -, h1, h2, -⟩ := zone_noColon hz
  refine first_yes (first_seq (x := (two s ++ c :: s', gMin h mi g)) (first_ref (t := [':']) rfl) (first_grp ?_))
  refine first_seq (first_two hs) (first_no ?_)
  simp [Re.run, h1, h2]

theorem first_fraction {z : Str} {off : Int} (hz : Zone z off) (h mi s : Nat) (hs : s < 100) (g : Groups) {f : Str}
    (hf : f ≠ []) (hd : ∀ c ∈ f, isDigit c = true) :
    First secondsRe (':' :: (two s ++ '.' :: (f ++ z))) (gMin h mi g)
      (z, (.seconds, two s ++ '.' :: f) :: gMin h mi g) := by
  obtain ⟨c, s', rfl, -, -, -, h3⟩ := zone_noColon hz
  refine first_yes (first_seq (x := (two s ++ '.' :: (f ++ c :: s'), gMin h mi g)) (first_ref (t := [':']) rfl) ?_)
  have e : two s ++ '.' :: (f ++ c :: s') = (two s ++ '.' :: f) ++ c :: s' := by simp
  dsimp only
  rw [e]
  refine first_grp ?_
  rw [← e]
  refine first_seq (first_two hs) (first_yes (first_seq (first_chr (by decide)) ?_))
  exact first_digits hf hd (by simp [h3])

/-! The calendar -/

theorem isLeap_eq (y : Nat) : isLeap (y : Int) = decide (leap y) := by
  unfold isLeap
  rw [Bool.eq_iff_iff]
  simp only [Bool.and_eq_true, Bool.or_eq_true, decide_eq_true_eq]
  unfold leap
  rw [Decidable.imp_iff_not_or]
  omega

theorem yearsDays_eq (n : Nat) : (yearsDays n : Int) = daysBeforeYear (n + 1) := by
  induction n with
  | zero => rfl
  | succ n ih =>
    rw [yearsDays]
    unfold daysBeforeYear at *
    split
    · rename_i h; unfold leap at h; omega
    · rename_i h; unfold leap at h; omega

theorem daysBeforeYear_succ (y : Int) : daysBeforeYear (y + 1) = daysBeforeYear y + yearLen y := by
  unfold daysBeforeYear yearLen isLeap
  split
  · rename_i h
    simp only [Bool.and_eq_true, Bool.or_eq_true, decide_eq_true_eq] at h
    omega
  · rename_i h
    simp only [Bool.and_eq_true, Bool.or_eq_true, decide_eq_true_eq] at h
    omega

theorem monthsDays_eq (y n : Nat) (h : n ≤ 12) : (monthsDays y n : Int) = daysBeforeMonth (isLeap y) n := by
  rw [isLeap_eq]
  have : n = 0 ∨ n = 1 ∨ n = 2 ∨ n = 3 ∨ n = 4 ∨ n = 5 ∨ n = 6 ∨ n = 7 ∨ n = 8 ∨ n = 9 ∨ n = 10 ∨ n = 11 ∨ n = 12 := by omega
  by_cases hl : leap y
  · rcases this with rfl | rfl | rfl | rfl | rfl | rfl | rfl | rfl | rfl | rfl | rfl | rfl | rfl <;>
      simp [monthsDays, monthDays, daysBeforeMonth, monthLens, hl]
  · rcases this with rfl | rfl | rfl | rfl | rfl | rfl | rfl | rfl | rfl | rfl | rfl | rfl | rfl <;>
      simp [monthsDays, monthDays, daysBeforeMonth, monthLens, hl]

theorem dayNumber_eq {y mo d : Nat} (hy : 1 ≤ y) (hm : 1 ≤ mo ∧ mo ≤ 12) (hd : 1 ≤ d) :
    (dayNumber y mo d : Int) = daysBeforeYear y + daysBeforeMonth (isLeap y) ((mo : Int) - 1).toNat + ((d : Int) - 1) := by
  have e : ((mo : Int) - 1).toNat = mo - 1 := by omega
  rw [e, ← monthsDays_eq y (mo - 1) (by omega)]
  have := yearsDays_eq (y - 1)
  have e2 : ((y - 1 : Nat) : Int) + 1 = y := by omega
  rw [e2] at this
  rw [← this]
  unfold dayNumber
  omega

theorem dayNumber_epoch : (dayNumber 1970 1 1 : Int) = epochDay := by
  rw [dayNumber_eq (by decide) (by decide) (by decide)]
  decide +kernel

theorem timegm_eq {y mo d h mi s : Nat} (hy : 1 ≤ y) (hm : 1 ≤ mo ∧ mo ≤ 12) (hd : 1 ≤ d) :
    timegm y mo d h mi s
      = ((dayNumber y mo d : Int) - dayNumber 1970 1 1) * 86400 + (h * 3600 + mi * 60 + s : Nat) := by
  rw [dayNumber_epoch, dayNumber_eq hy hm hd, timegm]
  omega

theorem mktime_eq {zone : Int} {y mo d h mi s : Nat} (hy : 1900 ≤ y) (hm : 1 ≤ mo ∧ mo ≤ 12) (hd : 1 ≤ d) :
    mktime zone y mo d h mi s
      = .ok (((dayNumber y mo d : Int) - dayNumber 1970 1 1) * 86400 + (h * 3600 + mi * 60 + s : Nat) + zone) := by
  rw [← timegm_eq (by omega) hm hd]
  unfold mktime
  rw [if_neg (by omega), if_neg (by omega), if_neg (by omega)]
  have e1 : ((mo : Int) - 1) / 12 = 0 := by omega
  have e2 : ((mo : Int) - 1) % 12 + 1 = mo := by omega
  simp only [e1, e2, Int.add_zero]

theorem yearLoop_spec (fuel : Nat) (y d : Int) (hd : 0 ≤ d) (hf : d ≤ fuel) :
    let r := yearLoop fuel y d
    daysBeforeYear r.1 + r.2 = daysBeforeYear y + d ∧ 0 ≤ r.2 ∧ r.2 < yearLen r.1 ∧ y ≤ r.1 := by
  have hpos : ∀ y, 365 ≤ yearLen y := by intro y; unfold yearLen; split <;> decide
  induction fuel generalizing y d with
  | zero =>
    rw [yearLoop]
    have := hpos y
    dsimp only
    omega
  | succ fuel ih =>
    rw [yearLoop]
    split
    · dsimp only; omega
    · have := hpos y
      have h1 := ih (y + 1) (d - yearLen y) (by omega) (by omega)
      rw [daysBeforeYear_succ] at h1
      dsimp only at h1 ⊢
      omega

theorem monthLoop_spec (ls : List Int) (m d : Int) (hd : 0 ≤ d) (h : d < ls.foldr (· + ·) 0) :
    ∃ k, ∃ hk : k < ls.length, (monthLoop ls m d).1 = m + k ∧
      d = (ls.take k).foldr (· + ·) 0 + (monthLoop ls m d).2 ∧
      0 ≤ (monthLoop ls m d).2 ∧ (monthLoop ls m d).2 < ls[k] := by
  induction ls generalizing m d with
  | nil => simp at h; omega
  | cons l ls ih =>
    rw [monthLoop]
    split
    · exact ⟨0, by simp, by simp, by simp, hd, by simpa⟩
    · rw [List.foldr_cons] at h
      obtain ⟨k, hk, h1, h2, h3, h4⟩ := ih (m + 1) (d - l) (by omega) (by omega)
      refine ⟨k + 1, by simpa using hk, by rw [h1]; omega, ?_, h3, by simpa using h4⟩
      rw [List.take_succ_cons, List.foldr_cons]
      omega

end Verif.Util
