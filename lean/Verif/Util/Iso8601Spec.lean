import Verif.Py

/-
Dates and times as the W3C's note on date and time formats (a profile of ISO 8601) defines them.
-/
namespace Verif.Util.Spec
open Verif

def digit (n : Nat) : Char := Char.ofNat (48 + n)

def two (n : Nat) : Str := [digit (n / 10), digit (n % 10)]
def four (n : Nat) : Str := two (n / 100) ++ two (n % 100)

/-- The value of a string of digits. -/
def value : Str → Nat
  | [] => 0
  | c :: cs => (c.toNat - 48) * 10 ^ cs.length + value cs

/-- What a text says: date, time of day, fraction of a second (digits), and the offset to be added for
UTC, in minutes. -/
structure Moment where
  year : Nat
  month : Nat
  day : Nat
  hour : Nat
  minute : Nat
  second : Nat
  frac : Str
  off : Int

def leap (y : Nat) : Prop := 4 ∣ y ∧ (100 ∣ y → 400 ∣ y)

instance (y : Nat) : Decidable (leap y) := by unfold leap; exact inferInstance

/-- The days of the first `n` years. -/
def yearsDays : Nat → Nat
  | 0 => 0
  | n + 1 => yearsDays n + (if leap (n + 1) then 366 else 365)

def monthDays (y : Nat) : Nat → Nat
  | 2 => if leap y then 29 else 28
  | 4 => 30
  | 6 => 30
  | 9 => 30
  | 11 => 30
  | _ => 31

/-- The days of the first `n` months of a year. -/
def monthsDays (y : Nat) : Nat → Nat
  | 0 => 0
  | n + 1 => monthsDays y n + monthDays y (n + 1)

/-- Days from 0001-01-01. -/
def dayNumber (y m d : Nat) : Nat := yearsDays (y - 1) + monthsDays y (m - 1) + (d - 1)

/-- The whole seconds since 1970-01-01T00:00Z. -/
def Moment.seconds (m : Moment) : Int :=
  ((dayNumber m.year m.month m.day : Int) - dayNumber 1970 1 1) * 86400
    + (m.hour * 3600 + m.minute * 60 + m.second : Nat) + m.off * 60

/-- The fraction. -/
def Moment.fraction (m : Moment) : Rat := (value m.frac : Rat) / 10 ^ m.frac.length

/-- Seconds since 1970-01-01T00:00Z. -/
def Moment.instant (m : Moment) : Rat := m.seconds + m.fraction

structure Moment.Valid (m : Moment) : Prop where
  year : 1 ≤ m.year ∧ m.year ≤ 9999
  month : 1 ≤ m.month ∧ m.month ≤ 12
  day : 1 ≤ m.day ∧ m.day ≤ monthDays m.year m.month
  hour : m.hour ≤ 23
  minute : m.minute ≤ 59
  second : m.second ≤ 59
  frac : ∀ c ∈ m.frac, ∃ n < 10, c = digit n

/-- Time zone designators, with the minutes to be added to get UTC. -/
inductive Zone : Str → Int → Prop
  | utc : Zone ['Z'] 0
  | east {h m : Nat} (hh : h ≤ 99) (hm : m ≤ 59) : Zone ('+' :: (two h ++ ':' :: two m)) (-(h * 60 + m : Nat))
  | west {h m : Nat} (hh : h ≤ 99) (hm : m ≤ 59) : Zone ('-' :: (two h ++ ':' :: two m)) (h * 60 + m : Nat)

/-- The six formats of the note. -/
inductive Text : Str → Moment → Prop
  | year (y : Nat) : Text (four y) ⟨y, 1, 1, 0, 0, 0, [], 0⟩
  | month (y mo : Nat) : Text (four y ++ '-' :: two mo) ⟨y, mo, 1, 0, 0, 0, [], 0⟩
  | day (y mo d : Nat) : Text (four y ++ '-' :: (two mo ++ '-' :: two d)) ⟨y, mo, d, 0, 0, 0, [], 0⟩
  | minutes (y mo d h mi : Nat) {z : Str} {off : Int} (hz : Zone z off) :
      Text (four y ++ '-' :: (two mo ++ '-' :: (two d ++ 'T' :: (two h ++ ':' :: (two mi ++ z)))))
        ⟨y, mo, d, h, mi, 0, [], off⟩
  | seconds (y mo d h mi s : Nat) {z : Str} {off : Int} (hz : Zone z off) :
      Text (four y ++ '-' :: (two mo ++ '-' :: (two d ++ 'T' :: (two h ++ ':' :: (two mi ++ ':' :: (two s ++ z))))))
        ⟨y, mo, d, h, mi, s, [], off⟩
  | fraction (y mo d h mi s : Nat) {f : Str} (hf : f ≠ []) {z : Str} {off : Int} (hz : Zone z off) :
      Text (four y ++ '-' :: (two mo ++ '-' :: (two d ++ 'T' :: (two h ++ ':' :: (two mi ++ ':' :: (two s ++ '.' :: (f ++ z)))))))
        ⟨y, mo, d, h, mi, s, f, off⟩

end Verif.Util.Spec
