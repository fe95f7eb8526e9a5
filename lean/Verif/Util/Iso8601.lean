import Verif.Py
import Verif.XPath.Num
import Verif.Xslt.Numbers

/-
lib/lib/iso8601.py.

Times are whole numbers of seconds or, in `tostring`, rationals (the values of floats).  The functions of
Python's `time` module are modelled by the Gregorian calendar.  The machine's time zone is its offset
`zone` (`time.timezone`, seconds west of UTC); since the code always passes 0 for the daylight saving flag,
`mktime` uses this offset.
-/
namespace Verif.Util
open Verif
open Verif.XPath (Rounding Dbl)

/-! Regular expressions -/

/-- The group names of the regular expressions (iso8601.py:101-109). -/
inductive Grp
  | year | dsep | julian | month | day | hours | tsep | minutes | seconds | tzd | tzdhours | tzdminutes
  deriving DecidableEq, Repr

/-- The regular expressions used here. -/
inductive Re
  | empty
  | chr (p : Char → Bool)
  | seq (a b : Re)
  | alt (a b : Re)
  | opt (a : Re)
  | grp (g : Grp) (a : Re)
  | ref (g : Grp)
  | digits

abbrev Groups := List (Grp × Str)

/-- `\d`, without the flag `re.UNICODE`. -/
def isDigit (c : Char) : Bool := decide ('0' ≤ c) && decide (c ≤ '9')

/-- All matches of `\d+`, the longest first. -/
def digitRuns : Nat → Str → List Str
  | 0, _ => []
  | n + 1, s => s.drop (n + 1) :: digitRuns n s

/-- The matches at the start of a string in the order in which Python's backtracking matcher finds them:
the rest of the string and the groups. -/
def Re.run : Re → Str → Groups → List (Str × Groups)
  | .empty, s, g => [(s, g)]
  | .chr _, [], _ => []
  | .chr p, c :: cs, g => if p c then [(cs, g)] else []
  | .seq a b, s, g => (a.run s g).flatMap fun r => b.run r.1 r.2
  | .alt a b, s, g => a.run s g ++ b.run s g
  | .opt a, s, g => a.run s g ++ [(s, g)]
  | .grp n a, s, g => (a.run s g).map fun r => (r.1, (n, s.take (s.length - r.1.length)) :: r.2)
  | .ref n, s, g => match g.lookup n with
    | none => []
    | some t => if t.isPrefixOf s then [(s.drop t.length, g)] else []
  | .digits, s, g => (digitRuns (s.takeWhile isDigit).length s).map fun r => (r, g)

/-- `m = rx.match(s)`, followed by the test `m is None or m.group() != s`: the groups of a match of all of
`s`, if the first match is one. -/
def Re.fullmatch (r : Re) (s : Str) : Option Groups :=
  match r.run s [] with
  | ([], g) :: _ => some g
  | _ => none

def lit (c : Char) : Re := .chr (· == c)
def d1 : Re := .chr isDigit
def d2 : Re := .seq d1 d1
def d3 : Re := .seq d1 d2

/-- `__date_re` (iso8601.py:101-104). -/
def dateRe : Re :=
  .seq (.grp .year (.seq d2 d2))
    (.opt (.seq (.grp .dsep (.alt (lit '-') .empty))
      (.alt (.grp .julian d3)
        (.seq (.grp .month d2) (.opt (.seq (.ref .dsep) (.grp .day d2)))))))

/-- `__tzd_re` (iso8601.py:105). -/
def tzdRe : Re :=
  .grp .tzd (.alt (.seq (.chr fun c => c == '-' || c == '+') (.seq (.grp .tzdhours d2)
      (.seq (.opt (lit ':')) (.grp .tzdminutes d2))))
    (lit 'Z'))

/-- `__time_re` (iso8601.py:107-109). -/
def timeRe : Re :=
  .seq (.grp .hours d2) (.seq (.grp .tsep (.alt (lit ':') .empty)) (.seq (.grp .minutes d2)
    (.seq (.opt (.seq (.ref .tsep) (.grp .seconds (.seq d2 (.opt (.seq (.chr fun c => c == '.' || c == ',') .digits))))))
      tzdRe)))

/-- `__datetime_re` (iso8601.py:111). -/
def datetimeRe : Re := .seq dateRe (.opt (.seq (lit 'T') timeRe))

/-! The calendar -/

def isLeap (y : Int) : Bool := decide (y % 4 = 0) && (decide (y % 100 ≠ 0) || decide (y % 400 = 0))

def yearLen (y : Int) : Int := if isLeap y then 366 else 365

/-- Days from 0001-01-01 to the first day of a year. -/
def daysBeforeYear (y : Int) : Int := 365 * (y - 1) + (y - 1) / 4 - (y - 1) / 100 + (y - 1) / 400

def monthLens (leap : Bool) : List Int := [31, if leap then 29 else 28, 31, 30, 31, 30, 31, 31, 30, 31, 30, 31]

/-- Days from the first day of a year to the first day of its month `m + 1`. -/
def daysBeforeMonth (leap : Bool) (m : Nat) : Int := ((monthLens leap).take m).foldr (· + ·) 0

/-- 1970-01-01 -/
def epochDay : Int := 719162

/-- C `timegm`, for a month from 1 to 12. -/
def timegm (y mo d h mi s : Int) : Int :=
  (daysBeforeYear y + daysBeforeMonth (isLeap y) (mo - 1).toNat + (d - 1) - epochDay) * 86400 + h * 3600 + mi * 60 + s

inductive DtExc | valueError | diverges
  deriving DecidableEq, Repr

/-- Python's `time.mktime((y, mo, d, h, mi, s, 0, 0, 0))`: two-digit years are completed, years from 100 to
1899 are refused (Python 2's `gettmarg`), the month is normalised.  Simplification: results for which the C
library fails are not modelled. -/
def mktime (zone y mo d h mi s : Int) : Except DtExc Int :=
  if 100 ≤ y ∧ y < 1900 then .error .valueError
  else
    let y := if y < 69 then y + 2000 else if y < 100 then y + 1900 else y
    .ok (timegm (y + (mo - 1) / 12) ((mo - 1) % 12 + 1) d h mi s + zone)

/-- Count years from a day number relative to the first day of the year `y`. -/
def yearLoop : Nat → Int → Int → Int × Int
  | 0, y, d => (y, d)
  | fuel + 1, y, d => if d < yearLen y then (y, d) else yearLoop fuel (y + 1) (d - yearLen y)

/-- Count months. -/
def monthLoop : List Int → Int → Int → Int × Int
  | [], m, d => (m, d)
  | l :: ls, m, d => if d < l then (m, d) else monthLoop ls (m + 1) (d - l)

/-- `time.gmtime(t)`, for a time from the year 1 on. -/
structure Tm where
  year : Int
  mon : Int
  day : Int
  hour : Int
  min : Int
  sec : Int
  yday : Int
  deriving DecidableEq, Repr

def gmtime (t : Int) : Tm :=
  let days := t / 86400 + epochDay
  let secs := t % 86400
  let (y, yd) := yearLoop days.toNat 1 days
  let (m, md) := monthLoop (monthLens (isLeap y)) 1 yd
  ⟨y, m, md + 1, secs / 3600, secs % 3600 / 60, secs % 60, yd + 1⟩

/-! Parsing -/

/-- `int(s)` for a string of digits. -/
def toInt (s : Str) : Int := s.foldl (fun n c => 10 * n + ((c.toNat - '0'.toNat : Nat) : Int)) 0

/-- The loop of `__find_julian` (iso8601.py:190-204). -/
def julianLoop (zone year julian : Int) : Nat → Int → Int → Except DtExc (Int × Int)
  | 0, _, _ => .error .diverges
  | fuel + 1, month, day =>
    match mktime zone year month day 0 0 0 with
    | .error e => .error e
    | .ok t =>
      let jday := (gmtime t).yday
      let diff : Int := (jday - julian).natAbs
      if jday = julian then .ok (month, day)
      else if jday > julian then
        if diff < day then julianLoop zone year julian fuel month (day - diff)
        else julianLoop zone year julian fuel (month - 1) 31
      else if day + diff < 28 then julianLoop zone year julian fuel month (day + diff)
      else julianLoop zone year julian fuel (month + 1) day

/-- `__extract_date` (iso8601.py:117-138, 186-189, 205).  `fuel` bounds the turns of `__find_julian`. -/
def extractDate (fuel : Nat) (zone : Int) (g : Groups) : Except DtExc (Int × Int × Int) :=
  let year := toInt ((g.lookup .year).getD [])
  match g.lookup .julian with
  | some j =>
    let julian := toInt j
    match julianLoop zone year julian fuel (julian / 30 + 1) (julian % 30 + 1) with
    | .ok (m, d) => .ok (year, m, d)
    | .error e => .error e
  | none =>
    match g.lookup .month with
    | none => .ok (year, 1, 1)
    | some m =>
      let month := toInt m
      if 1 ≤ month ∧ month ≤ 12 then
        match g.lookup .day with
        | none => .ok (year, month, 1)
        | some d =>
          let day := toInt d
          if 1 ≤ day ∧ day ≤ 31 then .ok (year, month, day) else .error .valueError
      else .error .valueError

/-- `int(float(seconds))`, and the test of its range before the truncation (iso8601.py:155-159).  A comma
makes `float` raise ValueError. -/
def extractSeconds (R : Rounding) (s : Str) : Except DtExc Int :=
  let ip := s.takeWhile isDigit
  let frac := s.dropWhile isDigit
  let q : Except DtExc Rat := match frac with
    | [] => .ok (toInt ip : Rat)
    | '.' :: fs => .ok ((toInt ip : Rat) + (toInt fs : Rat) / 10 ^ fs.length)
    | _ => .error .valueError
  match q with
  | .error e => .error e
  | .ok q => match R.rnd q with
    | .fin v => if 0 ≤ v ∧ v ≤ 60 then .ok v.floor else .error .valueError
    | .nzero => .ok 0
    | _ => .error .valueError

/-- `__extract_time` (iso8601.py:141-162). -/
def extractTime (R : Rounding) (g : Groups) : Except DtExc (Int × Int × Int) :=
  match g.lookup .hours with
  | none => .ok (0, 0, 0)
  | some h =>
    let hours := toInt h
    if 0 ≤ hours ∧ hours ≤ 23 then
      let minutes := toInt ((g.lookup .minutes).getD [])
      if 0 ≤ minutes ∧ minutes ≤ 59 then
        match g.lookup .seconds with
        | none => .ok (hours, minutes, 0)
        | some s => match extractSeconds R s with
          | .error e => .error e
          | .ok s => .ok (hours, minutes, s)
      else .error .valueError
    else .error .valueError

/-- `__extract_tzd` (iso8601.py:165-183). -/
def extractTzd (g : Groups) : Int :=
  match g.lookup .tzd with
  | none => 0
  | some tzd =>
    if tzd = ['Z'] then 0
    else
      let hours := toInt ((g.lookup .tzdhours).getD [])
      let minutes := toInt ((g.lookup .tzdminutes).getD [])
      let offset := (hours * 60 + minutes) * 60
      if tzd.head? = some '+' then -offset else offset

/-- `parse` (iso8601.py:33-40). -/
def parse (R : Rounding) (fuel : Nat) (zone : Int) (s : Str) : Except DtExc Int :=
  match datetimeRe.fullmatch s with
  | none => .error .valueError
  | some g =>
    match extractDate fuel zone g with
    | .error e => .error e
    | .ok (y, mo, d) =>
      match extractTime R g with
      | .error e => .error e
      | .ok (h, mi, s) =>
        match mktime zone y mo d h mi s with
        | .error e => .error e
        | .ok t => .ok (t + extractTzd g - zone)

/-- `parse_timezone` (iso8601.py:43-51). -/
def parseTimezone (s : Str) : Except DtExc Int :=
  match tzdRe.fullmatch s with
  | none => .error .valueError
  | some g => .ok (extractTzd g)

/-! Formatting -/

/-- `'%0*d' % (width, n)`: the sign counts for the width. -/
def padZero (width : Nat) (n : Int) : Str :=
  if n < 0 then '-' :: Xslt.zeroPad (width - 1) n.natAbs else Xslt.zeroPad width n.natAbs

/-- `'%4d' % n`. -/
def pad4 (n : Int) : Str :=
  let s := XPath.decimalInt n
  List.replicate (4 - s.length) ' ' ++ s

/-- The time zone specifier (iso8601.py:67-74). -/
def tzspecifier (timezone : Int) : Str :=
  if timezone = 0 then ['Z']
  else
    let sign := if timezone < 0 then '+' else '-'
    let a : Int := timezone.natAbs
    sign :: padZero 2 (a / 3600) ++ ':' :: padZero 2 (a % 3600 / 60)

/-- `int(t)`: truncation. -/
def trunc (t : Rat) : Int := if t < 0 then -((-t).floor) else t.floor

/-- Python 2's `int(round(x))`: halves away from zero. -/
def roundAway (x : Rat) : Int := if x < 0 then -((-x + 1 / 2).floor) else (x + 1 / 2).floor

/-- `tostring` (iso8601.py:54-89) for a number of seconds.  In line 76, `timezone` is the absolute value from
line 69.  Simplification: `psecs * 100` is not rounded. -/
def tostring (t : Rat) (timezone : Int) : Str :=
  let tz := tzspecifier timezone
  let abs : Int := timezone.natAbs
  let psecs := t - trunc t
  let tm := gmtime (trunc t - abs)
  let date := pad4 tm.year ++ '-' :: padZero 2 tm.mon ++ '-' :: padZero 2 tm.day ++ 'T' :: padZero 2 tm.hour
    ++ ':' :: padZero 2 tm.min
  if tm.sec ≠ 0 ∨ psecs ≠ 0 then
    if psecs ≠ 0 then date ++ ':' :: padZero 2 tm.sec ++ '.' :: padZero 2 (roundAway (psecs * 100)) ++ tz
    else date ++ ':' :: padZero 2 tm.sec ++ tz
  else date ++ tz

end Verif.Util
