import Verif.XPath.Num

/-
`format-number()`: the C function behind it, lib/xslt/functions/src/decimal_format.c.  A pattern
is parsed (parse_pattern, 220-469), the number is printed and rounded (parse_number, 471-533),
its digits are laid out (format_number, 535-613) and put between a prefix and a suffix
(decimal_format, 634-790).

Python `unicode` strings are lists of characters.  What C leaves undefined is `Out.undefined`,
except for the bytes in front of the digit array: the rounding loop may read and write them; they
are not part of the model, which only records that the loop got there (the second argument of
`Out.text`).
-/
namespace Verif.Decimal
open Verif Verif.XPath

/-- `DecimalFormatSymbols` and the two strings that go with it (decimal_format.c:75-84,
158-213). -/
structure Symbols where
  decimal : Char
  grouping : Char
  minus : Char
  percent : Char
  perMille : Char
  zero : Char
  digit : Char
  sep : Char
  infinity : Str
  nan : Str

/-- The symbols used without an `xsl:decimal-format` (decimal_format.c:661-671). -/
def defaultSymbols : Symbols :=
  { decimal := '.', grouping := ',', minus := '-', percent := '%', perMille := '‰', zero := '0',
    digit := '#', sep := ';', infinity := s!! "Infinity", nan := s!! "NaN" }

/-- `QUOTE` (decimal_format.c:44). -/
def quote : Char := '\''

/-- The phases of the parser (decimal_format.c:215-217). -/
inductive Phase
  | «prefix» | «pattern» | «suffix»
  deriving DecidableEq, Repr

/-- The variables of `parse_pattern` (decimal_format.c:223-262).  `buf` is the memory of the
pattern string, which the function writes to; the pointers are indexes in it.  `decimalPos` and
`groupingCount` are `none` for -1, `prefixEnd` for NULL.  `skip` says that the next character was
already consumed (`pos++` at 271, 299).  The comparison of the two subpatterns (369-370) is left
out: `phaseOneStart` is set in the second subpattern itself, so that the character is compared
with itself. -/
structure PSt where
  buf : Str
  pos : Nat
  phase : Phase := .prefix
  inQuote : Bool := false
  skip : Bool := false
  decimalPos : Option Nat := none
  multiplier : Nat := 1
  left : Nat := 0
  zeros : Nat := 0
  right : Nat := 0
  groupingCount : Option Nat := none
  affix : Nat
  prefixEnd : Option Nat := none
  suffix : Nat
  suffixEnd : Nat

/-- The four characters of the number part of a pattern (decimal_format.c:281-284). -/
def Symbols.special (sy : Symbols) (c : Char) : Bool :=
  c == sy.digit || c == sy.zero || c == sy.grouping || c == sy.decimal

/-- `*affix++ = ch` (decimal_format.c:272, 300, 330) and the end of the round of the loop. -/
def PSt.put (st : PSt) (c : Char) : PSt :=
  { st with buf := st.buf.set st.affix c, affix := st.affix + 1, pos := st.pos + 1 }

/-- `if (groupingCount >= 0 && decimalPos < 0) groupingCount++` (decimal_format.c:350-351,
356-357). -/
def PSt.countGroup (st : PSt) : Option Nat :=
  match st.groupingCount, st.decimalPos with
  | some n, none => some (n + 1)
  | g, _ => g

/-- The pattern phase on one of the four characters (decimal_format.c:333-366; 372-377 for the
second subpattern, where nothing is counted). -/
def numberStep (sy : Symbols) (inPositive : Bool) (st : PSt) (c : Char) : Except Str PSt :=
  if !inPositive then .ok { st with pos := st.pos + 1 }
  else if c = sy.digit then
    .ok { st with
      right := if st.zeros > 0 then st.right + 1 else st.right
      left := if st.zeros > 0 then st.left else st.left + 1
      groupingCount := st.countGroup
      pos := st.pos + 1 }
  else if c = sy.zero then
    if st.right > 0 then .error (s!! "unexpected zero digit")
    else .ok { st with zeros := st.zeros + 1, groupingCount := st.countGroup, pos := st.pos + 1 }
  else if c = sy.grouping then .ok { st with groupingCount := some 0, pos := st.pos + 1 }
  else if st.decimalPos.isSome then .error (s!! "multiple decimal separators")
  else .ok { st with decimalPos := some (st.left + st.zeros + st.right), pos := st.pos + 1 }

/-- What the prefix and suffix phases do with a character that does not start the pattern phase:
go on, or stop at a pattern separator. -/
inductive Act
  | next (st : PSt)
  | sep (st : PSt)

/-- The prefix and suffix phases (decimal_format.c:263-331); `nextc` is the character that
follows. -/
def affixStep (sy : Symbols) (inPositive : Bool) (st : PSt) (c : Char) (nextc : Option Char) :
    Except Str Act :=
  if st.inQuote then
    if c = quote then
      if nextc = some quote then .ok (.next { st.put c with skip := true })
      else .ok (.next { st with inQuote := false, pos := st.pos + 1 })
    else .ok (.next (st.put c))
  else if c = quote then
    if nextc = some quote then .ok (.next { st.put c with skip := true })
    else .ok (.next { st with inQuote := true, pos := st.pos + 1 })
  else if c = sy.sep then
    if st.phase = .prefix || !inPositive then .error (s!! "too many pattern separators")
    else .ok (.sep { st with suffixEnd := st.affix, pos := st.pos + 1 })
  else if c = sy.percent then
    if st.multiplier ≠ 1 then .error (s!! "too many percent/permille symbols")
    else .ok (.next { st.put c with multiplier := 100 })
  else if c = sy.perMille then
    if st.multiplier ≠ 1 then .error (s!! "too many percent/permille symbols")
    else .ok (.next { st.put c with multiplier := 1000 })
  else .ok (.next (st.put c))

/-- A round of the loop over a subpattern (decimal_format.c:264-386).  A character that is
reprocessed after a change of phase (`pos--`) is handed to the new phase at once. -/
def step (sy : Symbols) (inPositive : Bool) (st : PSt) (c : Char) (nextc : Option Char) :
    Except Str Act :=
  if st.skip then .ok (.next { st with skip := false, pos := st.pos + 1 })
  else if st.phase = .pattern then
    if sy.special c then (numberStep sy inPositive st c).map .next
    else affixStep sy inPositive { st with suffix := st.pos, affix := st.pos, phase := .suffix }
      c nextc
  else if !st.inQuote && sy.special c then
    (numberStep sy inPositive { st with prefixEnd := some st.affix, phase := .pattern } c).map .next
  else affixStep sy inPositive st c nextc

/-- The loop over the characters of a subpattern (decimal_format.c:263-387): the state at its end
and, after a separator, the rest of the pattern.  The characters are read from the list of what
is still unread: the loop only writes before the character it reads. -/
def loop (sy : Symbols) (inPositive : Bool) : Str → PSt → Except Str (PSt × Option Str)
  | [], st => .ok (st, none)
  | c :: rest, st =>
    match step sy inPositive st c rest.head? with
    | .error e => .error e
    | .ok (.next st') => loop sy inPositive rest st'
    | .ok (.sep st') => .ok (st', some rest)

/-- Patterns without a `0` (decimal_format.c:400-407).  The differences are not negative:
`decimalPos` is at most `digitLeftCount` there, which is positive. -/
def adjust (st : PSt) : PSt :=
  match st.decimalPos with
  | some p =>
    if st.zeros = 0 ∧ st.left > 0 then
      let n := if p = 0 then 1 else p
      { st with right := st.left - n, left := n - 1, zeros := 1 }
    else st
  | none => st

/-- The syntax check on the digits (decimal_format.c:410-414). -/
def malformed (st : PSt) : Bool :=
  (match st.decimalPos with
   | none => st.right > 0
   | some p => p < st.left || p > st.left + st.zeros) ||
  st.groupingCount == some 0 || st.inQuote

/-- The text between two pointers into the pattern. -/
def slice (buf : Str) (i j : Nat) : Str := (buf.drop i).take (j - i)

/-- `PatternParts` (decimal_format.c:49-54): a prefix, `none` when its end is the NULL pointer,
and a suffix.  An affix of no characters is the NULL pointer. -/
structure Parts where
  «prefix» : Option Str
  «suffix» : Str

/-- `FormatInfo` (decimal_format.c:61-73), without `maxIntegerDigits`, which is always 309.
`grouping` is 0 without grouping.  `negative` are the parts of the second subpattern. -/
structure Info where
  positive : Parts
  negative : Option Parts
  minInt : Nat
  minFrac : Nat
  maxFrac : Nat
  grouping : Nat
  showPoint : Bool
  multiplier : Nat

/-- The parts of a subpattern that starts at `start` (decimal_format.c:419-426, 447-454). -/
def parts (buf : Str) (start : Nat) (st : PSt) : Parts :=
  { «prefix» := st.prefixEnd.map (slice buf start), «suffix» := slice buf st.suffix st.suffixEnd }

/-- `DOUBLE_INTEGER_DIGITS` (decimal_format.c:46). -/
def maxInt : Nat := 309

/-- What is recorded for the first subpattern (decimal_format.c:416-445). -/
def record (st : PSt) (pos : Parts) (neg : Option Parts) : Info :=
  let total := st.left + st.zeros + st.right
  let eff := st.decimalPos.getD total
  { positive := pos
    negative := neg
    minInt := eff - st.left
    maxFrac := match st.decimalPos with | some p => total - p | none => 0
    minFrac := match st.decimalPos with | some p => st.left + st.zeros - p | none => 0
    grouping := st.groupingCount.getD 0
    showPoint := match st.decimalPos with | some p => p == 0 || p == total | none => false
    multiplier := st.multiplier }

/-- The variables at the start of a subpattern (decimal_format.c:229-262). -/
def start (buf : Str) (pos : Nat) : PSt :=
  { buf := buf, pos := pos, affix := pos, suffix := buf.length, suffixEnd := buf.length }

/-- One subpattern: the loop, the interpretation of patterns without `0` and the check. -/
def subpattern (sy : Symbols) (inPositive : Bool) (buf : Str) (pos : Nat) (s : Str) :
    Except Str (PSt × Option Str) :=
  match loop sy inPositive s (start buf pos) with
  | .error e => .error e
  | .ok (st, rest) =>
    if malformed (adjust st) then .error (s!! "malformed pattern") else .ok (adjust st, rest)

/-- `parse_pattern` (decimal_format.c:220-469): what it records and the pattern string as it
leaves it.  (After an error the model forgets what was written to it.) -/
def parsePattern (sy : Symbols) (pat : Str) : Except Str (Info × Str) :=
  match subpattern sy true pat 0 pat with
  | .error e => .error e
  | .ok (st, none) => .ok (record st (parts st.buf 0 st) none, st.buf)
  | .ok (st, some rest) =>
    match subpattern sy false st.buf st.pos rest with
    | .error e => .error e
    | .ok (st2, _) =>
      .ok (record st (parts st2.buf 0 st) (some (parts st2.buf st.pos st2)), st2.buf)

/-! ### The number -/

/-- The last `w` decimal digits of a number. -/
def lastDigits : Nat → Nat → List Nat
  | 0, _ => []
  | w + 1, n => lastDigits w (n / 10) ++ [n % 10]

/-- C `printf("%.*f", prec, d)`: the exact value of the double, rounded correctly to `prec`
digits after the point. -/
def printF (prec : Nat) : Dbl → Str
  | .nan => s!! "nan"
  | .pinf => s!! "inf"
  | .ninf => s!! "-inf"
  | .nzero => s!! "-0." ++ List.replicate prec '0'
  | .fin q =>
    let n := roundHalfEven (q.abs * (10 : Rat) ^ prec)
    (if q < 0 then ['-'] else []) ++ decimal (n / 10 ^ prec) ++ '.' ::
      (lastDigits prec n).map digitChar

/-- `DOUBLE_FRACTION_DIGITS` (decimal_format.c:47). -/
def bufSize : Nat := 340

/-- `DigitList` (decimal_format.c:55-59) and the variables of the loop that fills it. -/
structure Scan where
  digits : List Int := []
  decimalAt : Int := -1
  nonZero : Bool := false
  zerosSkipped : Nat := 0

/-- A round of the loop that takes the printed number apart (decimal_format.c:487-500). -/
def scanStep (s : Scan) (c : Char) : Scan :=
  if c = '.' then { s with decimalAt := s.digits.length, zerosSkipped := 0 }
  else
    let s1 := if s.nonZero then s
      else { s with nonZero := c != '0', zerosSkipped := s.zerosSkipped + 1 }
    if s1.nonZero then { s1 with digits := s1.digits ++ [(c.toNat : Int) - '0'.toNat] } else s1

/-- The loop and the correction after it (decimal_format.c:485-504). -/
def scan (s : Str) : Scan :=
  let r := s.foldl scanStep {}
  if r.zerosSkipped ≠ 0 then { r with decimalAt := r.decimalAt - (r.zerosSkipped - 1) } else r

/-- Carrying one into the digits, last digit first (decimal_format.c:512-520), and whether the
carry leaves the array. -/
def carry : List Int → List Int × Bool
  | [] => ([], true)
  | d :: ds => if d = 9 then (0 :: (carry ds).1, (carry ds).2) else ((d + 1) :: ds, false)

/-- Rounding on the last digit, and its removal (decimal_format.c:506-525).  Without any digit the
loop reads the byte in front of the array. -/
def roundLast (ds : List Int) : List Int × Bool :=
  match ds.reverse with
  | [] => ([], true)
  | d :: r => if d ≥ 5 then ((carry r).1.reverse, (carry r).2) else (r.reverse, false)

/-- The number of digits without trailing zeros (decimal_format.c:527-532). -/
def trim (ds : List Int) (decimalAt : Int) : Nat → Nat
  | 0 => 0
  | c + 1 =>
    if (c : Int) > decimalAt then
      if ds[c]? = some 0 then trim ds decimalAt c else c + 1
    else c + 1

/-- `parse_number` (decimal_format.c:471-533): the digits, the position of the point, and whether
a byte outside the array was touched. -/
def parseNumber (d : Dbl) (maxFrac : Nat) : List Int × Int × Bool :=
  let s := scan (printF (maxFrac + 1) d)
  let r := roundLast s.digits
  (r.1.take (trim r.1 s.decimalAt r.1.length), s.decimalAt, r.2)

/-- The character of a digit (decimal_format.c:562). -/
def Symbols.dig (sy : Symbols) (d : Int) : Char := Char.ofNat (sy.zero.toNat + d).toNat

/-- The digit written at place `i` of the integer part, and the digits left
(decimal_format.c:560-565). -/
def intDigit (sy : Symbols) (decimalAt : Int) (i : Nat) (ds : List Int) : Char × List Int :=
  match ds with
  | d :: ds' => if (i : Int) < decimalAt then (sy.dig d, ds') else (sy.zero, ds)
  | [] => (sy.zero, [])

/-- The integer part (decimal_format.c:559-574): `i` counts down, the digits are consumed. -/
def intPart (sy : Symbols) (info : Info) (decimalAt : Int) : Nat → List Int → Str × List Int
  | 0, ds => ([], ds)
  | i + 1, ds =>
    let here := intDigit sy decimalAt i ds
    let rest := intPart sy info decimalAt i here.2
    (here.1 :: (if i > 0 ∧ info.grouping ≠ 0 ∧ i % info.grouping = 0 then
      sy.grouping :: rest.1 else rest.1), rest.2)

/-- The fraction (decimal_format.c:592-611): `n` rounds are left, `i` are done. -/
def fracPart (sy : Symbols) (info : Info) (decimalAt : Int) : Nat → Nat → List Int → Str
  | 0, _, _ => []
  | n + 1, i, ds =>
    if i ≥ info.minFrac ∧ ds = [] then []
    else if -1 - (i : Int) > decimalAt - 1 then sy.zero :: fracPart sy info decimalAt n (i + 1) ds
    else
      match ds with
      | d :: ds' => sy.dig d :: fracPart sy info decimalAt n (i + 1) ds'
      | [] => sy.zero :: fracPart sy info decimalAt n (i + 1) []

/-- How many integer digits are written (decimal_format.c:547-557). -/
def intCount (info : Info) (decimalAt : Int) : Nat :=
  if decimalAt > 0 ∧ (info.minInt : Int) < decimalAt then decimalAt.toNat else info.minInt

/-- The integer part, the point and the fraction (decimal_format.c:559-611). -/
def layout (sy : Symbols) (info : Info) (digits : List Int) (decimalAt : Int) (count : Nat) : Str :=
  let r := intPart sy info decimalAt count digits
  let present := decide (info.minFrac > 0) || !r.2.isEmpty
  let ip := if !present && r.1.isEmpty then [sy.zero] else r.1
  ip ++ (if info.showPoint || present then [sy.decimal] else []) ++
    fracPart sy info decimalAt info.maxFrac 0 r.2

/-- `format_number` (decimal_format.c:535-613): the text and whether a byte outside the digit
array was touched; `none` when the text or the printed number does not fit its buffer, or when
`digitIndex` gets negative (556). -/
def formatNumber (sy : Symbols) (info : Info) (d : Dbl) : Option (Str × Bool) :=
  let r := parseNumber d info.maxFrac
  let count := intCount info r.2.1
  let text :=
    if count > maxInt then layout sy info (r.1.drop (r.2.1 - maxInt).toNat) r.2.1 maxInt
    else layout sy info r.1 r.2.1 count
  if (printF (info.maxFrac + 1) d).length ≥ bufSize ∨ text.length > 2 * bufSize ∨
      (count > maxInt ∧ r.2.1 < maxInt) then none
  else some (text, r.2.2)

/-! ### The function -/

/-- What `decimal_format` does: return a string (and whether a byte in front of the digits was
read or written), raise SyntaxError, or run into undefined behaviour. -/
inductive Out
  | text (s : Str) (outside : Bool)
  | syntaxError (msg : Str)
  | undefined
  deriving DecidableEq, Repr

/-- C `-d`. -/
def negD : Dbl → Dbl
  | .nan => .nan
  | .pinf => .ninf
  | .ninf => .pinf
  | .nzero => .fin 0
  | .fin q => if q = 0 then .nzero else .fin (-q)

/-- C `number < 0.0`; the second half of the test (decimal_format.c:714) compares the value of
`&&`, 0 or 1, with zero and is always false. -/
def isNegative : Dbl → Bool
  | .ninf => true
  | .fin q => q < 0
  | _ => false

/-- C `number *= multiplier` (decimal_format.c:746-747). -/
def scale (R : Rounding) (m : Nat) (d : Dbl) : Dbl :=
  if m = 1 then d
  else match d with
    | .fin q => if q = 0 then .fin 0 else R.rnd (q * (m : Rat))
    | d => d

/-- The prefix and suffix for a negative number (decimal_format.c:718-737).  Without those of a
second subpattern they point into a copy of the pattern with a minus sign in front: the size of
the prefix is 1, and a prefix of the pattern moves the pointer behind the sign; the size of the
suffix is 0. -/
def negativeParts (sy : Symbols) (info : Info) (buf : Str) : Parts :=
  match info.negative with
  | some n =>
    if n.prefix = some [] ∧ n.suffix = [] then implied else n
  | none => implied
where
  implied : Parts :=
    { «prefix» := match info.positive.prefix with
        | some [] => some [sy.minus]
        | _ => some (buf.take 1)
      «suffix» := [] }

/-- The number between the affixes (decimal_format.c:739-779). -/
def assemble (sy : Symbols) (R : Rounding) (info : Info) (p : Parts) (d : Dbl) : Out :=
  match p.prefix with
  | none => .undefined
  | some pre =>
    match d with
    | .pinf => .text (pre ++ sy.infinity ++ p.suffix) false
    | d =>
      match formatNumber sy info (scale R info.multiplier d) with
      | none => .undefined
      | some (t, o) => .text (pre ++ t ++ p.suffix) o

/-- `decimal_format` (decimal_format.c:634-790): what it does and the pattern string as it leaves
it. -/
def decimalFormat (R : Rounding) (sy : Symbols) (d : Dbl) (pat : Str) : Out × Str :=
  if d = .nan then (.text sy.nan false, pat)
  else if pat = [] then (.syntaxError (s!! "missing integer portion"), pat)
  else
    match parsePattern sy pat with
    | .error e => (.syntaxError e, pat)
    | .ok (info, buf) =>
      if isNegative d then (assemble sy R info (negativeParts sy info buf) (negD d), buf)
      else (assemble sy R info info.positive d, buf)

end Verif.Decimal
