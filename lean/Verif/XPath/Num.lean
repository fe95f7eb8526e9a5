import Verif.Py

/-
XPath numbers (lib/xpath/src/datatypes.c).

IEEE 754 doubles are modelled by their values: NaN, the two infinities, negative
zero and `fin q` for the rational number `q` (`fin 0` is positive zero).  The
model does not restrict `q` to the finite set of representable values; wherever
the C code computes a double from exact operands (`+`, `*`, decimal-to-binary
conversion ...) the model computes the exact rational and passes it to a
rounding function `rnd`, which is a parameter of the model (`Rounding`): the
theorems hold for every rounding function that leaves representable values
alone, so in particular for round-to-nearest-even.
-/
namespace Verif.XPath
open Verif

/-- The value of a C `double`. `fin 0` is +0.0, `nzero` is -0.0. -/
inductive Dbl
  | nan | ninf | pinf | nzero
  | fin (q : Rat)
  deriving DecidableEq, Repr

namespace Dbl

/-- The exact value as a rational, for finite doubles. -/
def toRat? : Dbl → Option Rat
  | nzero => some 0
  | fin q => some q
  | _ => none

/-- C `isfinite(d)`. -/
def isFinite (d : Dbl) : Bool := d.toRat?.isSome

/-- C `a == b` on doubles. -/
def eq : Dbl → Dbl → Bool
  | nan, _ => false
  | _, nan => false
  | pinf, pinf => true
  | ninf, ninf => true
  | a, b => match a.toRat?, b.toRat? with
    | some p, some q => p = q
    | _, _ => false

/-- C `a < b` on doubles. -/
def lt : Dbl → Dbl → Bool
  | nan, _ => false
  | _, nan => false
  | pinf, _ => false
  | _, ninf => false
  | ninf, _ => true
  | _, pinf => true
  | a, b => match a.toRat?, b.toRat? with
    | some p, some q => p < q
    | _, _ => false

/-- C `a <= b` on doubles. -/
def le (a b : Dbl) : Bool := lt a b || eq a b

/-- C `-d`. -/
def neg : Dbl → Dbl
  | nan => nan
  | pinf => ninf
  | ninf => pinf
  | nzero => fin 0
  | fin q => if q = 0 then nzero else fin (-q)

end Dbl

/-- A rational that is the value of a double: `m * 2^e` with a 53-bit `m`. -/
def IsDouble (q : Rat) : Prop :=
  ∃ m e : Int, -(2 ^ 53) ≤ m ∧ m ≤ 2 ^ 53 ∧ -1074 ≤ e ∧ e ≤ 970 ∧ q = m * (2 : Rat) ^ e

/-- How the processor rounds an exact result to a double: any function that is the identity on
representable values and never returns a NaN. -/
structure Rounding where
  rnd : Rat → Dbl
  exact : ∀ q, IsDouble q → rnd q = Dbl.fin q
  notNan : ∀ q, rnd q ≠ Dbl.nan

/-- A `datatypes.number` object.  `String_New` (datatypes.c:181-186) recognises NaN and the
infinities by the identity of three static objects, so the model distinguishes these objects from
freshly allocated ones with the same value. -/
inductive XNum
  | sNaN | sPos | sNeg
  | obj (d : Dbl)
  deriving DecidableEq, Repr

/-- `PyFloat_AS_DOUBLE(v)`; the static objects get their values in datatypes.c:1811-1816. -/
def XNum.val : XNum → Dbl
  | .sNaN => .nan
  | .sPos => .pinf
  | .sNeg => .ninf
  | .obj d => d

/-- `_Number_New` (datatypes.c:258-274): any zero becomes the static positive zero. -/
def mkNumber (d : Dbl) : XNum := .obj (if d = .nzero then .fin 0 else d)

variable (R : Rounding)

/-- IEEE addition with the result rounded by `R`. -/
def addD : Dbl → Dbl → Dbl
  | .nan, _ => .nan
  | _, .nan => .nan
  | .pinf, .ninf => .nan
  | .ninf, .pinf => .nan
  | .pinf, _ => .pinf
  | _, .pinf => .pinf
  | .ninf, _ => .ninf
  | _, .ninf => .ninf
  | .nzero, .nzero => .nzero
  | .nzero, .fin q => .fin q
  | .fin p, .nzero => .fin p
  | .fin p, .fin q => R.rnd (p + q)

/-- `number_add` (datatypes.c:757-766). -/
def numberAdd (v w : XNum) : XNum := mkNumber (addD R v.val w.val)

/-- `number_sub` (datatypes.c:768-777); IEEE subtraction is addition of the negation. -/
def numberSub (v w : XNum) : XNum := mkNumber (addD R v.val w.val.neg)

/-- The sign of a double: `some true` if negative (including -0.0), `none` for NaN. -/
def signD : Dbl → Option Bool
  | .nan => none
  | .ninf => some true
  | .pinf => some false
  | .nzero => some true
  | .fin q => some (q < 0)

/-- IEEE multiplication with the result rounded by `R`. -/
def mulD (a b : Dbl) : Dbl :=
  match signD a, signD b with
  | some sa, some sb =>
    match a.toRat?, b.toRat? with
    | some p, some q => if p = 0 ∨ q = 0 then (if sa != sb then .nzero else .fin 0) else R.rnd (p * q)
    | some p, none => if p = 0 then .nan else if sa != sb then .ninf else .pinf
    | none, some q => if q = 0 then .nan else if sa != sb then .ninf else .pinf
    | none, none => if sa != sb then .ninf else .pinf
  | _, _ => .nan

/-- `number_mul` (datatypes.c:779-788). -/
def numberMul (v w : XNum) : XNum := mkNumber (mulD R v.val w.val)

/-- IEEE division by a divisor that is not a zero, rounded by `R`. -/
def divD (a b : Dbl) : Dbl :=
  match signD a, signD b with
  | some sa, some sb =>
    match a.toRat?, b.toRat? with
    | some p, some q => if p = 0 then (if sa != sb then .nzero else .fin 0) else R.rnd (p / q)
    | some _, none => if sa != sb then .nzero else .fin 0
    | none, some _ => if sa != sb then .ninf else .pinf
    | none, none => .nan
  | _, _ => .nan

/-- `handle_fpe` (datatypes.c:728-755): the result of dividing `v` by a zero. -/
def handleFpe (v : Dbl) : XNum :=
  if v.lt (.fin 0) then .sNeg
  else if (Dbl.fin 0).lt v then .sPos
  else .sNaN

/-- `number_classic_div` (datatypes.c:790-801), the `div` operator (compiled to BINARY_DIVIDE,
expressions/numbers.py:20-38).  Python's float division raises ZeroDivisionError for both zeros. -/
def numberDiv (v w : XNum) : XNum :=
  if w.val.eq (.fin 0) then handleFpe v.val else mkNumber (divD R v.val w.val)

/-- C `fmod(p, q)` on finite non-zero `q`: the remainder of truncated division (always exact). -/
def fmodQ (p q : Rat) : Rat :=
  let t := p / q
  p - q * (if t < 0 then (t.ceil : Rat) else (t.floor : Rat))

/-- C `fmod`. -/
def fmodD (a b : Dbl) : Dbl :=
  match a.toRat?, b with
  | _, .nan => .nan
  | none, _ => .nan
  | some _, .pinf => a
  | some _, .ninf => a
  | some p, b => match b.toRat? with
    | some q => if q = 0 then .nan else .fin (fmodQ p q)
    | none => .nan

/-- CPython 2 `float_rem` for a non-zero divisor: `mod = fmod(vx, wx); if (mod && ((wx < 0) != (mod
< 0))) mod += wx;`. -/
def pyMod (a b : Dbl) : Dbl :=
  let m := fmodD a b
  if m.eq (.fin 0) then m
  else if b.lt (.fin 0) != m.lt (.fin 0) then addD R m b
  else m

/-- `number_rem` (datatypes.c:803-818), the `mod` operator (compiled to BINARY_MODULO). -/
def numberRem (v w : XNum) : XNum :=
  if w.val.eq (.fin 0) then .sNaN else mkNumber (pyMod R v.val w.val)

/-- `number_neg` (datatypes.c:867-880), unary minus. -/
def numberNeg (v : XNum) : XNum :=
  if v.val.eq (.fin 0) then
    (if v.val = .nzero then .obj (.fin 0) else .obj .nzero)
  else mkNumber v.val.neg

/-- `number_isnormal` (datatypes.c:1013-1019): finite and not a zero. -/
def isNormal (v : XNum) : Bool := v.val.isFinite && !v.val.eq (.fin 0)

/-- `floor()` (functions/numbers.py:49-56). -/
def floorFn (v : XNum) : XNum :=
  if isNormal v then
    match v.val.toRat? with
    | some q => mkNumber (.fin q.floor)
    | none => v
  else v

/-- `ceiling()` (functions/numbers.py:65-72). -/
def ceilingFn (v : XNum) : XNum :=
  if isNormal v then
    match v.val.toRat? with
    | some q => mkNumber (.fin q.ceil)
    | none => v
  else v

/-- `round()` (functions/numbers.py:81-93): `math.ceil` if `arg % 1.0 == 0.5`, else `math.floor`. -/
def roundFn (v : XNum) : XNum :=
  if isNormal v then
    match v.val.toRat? with
    | some q =>
      if (numberRem R v (.obj (.fin 1))).val.eq (.fin (1 / 2)) then mkNumber (.fin q.ceil)
      else mkNumber (.fin q.floor)
    | none => v
  else v

/-- `sum()` (functions/numbers.py:36-40): Python `sum` starts from the integer 0 and adds from left
to right; the conversions of the nodes to numbers are the argument. -/
def sumFn (xs : List XNum) : XNum := xs.foldl (numberAdd R) (.obj (.fin 0))

/-! ### String to number -/

/-- XML white space (datatypes.c:283). -/
def isWs (c : Char) : Bool := c = ' ' || c = '\t' || c = '\r' || c = '\n'

/-- ASCII digits. -/
def isDigit (c : Char) : Bool := '0' ≤ c && c ≤ '9'

/-- An optional minus sign (datatypes.c:284) and what follows it. -/
def optMinus : Str → Bool × Str
  | [] => (false, [])
  | c :: r => if c = '-' then (true, r) else (false, c :: r)

/-- The digits after an optional point (datatypes.c:286-289) and what follows them. -/
def optFrac : Str → Str × Str
  | [] => ([], [])
  | c :: r => if c = '.' then (r.takeWhile isDigit, r.dropWhile isDigit) else ([], c :: r)

/-- The pointer walk of FROM_STRING (datatypes.c:282-291): what is left of the string. -/
def scanNumber (s : Str) : Str :=
  let p := (optMinus (s.dropWhile isWs)).2
  let p := (optFrac (p.dropWhile isDigit)).2
  p.dropWhile isWs

/-- The value of a string of digits. -/
def digitsVal (s : Str) : Nat := s.foldl (fun n c => 10 * n + (c.toNat - '0'.toNat)) 0

/-- Python's `ValueError` from `float()`. -/
inductive PyErr | valueError | overflowError
  deriving DecidableEq, Repr

/-- Python's `float(s)`, restricted to the strings `FROM_STRING` lets through: optional white
space, minus sign, digits and point.  Without any digit it raises ValueError, as it does on a NUL
character.  Simplification: other strings (signs `+`, exponents, `nan`, `inf`) never get here and
are not modelled. -/
def pyFloat (s : Str) : Except PyErr Dbl :=
  let (negative, p) := optMinus (s.dropWhile isWs)
  let ip := p.takeWhile isDigit
  let (fp, p) := optFrac (p.dropWhile isDigit)
  if p.dropWhile isWs ≠ [] then .error .valueError
  else if ip = [] ∧ fp = [] then .error .valueError
  else
    let q : Rat := digitsVal ip + mkRat (digitsVal fp) (10 ^ fp.length)
    .ok (R.rnd (if negative then -q else q))

/-- `Number_New` on a string (FROM_STRING, datatypes.c:276-304, 337-340).  The C string is
NUL-terminated: a NUL character ends the scan. -/
def numberOfString (s : Str) : Except PyErr XNum :=
  let rest := scanNumber s
  if rest.head?.any (· ≠ '\x00') ∨ rest.length = s.length then .ok .sNaN
  else match pyFloat R s with
    | .ok d => .ok (mkNumber d)
    | .error e => .error e

/-! ### Number to string -/

/-- The character of a decimal digit. -/
def digitChar (n : Nat) : Char := Char.ofNat ('0'.toNat + n)

/-- Decimal digits, least significant last; `fuel` bounds the recursion. -/
def decAux : Nat → Nat → Str
  | 0, _ => []
  | fuel + 1, n => if n < 10 then [digitChar n] else decAux fuel (n / 10) ++ [digitChar (n % 10)]

/-- Python's `unicode(n)` for `n >= 0`. -/
def decimal (n : Nat) : Str := decAux (n + 1) n

/-- Python's `unicode(n)` for an integer. -/
def decimalInt (n : Int) : Str := if n < 0 then '-' :: decimal n.natAbs else decimal n.natAbs

/-- Round a non-negative rational to an integer, ties to even (what `printf` does in the default
rounding mode). -/
def roundHalfEven (q : Rat) : Nat :=
  let f := q.floor
  let r := q - f
  let n := if r < 1 / 2 then f else if 1 / 2 < r then f + 1 else if f % 2 = 0 then f else f + 1
  n.toNat

/-- Remove trailing zeros. -/
def stripZeros (s : Str) : Str := (s.reverse.dropWhile (· = '0')).reverse

/-- The decimal exponent and the 12-digit significand of a positive rational: `q ≈ m * 10^(e-11)`
with `10^11 <= m < 10^12`. -/
def sig12 (q : Rat) : Nat × Int :=
  let n := (decimal q.num.natAbs).length
  let d := (decimal q.den).length
  -- 10^(n-1-d) < q < 10^(n-d+1), so the exponent is n-d or n-d-1
  let e0 : Int := n - d
  let e := if q < (10 : Rat) ^ e0 then e0 - 1 else e0
  let m := roundHalfEven (q * (10 : Rat) ^ (11 - e))
  if m = 10 ^ 12 then (10 ^ 11, e + 1) else (m, e)

/-- C `printf("%0.12g", q)` for a positive rational (datatypes.c:203): at most 12 significant
digits, trailing zeros removed, exponent notation outside `1e-4 <= q < 1e12`. -/
def fmtG12 (q : Rat) : Str :=
  let (m, e) := sig12 q
  let ds := decimal m
  if e < -4 ∨ e ≥ 12 then
    let frac := stripZeros (ds.drop 1)
    let mant := ds.take 1 ++ (if frac = [] then [] else '.' :: frac)
    let ex := decimal e.natAbs
    let ex := if ex.length < 2 then '0' :: ex else ex
    mant ++ ['e', if e < 0 then '-' else '+'] ++ ex
  else if e < 0 then
    s!! "0." ++ List.replicate (e.natAbs - 1) '0' ++ stripZeros ds
  else
    let frac := stripZeros (ds.drop (e.toNat + 1))
    ds.take (e.toNat + 1) ++ (if frac = [] then [] else '.' :: frac)

/-- `String_New` on a number (datatypes.c:180-206).  `floor(d) == d` holds of the infinities, for
which `PyLong_FromDouble` raises OverflowError; `%0.12g` prints a NaN as `nan`. -/
def stringOfNumber (v : XNum) : Except PyErr Str :=
  match v with
  | .sNaN => .ok (s!! "NaN")
  | .sPos => .ok (s!! "Infinity")
  | .sNeg => .ok (s!! "-Infinity")
  | .obj .nan => .ok (s!! "nan")
  | .obj .pinf => .error .overflowError
  | .obj .ninf => .error .overflowError
  | .obj .nzero => .ok (s!! "0")
  | .obj (.fin q) =>
    if (q.floor : Rat) = q then .ok (decimalInt q.floor)
    else .ok (if q < 0 then '-' :: fmtG12 (-q) else fmtG12 q)

end Verif.XPath
