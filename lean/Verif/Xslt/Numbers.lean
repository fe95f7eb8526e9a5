import Verif.Py
import Verif.XPath.Num

/-
Number formatting for `xsl:number` (lib/xslt/numbers/__init__.py and lib/xslt/numbers/en.py).

Numbers are natural numbers: `number_element.instantiate` passes rounded values that are at least 0.5, and
counts.  (The None that it passes when nothing is counted is not modelled.)
-/
namespace Verif.Xslt
open Verif

/-- The exceptions that formatting can raise. -/
inductive Exc
  | indexError
  | nameError
  deriving DecidableEq, Repr

/-! en.py -/

def asciiLower : Str := s!! "abcdefghijklmnopqrstuvwxyz"
def asciiUpper : Str := s!! "ABCDEFGHIJKLMNOPQRSTUVWXYZ"

/-- `alphabet[number - 1]`; the index -1 is the last item. -/
def item (alphabet : Str) (number : Nat) : Str :=
  match number with
  | 0 => alphabet.getLast?.toList
  | n + 1 => alphabet[n]?.toList

/-- The loop of `_alpha_sequence` (en.py:33-36).  Each turn makes the number smaller, so as many turns as
the number suffice. -/
def alphaLoop (alphabet : Str) : Nat → Nat → Str
  | 0, number => item alphabet number
  | fuel + 1, number =>
    if number > alphabet.length then
      alphabet[(number - 1) % alphabet.length]?.toList ++ alphaLoop alphabet fuel ((number - 1) / alphabet.length)
    else item alphabet number

/-- `_alpha_sequence` (en.py:30-37). -/
def alphaSequence (number : Nat) (alphabet : Str) : Str := alphaLoop alphabet number number

/-- The ten digits for a power of ten (en.py:24-25). -/
def romanDigits (one five ten : Str) : List Str :=
  [[], one, one ++ one, one ++ one ++ one, one ++ five,
   five, five ++ one, five ++ one ++ one, five ++ one ++ one ++ one, one ++ ten]

/-- `_roman_upper` and `_roman_lower` (en.py:15-27); the combining character is the overline. -/
def romanTable (lower : Bool) : List (Nat × List Str) :=
  let i := if lower then 'i' else 'I'
  let v := if lower then 'v' else 'V'
  let x := if lower then 'x' else 'X'
  let l := if lower then 'l' else 'L'
  let c := if lower then 'c' else 'C'
  let d := if lower then 'd' else 'D'
  let m := if lower then 'm' else 'M'
  let o := Char.ofNat 0x305
  [(1, romanDigits [i] [v] [x]), (10, romanDigits [x] [l] [c]), (100, romanDigits [c] [d] [m]),
   (1000, romanDigits [i, o] [v, o] [x, o]), (10000, romanDigits [x, o] [l, o] [c, o]),
   (100000, romanDigits [c, o] [d, o] [m, o])]

/-- `_roman_max` (en.py:28). -/
def romanMax : Nat := 1000000

/-- The loop over the digits (en.py:44-48). -/
def romanLoop : List (Nat × List Str) → Nat → Except Exc Str
  | [], _ => .ok []
  | (bound, digits) :: rest, number =>
    if number > bound then
      match digits[number / bound]? with
      | none => .error .indexError
      | some d => match romanLoop rest (number % bound) with
        | .ok r => .ok (d ++ r)
        | .error e => .error e
    else romanLoop rest number

/-- `'%0*d' % (width, number)`. -/
def zeroPad (width number : Nat) : Str :=
  List.replicate (width - (XPath.decimal number).length) '0' ++ XPath.decimal number

/-- `_format` (en.py:39-73).  For the arabic numerals, if both `separator` and `grouping` are true, the name
`numeric` is evaluated, which does not exist. -/
def format_ (number : Nat) (token letterValue : Str) (separator grouping : Bool) : Except Exc Str :=
  if (token = ['I'] ∨ token = ['i']) ∧ letterValue ≠ s!! "alphabetic" then
    if 0 < number ∧ number < romanMax then romanLoop (romanTable (token = ['i'])) number
    else .ok (XPath.decimal number)
  else if token = ['A'] ∨ token = ['a'] then
    .ok (alphaSequence number (if token = ['a'] then asciiLower else asciiUpper))
  else if separator ∧ grouping then .error .nameError
  else .ok (zeroPad token.length number)

/-! __init__.py -/

/-- `re.findall('(\W*)(\w+)(\W*)', format)`; `w` tells which characters `\w` matches.  Each match has at
least one character, so as many turns as characters suffice. -/
def findall (w : Char → Bool) : Nat → Str → List (Str × Str × Str)
  | 0, _ => []
  | fuel + 1, s =>
    let a := s.takeWhile (!w ·)
    let r := s.dropWhile (!w ·)
    let t := r.takeWhile w
    let r' := r.dropWhile w
    if t = [] then []
    else (a, t, r'.takeWhile (!w ·)) :: findall w fuel (r'.dropWhile (!w ·))

/-- The fields of a formatter. -/
structure Formatter where
  pre : Str
  toks : List Str
  seps : List Str
  suf : Str
  deriving DecidableEq, Repr

/-- The loop over the further parts (__init__.py:95-98): `sep` is the separator that waits for its token. -/
def collect : Str → List (Str × Str × Str) → List Str × List Str × Str
  | sep, [] => ([], [], sep)
  | sep, (_, t, s) :: parts =>
    let (toks, seps, suf) := collect s parts
    (t :: toks, sep :: seps, suf)

/-- `__init__` (__init__.py:78-100). -/
def newFormatter (w : Char → Bool) (format : Str) : Formatter :=
  let format := if format = [] then ['1'] else format
  match findall w format.length format with
  | [] => ⟨format, [['1']], [['.']], format⟩
  | [(a, t, s)] => ⟨a, [t], [['.']], s⟩
  | (a, t, s) :: parts =>
    let (toks, seps, suf) := collect s parts
    ⟨a, t :: toks, seps, suf⟩

/-- The next state of `_repeat_last` (__init__.py:15-20). -/
def advance : List Str → List Str
  | _ :: t :: ts => t :: ts
  | ts => ts

/-- The loop of `formatmany` (__init__.py:112-117), with the last separator left out, as it is replaced by
the suffix (118). -/
def piecesLoop (f : Nat → Str → Except Exc Str) : List Nat → List Str → List Str → Except Exc Str
  | [], _, _ => .ok []
  | n :: ns, toks, seps =>
    match f n (toks.headD []) with
    | .error e => .error e
    | .ok r => match ns with
      | [] => .ok r
      | _ :: _ => match piecesLoop f ns (advance toks) (advance seps) with
        | .error e => .error e
        | .ok rs => .ok (r ++ seps.headD [] ++ rs)

/-- `formatmany` (__init__.py:110-119).  With no numbers at all the prefix is replaced by the suffix. -/
def formatmany (fm : Formatter) (f : Nat → Str → Except Exc Str) (numbers : List Nat) : Except Exc Str :=
  match numbers with
  | [] => .ok fm.suf
  | _ => (piecesLoop f numbers fm.toks fm.seps).map fun s => fm.pre ++ s ++ fm.suf

/-- `format` (__init__.py:105-108). -/
def formatOne (fm : Formatter) (f : Nat → Str → Except Exc Str) (number : Nat) : Except Exc Str :=
  (f number (fm.toks.headD [])).map fun s => fm.pre ++ s ++ fm.suf

end Verif.Xslt
