import Verif.XPath.Num

/-
The core string functions (lib/xpath/functions/strings.py), on already evaluated arguments.
Strings are lists of code points (a wide Python 2 build).
-/
namespace Verif.XPath
open Verif

/-- `concat()` (functions/strings.py:40-43). -/
def concatFn (args : List Str) : Str := Py.join [] args

/-- `starts-with()` (functions/strings.py:52-58): `not inner or outer[:len(inner)] == inner`. -/
def startsWithFn (outer inner : Str) : Bool :=
  inner.isEmpty || outer.take inner.length == inner

/-- `contains()` (functions/strings.py:68-72): Python's `inner in outer`. -/
def containsFn (outer inner : Str) : Bool := (Py.find inner outer).isSome

/-- `substring-before()` (functions/strings.py:82-89). -/
def substringBeforeFn (outer inner : Str) : Str :=
  match Py.find inner outer with
  | none => []
  | some i => outer.take i

/-- `substring-after()` (functions/strings.py:99-108). -/
def substringAfterFn (outer inner : Str) : Str :=
  if inner.isEmpty then []
  else match Py.find inner outer with
    | none => []
    | some i => outer.drop (i + inner.length)

/-- Python 2 `int(round(x))`: to the nearest integer, ties away from zero. -/
def pyRound (q : Rat) : Int :=
  if q < 0 then -((-q + 1 / 2).floor) else (q + 1 / 2).floor

/-- Python's `s[i:j]` for `0 <= i <= j`. -/
def slice (s : Str) (i j : Nat) : Str := (s.drop i).take (j - i)

/-- `substring()` (functions/strings.py:119-159); `none` for the length means that the third
argument was not given. -/
def substringFn (string : Str) (start : Dbl) (length : Option Dbl) : Str :=
  match start.toRat? with
  | none => []
  | some st =>
    let start := pyRound st
    let startidx : Int := if start < 1 then 0 else start - 1
    match length with
    | none => string.drop startidx.toNat
    | some len =>
      match len.toRat? with
      | none =>
        if (Dbl.fin 0).lt len then string.drop startidx.toNat
        else []
      | some l =>
        let length := pyRound l
        let endidx := start + length - 1
        if endidx < startidx then []
        else slice string startidx.toNat endidx.toNat

/-- `string-length()` (functions/strings.py:170-176). -/
def stringLengthFn (s : Str) : XNum := mkNumber (.fin (s.length : Rat))

/-- `unicode.isspace` of CPython 2.7 (`_PyUnicode_IsWhitespace`). -/
def isPySpace (c : Char) : Bool :=
  let n := c.toNat
  (9 ≤ n && n ≤ 13) || (28 ≤ n && n ≤ 32) || n = 0x85 || n = 0xA0 || n = 0x1680 || n = 0x180E ||
    (0x2000 ≤ n && n ≤ 0x200A) || n = 0x2028 || n = 0x2029 || n = 0x202F || n = 0x205F || n = 0x3000

/-- Python's `s.split()`; `cur` is the word being read. -/
def splitWsAux : Str → Str → List Str
  | cur, [] => if cur.isEmpty then [] else [cur]
  | cur, c :: cs =>
    if isPySpace c then (if cur.isEmpty then splitWsAux [] cs else cur :: splitWsAux [] cs)
    else splitWsAux (cur ++ [c]) cs

/-- Python's `s.split()`. -/
def splitWs (s : Str) : List Str := splitWsAux [] s

/-- `normalize-space()` (functions/strings.py:187-193). -/
def normalizeSpaceFn (s : Str) : Str := Py.join [' '] (splitWs s)

/-- The loop filling `transmap` (functions/strings.py:208-213): `fromchars` zipped with `tochars`
extended by empty strings; an association list stands for the dict. -/
def transMap : List (Char × Str) → Str → Str → List (Char × Str)
  | m, [], _ => m
  | m, src :: fs, tochars =>
    let dst : Str := match tochars with
      | [] => []
      | d :: _ => [d]
    transMap (if m.lookup src = none then m ++ [(src, dst)] else m) fs tochars.tail

/-- `translate()` (functions/strings.py:203-218). -/
def translateFn (source fromchars tochars : Str) : Str :=
  let transmap := transMap [] fromchars tochars
  Py.join [] (source.map fun ch => match transmap.lookup ch with
    | some d => d
    | none => [ch])

end Verif.XPath
