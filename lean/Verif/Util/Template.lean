import Verif.Py
/-
`Template` (lib/lib/util.py:340-469): text with places to fill in.
-/
namespace Verif.Util.Template
open Verif

/-- What a mapping gives for a name: a unicode string, a byte string (represented by what it decodes to as UTF-8 and
with the default codec, ASCII), or another object with its `str`. -/
inductive Val where
  | uni (s : Str)
  | bytes (utf8 ascii : Option Str)
  | other (s : Str)
  deriving DecidableEq, Repr

inductive Err where
  | key (n : Str)
  | value (line col : Nat)
  | type
  | decode
  deriving DecidableEq, Repr

/-- `[_a-z]` (util.py:392) with IGNORECASE and UNICODE (util.py:384): a character whose lower case is in the class;
besides the ASCII letters these are the Kelvin sign and the capital I with a dot. -/
def idStart (c : Char) : Bool :=
  ('a' ≤ c && c ≤ 'z') || ('A' ≤ c && c ≤ 'Z') || c == '_' || c == 'K' || c == 'İ'

/-- `[_a-z0-9]` (util.py:392). -/
def idChar (c : Char) : Bool := idStart c || ('0' ≤ c && c ≤ '9')

/-- The group that matched (util.py:367-371). -/
inductive Hit where
  | escaped
  | named (n : Str)
  | braced (n : Str)
  | invalid
  deriving DecidableEq, Repr

/-- The match after a delimiter (util.py:367-371), the alternatives in order, and what is left. -/
def hit : Str → Hit × Str
  | '$' :: r => (.escaped, r)
  | '{' :: c :: r =>
    if idStart c then
      match r.dropWhile idChar with
      | '}' :: r' => (.braced (c :: r.takeWhile idChar), r')
      | _ => (.invalid, '{' :: c :: r)
    else (.invalid, '{' :: c :: r)
  | c :: r => if idStart c then (.named (c :: r.takeWhile idChar), r.dropWhile idChar) else (.invalid, c :: r)
  | [] => (.invalid, [])

/-- `self.pattern.sub(convert, self.template)` (util.py:436, 469): `conv` gets the position after the delimiter, which
is that of the empty group `invalid`, and the group.  Each turn consumes a character, so that as many turns as
characters suffice. -/
def sub (conv : Nat → Hit → Except Err Str) : Nat → Nat → Str → Except Err Str
  | _, _, [] => .ok []
  | 0, _, _ => .ok []
  | f + 1, i, c :: s =>
    if c = '$' then
      match conv (i + 1) (hit s).1 with
      | .error e => .error e
      | .ok v => match sub conv f (i + 1 + (s.length - (hit s).2.length)) (hit s).2 with
        | .error e => .error e
        | .ok t => .ok (v ++ t)
    else match sub conv f (i + 1) s with
      | .error e => .error e
      | .ok t => .ok (c :: t)

/-- The characters that end a line of a unicode string. -/
def isBreak (c : Char) : Bool :=
  c.val == 10 || c.val == 11 || c.val == 12 || c.val == 13 || c.val == 28 || c.val == 29 || c.val == 30 ||
    c.val == 0x85 || c.val == 0x2028 || c.val == 0x2029

/-- `s.splitlines(True)`; `cur` is the line so far, in reverse. -/
def splitlines : Str → Str → List Str
  | [], [] => []
  | cur, [] => [cur.reverse]
  | cur, '\r' :: '\n' :: s => ('\n' :: '\r' :: cur).reverse :: splitlines [] s
  | cur, c :: s => if isBreak c then (c :: cur).reverse :: splitlines [] s else splitlines (c :: cur) s

/-- `_invalid` (util.py:399-409). -/
def invalid (t : Str) (i : Nat) : Err :=
  let lines := splitlines [] (t.take i)
  if lines = [] then .value 1 1 else .value lines.length (i - lines.dropLast.flatten.length)

/-- The mapping (util.py:414-419, 441-446), where keywords come first (util.py:348-361). -/
def fetch (kws args : Str → Option Val) (n : Str) : Option Val :=
  match kws n with
  | some v => some v
  | none => args n

/-- Lines 423-429. -/
def fill (m : Str → Option Val) (n : Str) : Except Err Str :=
  match m n with
  | none => .error (.key n)
  | some (.uni s) => .ok s
  | some (.bytes (some s) _) => .ok s
  | some (.bytes none _) => .error .decode
  | some (.other _) => .error .type

/-- `convert` of `substitute` (util.py:421-435). -/
def convert (t : Str) (m : Str → Option Val) (i : Nat) : Hit → Except Err Str
  | .named n => fill m n
  | .braced n => fill m n
  | .escaped => .ok ['$']
  | .invalid => .error (invalid t i)

/-- `substitute` (util.py:411-436), for a unicode template. -/
def substitute (t : Str) (kws args : Str → Option Val) : Except Err Str :=
  sub (convert t (fetch kws args)) t.length 0 t

/-- Lines 449-463: `'%s' % (v,)`, which keeps byte strings; joining them with the rest decodes them. -/
def fillSafe (m : Str → Option Val) (n : Str) (kept : Str) : Except Err Str :=
  match m n with
  | none => .ok kept
  | some (.uni s) => .ok s
  | some (.bytes _ (some s)) => .ok s
  | some (.bytes _ none) => .error .decode
  | some (.other s) => .ok s

/-- `convert` of `safe_substitute` (util.py:448-468). -/
def convertSafe (m : Str → Option Val) (_ : Nat) : Hit → Except Err Str
  | .named n => fillSafe m n ('$' :: n)
  | .braced n => fillSafe m n ('$' :: '{' :: n ++ ['}'])
  | .escaped => .ok ['$']
  | .invalid => .ok ['$']

/-- `safe_substitute` (util.py:438-469). -/
def safeSubstitute (t : Str) (kws args : Str → Option Val) : Except Err Str :=
  sub (convertSafe (fetch kws args)) t.length 0 t

end Verif.Util.Template
