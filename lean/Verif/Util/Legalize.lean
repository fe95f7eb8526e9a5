/-
`legalize` (lib/lib/xmlstring.py:72-90).
-/
namespace Verif.Util.Legalize

/-- The elements of a unicode object: UTF-16 code units in a narrow build of Python, code points in a wide one. -/
abbrev UStr := List Nat

/-- `[\u0000-\u0008\u000b-\u000c\u000e-\u001f\ufffe-\uffff]` (xmlstring.py:75). -/
def control (c : Nat) : Bool :=
  c ≤ 8 || (0xb ≤ c && c ≤ 0xc) || (0xe ≤ c && c ≤ 0x1f) || (0xfffe ≤ c && c ≤ 0xffff)

/-- `[\ud800-\udbff]`. -/
def high (c : Nat) : Bool := 0xd800 ≤ c && c ≤ 0xdbff

/-- `[\udc00-\udfff]`. -/
def low (c : Nat) : Bool := 0xdc00 ≤ c && c ≤ 0xdfff

/-- `[\udc00-\udfff]` as the next element. -/
def lowNext : UStr → Bool
  | d :: _ => low d
  | [] => false

/-- `[^\udc00-\udfff]` as the next element. -/
def otherNext : UStr → Bool
  | d :: _ => !low d
  | [] => false

/-- The number of elements that the pattern (xmlstring.py:75-81) matches here, its alternatives in order; `start`: this is
the beginning of the string. -/
def hit (start : Bool) : UStr → Option Nat
  | [] => none
  | c :: r =>
    if control c then some 1
    else if high c && otherNext r then some 2
    else if !high c && lowNext r then some 2
    else if high c && (r == [] || r == [10]) then some 1
    else if start && low c then some 1
    else none

/-- `RE_XML_ILLEGAL.subn(repl, s)[0]` (xmlstring.py:90): each turn goes on by one element at least, so that as many turns
as elements suffice.  A replacement without backslashes. -/
def sub (repl : UStr) : Nat → Bool → UStr → UStr
  | 0, _, s => s
  | f + 1, start, s => match hit start s with
    | some k => repl ++ sub repl f false (s.drop k)
    | none => match s with
      | [] => []
      | c :: r => c :: sub repl f false r

/-- `legalize` (xmlstring.py:83-90). -/
def legalize (s repl : UStr) : UStr := sub repl s.length true s

end Verif.Util.Legalize
