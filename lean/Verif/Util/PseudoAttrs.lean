import Verif.Py
/-
`parse_pi_pseudo_attrs` (lib/lib/util.py:129-143).
-/
namespace Verif.Util.Pseudo

/-- `\w` without flags. -/
def word (c : Char) : Bool :=
  (s!! "abcdefghijklmnopqrstuvwxyzABCDEFGHIJKLMNOPQRSTUVWXYZ0123456789_").contains c

/-- `\s` without flags. -/
def space (c : Char) : Bool := [' ', '\t', '\n', '\r', '\x0b', '\x0c'].contains c

/-- The rest after the equals sign: `\s*"(.*?)"` with DOTALL. -/
def matchValue (s : Str) : Option (Str × Str) :=
  match s.dropWhile space with
  | '"' :: t =>
    match t.dropWhile (· ≠ '"') with
    | [] => none
    | _ :: rest => some (t.takeWhile (· ≠ '"'), rest)
  | _ => none

/-- The pattern of lib/lib/util.py:142 at the start of `s`: name, value, and what is left. The run of word characters is
taken whole: a shorter one is followed by a word character, which is neither white space nor an equals sign. -/
def matchAt (s : Str) : Option (Str × Str × Str) :=
  if s.takeWhile word = [] then none
  else
    match (s.dropWhile word).dropWhile space with
    | '=' :: t => (matchValue t).map (fun m => (s.takeWhile word, m.1, m.2))
    | _ => none

/-- `findall`: `k` bounds the number of steps, the length of the string is enough. -/
def findall : Nat → Str → List (Str × Str)
  | 0, _ => []
  | _ + 1, [] => []
  | k + 1, c :: r =>
    match matchAt (c :: r) with
    | some (n, v, rest) => (n, v) :: findall k rest
    | none => findall k r

/-- `dict(pairs).get(key)`: the last pair with the key. -/
def dictGet (pairs : List (Str × Str)) (key : Str) : Option Str :=
  (pairs.reverse.find? (fun p => p.1 = key)).map (·.2)

/-- lib/lib/util.py:129-143 `parse_pi_pseudo_attrs`, by its lookups. -/
def pseudoAttrs (data key : Str) : Option Str := dictGet (findall data.length data) key

end Verif.Util.Pseudo
