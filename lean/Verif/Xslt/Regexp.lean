import Verif.Py
/-
The EXSLT regular expression functions (lib/xslt/exslt/regular_expressions.py). Python's `re` is not modelled: a compiled
pattern is given by what it matches at each position of the source.
-/
namespace Verif.Xslt.Regexp

/-- A compiled pattern on one source string: where the match starting at a position ends, if there is one, and the
captured parts of that match (`None` for a group that took no part). -/
structure Pattern where
  endAt : Nat → Option Nat
  groups : Nat → List (Option Str)

/-- The part of the source in a span, as `match.group()`. -/
def slice (src : Str) (s : Nat × Nat) : Str := (src.take s.2).drop s.1

/-- The positions from `i` on, `k` of them: the first with a match. -/
def searchFrom (p : Pattern) : Nat → Nat → Option (Nat × Nat)
  | 0, _ => none
  | k + 1, i =>
    match p.endAt i with
    | some j => some (i, j)
    | none => searchFrom p k (i + 1)

/-- `regexp.search(source, pos)` for a source of length `n`. -/
def search (p : Pattern) (n pos : Nat) : Option (Nat × Nat) := searchFrom p (n + 1 - pos) pos

/-- lib/xslt/exslt/regular_expressions.py:50-56, the `while match` loop; `none` when it has not ended after `fuel`
rounds. -/
def loop (p : Pattern) (n : Nat) : Nat → Option (Nat × Nat) → Option (List (Nat × Nat))
  | 0, _ => none
  | _ + 1, none => some []
  | fuel + 1, some (i, j) => (loop p n fuel (search p n j)).map ((i, j) :: ·)

/-- lib/xslt/exslt/regular_expressions.py:38-68 `match_function`: the string values of the `match` elements. `compile`
is the pattern with and without regard to case. -/
def matchFunction (src : Str) (compile : Bool → Pattern) (flags : Str) (fuel : Nat) : Option (List Str) :=
  match search (compile (flags.contains 'i')) src.length 0 with
  | none => some []
  | some m =>
    if flags.contains 'g' then
      (loop (compile (flags.contains 'i')) src.length fuel (some m)).map (List.map (slice src))
    else
      some (slice src m :: ((compile (flags.contains 'i')).groups m.1).map (·.getD []))

/-- `regexp.sub` with a replacement without backslashes, for the matches in `spans`. -/
def subSpans (src repl : Str) : List (Nat × Nat) → Nat → Str
  | [], pos => src.drop pos
  | (i, j) :: r, pos => slice src (pos, i) ++ (repl ++ subSpans src repl r j)

/-- The count given to `regexp.sub`: `False` is zero, which means all. -/
def counted (count : Nat) (spans : List (Nat × Nat)) : List (Nat × Nat) :=
  if count = 0 then spans else spans.take count

/-- lib/xslt/exslt/regular_expressions.py:92-100 `replace_function`, for patterns without empty matches and a
replacement without backslashes. -/
def replaceFunction (src : Str) (compile : Bool → Pattern) (flags repl : Str) : Option Str :=
  (loop (compile (flags.contains 'i')) src.length (src.length + 2)
    (search (compile (flags.contains 'i')) src.length 0)).map
    (fun spans => subSpans src repl (counted (if flags.contains 'g' then 0 else 1) spans) 0)

/-- lib/xslt/exslt/regular_expressions.py:118-123 `test_function`. -/
def testFunction (src : Str) (compile : Bool → Pattern) (flags : Str) : Bool :=
  (search (compile (flags.contains 'i')) src.length 0).isSome

end Verif.Xslt.Regexp
