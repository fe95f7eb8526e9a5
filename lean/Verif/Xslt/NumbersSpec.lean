import Verif.Xslt.Numbers
import Verif.XPath.NumSpec

/-
XSLT 1.0, 7.7.1 (number to string conversion attributes), independent of the code.
-/
namespace Verif.Xslt.Spec
open Verif

/-- The value of a label, most significant letter first: each letter stands for its place in the
alphabet, beginning with 1, and there is no letter for zero. -/
def labelValue (alphabet : Str) (s : Str) : Nat :=
  s.foldl (fun v c => v * alphabet.length + (alphabet.idxOf c + 1)) 0

/-- `s` is the label of `n` in the sequence A, B, ..., Z, AA, AB, ... -/
def IsLabel (alphabet : Str) (s : Str) (n : Nat) : Prop :=
  (∀ c ∈ s, c ∈ alphabet) ∧ labelValue alphabet s = n

/-- The alphabetical order of labels: shorter ones first.  The sequence lists them in this order. -/
example : labelValue ['a', 'b', 'c'] (s!! "a") = 1 ∧ labelValue ['a', 'b', 'c'] (s!! "c") = 3 ∧
  labelValue ['a', 'b', 'c'] (s!! "aa") = 4 ∧ labelValue ['a', 'b', 'c'] (s!! "ab") = 5 ∧
  labelValue ['a', 'b', 'c'] (s!! "ba") = 7 ∧ labelValue ['a', 'b', 'c'] (s!! "aaa") = 13 := by decide

/-- The roman numeral of a number below 4000: thousands, hundreds, tens, ones. -/
def roman (n : Nat) : Str :=
  let digit (i v x : Char) : Nat → Str
    | 0 => [] | 1 => [i] | 2 => [i, i] | 3 => [i, i, i] | 4 => [i, v]
    | 5 => [v] | 6 => [v, i] | 7 => [v, i, i] | 8 => [v, i, i, i] | _ => [i, x]
  List.replicate (n / 1000) 'M' ++ digit 'C' 'D' 'M' (n / 100 % 10) ++ digit 'X' 'L' 'C' (n / 10 % 10) ++
    digit 'I' 'V' 'X' (n % 10)

example : roman 1994 = s!! "MCMXCIV" ∧ roman 49 = s!! "XLIX" ∧ roman 8 = s!! "VIII" := by decide

/-- A decimal representation of `n` that is padded with zeros to the width, but no more. -/
def IsPadded (width n : Nat) (s : Str) : Prop :=
  (∀ c ∈ s, XPath.Spec.Digit c) ∧ XPath.Spec.place s = n ∧ s ≠ [] ∧ width ≤ s.length ∧
  (width < s.length → s.head? = some '0' → s = ['0'])

/-- `format` is a prefix, tokens with separators between them, and a suffix: the tokens consist of word
characters, the separators, the prefix and the suffix of other characters, and only the prefix and the
suffix may be empty.  There is one separator less than there are tokens. -/
inductive Splits (w : Char → Bool) : Str → List Str → List Str → Str → Prop
  | last {t q : Str} : t ≠ [] → (∀ c ∈ t, w c = true) → (∀ c ∈ q, w c = false) → Splits w (t ++ q) [t] [] q
  | more {t s r q : Str} {ts ss : List Str} : t ≠ [] → (∀ c ∈ t, w c = true) → s ≠ [] → (∀ c ∈ s, w c = false) →
      Splits w r ts ss q → Splits w (t ++ (s ++ r)) (t :: ts) (s :: ss) q

def IsFormat (w : Char → Bool) (format p : Str) (toks seps : List Str) (q : Str) : Prop :=
  ∃ r, format = p ++ r ∧ (∀ c ∈ p, w c = false) ∧ Splits w r toks seps q

/-- The token for number `i`: after the last token, the last one is used again. -/
def tokenAt (toks : List Str) (i : Nat) : Str := (toks[min i (toks.length - 1)]?).getD []

/-- The separator before number `i + 1`: after the last separator, the last one is used again; if there is
none, it is a full stop. -/
def sepAt (seps : List Str) (i : Nat) : Str := (seps[min i (seps.length - 1)]?).getD ['.']

/-- The numbers, separated; `i` numbers have been written before. -/
def joinFrom (toks seps : List Str) (conv : Nat → Str → Str) : Nat → List Nat → Str
  | _, [] => []
  | i, [n] => conv n (tokenAt toks i)
  | i, n :: ns => conv n (tokenAt toks i) ++ sepAt seps i ++ joinFrom toks seps conv (i + 1) ns

end Verif.Xslt.Spec
