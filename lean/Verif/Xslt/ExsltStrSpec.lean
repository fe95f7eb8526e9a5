import Verif.Xslt.ExsltStr

/-
What the EXSLT functions for strings have to return (http://exslt.org/str/, and the documentation in
lib/xslt/exslt/strings.py).
-/
namespace Verif.Xslt.ExsltStr.Spec
open Verif Verif.Py

/-- `w` occurs in `s` at position `k`. -/
def IsAt (w s : Str) (k : Nat) : Prop := ∃ a b, s = a ++ w ++ b ∧ a.length = k

/-! ## align -/

/-- The three alignments. -/
inductive Alignment | left | right | center

/-- The alignment that the third argument stands for: left if there is none or it is none of the three words. -/
def alignment : Option Str → Alignment
  | none => .left
  | some a => if a = s!! "right" then .right else if a = s!! "center" then .center else .left

/-- How many characters of the padding string may be left of the range that is replaced (`l`), and right of
it (`r`). -/
def Alignment.Fits : Alignment → Nat → Nat → Prop
  | .left, l, _ => l = 0
  | .right, _, r => r = 0
  | .center, l, r => l = r ∨ l + 1 = r

/-- str:align: a range of the padding string, of the target string's length, is replaced by the target string.
If the target string is too long, it is cut. -/
def Aligned (a : Alignment) (target padding result : Str) : Prop :=
  (padding.length < target.length ∧ result = target.take padding.length) ∨
  ∃ l x r : Str, padding = l ++ x ++ r ∧ x.length = target.length ∧ a.Fits l.length r.length ∧
    result = l ++ target ++ r

/-! ## split and tokenize -/

/-- Splitting `s` at the occurrences of `sep`, from the left. -/
inductive Splits (sep : Str) : Str → List Str → Prop
  | last {s : Str} : (∀ k, ¬ IsAt sep s k) → Splits sep s [s]
  | cut {t r : Str} {ts : List Str} : (∀ k, IsAt sep (t ++ sep ++ r) k → t.length ≤ k) → Splits sep r ts →
      Splits sep (t ++ sep ++ r) (t :: ts)

/-- Splitting `s` at every one of the characters `ds`. -/
inductive Tokens (ds : Str) : Str → List Str → Prop
  | last {s : Str} : (∀ c ∈ s, c ∉ ds) → Tokens ds s [s]
  | cut {t r : Str} {d : Char} {ts : List Str} : (∀ c ∈ t, c ∉ ds) → d ∈ ds → Tokens ds r ts →
      Tokens ds (t ++ d :: r) (t :: ts)

/-! ## replace -/

/-- A part of the string: a character that is kept, or an occurrence of the search string with the index `i`. -/
inductive Piece
  | kept (c : Char)
  | hit (i : Nat)
  deriving DecidableEq, Repr

/-- The text that a piece is, in the original string. -/
def Piece.source (search : List Str) : Piece → Str
  | .kept c => [c]
  | .hit i => search.getD i []

/-- The string that consists of some pieces. -/
def source (search : List Str) (ps : List Piece) : Str := (ps.map (Piece.source search)).flatten

/-- An occurrence of the search string with the index `i`, at the position `k` of the string, is one of the
pieces. -/
def HitAt (search : List Str) (ps : List Piece) (k i : Nat) : Prop :=
  ∃ a b, ps = a ++ .hit i :: b ∧ (source search a).length = k

/-- Longer search strings come first, then the one that comes first in the second argument. -/
def Before (search : List Str) (i j : Nat) : Prop :=
  (search.getD j []).length < (search.getD i []).length ∨
  (search.getD j []).length = (search.getD i []).length ∧ i < j

/-- How a string has to be divided into pieces: every occurrence of a search string that is not replaced
itself overlaps one that is, of a search string that comes before it, or of the same one and more to the
left. -/
structure Divided (search : List Str) (s : Str) (ps : List Piece) : Prop where
  whole : source search ps = s
  proper : ∀ i, Piece.hit i ∈ ps → ∃ w, search[i]? = some w ∧ w ≠ []
  greedy : ∀ j w k, search[j]? = some w → w ≠ [] → IsAt w s k →
    ∃ k' i w', HitAt search ps k' i ∧ search[i]? = some w' ∧
      k' < k + w.length ∧ k < k' + w'.length ∧
      (Before search i j ∨ (i = j ∧ k' ≤ k))

/-- Content of nodes in a form without text nodes: characters and other nodes. -/
abbrev Flat (M : Type) := List (Char ⊕ M)

/-- The content of a sequence of nodes. -/
def flat {M : Type} : List (Ev M) → Flat M
  | [] => []
  | .text s :: l => s.map .inl ++ flat l
  | .node m :: l => .inr m :: flat l

/-- Nodes as they are in a tree: there are no empty text nodes, and none that follow each other. -/
def Normal {M : Type} : List (Ev M) → Prop
  | [] => True
  | [.text s] => s ≠ []
  | .text _ :: .text _ :: _ => False
  | .text s :: .node _ :: l => s ≠ [] ∧ Normal l
  | .node _ :: l => Normal l

/-- What the search string with the index `i` is replaced by: a copy of the node with this index, nothing if
there is none, or if it is an attribute or namespace node. -/
def node {M : Type} (repl : Arg (Repl M)) (i : Nat) : Flat M :=
  match repl with
  | .other s => if i = 0 then s.map .inl else []
  | .nodes l => match l[i]? with
    | none => []
    | some r => if r.outside then [] else flat r.copy

/-- What is put between two characters: the replacement of the first search string that is empty. -/
def Gap {M : Type} (search : List Str) (repl : Arg (Repl M)) (g : Flat M) : Prop :=
  ((∀ w ∈ search, w ≠ []) ∧ g = []) ∨
  ∃ i, search[i]? = some [] ∧ (∀ j < i, search[j]? ≠ some []) ∧ g = node repl i

/-- The content of the result, for a string that is divided into pieces. -/
def replaced {M : Type} (node : Nat → Flat M) (gap : Flat M) : List Piece → Flat M
  | [] => []
  | .kept c :: .kept d :: ps => .inl c :: (gap ++ replaced node gap (.kept d :: ps))
  | [.kept c] => [.inl c]
  | .kept c :: .hit i :: ps => .inl c :: (node i ++ replaced node gap ps)
  | .hit i :: ps => node i ++ replaced node gap ps

/-- The list of search strings. -/
def strings : Arg Str → List Str
  | .nodes l => l
  | .other s => [s]

/-- str:replace. -/
def Replaced {M : Type} (string : Str) (search : Arg Str) (repl : Arg (Repl M)) (result : List (Ev M)) : Prop :=
  ∃ ps g, Divided (strings search) string ps ∧ Gap (strings search) repl g ∧
    Normal result ∧ flat result = replaced (node repl) g ps

end Verif.Xslt.ExsltStr.Spec
