import Verif.Util.Template
/-
What a template means.
-/
namespace Verif.Util.Template.Spec
open Verif Verif.Util.Template

/-- The letters of names: ASCII letters and underscore, and the two other letters that have an ASCII lower case. -/
def Letter (c : Char) : Prop := ('a' ≤ c ∧ c ≤ 'z') ∨ ('A' ≤ c ∧ c ≤ 'Z') ∨ c = '_' ∨ c = 'K' ∨ c = 'İ'

def LetterOrDigit (c : Char) : Prop := Letter c ∨ ('0' ≤ c ∧ c ≤ '9')

def Name (n : Str) : Prop := ∃ c r, n = c :: r ∧ Letter c ∧ ∀ x ∈ r, LetterOrDigit x

/-- A template is a sequence of these. -/
inductive Piece where
  | text (s : Str)
  /-- `$$`. -/
  | dollar
  /-- `$name`. -/
  | plain (n : Str)
  /-- `${name}`. -/
  | braced (n : Str)
  /-- A dollar sign that begins none of these: a mistake. -/
  | stray
  deriving DecidableEq

/-- As it is written. -/
def Piece.write : Piece → Str
  | .text s => s
  | .dollar => ['$', '$']
  | .plain n => '$' :: n
  | .braced n => '$' :: '{' :: n ++ ['}']
  | .stray => ['$']

def write (ps : List Piece) : Str := ps.flatMap Piece.write

/-- A piece before the text `r`. -/
def Piece.fine : Piece → Str → Prop
  | .text s, _ => '$' ∉ s
  | .dollar, _ => True
  | .plain n, r => Name n ∧ ∀ c r', r = c :: r' → ¬LetterOrDigit c
  | .braced n, _ => Name n
  | .stray, r => (∀ r', r ≠ '$' :: r') ∧ (∀ n r', Name n → r ≠ n ++ r') ∧ ∀ n r', Name n → r ≠ '{' :: n ++ '}' :: r'

/-- The pieces are what the writing says: names are as long as can be, and what can be a place to fill in is one. -/
def Fine : List Piece → Prop
  | [] => True
  | p :: ps => p.fine (write ps) ∧ Fine ps

/-- The name to fill in. -/
def Piece.name : Piece → Option Str
  | .plain n => some n
  | .braced n => some n
  | _ => none

/-- The text of a string. -/
def textOf : Val → Option Str
  | .uni s => some s
  | .bytes u _ => u
  | .other _ => none

/-- The text that takes the place of a piece, where `m` are the texts for names; names without one stay. -/
def Piece.filled (m : Str → Option Str) : Piece → Str
  | .text s => s
  | .dollar => ['$']
  | .plain n => (m n).getD ('$' :: n)
  | .braced n => (m n).getD ('$' :: '{' :: n ++ ['}'])
  | .stray => ['$']

/-- Line and column after the text, when it begins at line `l`, column `c`. -/
def place : Nat → Nat → Str → Nat × Nat
  | l, c, [] => (l, c)
  | l, _, '\r' :: '\n' :: s => place (l + 1) 1 s
  | l, c, x :: s => if isBreak x then place (l + 1) 1 s else place l (c + 1) s

end Verif.Util.Template.Spec
