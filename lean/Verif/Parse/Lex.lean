import Verif.Parse.Tables
import Verif.Names.Xmlstring
/-
The lexer that BisonGen generates, as found in lib/xpath/parser/xpathparser.c,
lib/xslt/expressions/avt.c and lib/xslt/xpatterns/parser.c: an interpreter for
patterns given as arrays of numbers (`lexer_match`) and a loop that takes the
longest match (`parser_yylex`).  The line numbers are those of xpathparser.c.
-/
namespace Verif.Parse

/-- `lexer_charsets` (its rows one after the other) and `lexer_blockmaps`. -/
structure Sets where
  rows : List Nat
  blocks : List (List Nat)

/-- A set of characters in a pattern: `LEXER_CHARSET_SMALL` or
`LEXER_CHARSET_BIG` with its index.  (Every set in the patterns is one of these
two followed by `LEXER_CHARSET_FAILURE`.) -/
inductive CSet where
  | small (i : Nat)
  | big (i : Nat)

/-- `lexer_charset` (3405-3455).  A character beyond the first plane makes the
C code read `lexer_blockmaps` out of bounds; what it reads is then not used,
and the model says no. -/
def inSet (S : Sets) (c : Char) : CSet → Bool
  | .small i => decide (c.toNat < 256) &&
      (S.rows.getD (32 * i + c.toNat >>> 3) 0 &&& (1 <<< (c.toNat &&& 7)) != 0)
  | .big i => decide (c.toNat < 65536) &&
      Names.testCharset (S.blocks.getD i [] ++ S.rows) c.toNat

mutual
/-- A pattern.  The C code keeps it as an array of numbers in which an operation
that contains patterns has their lengths; `encode` gives this array. -/
inductive Prog where
  | success
  | any (k : Prog)
  | lit (c : Nat) (k : Prog)
  | notLit (c : Nat) (k : Prog)
  | set (s : CSet) (k : Prog)
  | notSet (s : CSet) (k : Prog)
  | assert (p k : Prog)
  | branch (ps : Progs) (k : Prog)
  | rep (min : Nat) (p k : Prog)
  | range (min max : Nat) (p k : Prog)
inductive Progs where
  | nil
  | cons (p : Prog) (ps : Progs)
end

def CSet.encode : CSet → List Nat
  | .small i => [3, i, 0]
  | .big i => [4, i, 0]

mutual
/-- The array of a pattern (the operations are those of 565-578, their layout
that of 3500-3760). -/
def Prog.encode : Prog → List Nat
  | .success => [1]
  | .any k => 5 :: k.encode
  | .lit c k => 6 :: c :: k.encode
  | .notLit c k => 7 :: c :: k.encode
  | .set s k => 8 :: 4 :: s.encode ++ k.encode
  | .notSet s k => 9 :: 4 :: s.encode ++ k.encode
  | .assert p k => 10 :: (p.encode.length + 1) :: p.encode ++ k.encode
  | .branch ps k => 11 :: ps.encodes ++ 0 :: k.encode
  | .rep min p k => 12 :: (p.encode.length + 2) :: min :: p.encode ++ k.encode
  | .range min max p k => 13 :: (p.encode.length + 3) :: min :: max :: p.encode ++ k.encode
def Progs.encodes : Progs → List Nat
  | .nil => []
  | .cons p ps => (p.encode.length + 1) :: p.encode ++ ps.encodes
end

/-- The first loop of a repetition (3645-3653, 3702-3710). -/
def times (f : Str → Option Str) : Nat → Str → Option Str
  | 0, s => some s
  | n + 1, s => (f s).bind (times f n)

/-- The second loop of `OP_REPEAT` (3661-3667): the positions saved, the last
one first.  The loop ends because the items of the patterns at hand are never
empty; `fuel` is the number of characters left. -/
def trail (f : Str → Option Str) : Nat → Str → List Str → List Str
  | 0, s, acc => s :: acc
  | n + 1, s, acc =>
    match f s with
    | none => s :: acc
    | some s' => trail f n s' (s :: acc)

/-- The second loop of `OP_REPEAT_RANGE` (3718-3725) with at most `n` turns:
whether all of them matched, and the positions, the last one first. -/
def climb (f : Str → Option Str) : Nat → Str → List Str → Bool × List Str
  | 0, s, acc => (true, s :: acc)
  | n + 1, s, acc =>
    match f s with
    | none => (false, s :: acc)
    | some s' => climb f n s' (s :: acc)

/-- The third loop of a repetition (3676-3684, 3738-3748): the first of the
positions from which the rest of the pattern matches. -/
def firstOf (g : Str → Option Str) : List Str → Option Str
  | [] => none
  | s :: ss =>
    match g s with
    | some r => some r
    | none => firstOf g ss

/-- The positions tried in the third loop of `OP_REPEAT_RANGE` (3732-3748).  If
the greatest number of items was found, the position before the first optional
item is not tried. -/
def tried : Bool × List Str → List Str
  | (false, ss) => ss
  | (true, [s]) => [s]
  | (true, ss) => ss.dropLast

/-- The longer of two matches (3610-3630). -/
def longer : Option Str → Option Str → Option Str
  | none, b => b
  | some a, none => some a
  | some a, some b => if b.length < a.length then some b else some a

mutual
/-- `lexer_match` (3485-3764): what is left of the text after the match.  After
a repetition the rest of the pattern is matched again from the position found
(3689, 3753); that gives the same result. -/
def scan (S : Sets) : Prog → Str → Option Str
  | .success, s => some s
  | .any k, s =>
    match s with
    | [] => none
    | c :: cs => if c = '\n' then none else scan S k cs
  | .lit n k, s =>
    match s with
    | [] => none
    | c :: cs => if c.toNat = n then scan S k cs else none
  | .notLit n k, s =>
    match s with
    | [] => none
    | c :: cs => if c.toNat = n then none else scan S k cs
  | .set m k, s =>
    match s with
    | [] => none
    | c :: cs => if inSet S c m then scan S k cs else none
  | .notSet m k, s =>
    match s with
    | [] => none
    | c :: cs => if inSet S c m then none else scan S k cs
  | .assert p k, s =>
    match scan S p s with
    | none => none
    | some _ => scan S k s
  | .branch ps k, s =>
    match longest S ps s with
    | none => none
    | some s' => scan S k s'
  | .rep min p k, s =>
    match times (scan S p) min s with
    | none => none
    | some s' => firstOf (scan S k) (trail (scan S p) s'.length s' [])
  | .range min max p k, s =>
    match times (scan S p) min s with
    | none => none
    | some s' => firstOf (scan S k) (tried (climb (scan S p) (max - min) s' []))
/-- The alternatives of `OP_BRANCH` (3604-3634). -/
def longest (S : Sets) : Progs → Str → Option Str
  | .nil, _ => none
  | .cons p ps, s => longer (scan S p s) (longest S ps s)
end

/-- What the action for a pattern does with the match: return a token
(`return OR_OP`), return the first character (`return (int)(*yypos)`), drop it,
or leave it to be matched again ("scanner backing up"). -/
inductive Give where
  | token (n : Nat)
  | ascii
  | discard
  | again
deriving DecidableEq

/-- A pattern with its action; `next` is the state the action switches to. -/
structure Rule where
  prog : Prog
  next : Option Nat
  give : Give

/-- The tables of a lexer: `rules` are `lexer_patterns` and `lexer_actions`,
indexed by the state; `translate` and `undef` are `YYTRANSLATE` (307). -/
structure Lexer where
  sets : Sets
  rules : List (List Rule)
  start : Nat
  translate : List Nat
  undef : Nat

/-- The longest match; the first of them if there are several (3778-3800). -/
def bestRule (S : Sets) : List Rule → Str → Option (Rule × Str)
  | [], _ => none
  | r :: rs, s =>
    match scan S r.prog s, bestRule S rs s with
    | none, b => b
    | some rest, none => some (r, rest)
    | some rest, some b => if b.2.length < rest.length then some b else some (r, rest)

/-- `YYTRANSLATE` (307). -/
def Lexer.kind (L : Lexer) (n : Nat) : Nat :=
  if n < L.translate.length then L.translate.getD n 0 else L.undef

/-- A token with the external number `n`.  The number 0 is the end of the input
for the parser (1898-1905), so nothing after it is read. -/
def emit (L : Lexer) (n : Nat) (text : Str) (rest : Option (List Tok)) : Option (List Tok) :=
  if n = 0 then some [] else rest.map (⟨L.kind n, text⟩ :: ·)

/-- The tokens that `parser_yylex` (3766-4150) returns one after the other from
the state `st` on; `none` if the fuel is not enough (shown not to happen).  If
no pattern matches, the next character is returned. -/
def lexFrom (L : Lexer) : Nat → Nat → Str → Option (List Tok)
  | _, _, [] => some []
  | 0, _, _ :: _ => none
  | fuel + 1, st, c :: cs =>
    match bestRule L.sets (L.rules.getD st []) (c :: cs) with
    | none => emit L c.toNat [c] (lexFrom L fuel st cs)
    | some (r, rest) =>
      let st' := r.next.getD st
      let text := (c :: cs).take ((c :: cs).length - rest.length)
      match r.give with
      | .token n => emit L n text (lexFrom L fuel st' rest)
      | .ascii => emit L c.toNat text (lexFrom L fuel st' rest)
      | .discard => lexFrom L fuel st' rest
      | .again => lexFrom L fuel st' (c :: cs)

/-- The tokens of a text. -/
def lex (L : Lexer) (s : Str) : Option (List Tok) :=
  lexFrom L (2 * s.length + 1) L.start s

end Verif.Parse
