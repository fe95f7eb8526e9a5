/-
The table-driven parser that BisonGen generates.  The same driver is found in
lib/xpath/parser/xpathparser.c, lib/xslt/expressions/avt.c and
lib/xslt/xpatterns/parser.c; only the tables and the action routines differ.
-/
namespace Verif.Parse

abbrev Str := List Char

/-- A token: its internal number (`yytoken`, i.e. after `YYTRANSLATE`,
xpathparser.c 307, 1907) and its text (the value object `yylval`). -/
structure Tok where
  kind : Nat
  text : Str
deriving DecidableEq, Repr

mutual
/-- What the value stack holds.  The model keeps derivation trees: a `leaf` is
the text of a token, a `node r ks` stands for the result of the action routine
of rule `r` on the values `ks`.  What the action routines compute from them is
modelled separately (they are constructors of expression objects and do not
look at the parser's state). -/
inductive Tree where
  | leaf (t : Tok)
  | node (rule : Nat) (kids : Trees)
inductive Trees where
  | nil
  | cons (t : Tree) (ts : Trees)
end

/-- The tables of a generated parser (xpathparser.c 309-562): `actionIdx`,
`defaultAction`, `defaultGoto`, `gotoIdx`, `table`, `check`, `derives` and
`rhsSize` are the C arrays of (nearly) the same names, `last`, `final`, `flag`
and `ntBase` the macros `YYLAST`, `YYFINAL`, `YYFLAG`, `YYNTBASE`.  `rhs` is
`rhs_tokens` cut at its zeros. -/
structure Tables where
  rhs : List (List Nat)
  derives : List Nat
  rhsSize : List Nat
  defaultAction : List Nat
  defaultGoto : List Nat
  actionIdx : List Int
  gotoIdx : List Int
  table : List Int
  check : List Int
  last : Int
  final : Int
  flag : Int
  ntBase : Nat

/-- What the parser does next. -/
inductive Act where
  | shift (s : Nat)
  | reduce (r : Nat)
  | accept
  | error
deriving DecidableEq, Repr

/-- `yyn = default_action[yystate]`, with 0 for an error (xpathparser.c
1196-1200, 1911-1916). -/
def defaultAct (T : Tables) (s : Nat) : Act :=
  match T.defaultAction.getD s 0 with
  | 0 => .error
  | r => .reduce r

/-- A non-default entry of `yytable` (xpathparser.c 2603-2614, 3296-3305). -/
def tableAct (T : Tables) (y : Int) : Act :=
  if T.flag < y ∧ y < 0 then .reduce (-y).toNat
  else if y = T.final then .accept
  else if y ≤ 0 then .error
  else .shift y.toNat

/-- The entry for a state and a lookahead token (xpathparser.c 1194-1200,
1898-1916, 2603-2614, 3296-3305).  The end of the input is token 0. -/
def action (T : Tables) (s : Nat) (k : Nat) : Act :=
  let y := T.actionIdx.getD s 0
  if y = T.flag then defaultAct T s
  else
    let i := y + k
    if i < 0 ∨ i > T.last ∨ T.check.getD i.toNat 0 ≠ (k : Int) then defaultAct T s
    else tableAct T (T.table.getD i.toNat 0)

/-- The state after a reduction (xpathparser.c 1878-1885, 2593-2600). -/
def goto (T : Tables) (s : Nat) (a : Nat) : Nat :=
  let j := a - T.ntBase
  let i := T.gotoIdx.getD j 0 + s
  if 0 ≤ i ∧ i ≤ T.last ∧ T.check.getD i.toNat 0 = (s : Int) then
    (T.table.getD i.toNat 0).toNat
  else T.defaultGoto.getD j 0

/-- The stacks and the input.  `frames` is `state_stack` and `value_stack`
taken together, top first, without the bottom state 0 (whose value slot is
"wasted", xpathparser.c 1171-1177). -/
structure Config where
  frames : List (Nat × Tree)
  input : List Tok

/-- The state at the top of the stack. -/
def top (fs : List (Nat × Tree)) : Nat :=
  match fs with
  | [] => 0
  | (s, _) :: _ => s

/-- The number of states on the stack. -/
def Config.height (c : Config) : Nat := c.frames.length + 1

/-- The lookahead token: 0 at the end of the input (`YYEOF`, 1898-1905). -/
def look (ts : List Tok) : Nat :=
  match ts with
  | [] => 0
  | t :: _ => t.kind

/-- The values popped, in the order of the rule: the top of the stack is the
last one. -/
def popped : List (Nat × Tree) → Trees → Trees
  | [], acc => acc
  | (_, t) :: fs, acc => popped fs (.cons t acc)

inductive Out where
  /-- a value -/
  | accept (t : Tree)
  /-- `report_error`: a syntax error at the first of the tokens left -/
  | error (left : List Tok)
  /-- the stack is popped below its bottom (shown not to happen) -/
  | underflow
  /-- the model ran out of fuel (shown not to happen) -/
  | stuck

inductive Res where
  | next (c : Config)
  | done (o : Out)

/-- A reduction (xpathparser.c 1203-1206, 1878-1885). -/
def reduce (T : Tables) (r : Nat) (c : Config) : Res :=
  let n := T.rhsSize.getD r 0
  if n ≤ c.frames.length then
    let rest := c.frames.drop n
    .next ⟨(goto T (top rest) (T.derives.getD r 0),
      .node r (popped (c.frames.take n) .nil)) :: rest, c.input⟩
  else .done .underflow

/-- Shifting the lookahead token; the end of the input stays where it is
(xpathparser.c 3307-3318).  The value shifted at the end of the input is the
last token's; nothing reads it. -/
def shift (s : Nat) (c : Config) : Config :=
  match c.input with
  | [] => ⟨(s, .leaf ⟨0, []⟩) :: c.frames, []⟩
  | t :: ts => ⟨(s, .leaf t) :: c.frames, ts⟩

/-- One turn of the loop of `parser_parse` (xpathparser.c 1181-3319).  On
acceptance the result is `value_ptr[-1]`, the value under the one shifted for
the end of the input (3298-3301). -/
def step (T : Tables) (c : Config) : Res :=
  match action T (top c.frames) (look c.input) with
  | .shift s => .next (shift s c)
  | .reduce r => reduce T r c
  | .accept =>
    match c.frames with
    | _ :: (_, t) :: _ => .done (.accept t)
    | _ => .done .underflow
  | .error => .done (.error c.input)

/-- The loop, with the greatest number of states that were on the stack. -/
def run (T : Tables) : Nat → Config → Out × Nat
  | 0, c => (.stuck, c.height)
  | fuel + 1, c =>
    match step T c with
    | .done o => (o, c.height)
    | .next c' =>
      let r := run T fuel c'
      (r.1, max c.height r.2)

/-- The result of the parser: either what the loop gives, or a write past the
end of `state_stack` and `value_stack`, which have `YYINITDEPTH` entries that
are not checked (xpathparser.c 1093, 1157-1160, 1185). -/
inductive Parsed where
  | ok (t : Tree)
  | error (left : List Tok)
  | overflow
  | underflow
  | stuck

/-- `YYINITDEPTH` (xpathparser.c 1093). -/
def depth : Nat := 1000

def finish : Out × Nat → Parsed
  | (o, n) =>
    if n > depth then .overflow
    else match o with
      | .accept t => .ok t
      | .error l => .error l
      | .underflow => .underflow
      | .stuck => .stuck

/-- `parser_parse` (xpathparser.c 1148-3325) on the tokens the lexer finds,
with `fuel` turns of the loop. -/
def parse (T : Tables) (fuel : Nat) (ts : List Tok) : Parsed :=
  finish (run T fuel ⟨[], ts⟩)

end Verif.Parse
