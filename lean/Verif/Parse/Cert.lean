import Verif.Parse.GrammarSpec
/-
A certificate for the tables of a parser, and a checker for it.  If the checker
says yes, the parser accepts exactly the phrases of the grammar, for all inputs
(`Verif.Parse.Complete`, `Verif.Parse.SoundLR`, `Verif.Parse.Ends`).  The
certificate holds the LALR(1) item sets of the states; it is data that only the
proofs use, so nothing rests on how it was found.
-/
namespace Verif.Parse

/-- `items`: for every state its items, with the rule, the position of the dot
and the set of lookahead tokens as a bit mask.  Rule 0 stands for the start
rule.  `first` and `nullable`: the usual sets of the nonterminals.  `past`: for
every state the symbols that are certainly on the top of the stack and, for
each, the states that may lie under it.  `weight`, `bonus`, `flags`, `eofs`:
for termination. -/
structure Cert where
  start : Nat
  items : List (List (Nat × Nat × Nat))
  first : List Nat
  nullable : Nat
  past : List (List (Nat × Nat))
  weight : List Nat
  bonus : Nat
  flags : Nat
  eofs : Nat

/-- Bit mask inclusion. -/
def sub (a b : Nat) : Bool := a &&& b == a

def rhsX (T : Tables) (C : Cert) (r : Nat) : List Nat :=
  match r with
  | 0 => [C.start]
  | r + 1 => T.rhs.getD (r + 1) []

def firstMask (T : Tables) (C : Cert) (x : Nat) : Nat :=
  if x < T.ntBase then 2 ^ x else C.first.getD (x - T.ntBase) 0

def firstSeq (T : Tables) (C : Cert) : List Nat → Nat → Nat
  | [], la => la
  | x :: xs, la =>
    firstMask T C x ||| (if C.nullable.testBit x then firstSeq T C xs la else 0)

def itemsOf (C : Cert) (s : Nat) : List (Nat × Nat × Nat) := C.items.getD s []

/-- The item is in the state, with at least these lookahead tokens. -/
def hasMask (C : Cert) (s r d m : Nat) : Bool :=
  (itemsOf C s).any fun i => i.1 == r && (i.2.1 == d && sub m i.2.2)

/-- The rules for a nonterminal. -/
def rulesOf (x : Nat) : List Nat → Nat → List Nat
  | [], _ => []
  | y :: ys, n => if x == y then n :: rulesOf x ys (n + 1) else rulesOf x ys (n + 1)

def checkFirst (T : Tables) (C : Cert) : Bool :=
  (List.range T.rhs.length).all fun r =>
    r == 0 || (sub (firstSeq T C (T.rhs.getD r []) 0) (firstMask T C (T.derives.getD r 0)) &&
      (!(T.rhs.getD r []).all (C.nullable.testBit ·) ||
        C.nullable.testBit (T.derives.getD r 0)) &&
      (T.ntBase ≤ T.derives.getD r 0))

def isAccepting (T : Tables) (s : Nat) : Bool :=
  match action T s 0 with
  | .shift e => action T e 0 == .accept
  | _ => false

def shiftsTo (T : Tables) (C : Cert) (s x r d m : Nat) : Bool :=
  match action T s x with
  | .shift s' => hasMask C s' r d m
  | _ => false

def checkItem (T : Tables) (C : Cert) (s : Nat) (i : Nat × Nat × Nat) : Bool :=
  match (rhsX T C i.1).drop i.2.1 with
  | [] =>
    if i.1 == 0 then isAccepting T s
    else (List.range T.ntBase).all fun b =>
      !i.2.2.testBit b || action T s b == .reduce i.1
  | x :: rest =>
    if T.ntBase ≤ x then
      (rulesOf x T.derives 0).all (fun p => p == 0 ||
        hasMask C s p 0 (firstSeq T C rest i.2.2)) &&
      hasMask C (goto T s x) i.1 (i.2.1 + 1) i.2.2
    else shiftsTo T C s x i.1 (i.2.1 + 1) i.2.2

def checkItems (T : Tables) (C : Cert) : Bool :=
  (List.range C.items.length).all (fun s => (itemsOf C s).all fun i =>
    decide (i.2.2 < 2 ^ T.ntBase) && checkItem T C s i) &&
  hasMask C 0 0 0 1

def checkRules (T : Tables) : Bool :=
  (List.range T.rhs.length).all fun r => r == 0 ||
    (T.rhsSize.getD r 0 == (T.rhs.getD r []).length && decide (r < T.derives.length))

def checkComplete (T : Tables) (C : Cert) : Bool :=
  checkFirst T C && checkItems T C && checkRules T

/-- What is known of the stack in a state follows from what was known before. -/
def subPast : List (Nat × Nat) → List (Nat × Nat) → Bool
  | [], _ => true
  | p :: ps, q :: qs => p.1 == q.1 && (sub q.2 p.2 && subPast ps qs)
  | _ :: _, [] => false

def pastOf (C : Cert) (s : Nat) : List (Nat × Nat) := C.past.getD s []

def checkGoto (T : Tables) (C : Cert) (r s : Nat) : Bool :=
  let a := T.derives.getD r 0
  let g := goto T s a
  g != 0 && (subPast (pastOf C g) ((a, 2 ^ s) :: pastOf C s) && !C.flags.testBit g)

def checkReduce (T : Tables) (C : Cert) (s r : Nat) : Bool :=
  let rhs := T.rhs.getD r []
  let ps := (pastOf C s).take rhs.length
  decide (0 < r ∧ r < T.rhs.length) && (ps.map (·.1) == rhs.reverse &&
    match ps.getLast? with
    | none => C.flags.testBit s && checkGoto T C r s
    | some p => decide (p.2 < 2 ^ C.past.length) &&
      (List.range C.past.length).all fun s' => !p.2.testBit s' || checkGoto T C r s')

def checkAct (T : Tables) (C : Cert) (s k : Nat) : Act → Bool
  | .error => true
  | .accept => k == 0 && match pastOf C s with
    | [p, q] => p.1 == 0 && (q.1 == C.start && (q.2 == 1 && q.1 != 0))
    | _ => false
  | .shift s' => !C.eofs.testBit s && (s' != 0 && (C.eofs.testBit s' == (k == 0) &&
      (decide (k < T.ntBase) && subPast (pastOf C s') ((k, 2 ^ s) :: pastOf C s))))
  | .reduce r => !C.eofs.testBit s && checkReduce T C s r

/-- `kinds` is a bound for the internal token numbers. -/
def checkActs (T : Tables) (C : Cert) (kinds : Nat) : Bool :=
  (List.range C.past.length).all fun s =>
    (match defaultAct T s with
      | .reduce r => checkAct T C s 0 (.reduce r)
      | _ => true) &&
    (List.range kinds).all fun k =>
      let a := action T s k
      (a == defaultAct T s && a != .accept) || checkAct T C s k a

def sumWeights (C : Cert) : List Nat → Nat
  | [] => 0
  | x :: xs => C.weight.getD x 0 + sumWeights C xs

def checkWeights (T : Tables) (C : Cert) : Bool :=
  (List.range T.rhs.length).all fun r => r == 0 ||
    ((T.derives.getD r 0 :: T.rhs.getD r []).all (0 < ·) &&
      (T.rhsSize.getD r 0 == (T.rhs.getD r []).length &&
      match T.rhs.getD r [] with
      | [] => decide (C.weight.getD (T.derives.getD r 0) 0 < C.bonus)
      | x :: xs => decide (C.weight.getD (T.derives.getD r 0) 0 < sumWeights C (x :: xs))))

/-- The states are closed under the moves of the automaton. -/
def checkStates (T : Tables) (C : Cert) (kinds : Nat) : Bool :=
  decide (0 < C.past.length ∧ 0 < kinds) && (pastOf C 0).isEmpty && !C.eofs.testBit 0 &&
  (List.range C.past.length).all fun s =>
    (List.range kinds).all (fun k =>
      match action T s k with
      | .shift s' => decide (s' < C.past.length)
      | _ => true) &&
    (List.range T.rhs.length).all fun r => r == 0 ||
      decide (goto T s (T.derives.getD r 0) < C.past.length)

def checkSound (T : Tables) (C : Cert) (kinds : Nat) : Bool :=
  checkActs T C kinds && (checkWeights T C && checkStates T C kinds)

/-- A token costs this much fuel. -/
def cost (C : Cert) : Nat := C.bonus + C.weight.foldl max 0 + 1

/-- Enough fuel for `n` tokens. -/
def fuelFor (C : Cert) (n : Nat) : Nat := cost C * (n + 1) + C.bonus + 1

end Verif.Parse
