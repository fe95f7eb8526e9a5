import Verif.Parse.Tables
/-
What it means to be a phrase of a grammar: derivation trees.
-/
namespace Verif.Parse.Spec

/-- The symbol at the root of a tree. -/
def root (lhs : Nat → Nat) : Tree → Nat
  | .leaf t => t.kind
  | .node r _ => lhs r

def roots (lhs : Nat → Nat) : Trees → List Nat
  | .nil => []
  | .cons t ts => root lhs t :: roots lhs ts

mutual
/-- The tokens of a tree, from left to right. -/
def yield : Tree → List Tok
  | .leaf t => [t]
  | .node _ ks => yields ks
def yields : Trees → List Tok
  | .nil => []
  | .cons t ts => yield t ++ yields ts
end

/-- A grammar: `isRule r` are the rules, rule `r` rewrites `lhs r` into `rhs r`;
the terminals are the symbols of `isTerm`. -/
structure Grammar where
  isTerm : Nat → Prop
  isRule : Nat → Prop
  lhs : Nat → Nat
  rhs : Nat → List Nat

mutual
/-- The derivation trees of a grammar. -/
inductive Derives (G : Grammar) : Tree → Prop where
  | leaf (t : Tok) : G.isTerm t.kind → Derives G (.leaf t)
  | node (r : Nat) (ks : Trees) : G.isRule r → roots G.lhs ks = G.rhs r →
      DerivesAll G ks → Derives G (.node r ks)
inductive DerivesAll (G : Grammar) : Trees → Prop where
  | nil : DerivesAll G .nil
  | cons (t : Tree) (ts : Trees) : Derives G t → DerivesAll G ts →
      DerivesAll G (.cons t ts)
end

mutual
/-- How many entries of the stack a bottom-up parse of the tree takes: the
children of a node are put on the stack one after the other. -/
def room : Tree → Nat
  | .leaf _ => 1
  | .node _ ks => max 1 (roomAll ks)
def roomAll : Trees → Nat
  | .nil => 0
  | .cons t ts => max (room t) (1 + roomAll ts)
end

/-- The grammar printed in the table of the parser. -/
def grammar (T : Tables) : Grammar where
  isTerm k := 0 < k ∧ k < T.ntBase
  isRule r := 0 < r ∧ r < T.rhs.length
  lhs r := T.derives.getD r 0
  rhs r := T.rhs.getD r []

end Verif.Parse.Spec
