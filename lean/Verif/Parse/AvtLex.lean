import Verif.Parse.AvtLexTables
import Verif.Parse.LexLocal
import Verif.Parse.LexProps
/-
The lexer of attribute value templates (lib/xslt/expressions/avt.c 4083-4510,
avt.bgen 90-125): between braces it is the lexer of XPath, whose table of
character sets has one more row in front.
-/
namespace Verif.Parse
open Spec

/-- The sets of the XPath lexer in the table of this one. -/
def shiftSet : CSet → CSet
  | .small i => .small (i + 1)
  | .big i => .big i

mutual
def shiftProg : Prog → Prog
  | .success => .success
  | .any k => .any (shiftProg k)
  | .lit c k => .lit c (shiftProg k)
  | .notLit c k => .notLit c (shiftProg k)
  | .set s k => .set (shiftSet s) (shiftProg k)
  | .notSet s k => .notSet (shiftSet s) (shiftProg k)
  | .assert p k => .assert (shiftProg p) (shiftProg k)
  | .branch ps k => .branch (shiftProgs ps) (shiftProg k)
  | .rep min p k => .rep min (shiftProg p) (shiftProg k)
  | .range min max p k => .range min max (shiftProg p) (shiftProg k)
def shiftProgs : Progs → Progs
  | .nil => .nil
  | .cons p ps => .cons (shiftProg p) (shiftProgs ps)
end

/-- The states: `LEXER_INITIAL`, `LEXER_AVT` and `LEXER_OPERATOR`. -/
def avtState (st : Nat) : Nat := if st = stOperator then 3 else st

def shiftRule (r : Rule) : Rule := ⟨shiftProg r.prog, r.next.map avtState, r.give⟩

/-- `[}]` (avt.bgen 112-115, avt.c action 8): the end of an expression. -/
def pBrace : Prog := .lit 125 .success
def braceRule : Rule := ⟨pBrace, some 2, .token 125⟩

/-- `[{]{2}|[}]{2}` (avt.bgen 99-101) -/
def pEscape : Prog :=
  .branch (.cons (.range 2 2 (.lit 123 .success) .success)
    (.cons (.range 2 2 (.lit 125 .success) .success) .nil)) .success
/-- `[^{}]+` (avt.bgen 103-105) -/
def pPlain : Prog := .rep 1 (.notSet (.small 0) .success) .success

/-- The patterns of the state INITIAL, actions 8 to 23. -/
def avtInitialRules : List Rule := braceRule :: initialRules.map shiftRule
/-- The patterns of the state AVT, actions 0 to 2 (avt.c 4124-4183). -/
def avtTextRules : List Rule := [
  ⟨pEscape, none, .token 273⟩,
  ⟨pPlain, none, .token 272⟩,
  ⟨pAny, some stInitial, .ascii⟩]
/-- The patterns of the state OPERATOR, actions 3 to 7. -/
def avtOperatorRules : List Rule := operatorRules.map shiftRule

/-- The lexer of attribute value templates. -/
def avtLexer : Lexer where
  sets := avtSets
  rules := [[], avtInitialRules, avtTextRules, avtOperatorRules]
  start := 2
  translate := avtTranslate
  undef := 65

theorem avt_initial_arrays : avtInitialRules.map (·.prog.encode) = avtArraysInitial := by
  decide +kernel
theorem avt_text_arrays : avtTextRules.map (·.prog.encode) = avtArraysAvt := by
  decide +kernel
theorem avt_operator_arrays : avtOperatorRules.map (·.prog.encode) = avtArraysOperator := by
  decide +kernel

/-! ### The same sets -/

abbrev A := avtSets

theorem avt_rows : avtRows.drop 32 = xpathRows ∧ (avtRows.take 32).length = 32 := by
  decide +kernel

theorem avt_rows_at (i : Nat) : avtRows.getD (32 + i) 0 = xpathRows.getD i 0 := by
  rw [← List.take_append_drop 32 avtRows, avt_rows.1]
  rw [List.getD_eq_getElem?_getD, List.getElem?_append_right (by rw [avt_rows.2]; omega), avt_rows.2,
    List.getD_eq_getElem?_getD]
  congr 2
  omega

theorem avt_blocks : avtSets.blocks = xpathSets.blocks.map (fun b => b.map (· + 1)) ∧
    ∀ b ∈ xpathSets.blocks, b.length = 256 := by decide +kernel

theorem testCharset_shift {b : List Nat} (hb : b.length = 256) {c : Nat} (hc : c < 65536) :
    Names.testCharset (b.map (· + 1) ++ avtRows) c = Names.testCharset (b ++ xpathRows) c := by
  have hi : c >>> 8 < 256 := by rw [Nat.shiftRight_eq_div_pow]; omega
  have e1 : (b.map (· + 1) ++ avtRows).getD (c >>> 8) 0 = b.getD (c >>> 8) 0 + 1 := by
    rw [List.getD_eq_getElem?_getD, List.getElem?_append_left (by rw [List.length_map, hb]; exact hi),
      List.getElem?_map, List.getD_eq_getElem?_getD]
    rw [List.getElem?_eq_getElem (by rw [hb]; exact hi)]
    rfl
  have e2 : (b ++ xpathRows).getD (c >>> 8) 0 = b.getD (c >>> 8) 0 := by
    rw [List.getD_eq_getElem?_getD, List.getElem?_append_left (by rw [hb]; exact hi),
      List.getD_eq_getElem?_getD]
  rw [Names.testCharset, Names.testCharset, e1, e2]
  have e3 : ∀ i, (b.map (· + 1) ++ avtRows).getD (256 + (32 + i)) 0 = (b ++ xpathRows).getD (256 + i) 0 := by
    intro i
    rw [List.getD_eq_getElem?_getD, List.getD_eq_getElem?_getD,
      List.getElem?_append_right (by rw [List.length_map, hb]; omega),
      List.getElem?_append_right (by rw [hb]; omega), List.length_map, hb,
      Nat.add_sub_cancel_left, Nat.add_sub_cancel_left, ← List.getD_eq_getElem?_getD,
      ← List.getD_eq_getElem?_getD, avt_rows_at]
  have := e3 (b.getD (c >>> 8) 0 <<< 5 + (c &&& 255) >>> 3)
  rw [Nat.add_assoc 256, Nat.add_assoc 256, ← this]
  congr 3
  rw [Nat.shiftLeft_eq, Nat.shiftLeft_eq]
  omega

/-- The indices in use. -/
def CSet.known : CSet → Bool
  | .small _ => true
  | .big i => decide (i < 5)

mutual
def Prog.known : Prog → Bool
  | .success => true
  | .any k | .lit _ k | .notLit _ k => k.known
  | .set s k | .notSet s k => s.known && k.known
  | .assert p k | .rep _ p k | .range _ _ p k => p.known && k.known
  | .branch ps k => ps.known && k.known
def Progs.known : Progs → Bool
  | .nil => true
  | .cons p ps => p.known && ps.known
end

theorem inSet_shift (c : Char) : ∀ m : CSet, m.known = true → inSet A c (shiftSet m) = inSet X c m
  | .small i, _ => by
    show (decide (c.toNat < 256) &&
      (avtRows.getD (32 * (i + 1) + c.toNat >>> 3) 0 &&& (1 <<< (c.toNat &&& 7)) != 0)) =
      (decide (c.toNat < 256) &&
      (xpathRows.getD (32 * i + c.toNat >>> 3) 0 &&& (1 <<< (c.toNat &&& 7)) != 0))
    rw [← avt_rows_at, show 32 + (32 * i + c.toNat >>> 3) = 32 * (i + 1) + c.toNat >>> 3 by omega]
  | .big i, hm => by
    have hi : i < xpathSets.blocks.length := by
      have : i < 5 := of_decide_eq_true hm
      exact this
    show (decide (c.toNat < 65536) &&
      Names.testCharset (avtSets.blocks.getD i [] ++ avtRows) c.toNat) =
      (decide (c.toNat < 65536) && Names.testCharset (xpathSets.blocks.getD i [] ++ xpathRows) c.toNat)
    by_cases hc : c.toNat < 65536
    · congr 1
      rw [avt_blocks.1]
      have hm := avt_blocks.2 xpathSets.blocks[i] (List.getElem_mem hi)
      rw [List.getD_eq_getElem?_getD, List.getD_eq_getElem?_getD, List.getElem?_map,
        List.getElem?_eq_getElem hi]
      exact testCharset_shift hm hc
    · rw [decide_eq_false hc]
      rfl

mutual
theorem scan_shift : ∀ p : Prog, p.known = true → scan A (shiftProg p) = scan X p
  | .success, _ => rfl
  | .any k, h => by
    funext s
    cases s with
    | nil => rfl
    | cons c cs => rw [shiftProg, scan, scan, scan_shift k h]
  | .lit n k, h => by
    funext s
    cases s with
    | nil => rfl
    | cons c cs => rw [shiftProg, scan, scan, scan_shift k h]
  | .notLit n k, h => by
    funext s
    cases s with
    | nil => rfl
    | cons c cs => rw [shiftProg, scan, scan, scan_shift k h]
  | .set m k, h => by
    rw [Prog.known, Bool.and_eq_true] at h
    funext s
    cases s with
    | nil => rfl
    | cons c cs => rw [shiftProg, scan, scan, scan_shift k h.2, inSet_shift c m h.1]
  | .notSet m k, h => by
    rw [Prog.known, Bool.and_eq_true] at h
    funext s
    cases s with
    | nil => rfl
    | cons c cs => rw [shiftProg, scan, scan, scan_shift k h.2, inSet_shift c m h.1]
  | .assert p k, h => by
    rw [Prog.known, Bool.and_eq_true] at h
    funext s
    rw [shiftProg, scan, scan, scan_shift p h.1, scan_shift k h.2]
  | .branch ps k, h => by
    rw [Prog.known, Bool.and_eq_true] at h
    funext s
    rw [shiftProg, scan, scan, longest_shift ps h.1, scan_shift k h.2]
  | .rep min p k, h => by
    rw [Prog.known, Bool.and_eq_true] at h
    funext s
    rw [shiftProg, scan, scan, scan_shift p h.1, scan_shift k h.2]
  | .range min max p k, h => by
    rw [Prog.known, Bool.and_eq_true] at h
    funext s
    rw [shiftProg, scan, scan, scan_shift p h.1, scan_shift k h.2]
theorem longest_shift : ∀ ps : Progs, ps.known = true → longest A (shiftProgs ps) = longest X ps
  | .nil, _ => rfl
  | .cons p ps, h => by
    rw [Progs.known, Bool.and_eq_true] at h
    funext s
    rw [shiftProgs, longest, longest, scan_shift p h.1, longest_shift ps h.2]
end

def best (o : Option (Rule × Str)) : Option (Rule × Str) := o.map fun p => (shiftRule p.1, p.2)

theorem best_shift (s : Str) : ∀ rs : List Rule, rs.all (fun r => r.prog.known) = true →
    bestRule A (rs.map shiftRule) s = best (bestRule X rs s)
  | [], _ => rfl
  | r :: rs, h => by
    rw [List.all_cons, Bool.and_eq_true] at h
    rw [List.map_cons, bestRule, bestRule, best_shift s rs h.2]
    have : scan A (shiftRule r).prog = scan X r.prog := scan_shift _ h.1
    rw [this]
    cases scan X r.prog s with
    | none => rfl
    | some y =>
      cases bestRule X rs s with
      | none => rfl
      | some b =>
        simp only [best, Option.map_some]
        split <;> rfl

theorem xpath_known : initialRules.all (fun r => r.prog.known) = true ∧
    operatorRules.all (fun r => r.prog.known) = true := by decide +kernel

theorem brace_first : covers X '}' (List.replicate 15 false) initialRules = true := by
  decide +kernel

theorem best_brace (cs : Str) : bestRule X initialRules ('}' :: cs) = none := by
  rw [best_pick cs _ _ brace_first]
  rfl

/-- In the state INITIAL: a brace, or what XPath's lexer does. -/
theorem avt_initial_brace (cs : Str) :
    bestRule A avtInitialRules ('}' :: cs) = some (braceRule, cs) := by
  rw [avtInitialRules, bestRule, best_shift _ _ xpath_known.1, best_brace]
  rfl

theorem avt_initial {c : Char} (hc : c ≠ '}') (cs : Str) :
    bestRule A avtInitialRules (c :: cs) = best (bestRule X initialRules (c :: cs)) := by
  rw [avtInitialRules, best_skip, best_shift _ _ xpath_known.1]
  show (if c.toNat = 125 then some cs else none) = none
  rw [if_neg (show ¬ c.toNat = 125 from fun h => hc (char_eq '}' h))]

theorem avt_operator (s : Str) :
    bestRule A avtOperatorRules s = best (bestRule X operatorRules s) :=
  best_shift _ _ xpath_known.2

end Verif.Parse
