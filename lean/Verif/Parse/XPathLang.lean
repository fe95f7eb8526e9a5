import Verif.Parse.XPathSpec
import Verif.Parse.XPathTables
/-
The grammar in the tables of the parser and the grammar of the recommendation
have the same phrases, but for the two differences named in `Dialect`.
-/
namespace Verif.Parse
open Spec

/-- What the parser reads: no repeated minus sign, any literal. -/
def code : Dialect := ⟨false, true⟩

/-- The nonterminals of the tables. -/
def symOf : Nat → Sym
  | 29 => .locationPath
  | 30 => .absoluteLocationPath
  | 31 => .relativeLocationPath
  | 32 => .step
  | 33 => .predicates
  | 34 => .axisSpecifier
  | 35 => .nodeTest
  | 36 => .predicate
  | 37 => .predicateExpr
  | 38 => .abbrevAbsolute
  | 39 => .abbrevRelative
  | 40 => .abbrevStep
  | 41 => .abbrevAxis
  | 42 => .expr
  | 43 => .primaryExpr
  | 44 => .functionCall
  | 45 => .arguments
  | 46 => .argument
  | 47 => .unionExpr
  | 48 => .pathExpr
  | 49 => .filterExpr
  | 50 => .orExpr
  | 51 => .andExpr
  | 52 => .equalityExpr
  | 53 => .relationalExpr
  | 54 => .additiveExpr
  | 55 => .multiplicativeExpr
  | _ => .unaryExpr

def num : Sym → Nat
  | .locationPath => 29
  | .absoluteLocationPath => 30
  | .relativeLocationPath => 31
  | .step => 32
  | .predicates => 33
  | .axisSpecifier => 34
  | .nodeTest => 35
  | .predicate => 36
  | .predicateExpr => 37
  | .abbrevAbsolute => 38
  | .abbrevRelative => 39
  | .abbrevStep => 40
  | .abbrevAxis => 41
  | .expr => 42
  | .primaryExpr => 43
  | .functionCall => 44
  | .arguments => 45
  | .argument => 46
  | .unionExpr => 47
  | .pathExpr => 48
  | .filterExpr => 49
  | .orExpr => 50
  | .andExpr => 51
  | .equalityExpr => 52
  | .relationalExpr => 53
  | .additiveExpr => 54
  | .multiplicativeExpr => 55
  | .unaryExpr => 56

def Holds (x : Nat) (w : List Tok) : Prop :=
  match decide (x < 29) with
  | true => ∃ t : Tok, w = [t] ∧ t.kind = x
  | false => Phrase code (symOf x) w

def Seq : List Nat → List Tok → Prop
  | [], w => w = []
  | x :: xs, w => ∃ u v, w = u ++ v ∧ Holds x u ∧ Seq xs v

theorem filter_predicates {u v : List Tok} (hu : Phrase code .primaryExpr u)
    (hv : Phrase code .predicates v) : Phrase code .filterExpr (u ++ v) := by
  generalize hs : Sym.predicates = s at hv
  induction hv with
  | none => rw [List.append_nil]; exact .p20a hu
  | some h1 h2 i1 _ =>
    rw [← List.append_assoc]
    exact .p20b (i1 rfl) h2
  | _ => exact (nomatch hs)

theorem rule1 {w : List Tok} (h : Seq [31] w) : Phrase code .locationPath w := by
  obtain ⟨u1, v1, rfl, h1, rfl⟩ := h
  have : Phrase code _ _ := Phrase.p1a h1
  simpa using this

theorem rule2 {w : List Tok} (h : Seq [30] w) : Phrase code .locationPath w := by
  obtain ⟨u1, v1, rfl, h1, rfl⟩ := h
  have : Phrase code _ _ := Phrase.p1b h1
  simpa using this

theorem rule3 {w : List Tok} (h : Seq [18] w) : Phrase code .absoluteLocationPath w := by
  obtain ⟨_, v1, rfl, ⟨t1, rfl, h1⟩, rfl⟩ := h
  have : Phrase code _ _ := Phrase.p2a h1
  simpa using this

theorem rule4 {w : List Tok} (h : Seq [18, 31] w) : Phrase code .absoluteLocationPath w := by
  obtain ⟨_, v1, rfl, ⟨t1, rfl, h1⟩, u2, v2, rfl, h2, rfl⟩ := h
  have : Phrase code _ _ := Phrase.p2b h1 h2
  simpa using this

theorem rule5 {w : List Tok} (h : Seq [38] w) : Phrase code .absoluteLocationPath w := by
  obtain ⟨u1, v1, rfl, h1, rfl⟩ := h
  have : Phrase code _ _ := Phrase.p2c h1
  simpa using this

theorem rule6 {w : List Tok} (h : Seq [32] w) : Phrase code .relativeLocationPath w := by
  obtain ⟨u1, v1, rfl, h1, rfl⟩ := h
  have : Phrase code _ _ := Phrase.p3a h1
  simpa using this

theorem rule7 {w : List Tok} (h : Seq [31, 18, 32] w) : Phrase code .relativeLocationPath w := by
  obtain ⟨u1, v1, rfl, h1, _, v2, rfl, ⟨t2, rfl, h2⟩, u3, v3, rfl, h3, rfl⟩ := h
  have : Phrase code _ _ := Phrase.p3b h1 h2 h3
  simpa using this

theorem rule8 {w : List Tok} (h : Seq [39] w) : Phrase code .relativeLocationPath w := by
  obtain ⟨u1, v1, rfl, h1, rfl⟩ := h
  have : Phrase code _ _ := Phrase.p3c h1
  simpa using this

theorem rule9 {w : List Tok} (h : Seq [34, 35] w) : Phrase code .step w := by
  obtain ⟨u1, v1, rfl, h1, u2, v2, rfl, h2, rfl⟩ := h
  have : Phrase code _ _ := Phrase.p4a h1 h2 .none
  simpa using this

theorem rule10 {w : List Tok} (h : Seq [34, 35, 33] w) : Phrase code .step w := by
  obtain ⟨u1, v1, rfl, h1, u2, v2, rfl, h2, u3, v3, rfl, h3, rfl⟩ := h
  have : Phrase code _ _ := Phrase.p4a h1 h2 h3
  simpa using this

theorem rule11 {w : List Tok} (h : Seq [40] w) : Phrase code .step w := by
  obtain ⟨u1, v1, rfl, h1, rfl⟩ := h
  have : Phrase code _ _ := Phrase.p4b h1
  simpa using this

theorem rule12 {w : List Tok} (h : Seq [36] w) : Phrase code .predicates w := by
  obtain ⟨u1, v1, rfl, h1, rfl⟩ := h
  have : Phrase code _ _ := Phrase.some .none h1
  simpa using this

theorem rule13 {w : List Tok} (h : Seq [33, 36] w) : Phrase code .predicates w := by
  obtain ⟨u1, v1, rfl, h1, u2, v2, rfl, h2, rfl⟩ := h
  have : Phrase code _ _ := Phrase.some h1 h2
  simpa using this

theorem rule14 {w : List Tok} (h : Seq [9, 16] w) : Phrase code .axisSpecifier w := by
  obtain ⟨_, v1, rfl, ⟨t1, rfl, h1⟩, _, v2, rfl, ⟨t2, rfl, h2⟩, rfl⟩ := h
  have : Phrase code _ _ := Phrase.p5a h1 h2
  simpa using this

theorem rule15 {w : List Tok} (h : Seq [41] w) : Phrase code .axisSpecifier w := by
  obtain ⟨u1, v1, rfl, h1, rfl⟩ := h
  have : Phrase code _ _ := Phrase.p5b h1
  simpa using this

theorem rule16 {w : List Tok} (h : Seq [6] w) : Phrase code .nodeTest w := by
  obtain ⟨_, v1, rfl, ⟨t1, rfl, h1⟩, rfl⟩ := h
  have : Phrase code _ _ := Phrase.p7a h1
  simpa using this

theorem rule17 {w : List Tok} (h : Seq [8, 19, 20] w) : Phrase code .nodeTest w := by
  obtain ⟨_, v1, rfl, ⟨t1, rfl, h1⟩, _, v2, rfl, ⟨t2, rfl, h2⟩, _, v3, rfl, ⟨t3, rfl, h3⟩, rfl⟩ := h
  have : Phrase code _ _ := Phrase.p7b h1 h2 h3
  simpa using this

theorem rule18 {w : List Tok} (h : Seq [8, 19, 3, 20] w) : Phrase code .nodeTest w := by
  obtain ⟨_, v1, rfl, ⟨t1, rfl, h1⟩, _, v2, rfl, ⟨t2, rfl, h2⟩, _, v3, rfl, ⟨t3, rfl, h3⟩, _, v4, rfl, ⟨t4, rfl, h4⟩, rfl⟩ := h
  have : Phrase code _ _ := Phrase.p7c h1 (.inl rfl) h2 h3 h4
  simpa using this

theorem rule19 {w : List Tok} (h : Seq [21, 37, 22] w) : Phrase code .predicate w := by
  obtain ⟨_, v1, rfl, ⟨t1, rfl, h1⟩, u2, v2, rfl, h2, _, v3, rfl, ⟨t3, rfl, h3⟩, rfl⟩ := h
  have : Phrase code _ _ := Phrase.p8 h1 h2 h3
  simpa using this

theorem rule20 {w : List Tok} (h : Seq [42] w) : Phrase code .predicateExpr w := by
  obtain ⟨u1, v1, rfl, h1, rfl⟩ := h
  have : Phrase code _ _ := Phrase.p9 h1
  simpa using this

theorem rule21 {w : List Tok} (h : Seq [17, 31] w) : Phrase code .abbrevAbsolute w := by
  obtain ⟨_, v1, rfl, ⟨t1, rfl, h1⟩, u2, v2, rfl, h2, rfl⟩ := h
  have : Phrase code _ _ := Phrase.p10 h1 h2
  simpa using this

theorem rule22 {w : List Tok} (h : Seq [31, 17, 32] w) : Phrase code .abbrevRelative w := by
  obtain ⟨u1, v1, rfl, h1, _, v2, rfl, ⟨t2, rfl, h2⟩, u3, v3, rfl, h3, rfl⟩ := h
  have : Phrase code _ _ := Phrase.p11 h1 h2 h3
  simpa using this

theorem rule23 {w : List Tok} (h : Seq [23] w) : Phrase code .abbrevStep w := by
  obtain ⟨_, v1, rfl, ⟨t1, rfl, h1⟩, rfl⟩ := h
  have : Phrase code _ _ := Phrase.p12a h1
  simpa using this

theorem rule24 {w : List Tok} (h : Seq [15] w) : Phrase code .abbrevStep w := by
  obtain ⟨_, v1, rfl, ⟨t1, rfl, h1⟩, rfl⟩ := h
  have : Phrase code _ _ := Phrase.p12b h1
  simpa using this

theorem rule25 {w : List Tok} (h : Seq [24] w) : Phrase code .abbrevAxis w := by
  obtain ⟨_, v1, rfl, ⟨t1, rfl, h1⟩, rfl⟩ := h
  have : Phrase code _ _ := Phrase.p13a h1
  simpa using this

theorem rule26 {w : List Tok} (h : Seq [] w) : Phrase code .abbrevAxis w := by
  obtain rfl : w = [] := h
  have : Phrase code _ _ := Phrase.p13b
  simpa using this

theorem rule27 {w : List Tok} (h : Seq [50] w) : Phrase code .expr w := by
  obtain ⟨u1, v1, rfl, h1, rfl⟩ := h
  have : Phrase code _ _ := Phrase.p14 h1
  simpa using this

theorem rule28 {w : List Tok} (h : Seq [5] w) : Phrase code .primaryExpr w := by
  obtain ⟨_, v1, rfl, ⟨t1, rfl, h1⟩, rfl⟩ := h
  have : Phrase code _ _ := Phrase.p15a h1
  simpa using this

theorem rule29 {w : List Tok} (h : Seq [19, 42, 20] w) : Phrase code .primaryExpr w := by
  obtain ⟨_, v1, rfl, ⟨t1, rfl, h1⟩, u2, v2, rfl, h2, _, v3, rfl, ⟨t3, rfl, h3⟩, rfl⟩ := h
  have : Phrase code _ _ := Phrase.p15b h1 h2 h3
  simpa using this

theorem rule30 {w : List Tok} (h : Seq [3] w) : Phrase code .primaryExpr w := by
  obtain ⟨_, v1, rfl, ⟨t1, rfl, h1⟩, rfl⟩ := h
  have : Phrase code _ _ := Phrase.p15c h1
  simpa using this

theorem rule31 {w : List Tok} (h : Seq [4] w) : Phrase code .primaryExpr w := by
  obtain ⟨_, v1, rfl, ⟨t1, rfl, h1⟩, rfl⟩ := h
  have : Phrase code _ _ := Phrase.p15d h1
  simpa using this

theorem rule32 {w : List Tok} (h : Seq [44] w) : Phrase code .primaryExpr w := by
  obtain ⟨u1, v1, rfl, h1, rfl⟩ := h
  have : Phrase code _ _ := Phrase.p15e h1
  simpa using this

theorem rule33 {w : List Tok} (h : Seq [7, 19, 20] w) : Phrase code .functionCall w := by
  obtain ⟨_, v1, rfl, ⟨t1, rfl, h1⟩, _, v2, rfl, ⟨t2, rfl, h2⟩, _, v3, rfl, ⟨t3, rfl, h3⟩, rfl⟩ := h
  have : Phrase code _ _ := Phrase.p16a h1 h2 h3
  simpa using this

theorem rule34 {w : List Tok} (h : Seq [7, 19, 45, 20] w) : Phrase code .functionCall w := by
  obtain ⟨_, v1, rfl, ⟨t1, rfl, h1⟩, _, v2, rfl, ⟨t2, rfl, h2⟩, u3, v3, rfl, h3, _, v4, rfl, ⟨t4, rfl, h4⟩, rfl⟩ := h
  have : Phrase code _ _ := Phrase.p16b h1 h2 h3 h4
  simpa using this

theorem rule35 {w : List Tok} (h : Seq [46] w) : Phrase code .arguments w := by
  obtain ⟨u1, v1, rfl, h1, rfl⟩ := h
  have : Phrase code _ _ := Phrase.one h1
  simpa using this

theorem rule36 {w : List Tok} (h : Seq [45, 25, 46] w) : Phrase code .arguments w := by
  obtain ⟨u1, v1, rfl, h1, _, v2, rfl, ⟨t2, rfl, h2⟩, u3, v3, rfl, h3, rfl⟩ := h
  have : Phrase code _ _ := Phrase.more h1 h2 h3
  simpa using this

theorem rule37 {w : List Tok} (h : Seq [42] w) : Phrase code .argument w := by
  obtain ⟨u1, v1, rfl, h1, rfl⟩ := h
  have : Phrase code _ _ := Phrase.p17 h1
  simpa using this

theorem rule38 {w : List Tok} (h : Seq [48] w) : Phrase code .unionExpr w := by
  obtain ⟨u1, v1, rfl, h1, rfl⟩ := h
  have : Phrase code _ _ := Phrase.p18a h1
  simpa using this

theorem rule39 {w : List Tok} (h : Seq [47, 26, 48] w) : Phrase code .unionExpr w := by
  obtain ⟨u1, v1, rfl, h1, _, v2, rfl, ⟨t2, rfl, h2⟩, u3, v3, rfl, h3, rfl⟩ := h
  have : Phrase code _ _ := Phrase.p18b h1 h2 h3
  simpa using this

theorem rule40 {w : List Tok} (h : Seq [29] w) : Phrase code .pathExpr w := by
  obtain ⟨u1, v1, rfl, h1, rfl⟩ := h
  have : Phrase code _ _ := Phrase.p19a h1
  simpa using this

theorem rule41 {w : List Tok} (h : Seq [49] w) : Phrase code .pathExpr w := by
  obtain ⟨u1, v1, rfl, h1, rfl⟩ := h
  have : Phrase code _ _ := Phrase.p19b h1
  simpa using this

theorem rule42 {w : List Tok} (h : Seq [49, 18, 31] w) : Phrase code .pathExpr w := by
  obtain ⟨u1, v1, rfl, h1, _, v2, rfl, ⟨t2, rfl, h2⟩, u3, v3, rfl, h3, rfl⟩ := h
  have : Phrase code _ _ := Phrase.p19c h1 h2 h3
  simpa using this

theorem rule43 {w : List Tok} (h : Seq [49, 17, 31] w) : Phrase code .pathExpr w := by
  obtain ⟨u1, v1, rfl, h1, _, v2, rfl, ⟨t2, rfl, h2⟩, u3, v3, rfl, h3, rfl⟩ := h
  have : Phrase code _ _ := Phrase.p19d h1 h2 h3
  simpa using this

theorem rule44 {w : List Tok} (h : Seq [43] w) : Phrase code .filterExpr w := by
  obtain ⟨u1, v1, rfl, h1, rfl⟩ := h
  have : Phrase code _ _ := Phrase.p20a h1
  simpa using this

theorem rule45 {w : List Tok} (h : Seq [43, 33] w) : Phrase code .filterExpr w := by
  obtain ⟨u1, v1, rfl, h1, u2, v2, rfl, h2, rfl⟩ := h
  have := filter_predicates h1 h2
  simpa using this

theorem rule46 {w : List Tok} (h : Seq [51] w) : Phrase code .orExpr w := by
  obtain ⟨u1, v1, rfl, h1, rfl⟩ := h
  have : Phrase code _ _ := Phrase.p21a h1
  simpa using this

theorem rule47 {w : List Tok} (h : Seq [50, 10, 51] w) : Phrase code .orExpr w := by
  obtain ⟨u1, v1, rfl, h1, _, v2, rfl, ⟨t2, rfl, h2⟩, u3, v3, rfl, h3, rfl⟩ := h
  have : Phrase code _ _ := Phrase.p21b h1 h2 h3
  simpa using this

theorem rule48 {w : List Tok} (h : Seq [52] w) : Phrase code .andExpr w := by
  obtain ⟨u1, v1, rfl, h1, rfl⟩ := h
  have : Phrase code _ _ := Phrase.p22a h1
  simpa using this

theorem rule49 {w : List Tok} (h : Seq [51, 11, 52] w) : Phrase code .andExpr w := by
  obtain ⟨u1, v1, rfl, h1, _, v2, rfl, ⟨t2, rfl, h2⟩, u3, v3, rfl, h3, rfl⟩ := h
  have : Phrase code _ _ := Phrase.p22b h1 h2 h3
  simpa using this

theorem rule50 {w : List Tok} (h : Seq [53] w) : Phrase code .equalityExpr w := by
  obtain ⟨u1, v1, rfl, h1, rfl⟩ := h
  have : Phrase code _ _ := Phrase.p23a h1
  simpa using this

theorem rule51 {w : List Tok} (h : Seq [52, 12, 53] w) : Phrase code .equalityExpr w := by
  obtain ⟨u1, v1, rfl, h1, _, v2, rfl, ⟨t2, rfl, h2⟩, u3, v3, rfl, h3, rfl⟩ := h
  have : Phrase code _ _ := Phrase.p23b h1 h2 h3
  simpa using this

theorem rule52 {w : List Tok} (h : Seq [54] w) : Phrase code .relationalExpr w := by
  obtain ⟨u1, v1, rfl, h1, rfl⟩ := h
  have : Phrase code _ _ := Phrase.p24a h1
  simpa using this

theorem rule53 {w : List Tok} (h : Seq [53, 13, 54] w) : Phrase code .relationalExpr w := by
  obtain ⟨u1, v1, rfl, h1, _, v2, rfl, ⟨t2, rfl, h2⟩, u3, v3, rfl, h3, rfl⟩ := h
  have : Phrase code _ _ := Phrase.p24b h1 h2 h3
  simpa using this

theorem rule54 {w : List Tok} (h : Seq [55] w) : Phrase code .additiveExpr w := by
  obtain ⟨u1, v1, rfl, h1, rfl⟩ := h
  have : Phrase code _ _ := Phrase.p25a h1
  simpa using this

theorem rule55 {w : List Tok} (h : Seq [54, 27, 55] w) : Phrase code .additiveExpr w := by
  obtain ⟨u1, v1, rfl, h1, _, v2, rfl, ⟨t2, rfl, h2⟩, u3, v3, rfl, h3, rfl⟩ := h
  have : Phrase code _ _ := Phrase.p25b h1 h2 h3
  simpa using this

theorem rule56 {w : List Tok} (h : Seq [54, 28, 55] w) : Phrase code .additiveExpr w := by
  obtain ⟨u1, v1, rfl, h1, _, v2, rfl, ⟨t2, rfl, h2⟩, u3, v3, rfl, h3, rfl⟩ := h
  have : Phrase code _ _ := Phrase.p25c h1 h2 h3
  simpa using this

theorem rule57 {w : List Tok} (h : Seq [56] w) : Phrase code .multiplicativeExpr w := by
  obtain ⟨u1, v1, rfl, h1, rfl⟩ := h
  have : Phrase code _ _ := Phrase.p26a h1
  simpa using this

theorem rule58 {w : List Tok} (h : Seq [55, 14, 56] w) : Phrase code .multiplicativeExpr w := by
  obtain ⟨u1, v1, rfl, h1, _, v2, rfl, ⟨t2, rfl, h2⟩, u3, v3, rfl, h3, rfl⟩ := h
  have : Phrase code _ _ := Phrase.p26b h1 h2 h3
  simpa using this

theorem rule59 {w : List Tok} (h : Seq [47] w) : Phrase code .unaryExpr w := by
  obtain ⟨u1, v1, rfl, h1, rfl⟩ := h
  have : Phrase code _ _ := Phrase.p27a h1
  simpa using this

theorem rule60 {w : List Tok} (h : Seq [28, 47] w) : Phrase code .unaryExpr w := by
  obtain ⟨_, v1, rfl, ⟨t1, rfl, h1⟩, u2, v2, rfl, h2, rfl⟩ := h
  have : Phrase code _ _ := Phrase.p27c h1 h2
  simpa using this

theorem rule_holds : ∀ (r : Nat) (w : List Tok), 0 < r → r < 61 →
    Seq (xpathTables.rhs.getD r []) w → Phrase code (symOf (xpathTables.derives.getD r 0)) w
  | 0, _, h, _, _ => absurd h (by decide)
  | 1, _, _, _, h => rule1 h
  | 2, _, _, _, h => rule2 h
  | 3, _, _, _, h => rule3 h
  | 4, _, _, _, h => rule4 h
  | 5, _, _, _, h => rule5 h
  | 6, _, _, _, h => rule6 h
  | 7, _, _, _, h => rule7 h
  | 8, _, _, _, h => rule8 h
  | 9, _, _, _, h => rule9 h
  | 10, _, _, _, h => rule10 h
  | 11, _, _, _, h => rule11 h
  | 12, _, _, _, h => rule12 h
  | 13, _, _, _, h => rule13 h
  | 14, _, _, _, h => rule14 h
  | 15, _, _, _, h => rule15 h
  | 16, _, _, _, h => rule16 h
  | 17, _, _, _, h => rule17 h
  | 18, _, _, _, h => rule18 h
  | 19, _, _, _, h => rule19 h
  | 20, _, _, _, h => rule20 h
  | 21, _, _, _, h => rule21 h
  | 22, _, _, _, h => rule22 h
  | 23, _, _, _, h => rule23 h
  | 24, _, _, _, h => rule24 h
  | 25, _, _, _, h => rule25 h
  | 26, _, _, _, h => rule26 h
  | 27, _, _, _, h => rule27 h
  | 28, _, _, _, h => rule28 h
  | 29, _, _, _, h => rule29 h
  | 30, _, _, _, h => rule30 h
  | 31, _, _, _, h => rule31 h
  | 32, _, _, _, h => rule32 h
  | 33, _, _, _, h => rule33 h
  | 34, _, _, _, h => rule34 h
  | 35, _, _, _, h => rule35 h
  | 36, _, _, _, h => rule36 h
  | 37, _, _, _, h => rule37 h
  | 38, _, _, _, h => rule38 h
  | 39, _, _, _, h => rule39 h
  | 40, _, _, _, h => rule40 h
  | 41, _, _, _, h => rule41 h
  | 42, _, _, _, h => rule42 h
  | 43, _, _, _, h => rule43 h
  | 44, _, _, _, h => rule44 h
  | 45, _, _, _, h => rule45 h
  | 46, _, _, _, h => rule46 h
  | 47, _, _, _, h => rule47 h
  | 48, _, _, _, h => rule48 h
  | 49, _, _, _, h => rule49 h
  | 50, _, _, _, h => rule50 h
  | 51, _, _, _, h => rule51 h
  | 52, _, _, _, h => rule52 h
  | 53, _, _, _, h => rule53 h
  | 54, _, _, _, h => rule54 h
  | 55, _, _, _, h => rule55 h
  | 56, _, _, _, h => rule56 h
  | 57, _, _, _, h => rule57 h
  | 58, _, _, _, h => rule58 h
  | 59, _, _, _, h => rule59 h
  | 60, _, _, _, h => rule60 h
  | _ + 61, _, _, h, _ => absurd h (by omega)

theorem lhs_nt : ∀ r, 0 < r → r < 61 → ¬ xpathTables.derives.getD r 0 < 29 := by
  have : ∀ r ∈ List.range 61, 0 < r → ¬ xpathTables.derives.getD r 0 < 29 := by decide +kernel
  intro r h0 h
  exact this r (List.mem_range.mpr h) h0

theorem holds_term {x : Nat} {w : List Tok} (h : x < 29) :
    Holds x w ↔ ∃ t : Tok, w = [t] ∧ t.kind = x := by
  rw [Holds, decide_eq_true h]

theorem holds_nt {x : Nat} {w : List Tok} (h : ¬ x < 29) :
    Holds x w ↔ Phrase code (symOf x) w := by
  rw [Holds, decide_eq_false h]

mutual
theorem derives_holds : ∀ (t : Tree), Derives (grammar xpathTables) t →
    Holds (root (grammar xpathTables).lhs t) (yield t)
  | _, .leaf t h => (holds_term h.2).mpr ⟨t, rfl, rfl⟩
  | _, .node r ks hr hs hd => by
    have h := derives_seq ks hd
    rw [hs] at h
    exact (holds_nt (lhs_nt r hr.1 hr.2)).mpr (rule_holds r _ hr.1 hr.2 h)
theorem derives_seq : ∀ (ts : Trees), DerivesAll (grammar xpathTables) ts →
    Seq (roots (grammar xpathTables).lhs ts) (yields ts)
  | _, .nil => rfl
  | _, .cons t ts h h' => ⟨_, _, rfl, derives_holds t h, derives_seq ts h'⟩
end

/-- There is a tree of the table's grammar for the symbol. -/
def Has (x : Nat) (w : List Tok) : Prop :=
  ∃ t, Derives (grammar xpathTables) t ∧ root (grammar xpathTables).lhs t = x ∧ yield t = w

def HasAll (xs : List Nat) (w : List Tok) : Prop :=
  ∃ ts, DerivesAll (grammar xpathTables) ts ∧ roots (grammar xpathTables).lhs ts = xs ∧
    yields ts = w

theorem HasAll.nil : HasAll [] [] := ⟨.nil, .nil, rfl, rfl⟩

theorem HasAll.cons {x : Nat} {xs : List Nat} {u v : List Tok} (h : Has x u) (h' : HasAll xs v) :
    HasAll (x :: xs) (u ++ v) := by
  obtain ⟨t, h1, h2, h3⟩ := h
  obtain ⟨ts, g1, g2, g3⟩ := h'
  exact ⟨.cons t ts, .cons _ _ h1 g1, by rw [roots, h2, g2], by rw [yields, h3, g3]⟩

theorem Has.rule (r : Nat) (hr : 0 < r ∧ r < 61) {w : List Tok}
    (h : HasAll (xpathTables.rhs.getD r []) w) : Has (xpathTables.derives.getD r 0) w := by
  obtain ⟨ts, h1, h2, h3⟩ := h
  exact ⟨.node r ts, .node r ts hr h2 h1, rfl, h3⟩

theorem Has.term {k : Term} {t : Tok} (h : Is k t) : Has k.num [t] :=
  ⟨.leaf t, .leaf t (by rw [show t.kind = k.num from h]; show 0 < k.num ∧ k.num < 29; cases k <;> decide), h, rfl⟩

/-- What the symbols of the specification are for the parser. -/
def Found : Sym → List Tok → Prop
  | .predicates, w => w = [] ∨ Has 33 w
  | .filterExpr, w => ∃ u v, w = u ++ v ∧ Has 43 u ∧ (v = [] ∨ Has 33 v)
  | s, w => Has (num s) w


theorem has_filter {w : List Tok} (h : Found .filterExpr w) : Has 49 w := by
  obtain ⟨u, v, rfl, hu, hv⟩ := h
  rcases hv with rfl | hv
  · have : Has 49 _ := Has.rule 44 (by decide) (.cons hu .nil)
    simpa using this
  · have : Has 49 _ := Has.rule 45 (by decide) (.cons hu (.cons hv .nil))
    simpa using this

theorem found {d : Dialect} (hd : d.minusMinus = false) {s : Sym} {w : List Tok}
    (h : Phrase d s w) : Found s w := by
  induction h with
  | p1a h1 i1 =>
    have : Has 29 _ := Has.rule 1 (by decide) (.cons i1 .nil)
    simpa [Found, num] using this
  | p1b h1 i1 =>
    have : Has 29 _ := Has.rule 2 (by decide) (.cons i1 .nil)
    simpa [Found, num] using this
  | p2a h1 =>
    have : Has 30 _ := Has.rule 3 (by decide) (.cons (.term h1) .nil)
    simpa [Found, num] using this
  | p2b h1 h2 i2 =>
    have : Has 30 _ := Has.rule 4 (by decide) (.cons (.term h1) (.cons i2 .nil))
    simpa [Found, num] using this
  | p2c h1 i1 =>
    have : Has 30 _ := Has.rule 5 (by decide) (.cons i1 .nil)
    simpa [Found, num] using this
  | p3a h1 i1 =>
    have : Has 31 _ := Has.rule 6 (by decide) (.cons i1 .nil)
    simpa [Found, num] using this
  | p3b h1 h2 h3 i1 i3 =>
    have : Has 31 _ := Has.rule 7 (by decide) (.cons i1 (.cons (.term h2) (.cons i3 .nil)))
    simpa [Found, num] using this
  | p3c h1 i1 =>
    have : Has 31 _ := Has.rule 8 (by decide) (.cons i1 .nil)
    simpa [Found, num] using this
  | p4a h1 h2 h3 i1 i2 i3 =>
    rcases i3 with rfl | i3
    · have : Has 32 _ := Has.rule 9 (by decide) (.cons i1 (.cons i2 .nil))
      simpa [Found, num] using this
    · have : Has 32 _ := Has.rule 10 (by decide) (.cons i1 (.cons i2 (.cons i3 .nil)))
      simpa [Found, num] using this
  | p4b h1 i1 =>
    have : Has 32 _ := Has.rule 11 (by decide) (.cons i1 .nil)
    simpa [Found, num] using this
  | none => exact .inl rfl
  | some h1 h2 i1 i2 =>
    rcases i1 with rfl | i1
    · have : Has 33 _ := Has.rule 12 (by decide) (.cons i2 .nil)
      exact .inr (by simpa using this)
    · have : Has 33 _ := Has.rule 13 (by decide) (.cons i1 (.cons i2 .nil))
      exact .inr (by simpa using this)
  | p5a h1 h2 =>
    have : Has 34 _ := Has.rule 14 (by decide) (.cons (.term h1) (.cons (.term h2) .nil))
    simpa [Found, num] using this
  | p5b h1 i1 =>
    have : Has 34 _ := Has.rule 15 (by decide) (.cons i1 .nil)
    simpa [Found, num] using this
  | p7a h1 =>
    have : Has 35 _ := Has.rule 16 (by decide) (.cons (.term h1) .nil)
    simpa [Found, num] using this
  | p7b h1 h2 h3 =>
    have : Has 35 _ := Has.rule 17 (by decide) (.cons (.term h1) (.cons (.term h2) (.cons (.term h3) .nil)))
    simpa [Found, num] using this
  | p7c h1 _ h2 h3 h4 =>
    have : Has 35 _ := Has.rule 18 (by decide) (.cons (.term h1) (.cons (.term h2) (.cons (.term h3) (.cons (.term h4) .nil))))
    simpa [Found, num] using this
  | p8 h1 h2 h3 i2 =>
    have : Has 36 _ := Has.rule 19 (by decide) (.cons (.term h1) (.cons i2 (.cons (.term h3) .nil)))
    simpa [Found, num] using this
  | p9 h1 i1 =>
    have : Has 37 _ := Has.rule 20 (by decide) (.cons i1 .nil)
    simpa [Found, num] using this
  | p10 h1 h2 i2 =>
    have : Has 38 _ := Has.rule 21 (by decide) (.cons (.term h1) (.cons i2 .nil))
    simpa [Found, num] using this
  | p11 h1 h2 h3 i1 i3 =>
    have : Has 39 _ := Has.rule 22 (by decide) (.cons i1 (.cons (.term h2) (.cons i3 .nil)))
    simpa [Found, num] using this
  | p12a h1 =>
    have : Has 40 _ := Has.rule 23 (by decide) (.cons (.term h1) .nil)
    simpa [Found, num] using this
  | p12b h1 =>
    have : Has 40 _ := Has.rule 24 (by decide) (.cons (.term h1) .nil)
    simpa [Found, num] using this
  | p13a h1 =>
    have : Has 41 _ := Has.rule 25 (by decide) (.cons (.term h1) .nil)
    simpa [Found, num] using this
  | p13b =>
    have : Has 41 _ := Has.rule 26 (by decide) .nil
    simpa [Found, num] using this
  | p14 h1 i1 =>
    have : Has 42 _ := Has.rule 27 (by decide) (.cons i1 .nil)
    simpa [Found, num] using this
  | p15a h1 =>
    have : Has 43 _ := Has.rule 28 (by decide) (.cons (.term h1) .nil)
    simpa [Found, num] using this
  | p15b h1 h2 h3 i2 =>
    have : Has 43 _ := Has.rule 29 (by decide) (.cons (.term h1) (.cons i2 (.cons (.term h3) .nil)))
    simpa [Found, num] using this
  | p15c h1 =>
    have : Has 43 _ := Has.rule 30 (by decide) (.cons (.term h1) .nil)
    simpa [Found, num] using this
  | p15d h1 =>
    have : Has 43 _ := Has.rule 31 (by decide) (.cons (.term h1) .nil)
    simpa [Found, num] using this
  | p15e h1 i1 =>
    have : Has 43 _ := Has.rule 32 (by decide) (.cons i1 .nil)
    simpa [Found, num] using this
  | p16a h1 h2 h3 =>
    have : Has 44 _ := Has.rule 33 (by decide) (.cons (.term h1) (.cons (.term h2) (.cons (.term h3) .nil)))
    simpa [Found, num] using this
  | p16b h1 h2 h3 h4 i3 =>
    have : Has 44 _ := Has.rule 34 (by decide) (.cons (.term h1) (.cons (.term h2) (.cons i3 (.cons (.term h4) .nil))))
    simpa [Found, num] using this
  | one h1 i1 =>
    have : Has 45 _ := Has.rule 35 (by decide) (.cons i1 .nil)
    simpa [Found, num] using this
  | more h1 h2 h3 i1 i3 =>
    have : Has 45 _ := Has.rule 36 (by decide) (.cons i1 (.cons (.term h2) (.cons i3 .nil)))
    simpa [Found, num] using this
  | p17 h1 i1 =>
    have : Has 46 _ := Has.rule 37 (by decide) (.cons i1 .nil)
    simpa [Found, num] using this
  | p18a h1 i1 =>
    have : Has 47 _ := Has.rule 38 (by decide) (.cons i1 .nil)
    simpa [Found, num] using this
  | p18b h1 h2 h3 i1 i3 =>
    have : Has 47 _ := Has.rule 39 (by decide) (.cons i1 (.cons (.term h2) (.cons i3 .nil)))
    simpa [Found, num] using this
  | p19a h1 i1 =>
    have : Has 48 _ := Has.rule 40 (by decide) (.cons i1 .nil)
    simpa [Found, num] using this
  | p19b h1 i1 =>
    have : Has 48 _ := Has.rule 41 (by decide) (.cons (has_filter i1) .nil)
    simpa [Found, num] using this
  | p19c h1 h2 h3 i1 i3 =>
    have : Has 48 _ := Has.rule 42 (by decide) (.cons (has_filter i1) (.cons (.term h2) (.cons i3 .nil)))
    simpa [Found, num] using this
  | p19d h1 h2 h3 i1 i3 =>
    have : Has 48 _ := Has.rule 43 (by decide) (.cons (has_filter i1) (.cons (.term h2) (.cons i3 .nil)))
    simpa [Found, num] using this
  | p20a h1 i1 => exact ⟨_, [], (List.append_nil _).symm, i1, .inl rfl⟩
  | p20b h1 h2 i1 i2 =>
    obtain ⟨u, v, rfl, hu, hv⟩ := i1
    refine ⟨u, v ++ _, List.append_assoc _ _ _, hu, .inr ?_⟩
    rcases hv with rfl | hv
    · have : Has 33 _ := Has.rule 12 (by decide) (.cons i2 .nil)
      simpa using this
    · have : Has 33 _ := Has.rule 13 (by decide) (.cons hv (.cons i2 .nil))
      simpa using this
  | p21a h1 i1 =>
    have : Has 50 _ := Has.rule 46 (by decide) (.cons i1 .nil)
    simpa [Found, num] using this
  | p21b h1 h2 h3 i1 i3 =>
    have : Has 50 _ := Has.rule 47 (by decide) (.cons i1 (.cons (.term h2) (.cons i3 .nil)))
    simpa [Found, num] using this
  | p22a h1 i1 =>
    have : Has 51 _ := Has.rule 48 (by decide) (.cons i1 .nil)
    simpa [Found, num] using this
  | p22b h1 h2 h3 i1 i3 =>
    have : Has 51 _ := Has.rule 49 (by decide) (.cons i1 (.cons (.term h2) (.cons i3 .nil)))
    simpa [Found, num] using this
  | p23a h1 i1 =>
    have : Has 52 _ := Has.rule 50 (by decide) (.cons i1 .nil)
    simpa [Found, num] using this
  | p23b h1 h2 h3 i1 i3 =>
    have : Has 52 _ := Has.rule 51 (by decide) (.cons i1 (.cons (.term h2) (.cons i3 .nil)))
    simpa [Found, num] using this
  | p24a h1 i1 =>
    have : Has 53 _ := Has.rule 52 (by decide) (.cons i1 .nil)
    simpa [Found, num] using this
  | p24b h1 h2 h3 i1 i3 =>
    have : Has 53 _ := Has.rule 53 (by decide) (.cons i1 (.cons (.term h2) (.cons i3 .nil)))
    simpa [Found, num] using this
  | p25a h1 i1 =>
    have : Has 54 _ := Has.rule 54 (by decide) (.cons i1 .nil)
    simpa [Found, num] using this
  | p25b h1 h2 h3 i1 i3 =>
    have : Has 54 _ := Has.rule 55 (by decide) (.cons i1 (.cons (.term h2) (.cons i3 .nil)))
    simpa [Found, num] using this
  | p25c h1 h2 h3 i1 i3 =>
    have : Has 54 _ := Has.rule 56 (by decide) (.cons i1 (.cons (.term h2) (.cons i3 .nil)))
    simpa [Found, num] using this
  | p26a h1 i1 =>
    have : Has 55 _ := Has.rule 57 (by decide) (.cons i1 .nil)
    simpa [Found, num] using this
  | p26b h1 h2 h3 i1 i3 =>
    have : Has 55 _ := Has.rule 58 (by decide) (.cons i1 (.cons (.term h2) (.cons i3 .nil)))
    simpa [Found, num] using this
  | p27a h1 i1 =>
    have : Has 56 _ := Has.rule 59 (by decide) (.cons i1 .nil)
    simpa [Found, num] using this
  | p27b h => rw [hd] at h; exact (nomatch h)
  | p27c h1 h2 i2 =>
    have : Has 56 _ := Has.rule 60 (by decide) (.cons (.term h1) (.cons i2 .nil))
    simpa [Found, num] using this

/-- The two grammars have the same expressions. -/
theorem expr_iff (w : List Tok) : Has 42 w ↔ Phrase code .expr w := by
  constructor
  · rintro ⟨t, h1, h2, rfl⟩
    have := derives_holds t h1
    rw [h2] at this
    exact (holds_nt (by decide)).mp this
  · exact fun h => found rfl h

end Verif.Parse
