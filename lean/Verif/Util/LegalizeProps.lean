import Verif.Util.Legalize
/-
C100: making strings legal.
-/
namespace Verif.Util.Legalize.Spec
open Verif.Util.Legalize

/-- `Char` of XML 1.0 (production 2). -/
def XmlChar (c : Nat) : Prop :=
  c = 9 ∨ c = 10 ∨ c = 13 ∨ (0x20 ≤ c ∧ c ≤ 0xd7ff) ∨ (0xe000 ≤ c ∧ c ≤ 0xfffd) ∨ (0x10000 ≤ c ∧ c ≤ 0x10ffff)

instance (c : Nat) : Decidable (XmlChar c) := by unfold XmlChar; infer_instance

/-- A character of Unicode. -/
def Scalar (c : Nat) : Prop := c ≤ 0xd7ff ∨ (0xe000 ≤ c ∧ c ≤ 0x10ffff)

/-- How a character is stored in a wide or narrow build. -/
def store (wide : Bool) (c : Nat) : UStr :=
  if wide = true ∨ c < 0x10000 then [c] else [0xd800 + (c - 0x10000) / 0x400, 0xdc00 + (c - 0x10000) % 0x400]

end Verif.Util.Legalize.Spec

namespace Verif.Util.Legalize
open Verif.Util.Legalize.Spec

theorem control_iff {c : Nat} (h : Scalar c) : control c = true ↔ ¬XmlChar c := by
  simp only [control, XmlChar, Scalar, Bool.or_eq_true, Bool.and_eq_true, decide_eq_true_eq] at *
  omega

theorem scalar_plain {c : Nat} (h : Scalar c) : high c = false ∧ low c = false := by
  simp only [high, low, Scalar] at *
  constructor <;> (rw [Bool.and_eq_false_iff]; simp only [decide_eq_false_iff_not]; omega)

theorem pair {c : Nat} (h : Scalar c) (hc : ¬c < 0x10000) :
    high (0xd800 + (c - 0x10000) / 0x400) = true ∧ low (0xdc00 + (c - 0x10000) % 0x400) = true ∧
    low (0xd800 + (c - 0x10000) / 0x400) = false ∧ high (0xdc00 + (c - 0x10000) % 0x400) = false ∧
    control (0xd800 + (c - 0x10000) / 0x400) = false ∧ control (0xdc00 + (c - 0x10000) % 0x400) = false := by
  simp only [high, low, control, Scalar, Bool.and_eq_true, decide_eq_true_eq, Bool.and_eq_false_iff,
    decide_eq_false_iff_not, Bool.or_eq_false_iff] at *
  have h2 : (c - 0x10000) % 0x400 < 0x400 := Nat.mod_lt _ (by decide)
  have h3 : (c - 0x10000) / 0x400 < 0x400 := Nat.div_lt_of_lt_mul (by omega)
  omega

/-- What follows does not begin with the second half of a pair. -/
theorem store_head (wide : Bool) : ∀ (l : List Nat), (∀ c ∈ l, Scalar c) →
    lowNext (l.flatMap (store wide)) = false
  | [], _ => rfl
  | c :: l, h => by
    have hc := h c List.mem_cons_self
    rw [List.flatMap_cons]
    by_cases hw : wide = true ∨ c < 0x10000
    · rw [show store wide c = [c] by simp [store, hw]]
      exact (scalar_plain hc).2
    · rw [show store wide c = [0xd800 + (c - 0x10000) / 0x400, 0xdc00 + (c - 0x10000) % 0x400] by simp [store, hw]]
      exact (pair hc (fun h => hw (.inr h))).2.2.1

theorem sub_fuel (repl : UStr) : ∀ (f g : Nat) (b : Bool) (s : UStr), s.length ≤ f → s.length ≤ g →
    sub repl f b s = sub repl g b s
  | f, g, b, [], _, _ => by cases f <;> cases g <;> simp [sub, hit]
  | 0, _, _, _ :: _, h, _ => by simp at h
  | _, 0, _, _ :: _, _, h => by simp at h
  | f + 1, g + 1, b, c :: r, h, h' => by
    simp only [List.length_cons] at h h'
    unfold sub
    cases e : hit b (c :: r) with
    | none => simp only; rw [sub_fuel repl f g false r (by omega) (by omega)]
    | some k =>
      have : 1 ≤ k := by
        simp only [hit] at e
        repeat' split at e
        all_goals first | (injection e with e; omega) | cases e
      have hl : ((c :: r).drop k).length ≤ r.length := by simp; omega
      simp only
      rw [sub_fuel repl f g false _ (by omega) (by omega)]

/-- `sub` with enough turns. -/
def all (repl : UStr) (b : Bool) (s : UStr) : UStr := sub repl s.length b s

theorem all_hit (repl : UStr) {b : Bool} {c k : Nat} {r : UStr} (h : hit b (c :: r) = some (k + 1)) :
    all repl b (c :: r) = repl ++ all repl false (r.drop k) := by
  simp only [all, List.length_cons, sub, h, List.drop_succ_cons]
  rw [sub_fuel repl r.length (r.drop k).length false _ (by simp) (Nat.le_refl _)]

theorem all_none (repl : UStr) {b : Bool} {c : Nat} {r : UStr} (h : hit b (c :: r) = none) :
    all repl b (c :: r) = c :: all repl false r := by
  simp only [all, List.length_cons, sub, h]

theorem all_scalars (wide : Bool) (repl : UStr) : ∀ (l : List Nat) (b : Bool), (∀ c ∈ l, Scalar c) →
    all repl b (l.flatMap (store wide)) = l.flatMap fun c => if XmlChar c then store wide c else repl
  | [], b, _ => by simp [all, sub]
  | c :: l, b, h => by
    have hc := h c List.mem_cons_self
    have hl : ∀ x ∈ l, Scalar x := fun x hx => h x (List.mem_cons_of_mem _ hx)
    have ih := fun b => all_scalars wide repl l b hl
    have hs := store_head wide l hl
    rw [List.flatMap_cons, List.flatMap_cons, ← ih false]
    by_cases hw : wide = true ∨ c < 0x10000
    · have es : store wide c = [c] := by simp [store, hw]
      rw [es, List.singleton_append]
      by_cases hx : XmlChar c
      · have hk : control c = false := by
          cases e : control c with
          | false => rfl
          | true => exact absurd hx ((control_iff hc).1 e)
        rw [if_pos hx, all_none]
        · rfl
        · simp only [hit, hk, (scalar_plain hc).1, (scalar_plain hc).2, hs]
          simp
      · rw [if_neg hx, all_hit repl (k := 0)]
        · rfl
        · simp [hit, (control_iff hc).2 hx]
    · have hx : XmlChar c := by
        simp only [XmlChar, Scalar] at *; omega
      have hn : ¬c < 0x10000 := fun h => hw (.inr h)
      have p := pair hc hn
      have es : store wide c = [0xd800 + (c - 0x10000) / 0x400, 0xdc00 + (c - 0x10000) % 0x400] := by
        simp [store, hw]
      rw [if_pos hx, es]
      simp only [List.cons_append, List.nil_append]
      rw [all_none, all_none]
      · simp only [hit, p.2.2.2.1, p.2.2.2.2.2, hs]
        simp
      · simp only [hit, lowNext, otherNext, p.1, p.2.1, p.2.2.1, p.2.2.2.2.1]
        simp
        omega

/-- **C100**: in every string of Unicode characters, in a wide or narrow build, exactly the characters that XML does not
allow are replaced.  Missing: strings with halves of pairs on their own (`C100_refuted_halves`). -/
theorem C100_legalize_partial (wide : Bool) (l : List Nat) (h : ∀ c ∈ l, Scalar c) (repl : UStr) :
    legalize (l.flatMap (store wide)) repl = l.flatMap fun c => if XmlChar c then store wide c else repl :=
  all_scalars wide repl l true h

/-- **C100**, legal strings are left alone. -/
theorem C100_identity (wide : Bool) (l : List Nat) (h : ∀ c ∈ l, XmlChar c) (repl : UStr) :
    legalize (l.flatMap (store wide)) repl = l.flatMap (store wide) := by
  rw [C100_legalize_partial wide l (fun c hc => by have := h c hc; simp only [XmlChar, Scalar] at *; omega)]
  induction l with
  | nil => rfl
  | cons c l ih =>
    rw [List.flatMap_cons, List.flatMap_cons, if_pos (h c List.mem_cons_self),
      ih (fun x hx => h x (List.mem_cons_of_mem _ hx))]

/-- **C100**, what comes out is legal, if the replacement is. -/
theorem C100_legal_partial (wide : Bool) (l : List Nat) (h : ∀ c ∈ l, Scalar c) (r : List Nat) (hr : ∀ c ∈ r, XmlChar c) :
    ∃ l' : List Nat, legalize (l.flatMap (store wide)) (r.flatMap (store wide)) = l'.flatMap (store wide) ∧ ∀ c ∈ l', XmlChar c := by
  refine ⟨l.flatMap fun c => if XmlChar c then [c] else r, ?_, ?_⟩
  · rw [C100_legalize_partial wide l h]
    rw [List.flatMap_assoc]
    congr 1
    funext c
    split <;> simp
  · intro c hc
    obtain ⟨x, _, hx⟩ := List.mem_flatMap.1 hc
    split at hx
    · rw [List.mem_singleton.1 hx]; assumption
    · exact hr c hx

/-- A, SUB, a character beyond the first plane, NUL. -/
example : legalize ([0x41, 0x1a, 0x1d11e, 0].flatMap (store false)) [0x3f] = [0x41, 0x3f, 0xd834, 0xdd1e, 0x3f] := by
  decide +kernel
example : ∀ c ∈ [0x41, 0x1a, 0x1d11e, 0], Scalar c := by simp only [Scalar]; decide

/-- **C100**, refuted for halves of pairs: a legal character beside one is lost, and of three halves the last can
stay. -/
theorem C100_refuted_halves :
    legalize [0xd800, 0x41] [0x3f] = [0x3f] ∧ legalize [0x41, 0xdc00] [0x3f] = [0x3f] ∧
    legalize [0xd800, 0xd800, 0xdc00] [0x3f] = [0x3f, 0xdc00] ∧
    legalize [0x41, 0xdc00, 0xdc01] [0x3f] = [0x3f, 0xdc01] := by decide +kernel

end Verif.Util.Legalize
