import Verif.Parse.AstBuild
/-
The action routines find the values they expect: what they raise is never the
`stuck` of the model.
-/
namespace Verif.Parse
open Spec

/-- The kind of value that a symbol of the grammar has. -/
def Typed (x : Nat) (v : Val) : Prop :=
  if x < 29 ∨ x = 40 then ∃ s, v = .tok s
  else if x = 31 ∨ x = 39 then ∃ s l, v = .expr (.path false (s :: l))
  else if x = 32 then ∃ s, v = .step s
  else if x = 33 ∨ x = 45 then ∃ l, v = .list l
  else if x = 34 ∨ x = 41 then ∃ a, v = .axis a
  else if x = 35 then ∃ t, v = .test t
  else ∃ e, v = .expr e

/-- The values of the symbols of a rule. -/
def TypedAll : List Nat → List Val → Prop
  | [], vs => vs = []
  | x :: xs, vs => ∃ v vs', vs = v :: vs' ∧ Typed x v ∧ TypedAll xs vs'

/-- Raises an exception of the program, or gives a value of this kind. -/
def Fine (x : Nat) (o : Except AErr Val) : Prop :=
  match o with
  | .ok v => Typed x v
  | .error e => e ≠ .stuck

theorem typed_tok {x : Nat} {v : Val} (hx : x < 29 ∨ x = 40) : Typed x v ↔ ∃ s, v = .tok s := by
  rw [Typed, if_pos hx]

theorem fine_axis (s : Str) (x : Nat) (hx : x = 34 ∨ x = 41) : Fine x (axisSpecifier s) := by
  rw [axisSpecifier]
  split
  · rename_i a _
    show Typed x _
    rcases hx with rfl | rfl <;> exact ⟨a, rfl⟩
  · exact nofun

theorem fine_nodeType (s : Str) (l : Option Str) : Fine 35 (nodeType s l) := by
  unfold nodeType
  repeat' split
  all_goals first | exact ⟨_, rfl⟩ | exact nofun

theorem fine_call (f : Str) (es : List Ast) : Fine 44 (functionCall f es) := by
  unfold functionCall
  split
  · split
    · exact ⟨_, rfl⟩
    · rename_i e he
      unfold checkCount at he
      repeat' split at he
      all_goals first | (injection he with he; subst he; exact nofun) | exact (nomatch he)
  · split
    · exact ⟨_, rfl⟩
    · exact nofun

theorem fine_step (s : Str) : Fine 32 (abbreviatedStep s) := by
  unfold abbreviatedStep
  repeat' split
  all_goals first | exact ⟨_, rfl⟩ | exact nofun

theorem act_fine : ∀ r, 0 < r → r < 61 → ∀ vs, TypedAll (xpathTables.rhs.getD r []) vs →
    Fine (xpathTables.derives.getD r 0) (act r vs)
  | 0, h, _, _, _ => absurd h (by decide)
  | 1, _, _, _, h => by
    obtain ⟨_, _, rfl, ⟨a0, b0, rfl⟩, rfl⟩ := h
    exact ⟨_, rfl⟩
  | 2, _, _, _, h => by
    obtain ⟨_, _, rfl, ⟨a0, rfl⟩, rfl⟩ := h
    exact ⟨_, rfl⟩
  | 3, _, _, _, h => by
    obtain ⟨_, _, rfl, ⟨a0, rfl⟩, rfl⟩ := h
    exact ⟨_, rfl⟩
  | 4, _, _, _, h => by
    obtain ⟨_, _, rfl, ⟨a0, rfl⟩, _, _, rfl, ⟨a1, b1, rfl⟩, rfl⟩ := h
    exact ⟨_, rfl⟩
  | 5, _, _, _, h => by
    obtain ⟨_, _, rfl, ⟨a0, rfl⟩, rfl⟩ := h
    exact ⟨_, rfl⟩
  | 6, _, _, _, h => by
    obtain ⟨_, _, rfl, ⟨a0, rfl⟩, rfl⟩ := h
    exact ⟨_, _, rfl⟩
  | 7, _, _, _, h => by
    obtain ⟨_, _, rfl, ⟨a0, b0, rfl⟩, _, _, rfl, ⟨a1, rfl⟩, _, _, rfl, ⟨a2, rfl⟩, rfl⟩ := h
    exact ⟨_, _, rfl⟩
  | 8, _, _, _, h => by
    obtain ⟨_, _, rfl, ⟨a0, b0, rfl⟩, rfl⟩ := h
    exact ⟨_, _, rfl⟩
  | 9, _, _, _, h => by
    obtain ⟨_, _, rfl, ⟨a0, rfl⟩, _, _, rfl, ⟨a1, rfl⟩, rfl⟩ := h
    exact ⟨_, rfl⟩
  | 10, _, _, _, h => by
    obtain ⟨_, _, rfl, ⟨a0, rfl⟩, _, _, rfl, ⟨a1, rfl⟩, _, _, rfl, ⟨a2, rfl⟩, rfl⟩ := h
    exact ⟨_, rfl⟩
  | 11, _, _, _, h => by
    obtain ⟨_, _, rfl, ⟨a0, rfl⟩, rfl⟩ := h
    exact fine_step _
  | 12, _, _, _, h => by
    obtain ⟨_, _, rfl, ⟨a0, rfl⟩, rfl⟩ := h
    exact ⟨_, rfl⟩
  | 13, _, _, _, h => by
    obtain ⟨_, _, rfl, ⟨a0, rfl⟩, _, _, rfl, ⟨a1, rfl⟩, rfl⟩ := h
    exact ⟨_, rfl⟩
  | 14, _, _, _, h => by
    obtain ⟨_, _, rfl, ⟨a0, rfl⟩, _, _, rfl, ⟨a1, rfl⟩, rfl⟩ := h
    exact fine_axis _ _ (.inl rfl)
  | 15, _, _, _, h => by
    obtain ⟨_, _, rfl, ⟨a0, rfl⟩, rfl⟩ := h
    exact ⟨_, rfl⟩
  | 16, _, _, _, h => by
    obtain ⟨_, _, rfl, ⟨a0, rfl⟩, rfl⟩ := h
    exact ⟨_, rfl⟩
  | 17, _, _, _, h => by
    obtain ⟨_, _, rfl, ⟨a0, rfl⟩, _, _, rfl, ⟨a1, rfl⟩, _, _, rfl, ⟨a2, rfl⟩, rfl⟩ := h
    exact fine_nodeType a0 none
  | 18, _, _, _, h => by
    obtain ⟨_, _, rfl, ⟨a0, rfl⟩, _, _, rfl, ⟨a1, rfl⟩, _, _, rfl, ⟨a2, rfl⟩, _, _, rfl, ⟨a3, rfl⟩, rfl⟩ := h
    exact fine_nodeType _ _
  | 19, _, _, _, h => by
    obtain ⟨_, _, rfl, ⟨a0, rfl⟩, _, _, rfl, ⟨a1, rfl⟩, _, _, rfl, ⟨a2, rfl⟩, rfl⟩ := h
    exact ⟨_, rfl⟩
  | 20, _, _, _, h => by
    obtain ⟨_, _, rfl, ⟨a0, rfl⟩, rfl⟩ := h
    exact ⟨_, rfl⟩
  | 21, _, _, _, h => by
    obtain ⟨_, _, rfl, ⟨a0, rfl⟩, _, _, rfl, ⟨a1, b1, rfl⟩, rfl⟩ := h
    exact ⟨_, rfl⟩
  | 22, _, _, _, h => by
    obtain ⟨_, _, rfl, ⟨a0, b0, rfl⟩, _, _, rfl, ⟨a1, rfl⟩, _, _, rfl, ⟨a2, rfl⟩, rfl⟩ := h
    exact ⟨a0, _, rfl⟩
  | 23, _, _, _, h => by
    obtain ⟨_, _, rfl, ⟨a0, rfl⟩, rfl⟩ := h
    exact ⟨_, rfl⟩
  | 24, _, _, _, h => by
    obtain ⟨_, _, rfl, ⟨a0, rfl⟩, rfl⟩ := h
    exact ⟨_, rfl⟩
  | 25, _, _, _, h => by
    obtain ⟨_, _, rfl, ⟨a0, rfl⟩, rfl⟩ := h
    exact fine_axis "attribute".toList _ (.inr rfl)
  | 26, _, _, _, h => by
    obtain rfl : _ = [] := h
    exact fine_axis "child".toList _ (.inr rfl)
  | 27, _, _, _, h => by
    obtain ⟨_, _, rfl, ⟨a0, rfl⟩, rfl⟩ := h
    exact ⟨_, rfl⟩
  | 28, _, _, _, h => by
    obtain ⟨_, _, rfl, ⟨a0, rfl⟩, rfl⟩ := h
    exact ⟨_, rfl⟩
  | 29, _, _, _, h => by
    obtain ⟨_, _, rfl, ⟨a0, rfl⟩, _, _, rfl, ⟨a1, rfl⟩, _, _, rfl, ⟨a2, rfl⟩, rfl⟩ := h
    exact ⟨_, rfl⟩
  | 30, _, _, _, h => by
    obtain ⟨_, _, rfl, ⟨a0, rfl⟩, rfl⟩ := h
    exact ⟨_, rfl⟩
  | 31, _, _, _, h => by
    obtain ⟨_, _, rfl, ⟨a0, rfl⟩, rfl⟩ := h
    exact ⟨_, rfl⟩
  | 32, _, _, _, h => by
    obtain ⟨_, _, rfl, ⟨a0, rfl⟩, rfl⟩ := h
    exact ⟨_, rfl⟩
  | 33, _, _, _, h => by
    obtain ⟨_, _, rfl, ⟨a0, rfl⟩, _, _, rfl, ⟨a1, rfl⟩, _, _, rfl, ⟨a2, rfl⟩, rfl⟩ := h
    exact fine_call _ _
  | 34, _, _, _, h => by
    obtain ⟨_, _, rfl, ⟨a0, rfl⟩, _, _, rfl, ⟨a1, rfl⟩, _, _, rfl, ⟨a2, rfl⟩, _, _, rfl, ⟨a3, rfl⟩, rfl⟩ := h
    exact fine_call _ _
  | 35, _, _, _, h => by
    obtain ⟨_, _, rfl, ⟨a0, rfl⟩, rfl⟩ := h
    exact ⟨_, rfl⟩
  | 36, _, _, _, h => by
    obtain ⟨_, _, rfl, ⟨a0, rfl⟩, _, _, rfl, ⟨a1, rfl⟩, _, _, rfl, ⟨a2, rfl⟩, rfl⟩ := h
    exact ⟨_, rfl⟩
  | 37, _, _, _, h => by
    obtain ⟨_, _, rfl, ⟨a0, rfl⟩, rfl⟩ := h
    exact ⟨_, rfl⟩
  | 38, _, _, _, h => by
    obtain ⟨_, _, rfl, ⟨a0, rfl⟩, rfl⟩ := h
    exact ⟨_, rfl⟩
  | 39, _, _, _, h => by
    obtain ⟨_, _, rfl, ⟨a0, rfl⟩, _, _, rfl, ⟨a1, rfl⟩, _, _, rfl, ⟨a2, rfl⟩, rfl⟩ := h
    exact ⟨_, rfl⟩
  | 40, _, _, _, h => by
    obtain ⟨_, _, rfl, ⟨a0, rfl⟩, rfl⟩ := h
    exact ⟨_, rfl⟩
  | 41, _, _, _, h => by
    obtain ⟨_, _, rfl, ⟨a0, rfl⟩, rfl⟩ := h
    exact ⟨_, rfl⟩
  | 42, _, _, _, h => by
    obtain ⟨_, _, rfl, ⟨a0, rfl⟩, _, _, rfl, ⟨a1, rfl⟩, _, _, rfl, ⟨a2, b2, rfl⟩, rfl⟩ := h
    exact ⟨_, rfl⟩
  | 43, _, _, _, h => by
    obtain ⟨_, _, rfl, ⟨a0, rfl⟩, _, _, rfl, ⟨a1, rfl⟩, _, _, rfl, ⟨a2, b2, rfl⟩, rfl⟩ := h
    exact ⟨_, rfl⟩
  | 44, _, _, _, h => by
    obtain ⟨_, _, rfl, ⟨a0, rfl⟩, rfl⟩ := h
    exact ⟨_, rfl⟩
  | 45, _, _, _, h => by
    obtain ⟨_, _, rfl, ⟨a0, rfl⟩, _, _, rfl, ⟨a1, rfl⟩, rfl⟩ := h
    exact ⟨_, rfl⟩
  | 46, _, _, _, h => by
    obtain ⟨_, _, rfl, ⟨a0, rfl⟩, rfl⟩ := h
    exact ⟨_, rfl⟩
  | 47, _, _, _, h => by
    obtain ⟨_, _, rfl, ⟨a0, rfl⟩, _, _, rfl, ⟨a1, rfl⟩, _, _, rfl, ⟨a2, rfl⟩, rfl⟩ := h
    exact ⟨_, rfl⟩
  | 48, _, _, _, h => by
    obtain ⟨_, _, rfl, ⟨a0, rfl⟩, rfl⟩ := h
    exact ⟨_, rfl⟩
  | 49, _, _, _, h => by
    obtain ⟨_, _, rfl, ⟨a0, rfl⟩, _, _, rfl, ⟨a1, rfl⟩, _, _, rfl, ⟨a2, rfl⟩, rfl⟩ := h
    exact ⟨_, rfl⟩
  | 50, _, _, _, h => by
    obtain ⟨_, _, rfl, ⟨a0, rfl⟩, rfl⟩ := h
    exact ⟨_, rfl⟩
  | 51, _, _, _, h => by
    obtain ⟨_, _, rfl, ⟨a0, rfl⟩, _, _, rfl, ⟨a1, rfl⟩, _, _, rfl, ⟨a2, rfl⟩, rfl⟩ := h
    exact ⟨_, rfl⟩
  | 52, _, _, _, h => by
    obtain ⟨_, _, rfl, ⟨a0, rfl⟩, rfl⟩ := h
    exact ⟨_, rfl⟩
  | 53, _, _, _, h => by
    obtain ⟨_, _, rfl, ⟨a0, rfl⟩, _, _, rfl, ⟨a1, rfl⟩, _, _, rfl, ⟨a2, rfl⟩, rfl⟩ := h
    exact ⟨_, rfl⟩
  | 54, _, _, _, h => by
    obtain ⟨_, _, rfl, ⟨a0, rfl⟩, rfl⟩ := h
    exact ⟨_, rfl⟩
  | 55, _, _, _, h => by
    obtain ⟨_, _, rfl, ⟨a0, rfl⟩, _, _, rfl, ⟨a1, rfl⟩, _, _, rfl, ⟨a2, rfl⟩, rfl⟩ := h
    exact ⟨_, rfl⟩
  | 56, _, _, _, h => by
    obtain ⟨_, _, rfl, ⟨a0, rfl⟩, _, _, rfl, ⟨a1, rfl⟩, _, _, rfl, ⟨a2, rfl⟩, rfl⟩ := h
    exact ⟨_, rfl⟩
  | 57, _, _, _, h => by
    obtain ⟨_, _, rfl, ⟨a0, rfl⟩, rfl⟩ := h
    exact ⟨_, rfl⟩
  | 58, _, _, _, h => by
    obtain ⟨_, _, rfl, ⟨a0, rfl⟩, _, _, rfl, ⟨a1, rfl⟩, _, _, rfl, ⟨a2, rfl⟩, rfl⟩ := h
    exact ⟨_, rfl⟩
  | 59, _, _, _, h => by
    obtain ⟨_, _, rfl, ⟨a0, rfl⟩, rfl⟩ := h
    exact ⟨_, rfl⟩
  | 60, _, _, _, h => by
    obtain ⟨_, _, rfl, ⟨a0, rfl⟩, _, _, rfl, ⟨a1, rfl⟩, rfl⟩ := h
    exact ⟨_, rfl⟩
  | n + 61, _, h, _, _ => absurd h (by omega)

mutual
theorem build_fine : ∀ (t : Tree), Derives (grammar xpathTables) t →
    Fine (root (grammar xpathTables).lhs t) (build t)
  | _, .leaf t h => by
    rw [build]
    show Typed t.kind _
    exact (typed_tok (.inl h.2)).mpr ⟨_, rfl⟩
  | _, .node r ks hr hs hd => by
    rw [build]
    have h := builds_fine ks hd
    split
    · rename_i vs hv
      rw [hs, hv] at h
      exact act_fine r hr.1 hr.2 vs h
    · rename_i e he
      rw [he] at h
      exact h
theorem builds_fine : ∀ (ts : Trees), DerivesAll (grammar xpathTables) ts →
    match builds ts with
    | .ok vs => TypedAll (roots (grammar xpathTables).lhs ts) vs
    | .error e => e ≠ .stuck
  | _, .nil => rfl
  | _, .cons t ts h h' => by
    have h1 := build_fine t h
    have h2 := builds_fine ts h'
    rw [builds]
    generalize build t = o at h1 ⊢
    generalize builds ts = o' at h2 ⊢
    match o, o', h1, h2 with
    | .ok v, .ok vs, h1, h2 => exact ⟨v, vs, rfl, h1, h2⟩
    | .error e, _, h1, _ => exact h1
    | .ok _, .error e, _, h2 => exact h2
end

end Verif.Parse
