import Verif.Parse.PatternText
import Verif.Parse.PatternTextSpec
/-
Where in a pattern the words `child`, `attribute`, `id` and `key` of its own
grammar can be, and where the names of the axes and functions of XPath.
-/
namespace Verif.Parse
open Spec

/-- Inside of `k` brackets.  The words of patterns are outside of all brackets,
the names of axes and functions of XPath are inside of some. -/
def Nest : Nat → List Tok → Prop
  | k, [] => k = 0
  | k, t :: ts =>
    if t.kind = 28 then Nest (k + 1) ts
    else if t.kind = 29 then 0 < k ∧ Nest (k - 1) ts
    else (t.kind ∈ [3, 4, 5, 6] → k = 0) ∧ (t.kind ∈ [11, 13] → 0 < k) ∧ Nest k ts

/-- The symbols of the grammar outside of brackets and inside. -/
def outSyms : List Nat :=
  [33, 34, 35, 22, 23, 37, 36, 21, 5, 24, 7, 25, 6, 26, 38, 39, 46, 44, 27, 3, 20, 4, 47, 10, 12]
def inSyms : List Nat :=
  [48, 53, 61, 62, 14, 63, 15, 64, 16, 65, 17, 66, 31, 32, 67, 18, 58, 59, 22, 40, 60, 23, 42, 21, 41, 43,
    50, 54, 44, 49, 45, 46, 51, 47, 9, 24, 25, 7, 8, 55, 13, 20, 52, 10, 12, 30, 19, 11, 56, 27, 57, 26]

theorem out_rules : ∀ r, r < 82 → patternTables.derives.getD r 0 ∈ outSyms →
    patternTables.rhs.getD r [] = [28, 48, 29] ∨ ∀ x ∈ patternTables.rhs.getD r [], x ∈ outSyms := by
  decide +kernel
theorem in_rules : ∀ r, r < 82 → patternTables.derives.getD r 0 ∈ inSyms →
    patternTables.rhs.getD r [] = [28, 48, 29] ∨ ∀ x ∈ patternTables.rhs.getD r [], x ∈ inSyms := by
  decide +kernel
theorem syms_plain : (∀ x ∈ outSyms, x ≠ 28 ∧ x ≠ 29 ∧ x ∉ [11, 13]) ∧
    (∀ x ∈ inSyms, x ≠ 28 ∧ x ≠ 29 ∧ x ∉ [3, 4, 5, 6]) := by decide

/-- The symbol may be inside of `k` brackets. -/
def Fits (k x : Nat) : Prop := (k = 0 → x ∈ outSyms) ∧ (0 < k → x ∈ inSyms)

theorem fits_rule {k r : Nat} (hr : r < 82) (h : Fits k (patternTables.derives.getD r 0)) :
    patternTables.rhs.getD r [] = [28, 48, 29] ∨ ∀ x ∈ patternTables.rhs.getD r [], Fits k x := by
  by_cases hk : k = 0
  · rcases out_rules r hr (h.1 hk) with h | h
    · exact .inl h
    · exact .inr fun x hx => ⟨fun _ => h x hx, fun h => absurd hk (by omega)⟩
  · rcases in_rules r hr (h.2 (by omega)) with h | h
    · exact .inl h
    · exact .inr fun x hx => ⟨fun h => absurd h hk, fun _ => h x hx⟩

theorem leaf_pat {t : Tree} {k : Nat} (h : Derives GP t) (hk : root GP.lhs t = k) (h33 : k < 33) :
    ∃ x, yield t = [x] ∧ x.kind = k := by
  cases h with
  | leaf x _ => exact ⟨x, rfl, hk⟩
  | node r ks hr _ _ =>
    have h29 : ∀ r, r < 82 → 0 < r → 33 ≤ patternTables.derives.getD r 0 := by decide +kernel
    have h29 := h29 r hr.2 hr.1
    have hk : patternTables.derives.getD r 0 = k := hk
    omega

mutual
theorem nest_tree : ∀ (t : Tree) (k : Nat) (v : List Tok), Derives GP t → Fits k (root GP.lhs t) →
    Nest k v → Nest k (yield t ++ v)
  | .leaf t, k, v, _, hf, hv => by
    rw [yield]
    show Nest k (t :: v)
    have hf : Fits k t.kind := hf
    rw [Nest]
    by_cases hk : k = 0
    · have h := syms_plain.1 _ (hf.1 hk)
      rw [if_neg h.1, if_neg h.2.1]
      exact ⟨fun _ => hk, fun h' => absurd h' h.2.2, hv⟩
    · have h := syms_plain.2 _ (hf.2 (by omega))
      rw [if_neg h.1, if_neg h.2.1]
      exact ⟨fun h' => absurd h' h.2.2, fun _ => by omega, hv⟩
  | .node r ks, k, v, h, hf, hv => by
    rw [yield]
    cases h with
    | node _ _ hr hs hd =>
      have hs : roots GP.lhs ks = patternTables.rhs.getD r [] := hs
      rcases fits_rule hr.2 hf with h | h
      · rw [h] at hs
        match ks, hd, hs with
        | .cons a (.cons b (.cons c .nil)), hd, hs =>
          simp only [roots, List.cons.injEq, and_true] at hs
          cases hd with
          | cons _ _ ha hd =>
          cases hd with
          | cons _ _ hb hd =>
          cases hd with
          | cons _ _ hc _ =>
          obtain ⟨ta, ea, ka⟩ := leaf_pat ha hs.1 (by decide)
          obtain ⟨tc, ec, kc⟩ := leaf_pat hc hs.2.2 (by decide)
          simp only [yields, ea, ec, List.append_nil, List.append_assoc]
          show Nest k (ta :: (yield b ++ (tc :: v)))
          rw [Nest, if_pos ka]
          refine nest_tree b (k + 1) _ hb ?_ ?_
          · rw [hs.2.1]
            exact ⟨fun h => absurd h (by omega), fun _ => by decide⟩
          · rw [Nest, if_neg (by rw [kc]; decide), if_pos kc]
            exact ⟨by omega, hv⟩
        | .nil, _, hs => simp [roots] at hs
        | .cons _ .nil, _, hs => simp [roots] at hs
        | .cons _ (.cons _ .nil), _, hs => simp [roots] at hs
        | .cons _ (.cons _ (.cons _ (.cons _ _))), _, hs => simp [roots] at hs
      · exact nest_trees ks k v hd (hs ▸ h) hv
theorem nest_trees : ∀ (ts : Trees) (k : Nat) (v : List Tok), DerivesAll GP ts →
    (∀ x ∈ roots GP.lhs ts, Fits k x) → Nest k v → Nest k (yields ts ++ v)
  | .nil, k, v, _, _, hv => by rw [yields]; exact hv
  | .cons t ts, k, v, h, hf, hv => by
    rw [yields, List.append_assoc]
    rw [roots] at hf
    cases h with
    | cons _ _ h1 h2 =>
      exact nest_tree t k _ h1 (hf _ List.mem_cons_self)
        (nest_trees ts k v h2 (fun x hx => hf x (List.mem_cons_of_mem _ hx)) hv)
end

theorem built_nest {w : List Tok} {P : List PPath} (h : Built w P) : Nest 0 w := by
  obtain ⟨t, h1, h2, rfl, _⟩ := start_has h
  have := nest_tree t 0 [] h1 (by rw [h2]; exact ⟨fun _ => by decide, fun h => absurd h (by omega)⟩) rfl
  rw [List.append_nil] at this
  exact this

theorem patSym_plain (x : Nat) : patSym x ∉ [3, 4, 5, 6] := by
  rw [patSym]
  simp only [List.mem_cons, List.not_mem_nil, or_false]
  repeat' split
  all_goals omega

theorem nest_same {ts ts' : List Tok} (h : Both AsPattern ts ts') : ∀ k, Nest k ts' →
    Nest k (inPattern ts) → ts' = inPattern ts := by
  have key : ∀ {t t' : Tok} {l l' : List Tok} {k : Nat}, t.kind ∈ [7, 9] → t'.kind ∈ [3, 4, 5, 6] →
      Nest k (t' :: l') → Nest k (inPattern (t :: l)) → False := by
    intro t t' l l' k h1 h2 h3 h4
    have h5 : Nest k (mapTok patSym t :: inPattern l) := h4
    rw [Nest] at h3 h5
    have e : (mapTok patSym t).kind = patSym t.kind := rfl
    rw [e] at h5
    generalize t.kind = a at *
    generalize t'.kind = b at *
    have ha : patSym a ∈ [11, 13] := by
      have : ∀ a ∈ [7, 9], patSym a ∈ [11, 13] := by decide
      exact this a h1
    have hb : b ≠ 28 ∧ b ≠ 29 := by
      have : ∀ b ∈ [3, 4, 5, 6], b ≠ 28 ∧ b ≠ 29 := by decide
      exact this b h2
    have ha' : patSym a ≠ 28 ∧ patSym a ≠ 29 := by
      have : ∀ b ∈ [11, 13], b ≠ 28 ∧ b ≠ 29 := by decide
      exact this _ ha
    rw [if_neg hb.1, if_neg hb.2] at h3
    rw [if_neg ha'.1, if_neg ha'.2] at h5
    have := h3.1 h2
    have := h5.2.1 ha
    omega
  induction h with
  | nil => intro k _ _; rfl
  | @cons t t' l l' h hl ih =>
    intro k h1 h2
    cases h with
    | same =>
      have h2' : Nest k (mapTok patSym t :: inPattern l) := h2
      rw [Nest] at h1 h2'
      show mapTok patSym t :: l' = mapTok patSym t :: inPattern l
      congr 1
      by_cases e1 : (mapTok patSym t).kind = 28
      · rw [if_pos e1] at h1 h2'
        exact ih _ h1 h2'
      · rw [if_neg e1] at h1 h2'
        by_cases e2 : (mapTok patSym t).kind = 29
        · rw [if_pos e2] at h1 h2'
          exact ih _ h1.2 h2'.2
        · rw [if_neg e2] at h1 h2'
          exact ih _ h1.2.2 h2'.2.2
    | child h _ => exact (key (by rw [show t.kind = 9 from h]; decide) (by dsimp only; decide) h1 h2).elim
    | «attribute» h _ => exact (key (by rw [show t.kind = 9 from h]; decide) (by dsimp only; decide) h1 h2).elim
    | id h _ => exact (key (by rw [show t.kind = 7 from h]; decide) (by dsimp only; decide) h1 h2).elim
    | key h _ => exact (key (by rw [show t.kind = 7 from h]; decide) (by dsimp only; decide) h1 h2).elim

end Verif.Parse
