import Verif.Parse.LexSpec
import Verif.Parse.XPathLex
/-
What a lexer returns covers the text, and it always comes to an end.
-/
namespace Verif.Parse

mutual
/-- Whether a pattern can match without reading anything. -/
def nullable : Prog → Bool
  | .success => true
  | .any _ | .lit _ _ | .notLit _ _ | .set _ _ | .notSet _ _ => false
  | .assert _ k => nullable k
  | .branch ps k => nullables ps && nullable k
  | .rep 0 _ k => nullable k
  | .rep (_ + 1) p k => nullable p && nullable k
  | .range 0 _ _ k => nullable k
  | .range (_ + 1) _ p k => nullable p && nullable k
def nullables : Progs → Bool
  | .nil => false
  | .cons p ps => nullable p || nullables ps
end

/-- `r` is what is left of `s` after some characters, at least one if `b`. -/
def Left (b : Bool) (s r : Str) : Prop := ∃ w, s = w ++ r ∧ (b = true → w ≠ [])

theorem Left.refl (s : Str) : Left false s s := ⟨[], rfl, nofun⟩

theorem Left.weak {b : Bool} {s r : Str} (h : Left b s r) : Left false s r := by
  obtain ⟨w, h, _⟩ := h
  exact ⟨w, h, nofun⟩

theorem Left.trans {a b : Bool} {s r t : Str} (h : Left a s r) (h' : Left b r t) :
    Left (a || b) s t := by
  obtain ⟨w, rfl, h1⟩ := h
  obtain ⟨v, rfl, h2⟩ := h'
  refine ⟨w ++ v, by simp, fun hab => ?_⟩
  intro e
  rw [List.append_eq_nil_iff] at e
  rcases Bool.or_eq_true _ _ ▸ hab with h | h
  · exact h1 h e.1
  · exact h2 h e.2

theorem Left.cons {b : Bool} {s r : Str} (c : Char) (h : Left b s r) : Left true (c :: s) r := by
  obtain ⟨w, rfl, _⟩ := h
  exact ⟨c :: w, rfl, nofun⟩

theorem times_left {f : Str → Option Str} {b : Bool} (hf : ∀ s r, f s = some r → Left b s r) :
    ∀ (n : Nat) (s r : Str), times f n s = some r → Left (b && decide (0 < n)) s r
  | 0, s, r, h => by
    injection h with h
    subst h
    rw [show (b && decide (0 < 0)) = false by simp]
    exact .refl s
  | n + 1, s, r, h => by
    rw [times] at h
    cases h1 : f s with
    | none => rw [h1] at h; exact (nomatch h)
    | some s' =>
      rw [h1] at h
      have := (hf s s' h1).trans (times_left hf n s' r h)
      refine (show Left (b && decide (0 < n + 1)) s r from ?_)
      obtain ⟨w, e, hw⟩ := this
      exact ⟨w, e, fun hb => hw (by simp at hb; simp [hb])⟩

theorem trail_left {f : Str → Option Str} (hf : ∀ s r, f s = some r → Left false s r) (s0 : Str) :
    ∀ (n : Nat) (s : Str) (acc : List Str), Left false s0 s → (∀ r ∈ acc, Left false s0 r) →
      ∀ r ∈ trail f n s acc, Left false s0 r
  | 0, s, acc, hs, ha, r, hr => by
    rcases List.mem_cons.mp hr with rfl | hr
    · exact hs
    · exact ha r hr
  | n + 1, s, acc, hs, ha, r, hr => by
    rw [trail] at hr
    cases h1 : f s with
    | none =>
      rw [h1] at hr
      rcases List.mem_cons.mp hr with rfl | hr
      · exact hs
      · exact ha r hr
    | some s' =>
      rw [h1] at hr
      refine trail_left hf s0 n s' (s :: acc) (hs.trans (hf s s' h1)) ?_ r hr
      intro x hx
      rcases List.mem_cons.mp hx with rfl | hx
      · exact hs
      · exact ha x hx

theorem climb_left {f : Str → Option Str} (hf : ∀ s r, f s = some r → Left false s r) (s0 : Str) :
    ∀ (n : Nat) (s : Str) (acc : List Str), Left false s0 s → (∀ r ∈ acc, Left false s0 r) →
      ∀ r ∈ (climb f n s acc).2, Left false s0 r
  | 0, s, acc, hs, ha, r, hr => by
    rcases List.mem_cons.mp hr with rfl | hr
    · exact hs
    · exact ha r hr
  | n + 1, s, acc, hs, ha, r, hr => by
    rw [climb] at hr
    cases h1 : f s with
    | none =>
      rw [h1] at hr
      rcases List.mem_cons.mp hr with rfl | hr
      · exact hs
      · exact ha r hr
    | some s' =>
      rw [h1] at hr
      refine climb_left hf s0 n s' (s :: acc) (hs.trans (hf s s' h1)) ?_ r hr
      intro x hx
      rcases List.mem_cons.mp hx with rfl | hx
      · exact hs
      · exact ha x hx

theorem tried_sub (p : Bool × List Str) : ∀ r ∈ tried p, r ∈ p.2 := by
  intro r hr
  match p, hr with
  | (false, ss), hr => exact hr
  | (true, []), hr => exact (nomatch hr)
  | (true, [s]), hr => exact hr
  | (true, a :: b :: ss), hr => exact List.dropLast_subset _ hr

theorem firstOf_some {g : Str → Option Str} : ∀ {ss : List Str} {r : Str},
    firstOf g ss = some r → ∃ s ∈ ss, g s = some r
  | [], _, h => (nomatch h)
  | s :: ss, r, h => by
    rw [firstOf] at h
    cases h1 : g s with
    | some x =>
      rw [h1] at h
      injection h with h
      subst h
      exact ⟨s, List.mem_cons_self, h1⟩
    | none =>
      rw [h1] at h
      obtain ⟨x, hx, h2⟩ := firstOf_some h
      exact ⟨x, List.mem_cons_of_mem _ hx, h2⟩

mutual
theorem scan_left (S : Sets) : ∀ (p : Prog) (s r : Str), scan S p s = some r →
    Left (!nullable p) s r
  | .success, s, r, h => by
    injection h with h
    subst h
    exact .refl s
  | .any k, [], r, h => (nomatch h)
  | .any k, c :: cs, r, h => by
    rw [scan] at h
    split at h
    · exact (nomatch h)
    · exact (scan_left S k cs r h).cons c
  | .lit n k, [], r, h => (nomatch h)
  | .lit n k, c :: cs, r, h => by
    rw [scan] at h
    split at h
    · exact (scan_left S k cs r h).cons c
    · exact (nomatch h)
  | .notLit n k, [], r, h => (nomatch h)
  | .notLit n k, c :: cs, r, h => by
    rw [scan] at h
    split at h
    · exact (nomatch h)
    · exact (scan_left S k cs r h).cons c
  | .set n k, [], r, h => (nomatch h)
  | .set n k, c :: cs, r, h => by
    rw [scan] at h
    split at h
    · exact (scan_left S k cs r h).cons c
    · exact (nomatch h)
  | .notSet n k, [], r, h => (nomatch h)
  | .notSet n k, c :: cs, r, h => by
    rw [scan] at h
    split at h
    · exact (nomatch h)
    · exact (scan_left S k cs r h).cons c
  | .assert p k, s, r, h => by
    rw [scan] at h
    cases h1 : scan S p s with
    | none => rw [h1] at h; exact (nomatch h)
    | some x =>
      rw [h1] at h
      rw [nullable]
      exact scan_left S k s r h
  | .branch ps k, s, r, h => by
    rw [scan] at h
    cases h1 : longest S ps s with
    | none => rw [h1] at h; exact (nomatch h)
    | some x =>
      rw [h1] at h
      rw [nullable, Bool.not_and]
      exact (longest_left S ps s x h1).trans (scan_left S k x r h)
  | .rep 0 p k, s, r, h => by
    rw [scan, times] at h
    dsimp only at h
    rw [nullable]
    obtain ⟨x, hx, hk⟩ := firstOf_some h
    have hx := trail_left (fun s r h => (scan_left S p s r h).weak) s _ s [] (.refl s) nofun x hx
    have := hx.trans (scan_left S k x r hk)
    exact this
  | .rep (n + 1) p k, s, r, h => by
    rw [scan] at h
    cases h1 : times (scan S p) (n + 1) s with
    | none => rw [h1] at h; exact (nomatch h)
    | some y =>
      rw [h1] at h
      dsimp only at h
      obtain ⟨x, hx, hk⟩ := firstOf_some h
      have hy := times_left (fun s r h => scan_left S p s r h) _ _ _ h1
      have hx := trail_left (fun s r h => (scan_left S p s r h).weak) y _ y [] (.refl y) nofun x hx
      have := (hy.trans hx).trans (scan_left S k x r hk)
      rw [nullable, Bool.not_and]
      simpa using this
  | .range 0 m p k, s, r, h => by
    rw [scan, times] at h
    dsimp only at h
    rw [nullable]
    obtain ⟨x, hx, hk⟩ := firstOf_some h
    have hx := climb_left (fun s r h => (scan_left S p s r h).weak) s _ s [] (.refl s) nofun x
      (tried_sub _ x hx)
    have := hx.trans (scan_left S k x r hk)
    exact this
  | .range (n + 1) m p k, s, r, h => by
    rw [scan] at h
    cases h1 : times (scan S p) (n + 1) s with
    | none => rw [h1] at h; exact (nomatch h)
    | some y =>
      rw [h1] at h
      dsimp only at h
      obtain ⟨x, hx, hk⟩ := firstOf_some h
      have hy := times_left (fun s r h => scan_left S p s r h) _ _ _ h1
      have hx := climb_left (fun s r h => (scan_left S p s r h).weak) y _ y [] (.refl y) nofun x
        (tried_sub _ x hx)
      have := (hy.trans hx).trans (scan_left S k x r hk)
      rw [nullable, Bool.not_and]
      simpa using this
theorem longest_left (S : Sets) : ∀ (ps : Progs) (s r : Str), longest S ps s = some r →
    Left (!nullables ps) s r
  | .nil, _, _, h => (nomatch h)
  | .cons p ps, s, r, h => by
    rw [longest] at h
    rw [nullables, Bool.not_or]
    have w : ∀ {a b : Bool}, Left a s r → (b = true → a = true) → Left b s r := by
      rintro a b ⟨v, e, hv⟩ hb
      exact ⟨v, e, fun h => hv (hb h)⟩
    cases h1 : scan S p s with
    | none =>
      rw [h1, longer] at h
      exact w (longest_left S ps s r h) (by simp)
    | some a =>
      rw [h1] at h
      cases h2 : longest S ps s with
      | none =>
        rw [h2, longer] at h
        injection h with h
        subst h
        exact w (scan_left S p s a h1) (by simp; intro h _; exact h)
      | some b =>
        rw [h2, longer] at h
        split at h
        · injection h with h
          subst h
          exact w (longest_left S ps s b h2) (by simp)
        · injection h with h
          subst h
          exact w (scan_left S p s a h1) (by simp; intro h _; exact h)
end

end Verif.Parse
