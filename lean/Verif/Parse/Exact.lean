import Verif.Parse.Complete
import Verif.Parse.SoundLR
/-
What a parser with checked tables does with any sequence of tokens.
-/
namespace Verif.Parse
open Spec

set_option linter.unusedSectionVars false
section
variable {T : Tables} {C : Cert} {kinds : Nat}

/-- What is left at an error is the end of the input. -/
theorem run_error_suffix : ∀ (f : Nat) (fs : List (Nat × Tree)) (ts l : List Tok),
    (run T f ⟨fs, ts⟩).1 = .error l → l.length ≤ ts.length
  | 0, _, _, _, h => (nomatch h)
  | f + 1, fs, ts, l, h => by
    rw [run, step] at h
    cases ha : action T (top fs) (look ts) with
    | error =>
      rw [ha] at h
      injection h with h
      rw [← h]
      exact Nat.le_refl _
    | accept =>
      rw [ha] at h
      dsimp only at h
      split at h
      · rename_i o e
        split at e
        · injection e with e
          rw [← e] at h
          exact (nomatch h)
        · injection e with e
          rw [← e] at h
          exact (nomatch h)
      · rename_i c' e
        split at e <;> exact (nomatch e)
    | shift s =>
      rw [ha] at h
      dsimp only at h
      cases ts with
      | nil => exact run_error_suffix f _ _ l h
      | cons t ts' =>
        have := run_error_suffix f _ _ l h
        have e : (shift s ⟨fs, t :: ts'⟩).input.length = ts'.length := rfl
        simp only [List.length_cons]
        omega
    | reduce r =>
      rw [ha] at h
      dsimp only at h
      rw [reduce] at h
      dsimp only at h
      split at h
      · exact (by
          rename_i o e
          split at e
          · exact (nomatch e)
          · injection e with e
            rw [← e] at h
            exact (nomatch h))
      · rename_i c' e
        split at e
        · injection e with e
          rw [← e] at h
          exact run_error_suffix f _ _ l h
        · exact (nomatch e)

/-- The parser does not look beyond the token it stops at. -/
theorem run_error_local : ∀ (f : Nat) (fs : List (Nat × Tree)) (pre : List Tok) (k : Tok)
    (post post' : List Tok), (run T f ⟨fs, pre ++ k :: post⟩).1 = .error (k :: post) →
    (run T f ⟨fs, pre ++ k :: post'⟩).1 = .error (k :: post')
  | 0, _, _, _, _, _, h => (nomatch h)
  | f + 1, fs, pre, k, post, post', h => by
    have hl : ∀ x, look (pre ++ k :: x) = look (pre ++ [k]) := by
      intro x
      cases pre <;> rfl
    rw [run, step] at h ⊢
    dsimp only at h ⊢
    rw [hl] at h ⊢
    cases ha : action T (top fs) (look (pre ++ [k])) with
    | error =>
      rw [ha] at h
      injection h with h
      have : pre = [] := by
        have := congrArg List.length h
        simp at this
        exact this
      subst this
      rfl
    | accept =>
      rw [ha] at h
      dsimp only at h
      split at h
      · rename_i o e
        split at e
        · injection e with e
          rw [← e] at h
          exact (nomatch h)
        · injection e with e
          rw [← e] at h
          exact (nomatch h)
      · rename_i c' e
        split at e <;> exact (nomatch e)
    | shift s =>
      rw [ha] at h
      dsimp only at h
      cases pre with
      | nil =>
        have := run_error_suffix f _ _ _ h
        simp at this
        omega
      | cons t pre' =>
        exact run_error_local f _ pre' k post post' h
    | reduce r =>
      rw [ha] at h
      dsimp only at h
      rw [reduce] at h
      dsimp only at h
      dsimp only
      rw [reduce]
      dsimp only
      by_cases hn : T.rhsSize.getD r 0 ≤ fs.length
      · rw [if_pos hn] at h
        rw [if_pos hn]
        exact run_error_local f _ pre k post post' h
      · rw [if_neg hn] at h
        exact (nomatch h)

variable (hC : checkComplete T C = true) (hS : checkSound T C kinds = true)
include hC hS

/-- The trees of a phrase are not ambiguous. -/
theorem exact_unique {t t' : Tree} (h : Derives (grammar T) t) (h' : Derives (grammar T) t')
    (hr : root (grammar T).lhs t = C.start) (hr' : root (grammar T).lhs t' = C.start)
    (hy : yield t = yield t') : t = t' := by
  obtain ⟨f, e⟩ := complete hC h hr
  obtain ⟨f', e'⟩ := complete hC h' hr'
  rw [hy] at e
  have := run_unique (T := T) (f := f) (g := f') (c := ⟨[], yield t'⟩) (by rw [e]; nofun)
    (by rw [e']; nofun)
  rw [e, e'] at this
  injection this with this
  injection this

/-- A phrase is accepted. -/
theorem exact_phrase {t : Tree} (h : Derives (grammar T) t)
    (hr : root (grammar T).lhs t = C.start) (hk : Tokens kinds (yield t)) {f : Nat}
    (hf : fuelFor C (yield t).length ≤ f) :
    run T f ⟨[], yield t⟩ = (.accept t, max (1 + room t) 3) := by
  obtain ⟨f', e⟩ := complete hC h hr
  rw [← e]
  refine run_unique ?_ (by rw [e]; nofun)
  rcases sound hS hk hf with ⟨t', h1, _⟩ | ⟨_, _, h1, _⟩ <;> rw [h1] <;> nofun

/-- The parser ends: it reports a result or an error, or leaves its stack. -/
theorem exact_total {ts : List Tok} (hk : Tokens kinds ts) :
    (∃ t, parse T (fuelFor C ts.length) ts = .ok t) ∨
    (∃ l, parse T (fuelFor C ts.length) ts = .error l) ∨
    parse T (fuelFor C ts.length) ts = .overflow := by
  have h := sound hS hk (Nat.le_refl _)
  rw [parse]
  generalize run T (fuelFor C ts.length) ⟨[], ts⟩ = o at h
  obtain ⟨o, n⟩ := o
  rw [finish.eq_def]
  dsimp only
  by_cases hn : n > depth
  · rw [if_pos hn]; exact .inr (.inr rfl)
  · rw [if_neg hn]
    rcases h with ⟨t, h, _⟩ | ⟨_, l, h, _⟩
    · dsimp only at h; subst h; exact .inl ⟨t, rfl⟩
    · dsimp only at h; subst h; exact .inr (.inl ⟨l, rfl⟩)

/-- What is accepted, and with which tree. -/
theorem exact_ok {ts : List Tok} (hk : Tokens kinds ts) (t : Tree) :
    parse T (fuelFor C ts.length) ts = .ok t ↔
      Derives (grammar T) t ∧ root (grammar T).lhs t = C.start ∧ yield t = ts ∧
        room t < depth := by
  constructor
  · intro h
    have hs := sound hS hk (Nat.le_refl _)
    rcases hs with ⟨t', h1, h2, h3, h4⟩ | ⟨_, l, h1, _⟩
    · subst h4
      have e := exact_phrase hC hS h2 h3 hk (Nat.le_refl _)
      rw [parse, e, finish] at h
      split at h
      · exact (nomatch h)
      · rename_i hn
        injection h with h
        subst h
        refine ⟨h2, h3, rfl, ?_⟩
        omega
    · exfalso
      rw [parse] at h
      generalize run T (fuelFor C ts.length) ⟨[], ts⟩ = o at h h1
      obtain ⟨o, n⟩ := o
      dsimp only at h1
      subst h1
      rw [finish] at h
      split at h <;> exact (nomatch h)
  · rintro ⟨h1, h2, rfl, h3⟩
    rw [parse, exact_phrase hC hS h1 h2 hk (Nat.le_refl _), finish,
      if_neg (by have : depth = 1000 := rfl; omega)]

/-- A phrase that needs too much of the stack. -/
theorem exact_overflow {t : Tree} (h : Derives (grammar T) t)
    (hr : root (grammar T).lhs t = C.start) (hk : Tokens kinds (yield t)) :
    parse T (fuelFor C (yield t).length) (yield t) = .overflow ↔ depth ≤ room t := by
  have hd : depth = 1000 := rfl
  rw [parse, exact_phrase hC hS h hr hk (Nat.le_refl _), finish]
  by_cases hn : max (1 + room t) 3 > depth
  · rw [if_pos hn]
    exact ⟨fun _ => by omega, fun _ => rfl⟩
  · rw [if_neg hn]
    exact ⟨fun h => (nomatch h), fun h => by omega⟩

/-- Where an error is reported: no phrase begins with the tokens up to the one
reported; if none is, the tokens are not a phrase. -/
theorem exact_error {ts l : List Tok} (hk : Tokens kinds ts)
    (h : parse T (fuelFor C ts.length) ts = .error l) :
    ∃ pre, ts = pre ++ l ∧ ∀ t, Derives (grammar T) t → root (grammar T).lhs t = C.start →
      (l = [] → yield t ≠ pre) ∧ ∀ k l' rest, l = k :: l' → yield t ≠ pre ++ k :: rest := by
  have hrun : (run T (fuelFor C ts.length) ⟨[], ts⟩).1 = .error l := by
    rw [parse] at h
    generalize run T (fuelFor C ts.length) ⟨[], ts⟩ = o at h
    obtain ⟨o, n⟩ := o
    rw [finish.eq_def] at h
    dsimp only at h
    split at h
    · exact (nomatch h)
    · cases o with
      | error l' => injection h with h; rw [h]
      | accept t => exact (nomatch h)
      | underflow => exact (nomatch h)
      | stuck => exact (nomatch h)
  rcases sound hS hk (Nat.le_refl _) with ⟨t', h1, _⟩ | ⟨pre, l', h1, h2⟩
  · rw [hrun] at h1; exact (nomatch h1)
  rw [hrun] at h1
  injection h1 with h1
  subst h1
  refine ⟨pre, h2, fun t ht hr => ⟨?_, ?_⟩⟩
  · rintro rfl hy
    rw [List.append_nil] at h2
    obtain ⟨f, e⟩ := complete hC ht hr
    rw [hy, ← h2] at e
    have := run_unique (T := T) (f := f) (g := fuelFor C ts.length) (c := ⟨[], ts⟩)
      (by rw [e]; nofun) (by rw [hrun]; nofun)
    rw [e] at this
    rw [← this] at hrun
    exact (nomatch hrun)
  · rintro k l' rest rfl hy
    obtain ⟨f, e⟩ := complete hC ht hr
    rw [h2] at hrun
    have hloc := run_error_local (T := T) _ [] pre k l' rest hrun
    rw [← hy] at hloc
    have := run_unique (T := T) (f := f) (g := fuelFor C (pre ++ k :: l').length)
      (c := ⟨[], yield t⟩) (by rw [e]; nofun) (by rw [hloc]; nofun)
    rw [e] at this
    rw [← this] at hloc
    exact (nomatch hloc)

end
end Verif.Parse
