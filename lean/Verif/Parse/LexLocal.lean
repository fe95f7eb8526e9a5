import Verif.Parse.LexTotal
import Verif.Parse.LexFirst
import Verif.Parse.LexPatterns
/-
A pattern that cannot read a certain character sees the end of the text where
this character is.
-/
namespace Verif.Parse

mutual
/-- The pattern never reads the character `z`, and no repetition in it has items
that can be empty. -/
def avoids (S : Sets) (z : Char) : Prog → Bool
  | .success => true
  | .any _ | .notLit _ _ | .notSet _ _ => false
  | .lit n k => decide (z.toNat ≠ n) && avoids S z k
  | .set m k => !inSet S z m && avoids S z k
  | .assert p k => avoids S z p && avoids S z k
  | .branch ps k => avoidsAll S z ps && avoids S z k
  | .rep _ p k => !nullable p && avoids S z p && avoids S z k
  | .range _ _ p k => avoids S z p && avoids S z k
def avoidsAll (S : Sets) (z : Char) : Progs → Bool
  | .nil => true
  | .cons p ps => avoids S z p && avoidsAll S z ps
end

/-- `f` does the same on a text that goes on with `x`. -/
def Local (x : Str) (f : Str → Option Str) : Prop :=
  ∀ e, f (e ++ x) = (f e).map (· ++ x)

theorem times_local {x : Str} {f : Str → Option Str} (hf : Local x f) :
    ∀ (n : Nat) (e : Str), times f n (e ++ x) = (times f n e).map (· ++ x)
  | 0, e => rfl
  | n + 1, e => by
    rw [times, times, hf e]
    cases f e with
    | none => rfl
    | some r => exact times_local hf n r

theorem trail_local {x : Str} {f : Str → Option Str} (hf : Local x f)
    (hl : ∀ s r, f s = some r → r.length < s.length) :
    ∀ (n m : Nat) (e : Str) (acc : List Str), e.length ≤ n → e.length ≤ m →
      trail f m (e ++ x) (acc.map (· ++ x)) = (trail f n e acc).map (· ++ x)
  | 0, m, e, acc, h1, _ => by
    have he : f e = none := by
      cases h : f e with
      | none => rfl
      | some r => have := hl e r h; omega
    cases m with
    | zero => rfl
    | succ m =>
      have h : f (e ++ x) = none := by rw [hf e, he]; rfl
      have h' : trail f (m + 1) (e ++ x) (acc.map (· ++ x)) =
          (e ++ x) :: acc.map (· ++ x) := by rw [trail, h]
      rw [h']
      rfl
  | n + 1, 0, e, acc, _, h2 => by
    have he : f e = none := by
      cases h : f e with
      | none => rfl
      | some r => have := hl e r h; omega
    rw [trail, trail, he]
    rfl
  | n + 1, m + 1, e, acc, h1, h2 => by
    rw [trail, trail, hf e]
    cases h : f e with
    | none => rfl
    | some r =>
      have := hl e r h
      have ih := trail_local hf hl n m r (e :: acc) (by omega) (by omega)
      rw [List.map_cons] at ih
      exact ih

theorem climb_local {x : Str} {f : Str → Option Str} (hf : Local x f) :
    ∀ (n : Nat) (e : Str) (acc : List Str),
      climb f n (e ++ x) (acc.map (· ++ x)) = ((climb f n e acc).1, (climb f n e acc).2.map (· ++ x))
  | 0, e, acc => rfl
  | n + 1, e, acc => by
    rw [climb, climb, hf e]
    cases f e with
    | none => rfl
    | some r =>
      have ih := climb_local hf n r (e :: acc)
      rw [List.map_cons] at ih
      exact ih

theorem tried_local (x : Str) : ∀ (b : Bool) (l : List Str),
    tried (b, l.map (· ++ x)) = (tried (b, l)).map (· ++ x)
  | false, l => rfl
  | true, [] => rfl
  | true, [a] => rfl
  | true, a :: b :: l => by
    show ((a :: b :: l).map (· ++ x)).dropLast = ((a :: b :: l).dropLast).map (· ++ x)
    rw [List.map_dropLast]

theorem firstOf_local {x : Str} {g : Str → Option Str} (hg : Local x g) :
    ∀ l : List Str, firstOf g (l.map (· ++ x)) = (firstOf g l).map (· ++ x)
  | [] => rfl
  | a :: l => by
    rw [List.map_cons, firstOf, firstOf, hg a, firstOf_local hg l]
    cases g a <;> rfl

theorem longer_local (x : Str) : ∀ a b : Option Str,
    longer (a.map (· ++ x)) (b.map (· ++ x)) = (longer a b).map (· ++ x)
  | none, b => rfl
  | some a, none => rfl
  | some a, some b => by
    show (if (b ++ x).length < (a ++ x).length then some (b ++ x) else some (a ++ x)) = _
    rw [longer, List.length_append, List.length_append]
    by_cases h : b.length < a.length
    · rw [if_pos h, if_pos (by omega)]
      rfl
    · rw [if_neg h, if_neg (by omega)]
      rfl

mutual
theorem scan_local (S : Sets) (z : Char) (x : Str) : ∀ p : Prog, avoids S z p = true →
    Local (z :: x) (scan S p)
  | .success, _, e => rfl
  | .any _, h, _ => (nomatch h)
  | .notLit _ _, h, _ => (nomatch h)
  | .notSet _ _, h, _ => (nomatch h)
  | .lit n k, h, e => by
    rw [avoids, Bool.and_eq_true, decide_eq_true_eq] at h
    cases e with
    | nil => show (if z.toNat = n then scan S k x else none) = none; rw [if_neg h.1]
    | cons c cs =>
      show (if c.toNat = n then scan S k (cs ++ z :: x) else none) =
        (if c.toNat = n then scan S k cs else none).map (· ++ z :: x)
      rw [scan_local S z x k h.2 cs]
      split <;> rfl
  | .set m k, h, e => by
    rw [avoids, Bool.and_eq_true, Bool.not_eq_true'] at h
    cases e with
    | nil =>
      show (if inSet S z m then scan S k x else none) = none
      rw [h.1]
      rfl
    | cons c cs =>
      show (if inSet S c m then scan S k (cs ++ z :: x) else none) =
        (if inSet S c m then scan S k cs else none).map (· ++ z :: x)
      rw [scan_local S z x k h.2 cs]
      split <;> rfl
  | .assert p k, h, e => by
    rw [avoids, Bool.and_eq_true] at h
    rw [scan, scan, scan_local S z x p h.1 e, scan_local S z x k h.2 e]
    cases scan S p e <;> rfl
  | .branch ps k, h, e => by
    rw [avoids, Bool.and_eq_true] at h
    rw [scan, scan, longest_local S z x ps h.1 e]
    cases longest S ps e with
    | none => rfl
    | some r => exact scan_local S z x k h.2 r
  | .rep min p k, h, e => by
    rw [avoids, Bool.and_eq_true, Bool.and_eq_true] at h
    have hp := scan_local S z x p h.1.2
    rw [scan, scan, times_local hp]
    cases times (scan S p) min e with
    | none => rfl
    | some r =>
      dsimp only [Option.map_some]
      have hl : ∀ s r, scan S p s = some r → r.length < s.length := by
        intro s r hs
        have := scan_left S p s r hs
        rw [h.1.1] at this
        obtain ⟨w, rfl, hw⟩ := this
        have := List.length_pos_iff.mpr (hw rfl)
        rw [List.length_append]
        omega
      have ht := trail_local hp hl r.length (r ++ z :: x).length r [] (Nat.le_refl _)
        (by rw [List.length_append]; omega)
      rw [List.map_nil] at ht
      rw [ht, firstOf_local (scan_local S z x k h.2)]
  | .range min max p k, h, e => by
    rw [avoids, Bool.and_eq_true] at h
    have hp := scan_local S z x p h.1
    rw [scan, scan, times_local hp]
    cases times (scan S p) min e with
    | none => rfl
    | some r =>
      dsimp only [Option.map_some]
      have hc := climb_local hp (max - min) r []
      rw [List.map_nil] at hc
      rw [hc, tried_local, firstOf_local (scan_local S z x k h.2)]
theorem longest_local (S : Sets) (z : Char) (x : Str) : ∀ ps : Progs, avoidsAll S z ps = true →
    Local (z :: x) (longest S ps)
  | .nil, _, _ => rfl
  | .cons p ps, h, e => by
    rw [avoidsAll, Bool.and_eq_true] at h
    rw [longest, longest, scan_local S z x p h.1 e, longest_local S z x ps h.2 e, longer_local]
end

/-! ### The patterns of XPath and the brace -/

/-- What is needed of a pattern: a match that ends before `x` does not depend on
`x`, and a match in a text is one in the text with `x`. -/
def Ends1 (p : Prog) (x : Str) : Prop :=
  (∀ e r, e ≠ [] → scan X p (e ++ x) = some (r ++ x) → scan X p e = some r) ∧
  (∀ e r, e ≠ [] → scan X p e = some r → scan X p (e ++ x) = some (r ++ x))

theorem Local.ends1 {p : Prog} {x : Str} (h : Local x (scan X p)) : Ends1 p x := by
  refine ⟨fun e r _ hs => ?_, fun e r _ hs => ?_⟩
  · rw [h e] at hs
    cases hq : scan X p e with
    | none => rw [hq] at hs; exact (nomatch hs)
    | some q =>
      rw [hq] at hs
      injection hs with hs
      rw [List.append_cancel_right hs]
  · rw [h e, hs]
    rfl

theorem any_ends1 (x : Str) : Ends1 pAny x := by
  refine ⟨fun e r he hs => ?_, fun e r he hs => ?_⟩
  · cases e with
    | nil => exact absurd rfl he
    | cons c cs =>
      show (if c = '\n' then none else some cs) = some r
      have hs : (if c = '\n' then none else some (cs ++ x)) = some (r ++ x) := hs
      split at hs
      · exact (nomatch hs)
      · injection hs with hs
        rw [if_neg (by assumption), List.append_cancel_right hs]
  · cases e with
    | nil => exact absurd rfl he
    | cons c cs =>
      show (if c = '\n' then none else some (cs ++ x)) = some (r ++ x)
      have hs : (if c = '\n' then none else some cs) = some r := hs
      split at hs
      · exact (nomatch hs)
      · injection hs with hs
        rw [if_neg (by assumption), hs]

theorem dropWhile_append_some {q : Char → Bool} {e x r : Str} {c : Char}
    (h : e.dropWhile q = c :: r) : (e ++ x).dropWhile q = c :: (r ++ x) := by
  induction e with
  | nil => exact (nomatch h)
  | cons a e ih =>
    rw [List.cons_append]
    by_cases hq : q a = true
    · rw [List.dropWhile_cons_of_pos hq] at h ⊢
      exact ih h
    · rw [List.dropWhile_cons_of_neg hq] at h ⊢
      injection h with h1 h2
      subst h1 h2
      rfl

theorem dropWhile_append_within {q : Char → Bool} {e x r : Str} {c : Char}
    (h : (e ++ x).dropWhile q = c :: (r ++ x)) : e.dropWhile q = c :: r := by
  induction e with
  | nil =>
    have hle : (x.dropWhile q).length ≤ x.length := (List.dropWhile_sublist _).length_le
    rw [List.nil_append] at h
    rw [h, List.length_cons, List.length_append] at hle
    omega
  | cons a e ih =>
    rw [List.cons_append] at h
    by_cases hq : q a = true
    · rw [List.dropWhile_cons_of_pos hq] at h ⊢
      exact ih h
    · rw [List.dropWhile_cons_of_neg hq] at h ⊢
      injection h with h1 h2
      subst h1
      rw [List.append_cancel_right h2]

theorem scan_lit_some {n : Nat} {s r : Str} (h : scan X (.lit n .success) s = some r) :
    ∃ c, c.toNat = n ∧ s = c :: r := by
  cases s with
  | nil => exact (nomatch h)
  | cons c cs =>
    have h : (if c.toNat = n then some cs else none) = some r := h
    split at h
    · next hc => injection h with h; subst h; exact ⟨c, hc, rfl⟩
    · exact (nomatch h)

theorem scan_lit_of {c : Char} {r : Str} : scan X (.lit c.toNat .success) (c :: r) = some r :=
  if_pos rfl

theorem literal_ends1 (x : Str) : Ends1 pLiteral x := by
  refine ⟨fun e r he hs => ?_, fun e r he hs => ?_⟩
  · cases e with
    | nil => exact absurd rfl he
    | cons c cs =>
      rw [List.cons_append, scan_literal] at hs
      rw [scan_literal]
      dsimp only at hs ⊢
      split at hs
      · next h =>
        obtain ⟨d, hd, hs⟩ := scan_lit_some hs
        rw [if_pos h, dropWhile_append_within hs, ← hd, scan_lit_of]
      · next h =>
        split at hs
        · next h' =>
          obtain ⟨d, hd, hs⟩ := scan_lit_some hs
          rw [if_neg h, if_pos h', dropWhile_append_within hs, ← hd, scan_lit_of]
        · exact (nomatch hs)
  · cases e with
    | nil => exact absurd rfl he
    | cons c cs =>
      rw [List.cons_append, scan_literal]
      rw [scan_literal] at hs
      dsimp only at hs ⊢
      split at hs
      · next h =>
        obtain ⟨d, hd, hs⟩ := scan_lit_some hs
        rw [if_pos h, dropWhile_append_some hs, ← hd, scan_lit_of]
      · next h =>
        split at hs
        · next h' =>
          obtain ⟨d, hd, hs⟩ := scan_lit_some hs
          rw [if_neg h, if_pos h', dropWhile_append_some hs, ← hd, scan_lit_of]
        · exact (nomatch hs)

theorem initial_avoids : initialRules.all (fun r =>
    avoids X '}' r.prog || decide (r.give = .token 257)) = true := by decide +kernel

theorem literal_rule : ∀ r ∈ initialRules, r.give = .token 257 → r.prog = pLiteral := by
  intro r hr hg
  simp only [initialRules, List.mem_cons, List.not_mem_nil, or_false] at hr
  rcases hr with rfl | rfl | rfl | rfl | rfl | rfl | rfl | rfl | rfl | rfl | rfl | rfl | rfl |
    rfl | rfl <;> first | rfl | exact (nomatch hg)

theorem operator_avoids : operatorRules.all (fun r =>
    avoids X '}' r.prog || decide (r.give = .again)) = true := by decide +kernel

theorem any_rule : ∀ r ∈ operatorRules, r.give = .again → r.prog = pAny := by
  intro r hr hg
  simp only [operatorRules, List.mem_cons, List.not_mem_nil, or_false] at hr
  rcases hr with rfl | rfl | rfl | rfl | rfl <;> first | rfl | exact (nomatch hg)

theorem initial_ends1 (x : Str) : ∀ r ∈ initialRules, Ends1 r.prog ('}' :: x) := by
  intro r hr
  have := List.all_eq_true.mp initial_avoids r hr
  rw [Bool.or_eq_true, decide_eq_true_eq] at this
  rcases this with h | h
  · exact (scan_local X '}' x r.prog h).ends1
  · rw [literal_rule r hr h]
    exact literal_ends1 _

theorem operator_ends1 (x : Str) : ∀ r ∈ operatorRules, Ends1 r.prog ('}' :: x) := by
  intro r hr
  have := List.all_eq_true.mp operator_avoids r hr
  rw [Bool.or_eq_true, decide_eq_true_eq] at this
  rcases this with h | h
  · exact (scan_local X '}' x r.prog h).ends1
  · rw [any_rule r hr h]
    exact any_ends1 _

theorem rules_ends1 (x : Str) {st : Nat} (hst : st = stInitial ∨ st = stOperator) :
    ∀ r ∈ xpathLexer.rules.getD st [], Ends1 r.prog ('}' :: x) := by
  rcases hst with rfl | rfl
  · exact initial_ends1 x
  · exact operator_ends1 x

/-- The best match among the patterns: one before the brace is the best one in
the text before the brace. -/
theorem best_within {x e : Str} (he : e ≠ []) : ∀ {rs : List Rule},
    (∀ r ∈ rs, Ends1 r.prog x) → ∀ {q : Rule} {r : Str},
    bestRule X rs (e ++ x) = some (q, r ++ x) → bestRule X rs e = some (q, r)
  | [], _, _, _, h => (nomatch h)
  | a :: rs, hr, q, r, h => by
    have ha := hr a List.mem_cons_self
    have ih := fun {q r} => best_within (x := x) he (rs := rs)
      (fun b hb => hr b (List.mem_cons_of_mem _ hb)) (q := q) (r := r)
    have fwd : ∀ {b : Rule × Str}, bestRule X rs e = some b → ∃ b', bestRule X rs (e ++ x) = some b' ∧
        b'.2.length ≤ (b.2 ++ x).length := by
      intro b hb
      obtain ⟨hm, hs⟩ := best_mem hb
      have := (hr b.1 (List.mem_cons_of_mem _ hm)).2 e b.2 he hs
      exact best_le hm this
    rw [bestRule] at h ⊢
    cases h1 : scan X a.prog (e ++ x) with
    | none =>
      rw [h1] at h
      have h0 : scan X a.prog e = none := by
        cases h2 : scan X a.prog e with
        | none => rfl
        | some y => rw [ha.2 e y he h2] at h1; exact (nomatch h1)
      rw [h0]
      dsimp only at h ⊢
      exact ih h
    | some y =>
      rw [h1] at h
      cases h2 : bestRule X rs (e ++ x) with
      | none =>
        rw [h2] at h
        dsimp only at h
        injection h with h
        injection h with e1 e2
        subst e1 e2
        rw [ha.1 e r he h1]
        cases h3 : bestRule X rs e with
        | none => rfl
        | some b =>
          obtain ⟨_, h4, _⟩ := fwd h3
          rw [h2] at h4
          exact (nomatch h4)
      | some b =>
        rw [h2] at h
        dsimp only at h
        split at h
        · next hlt =>
          injection h with h
          subst h
          rw [ih h2]
          cases h3 : scan X a.prog e with
          | none => rfl
          | some y' =>
            have := ha.2 e y' he h3
            rw [h1] at this
            injection this with this
            subst this
            dsimp only
            rw [List.length_append, List.length_append] at hlt
            rw [if_pos (by omega)]
        · next hlt =>
          injection h with h
          injection h with e1 e2
          subst e1 e2
          rw [ha.1 e r he h1]
          cases h3 : bestRule X rs e with
          | none => rfl
          | some b' =>
            dsimp only
            obtain ⟨b'', h4, h5⟩ := fwd h3
            rw [h2] at h4
            injection h4 with h4
            subst h4
            rw [List.length_append] at h5 hlt
            rw [if_neg (by omega)]
where
  best_le {S : Sets} : ∀ {rs : List Rule} {s : Str} {r : Rule} {y : Str}, r ∈ rs →
      scan S r.prog s = some y → ∃ b, bestRule S rs s = some b ∧ b.2.length ≤ y.length
    | [], _, _, _, h, _ => (nomatch h)
    | a :: rs, s, r, y, h, hs => by
      rw [bestRule]
      rcases List.mem_cons.mp h with rfl | h
      · rw [hs]
        cases h2 : bestRule S rs s with
        | none => exact ⟨_, rfl, Nat.le_refl _⟩
        | some b =>
          dsimp only
          split
          · exact ⟨_, rfl, by omega⟩
          · exact ⟨_, rfl, Nat.le_refl _⟩
      · obtain ⟨b, hb, hl⟩ := best_le h hs
        rw [hb]
        cases h2 : scan S a.prog s with
        | none => exact ⟨_, rfl, hl⟩
        | some z =>
          dsimp only
          split
          · exact ⟨_, rfl, hl⟩
          · exact ⟨_, rfl, by dsimp only; omega⟩

theorem best_none_iff {S : Sets} {s : Str} : ∀ {rs : List Rule},
    bestRule S rs s = none ↔ ∀ r ∈ rs, scan S r.prog s = none
  | [] => by simp [bestRule]
  | a :: rs => by
    have ih := best_none_iff (S := S) (s := s) (rs := rs)
    rw [bestRule]
    constructor
    · intro h
      cases h1 : scan S a.prog s with
      | none =>
        rw [h1] at h
        intro r hr
        rcases List.mem_cons.mp hr with rfl | hr
        · exact h1
        · exact ih.mp h r hr
      | some y =>
        rw [h1] at h
        split at h
        · exact (nomatch ‹some y = none›)
        · exact (nomatch h)
        · split at h <;> exact (nomatch h)
    · intro h
      rw [h a List.mem_cons_self]
      exact ih.mpr fun r hr => h r (List.mem_cons_of_mem _ hr)

end Verif.Parse
