import Verif.Parse.LexLemmas
/-
Which patterns can match a text, told by its first character; and the steps of
the lexer.
-/
namespace Verif.Parse

mutual
/-- The first character of a match (for patterns without empty alternatives or
items). -/
def first (S : Sets) : Prog → Char → Bool
  | .success, _ => true
  | .any _, _ => true
  | .lit n _, c => c.toNat == n
  | .notLit n _, c => c.toNat != n
  | .set m _, c => inSet S c m
  | .notSet m _, c => !inSet S c m
  | .assert _ k, c => first S k c
  | .branch ps _, c => firsts S ps c
  | .rep 0 p k, c => first S p c || first S k c
  | .rep (_ + 1) p _, c => first S p c
  | .range 0 _ p k, c => first S p c || first S k c
  | .range (_ + 1) _ p _, c => first S p c
def firsts (S : Sets) : Progs → Char → Bool
  | .nil, _ => false
  | .cons p ps, c => first S p c || firsts S ps c
end

theorem longer_some {a b : Option Str} {r : Str} (h : longer a b = some r) :
    a = some r ∨ b = some r := by
  cases a with
  | none => exact .inr h
  | some a =>
    cases b with
    | none => exact .inl h
    | some b =>
      rw [longer] at h
      split at h
      · exact .inr h
      · exact .inl h

theorem trail_none {f : Str → Option Str} {s : Str} (h : f s = none) (n : Nat) :
    trail f n s [] = [s] := by
  cases n with
  | zero => rfl
  | succ n => rw [trail, h]

theorem climb_none {f : Str → Option Str} {s : Str} (h : f s = none) (n : Nat) :
    tried (climb f n s []) = [s] := by
  cases n with
  | zero => rfl
  | succ n => rw [climb, h]; rfl

theorem firstOf_one {g : Str → Option Str} {s : Str} : firstOf g [s] = g s := by
  rw [firstOf]
  cases g s <;> rfl

mutual
theorem scan_first (S : Sets) (c : Char) (cs : Str) : ∀ p : Prog, first S p c = false →
    scan S p (c :: cs) = none
  | .success, h => (nomatch h)
  | .any _, h => (nomatch h)
  | .lit n k, h => by
    rw [first] at h
    rw [scan, if_neg (by simpa using h)]
  | .notLit n k, h => by
    rw [first] at h
    rw [scan, if_pos (by simpa using h)]
  | .set m k, h => by
    rw [first] at h
    rw [scan, if_neg (by simp [h])]
  | .notSet m k, h => by
    rw [first] at h
    rw [scan, if_pos (by simpa using h)]
  | .assert p k, h => by
    rw [first] at h
    rw [scan, scan_first S c cs k h]
    cases scan S p (c :: cs) <;> rfl
  | .branch ps k, h => by
    rw [first] at h
    rw [scan, longest_firsts S c cs ps h]
  | .rep 0 p k, h => by
    rw [first, Bool.or_eq_false_iff] at h
    rw [scan, times]
    dsimp only
    rw [trail_none (scan_first S c cs p h.1), firstOf_one, scan_first S c cs k h.2]
  | .rep (n + 1) p k, h => by
    rw [first] at h
    rw [scan, times, scan_first S c cs p h]
    rfl
  | .range 0 n p k, h => by
    rw [first, Bool.or_eq_false_iff] at h
    rw [scan, times]
    dsimp only
    rw [climb_none (scan_first S c cs p h.1), firstOf_one, scan_first S c cs k h.2]
  | .range (n + 1) m p k, h => by
    rw [first] at h
    rw [scan, times, scan_first S c cs p h]
    rfl
theorem longest_firsts (S : Sets) (c : Char) (cs : Str) : ∀ ps : Progs, firsts S ps c = false →
    longest S ps (c :: cs) = none
  | .nil, _ => rfl
  | .cons p ps, h => by
    rw [firsts, Bool.or_eq_false_iff] at h
    rw [longest, scan_first S c cs p h.1, longest_firsts S c cs ps h.2]
    rfl
end

/-- The rules at the places marked. -/
def pick {α : Type} : List Bool → List α → List α
  | true :: bs, x :: xs => x :: pick bs xs
  | false :: bs, _ :: xs => pick bs xs
  | _, _ => []

/-- The places not marked cannot match. -/
def covers (S : Sets) (c : Char) : List Bool → List Rule → Bool
  | b :: bs, r :: rs => (b || !first S r.prog c) && covers S c bs rs
  | [], [] => true
  | _, _ => false

theorem best_pick {S : Sets} {c : Char} (cs : Str) : ∀ (bs : List Bool) (rs : List Rule),
    covers S c bs rs = true →
    bestRule S rs (c :: cs) = bestRule S (pick bs rs) (c :: cs)
  | [], [], _ => rfl
  | b :: bs, r :: rs, h => by
    rw [covers, Bool.and_eq_true] at h
    have ih := best_pick (S := S) (c := c) cs bs rs h.2
    cases b with
    | false =>
      have hf : first S r.prog c = false := by simpa using h.1
      rw [bestRule, scan_first S c cs _ hf]
      exact ih
    | true =>
      rw [pick, bestRule, bestRule, ih]
  | [], _ :: _, h => (nomatch h)
  | _ :: _, [], h => (nomatch h)

theorem best_one {S : Sets} (r : Rule) (s : Str) :
    bestRule S [r] s = (scan S r.prog s).map (fun rest => (r, rest)) := by
  rw [bestRule, bestRule]
  cases scan S r.prog s <;> rfl

theorem best_skip {S : Sets} {r : Rule} {rs : List Rule} {s : Str} (h : scan S r.prog s = none) :
    bestRule S (r :: rs) s = bestRule S rs s := by
  rw [bestRule, h]

/-- A match that is not shorter than all later ones is taken. -/
theorem best_take {S : Sets} {r : Rule} {rs : List Rule} {s rest : Str}
    (h : scan S r.prog s = some rest)
    (hr : ∀ x y, bestRule S rs s = some (x, y) → rest.length ≤ y.length) :
    bestRule S (r :: rs) s = some (r, rest) := by
  rw [bestRule, h]
  cases hb : bestRule S rs s with
  | none => rfl
  | some b =>
    dsimp only
    rw [if_neg (by have := hr b.1 b.2 hb; omega)]

theorem best_mem {S : Sets} : ∀ {rs : List Rule} {s : Str} {r : Rule} {rest : Str},
    bestRule S rs s = some (r, rest) → r ∈ rs ∧ scan S r.prog s = some rest
  | [], _, _, _, h => (nomatch h)
  | r' :: rs, s, r, rest, h => by
    rw [bestRule] at h
    cases h1 : scan S r'.prog s with
    | none =>
      rw [h1] at h
      obtain ⟨h2, h3⟩ := best_mem h
      exact ⟨List.mem_cons_of_mem _ h2, h3⟩
    | some x =>
      rw [h1] at h
      cases h2 : bestRule S rs s with
      | none =>
        rw [h2] at h
        injection h with h
        injection h with ha hb
        subst ha hb
        exact ⟨List.mem_cons_self, h1⟩
      | some b =>
        rw [h2] at h
        dsimp only at h
        split at h
        · injection h with h
          subst h
          obtain ⟨h2, h3⟩ := best_mem h2
          exact ⟨List.mem_cons_of_mem _ h2, h3⟩
        · injection h with h
          injection h with ha hb
          subst ha hb
          exact ⟨List.mem_cons_self, h1⟩

/-! Steps -/

/-- The lexer reads the token `w` of kind `k` and goes to the state `st'`. -/
def Reads (st : Nat) (k : Nat) (w rest : Str) (st' : Nat) : Prop :=
  ∀ f, lexFrom xpathLexer (f + 1) st (w ++ rest) =
    (lexFrom xpathLexer f st' rest).map (⟨k, w⟩ :: ·)

theorem take_append (w rest : Str) :
    (w ++ rest).take ((w ++ rest).length - rest.length) = w := by
  rw [List.length_append, Nat.add_sub_cancel, List.take_left]

theorem reads_token {st n : Nat} {w rest : Str} {r : Rule} (hw : w ≠ [])
    (hb : bestRule X (xpathLexer.rules.getD st []) (w ++ rest) = some (r, rest))
    (hg : r.give = .token n) (hn : n ≠ 0) :
    Reads st (xpathLexer.kind n) w rest (r.next.getD st) := by
  intro f
  cases w with
  | nil => exact absurd rfl hw
  | cons c cs =>
    rw [List.cons_append, lexFrom]
    have : bestRule xpathLexer.sets (xpathLexer.rules.getD st []) (c :: (cs ++ rest)) =
      some (r, rest) := hb
    rw [this]
    dsimp only
    rw [hg]
    dsimp only
    rw [emit, if_neg hn, ← List.cons_append, take_append]

theorem reads_ascii {st : Nat} {c : Char} {rest : Str} {r : Rule}
    (hb : bestRule X (xpathLexer.rules.getD st []) (c :: rest) = some (r, rest))
    (hg : r.give = .ascii) (hn : c.toNat ≠ 0) :
    Reads st (xpathLexer.kind c.toNat) [c] rest (r.next.getD st) := by
  intro f
  show lexFrom xpathLexer (f + 1) st (c :: rest) = _
  rw [lexFrom]
  have : bestRule xpathLexer.sets (xpathLexer.rules.getD st []) (c :: rest) =
    some (r, rest) := hb
  rw [this]
  dsimp only
  rw [hg]
  dsimp only
  rw [emit, if_neg hn, show c :: rest = [c] ++ rest from rfl, take_append]

theorem reads_char {st : Nat} {c : Char} {rest : Str}
    (hb : bestRule X (xpathLexer.rules.getD st []) (c :: rest) = none) (hn : c.toNat ≠ 0) :
    Reads st (xpathLexer.kind c.toNat) [c] rest st := by
  intro f
  show lexFrom xpathLexer (f + 1) st (c :: rest) = _
  rw [lexFrom]
  have : bestRule xpathLexer.sets (xpathLexer.rules.getD st []) (c :: rest) = none := hb
  rw [this]
  dsimp only
  rw [emit, if_neg hn]

theorem skips {st : Nat} {c : Char} {cs rest : Str} {r : Rule}
    (hb : bestRule X (xpathLexer.rules.getD st []) (c :: cs) = some (r, rest))
    (hg : r.give = .discard) (f : Nat) :
    lexFrom xpathLexer (f + 1) st (c :: cs) = lexFrom xpathLexer f (r.next.getD st) rest := by
  rw [lexFrom]
  have : bestRule xpathLexer.sets (xpathLexer.rules.getD st []) (c :: cs) = some (r, rest) := hb
  rw [this]
  dsimp only
  rw [hg]

theorem backs {st : Nat} {c : Char} {cs rest : Str} {r : Rule}
    (hb : bestRule X (xpathLexer.rules.getD st []) (c :: cs) = some (r, rest))
    (hg : r.give = .again) (f : Nat) :
    lexFrom xpathLexer (f + 1) st (c :: cs) = lexFrom xpathLexer f (r.next.getD st) (c :: cs) := by
  rw [lexFrom]
  have : bestRule xpathLexer.sets (xpathLexer.rules.getD st []) (c :: cs) = some (r, rest) := hb
  rw [this]
  dsimp only
  rw [hg]

end Verif.Parse
