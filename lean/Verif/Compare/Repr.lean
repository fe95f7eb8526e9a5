import Verif.Compare.Spec
/- The notation of the report can be read back: `repr`, pairs, and lists of pairs. -/
namespace Verif.Compare
open Verif

theorem hexDigit_inj : ∀ a < 16, ∀ b < 16, hexDigit a = hexDigit b → a = b := by decide +kernel

theorem hex_length (w n : Nat) : (hex w n).length = w := by
  induction w generalizing n with
  | zero => rfl
  | succ w ih => simp [hex, ih]

theorem hex_inj {w n m : Nat} (hn : n < 16 ^ w) (hm : m < 16 ^ w) (h : hex w n = hex w m) :
    n = m := by
  induction w generalizing n m with
  | zero => simp at hn hm; omega
  | succ w ih =>
    rw [hex, hex] at h
    obtain ⟨h1, h2⟩ := List.append_inj h (by simp [hex_length])
    rw [Nat.pow_succ] at hn hm
    have h3 := ih (by omega) (by omega) h1
    have h4 := hexDigit_inj _ (Nat.mod_lt n (by omega)) _ (Nat.mod_lt m (by omega))
      (List.cons.inj h2).1
    omega

theorem hex_prefix {w n m : Nat} {r r' : Str} (hn : n < 16 ^ w) (hm : m < 16 ^ w)
    (h : hex w n ++ r = hex w m ++ r') : n = m ∧ r = r' := by
  obtain ⟨h1, h2⟩ := List.append_inj h (by simp [hex_length])
  exact ⟨hex_inj hn hm h1, h2⟩

theorem char_inj {a b : Char} (h : a.toNat = b.toNat) : a = b := by
  apply Char.ext; apply UInt32.toNat_inj.mp; exact h

theorem toNat_lt (c : Char) : c.toNat < 16 ^ 8 := by
  have := c.val.toNat_lt
  show c.val.toNat < _
  omega

/-- What an escaped character starts with. -/
theorem escape_shape (q c : Char) :
    (c = q ∨ c = '\\') ∧ escape q c = ['\\', c] ∨
    (escape q c = '\\' :: 'U' :: hex 8 c.toNat) ∨
    (c.toNat < 16 ^ 4 ∧ escape q c = '\\' :: 'u' :: hex 4 c.toNat) ∨
    (c = '\t' ∧ escape q c = ['\\', 't']) ∨ (c = '\n' ∧ escape q c = ['\\', 'n']) ∨
    (c = '\r' ∧ escape q c = ['\\', 'r']) ∨
    (c.toNat < 16 ^ 2 ∧ escape q c = '\\' :: 'x' :: hex 2 c.toNat) ∨
    (c ≠ q ∧ c ≠ '\\' ∧ escape q c = [c]) := by
  unfold escape
  split
  · rename_i h; exact Or.inl ⟨h, rfl⟩
  · rename_i h0
    split
    · exact Or.inr (Or.inl rfl)
    · rename_i h1
      split
      · refine Or.inr (Or.inr (Or.inl ⟨?_, rfl⟩)); omega
      · rename_i h2
        split
        · rename_i h; simp [h]
        · split
          · rename_i h; simp [h]
          · split
            · rename_i h; simp [h]
            · split
              · refine Or.inr (Or.inr (Or.inr (Or.inr (Or.inr (Or.inr (Or.inl ⟨?_, rfl⟩)))))); omega
              · have : c ≠ q ∧ c ≠ '\\' := ⟨fun h => h0 (Or.inl h), fun h => h0 (Or.inr h)⟩
                simp [this]

theorem escape_prefix {q c c' : Char} {r r' : Str} (hq : q = '\'' ∨ q = '"')
    (h : escape q c ++ r = escape q c' ++ r') : c = c' ∧ r = r' := by
  have hb : q ≠ '\\' := by rcases hq with rfl | rfl <;> decide
  -- a character that stands for itself after a backslash is no letter
  have lit : ∀ {d : Char}, (d = q ∨ d = '\\') →
      d ≠ 'U' ∧ d ≠ 'u' ∧ d ≠ 't' ∧ d ≠ 'n' ∧ d ≠ 'r' ∧ d ≠ 'x' := by
    intro d hd
    rcases hd with rfl | rfl
    · rcases hq with rfl | rfl <;> decide
    · decide
  rcases escape_shape q c with ⟨a1, h1⟩ | h1 | ⟨a1, h1⟩ | ⟨a1, h1⟩ | ⟨a1, h1⟩ | ⟨a1, h1⟩ |
    ⟨a1, h1⟩ | ⟨a1, a1', h1⟩ <;>
  rcases escape_shape q c' with ⟨a2, h2⟩ | h2 | ⟨a2, h2⟩ | ⟨a2, h2⟩ | ⟨a2, h2⟩ | ⟨a2, h2⟩ |
    ⟨a2, h2⟩ | ⟨a2, a2', h2⟩ <;>
  rw [h1, h2] at h <;>
  simp only [List.cons_append, List.nil_append, List.cons.injEq, true_and] at h
  all_goals first
    | exact h
    | exact ⟨a1.trans a2.symm, h⟩
    | exact And.imp char_inj id (hex_prefix (toNat_lt _) (toNat_lt _) h)
    | exact And.imp char_inj id (hex_prefix a1 a2 h)
    | (exact absurd h.1 (by decide))
    | (exact absurd h.1.symm a2')
    | (exact absurd h.1 a1')
    | (exact absurd h.1 (lit a1).1) | (exact absurd h.1 (lit a1).2.1)
    | (exact absurd h.1 (lit a1).2.2.1) | (exact absurd h.1 (lit a1).2.2.2.1)
    | (exact absurd h.1 (lit a1).2.2.2.2.1) | (exact absurd h.1 (lit a1).2.2.2.2.2)
    | (exact absurd h.1.symm (lit a2).1) | (exact absurd h.1.symm (lit a2).2.1)
    | (exact absurd h.1.symm (lit a2).2.2.1) | (exact absurd h.1.symm (lit a2).2.2.2.1)
    | (exact absurd h.1.symm (lit a2).2.2.2.2.1) | (exact absurd h.1.symm (lit a2).2.2.2.2.2)
    | (simp at h)

theorem escape_head {q c : Char} (hq : q = '\'' ∨ q = '"') (r : Str) {t : Str} :
    escape q c ++ r ≠ q :: t := by
  intro h
  have hb : q ≠ '\\' := by rcases hq with rfl | rfl <;> decide
  rcases escape_shape q c with h1 | h1 | h1 | h1 | h1 | h1 | h1 | h1
  · rw [h1.2] at h; simp at h; exact hb h.1.symm
  · rw [h1] at h; simp at h; exact hb h.1.symm
  · rw [h1.2] at h; simp at h; exact hb h.1.symm
  · rw [h1.2] at h; simp at h; exact hb h.1.symm
  · rw [h1.2] at h; simp at h; exact hb h.1.symm
  · rw [h1.2] at h; simp at h; exact hb h.1.symm
  · rw [h1.2] at h; simp at h; exact hb h.1.symm
  · rw [h1.2.2] at h; simp at h; exact h1.1 h.1

theorem quoteOf_cases (s : Str) : quoteOf s = '\'' ∨ quoteOf s = '"' := by
  unfold quoteOf; split <;> simp

theorem body_prefix {q : Char} (hq : q = '\'' ∨ q = '"') {s s' r r' : Str}
    (h : s.flatMap (escape q) ++ q :: r = s'.flatMap (escape q) ++ q :: r') : s = s' ∧ r = r' := by
  induction s generalizing s' with
  | nil =>
    cases s' with
    | nil => simpa using h
    | cons c s' =>
      simp only [List.flatMap_nil, List.nil_append, List.flatMap_cons, List.append_assoc] at h
      exact absurd h.symm (escape_head hq _)
  | cons c s ih =>
    cases s' with
    | nil =>
      simp only [List.flatMap_nil, List.nil_append, List.flatMap_cons, List.append_assoc] at h
      exact absurd h (escape_head hq _)
    | cons c' s' =>
      simp only [List.flatMap_cons, List.append_assoc] at h
      obtain ⟨h1, h2⟩ := escape_prefix hq h
      obtain ⟨h3, h4⟩ := ih h2
      exact ⟨by rw [h1, h3], h4⟩

theorem repr_prefix {s s' r r' : Str} (h : repr s ++ r = repr s' ++ r') : s = s' ∧ r = r' := by
  simp only [repr, List.cons_append, List.append_assoc, List.cons.injEq, true_and,
    List.nil_append] at h
  obtain ⟨h1, h2⟩ := h
  rw [← h1] at h2
  exact body_prefix (quoteOf_cases s) h2

theorem repr_inj {s s' : Str} (h : repr s = repr s') : s = s' :=
  (repr_prefix (r := []) (r' := []) (by rw [h])).1

theorem reprOpt_prefix {s s' : Option Str} {r r' : Str}
    (h : reprOpt s ++ r = reprOpt s' ++ r') : s = s' ∧ r = r' := by
  cases s with
  | none =>
    cases s' with
    | none => simpa [reprOpt] using h
    | some s' => simp [reprOpt, repr] at h
  | some s =>
    cases s' with
    | none => simp [reprOpt, repr] at h
    | some s' =>
      obtain ⟨h1, h2⟩ := repr_prefix h
      exact ⟨by rw [h1], h2⟩

/-- Cutting at the first occurrence of a character. -/
theorem cut_prefix {c : Char} {a a' r r' : Str} (h1 : c ∉ a) (h2 : c ∉ a')
    (h : a ++ c :: r = a' ++ c :: r') : a = a' ∧ r = r' := by
  induction a generalizing a' with
  | nil =>
    cases a' with
    | nil => simpa using h
    | cons x a' => simp at h; simp [h.1] at h2
  | cons x a ih =>
    cases a' with
    | nil => simp at h; simp [h.1] at h1
    | cons y a' =>
      simp only [List.cons_append, List.cons.injEq] at h
      obtain ⟨h3, h4⟩ := ih (fun m => h1 (by simp [m])) (fun m => h2 (by simp [m])) h.2
      exact ⟨by rw [h.1, h3], h4⟩

/-- Cutting at the last occurrence of a character. -/
theorem cut_suffix {c : Char} {a a' r r' : Str} (h1 : c ∉ r) (h2 : c ∉ r')
    (h : a ++ c :: r = a' ++ c :: r') : a = a' ∧ r = r' := by
  have h' := congrArg List.reverse h
  simp only [List.reverse_append, List.reverse_cons, List.append_assoc,
    List.cons_append, List.nil_append] at h'
  obtain ⟨h3, h4⟩ := cut_prefix (by simpa using h1) (by simpa using h2) h'
  exact ⟨by simpa using h4, by simpa using h3⟩

theorem given_inj {n m : Name} (hn : '#' ∉ n.loc) (hm : '#' ∉ m.loc) (h : given n = given m) :
    n = m := by
  obtain ⟨nu, nl⟩ := n
  obtain ⟨mu, ml⟩ := m
  dsimp only at hn hm
  cases nu with
  | none =>
    cases mu with
    | none => simp [given] at h; simp [h]
    | some u =>
      simp [given] at h
      rw [h] at hn; simp at hn
  | some u =>
    cases mu with
    | none =>
      simp [given] at h
      rw [← h] at hm; simp at hm
    | some v =>
      simp only [given] at h
      obtain ⟨h1, h2⟩ := cut_suffix hn hm h
      simp [h1, h2]

/-- A name in the report of which the beginning of a value is not a part. -/
def Plain (s : Str) : Prop := ∀ a b q, q = '\'' ∨ q = '"' → s ≠ a ++ '=' :: 'u' :: q :: b

theorem plain_given {n : Name} (h1 : '=' ∉ n.loc) (h2 : Clear n) : Plain (given n) := by
  obtain ⟨u, l⟩ := n
  intro a b q hq h
  cases u with
  | none =>
    simp only [given] at h h1
    rw [h] at h1; simp at h1
  | some u =>
    simp only [given] at h h1
    rcases List.append_eq_append_iff.mp h with ⟨t, h3, h4⟩ | ⟨t, h3, h4⟩
    · -- a = u ++ t
      cases t with
      | nil => simp at h4
      | cons x t => simp only [List.cons_append, List.cons.injEq] at h4; rw [h4.2] at h1; simp at h1
    · -- u = a ++ t
      rcases t with _ | ⟨x, _ | ⟨y, _ | ⟨z, t⟩⟩⟩
      · simp at h4
      · simp at h4
      · simp at h4; rcases hq with rfl | rfl <;> simp at h4
      · simp only [List.cons_append, List.cons.injEq] at h4
        obtain ⟨e1, e2, e3, e4⟩ := h4
        exact h2 u rfl a t q hq (by rw [h3, e1, e2, e3])

theorem attr_prefix {x y : Str × Str} {r r' : Str} (hx : Plain x.1) (hy : Plain y.1)
    (h : attrText x ++ r = attrText y ++ r') : x = y ∧ r = r' := by
  obtain ⟨n, v⟩ := x
  obtain ⟨m, w⟩ := y
  have key : n = m := by
    simp only [attrText, repr, List.append_assoc, List.cons_append, List.nil_append] at h
    have aux : ∀ {n m t : Str} {v w : Str} {r r' : Str}, Plain m → m = n ++ t →
        '=' :: 'u' :: quoteOf v :: (v.flatMap (escape (quoteOf v)) ++ quoteOf v :: r) =
          t ++ '=' :: 'u' :: quoteOf w :: (w.flatMap (escape (quoteOf w)) ++ quoteOf w :: r') →
        n = m := by
      intro n m t v w r r' hm e1 e2
      rcases t with _ | ⟨x, _ | ⟨y, _ | ⟨z, t⟩⟩⟩
      · simpa using e1.symm
      · simp at e2
      · simp only [List.cons_append, List.cons.injEq, List.nil_append] at e2
        rcases quoteOf_cases v with hv | hv <;> simp [hv] at e2
      · simp only [List.cons_append, List.cons.injEq] at e2
        obtain ⟨a1, a2, a3, _⟩ := e2
        exact absurd (by rw [e1, ← a1, ← a2, ← a3]) (hm n t _ (quoteOf_cases v))
    rcases List.append_eq_append_iff.mp h with ⟨t, h3, h4⟩ | ⟨t, h3, h4⟩
    · exact aux hy h3 h4
    · exact (aux hx h3 h4).symm
  subst key
  simp only [attrText, List.append_assoc, List.append_cancel_left_eq] at h
  obtain ⟨h1, h2⟩ := repr_prefix h
  exact ⟨by rw [h1], h2⟩

/-- A prefix that the report shows as it is. -/
def PrefixOk (p : Option Str) : Prop := ∀ q, p = some q → '=' ∉ q ∧ q ≠ s!! "None"

theorem ns_prefix {x y : Option Str × Option Str} {r r' : Str} (hx : PrefixOk x.1)
    (hy : PrefixOk y.1) (h : nsText x ++ r = nsText y ++ r') : x = y ∧ r = r' := by
  obtain ⟨p, u⟩ := x
  obtain ⟨q, v⟩ := y
  simp only [nsText, List.append_assoc, List.cons_append, List.nil_append] at h
  have eqn : ∀ {p : Option Str}, PrefixOk p → '=' ∉ strOpt p := by
    intro p hp
    cases p with
    | none => decide
    | some s => exact (hp s rfl).1
  obtain ⟨h1, h2⟩ := cut_prefix (eqn hx) (eqn hy) h
  have e : p = q := by
    cases p with
    | none =>
      cases q with
      | none => rfl
      | some q => exact absurd h1.symm (hy q rfl).2
    | some p =>
      cases q with
      | none => exact absurd h1 (hx p rfl).2
      | some q => exact congrArg some h1
  obtain ⟨h3, h4⟩ := reprOpt_prefix h2
  exact ⟨by rw [e, h3], h4⟩

/-- A list of texts that can each be cut off can be read back from the joined text. -/
theorem join_inj {α : Type} {f : α → Str} {ok : α → Prop}
    (hf : ∀ x y r r', ok x → ok y → f x ++ r = f y ++ r' → x = y ∧ r = r')
    (hne : ∀ x, f x ≠ []) {xs ys : List α} (hx : ∀ x ∈ xs, ok x) (hy : ∀ y ∈ ys, ok y)
    (h : Py.join (s!! ", ") (xs.map f) = Py.join (s!! ", ") (ys.map f)) : xs = ys := by
  induction xs generalizing ys with
  | nil =>
    rcases ys with _ | ⟨y, _ | ⟨y', ys⟩⟩
    · rfl
    · simp [Py.join] at h; exact absurd h (hne y)
    · simp [Py.join] at h
  | cons x xs ih =>
    rcases ys with _ | ⟨y, ys⟩
    · cases xs with
      | nil => simp [Py.join] at h; exact absurd h (hne x)
      | cons z zs => simp [Py.join] at h
    · have ox := hx x (by simp)
      have oy := hy y (by simp)
      rcases xs with _ | ⟨x', xs⟩ <;> rcases ys with _ | ⟨y', ys⟩
      · simp only [List.map_cons, List.map_nil, Py.join] at h
        obtain ⟨e, _⟩ := hf x y [] [] ox oy (by simpa using h)
        rw [e]
      · simp only [List.map_cons, List.map_nil, Py.join, List.append_assoc] at h
        obtain ⟨_, e⟩ := hf x y [] _ ox oy (by simpa using h)
        simp at e
      · simp only [List.map_cons, List.map_nil, Py.join, List.append_assoc] at h
        obtain ⟨_, e⟩ := hf x y _ [] ox oy (by simpa using h)
        simp at e
      · simp only [List.map_cons, Py.join, List.append_assoc] at h
        obtain ⟨e1, e2⟩ := hf x y _ _ ox oy h
        have := ih (ys := y' :: ys) (fun z hz => hx z (by simp [hz])) (fun z hz => hy z (by simp [hz]))
          (by simpa using e2)
        rw [e1, this]

end Verif.Compare
