import Verif.Util.TemplateSpec
/-
Lemmas for C97.
-/
namespace Verif.Util.Template
open Verif Verif.Util.Template.Spec

theorem idStart_iff (c : Char) : idStart c = true ↔ Letter c := by simp [idStart, Letter, or_assoc]

theorem idChar_iff (c : Char) : idChar c = true ↔ LetterOrDigit c := by simp [idChar, LetterOrDigit, idStart_iff]

theorem letter_ne {c : Char} (h : Letter c) : c ≠ '$' ∧ c ≠ '{' ∧ c ≠ '}' := by
  rw [← idStart_iff] at h
  refine ⟨?_, ?_, ?_⟩ <;> (rintro rfl; revert h; decide)

theorem brace_not : idChar '}' = false := by decide

theorem take_ids : ∀ (n r : Str), (∀ x ∈ n, idChar x = true) → (∀ c r', r = c :: r' → idChar c = false) →
    (n ++ r).takeWhile idChar = n ∧ (n ++ r).dropWhile idChar = r
  | [], [], _, _ => ⟨rfl, rfl⟩
  | [], c :: r, _, h => by simp [h c r rfl]
  | x :: n, r, h, h' => by
    have := take_ids n r (fun y hy => h y (List.mem_cons_of_mem _ hy)) h'
    simp [h x List.mem_cons_self, this]

theorem name_ids {n : Str} (h : Name n) : ∃ c r, n = c :: r ∧ idStart c = true ∧ ∀ x ∈ r, idChar x = true := by
  obtain ⟨c, r, e, h1, h2⟩ := h
  exact ⟨c, r, e, (idStart_iff c).2 h1, fun x hx => (idChar_iff x).2 (h2 x hx)⟩

theorem ids_name {c : Char} {r : Str} (h1 : idStart c = true) (h2 : ∀ x ∈ r, idChar x = true) : Name (c :: r) :=
  ⟨c, r, rfl, (idStart_iff c).1 h1, fun x hx => (idChar_iff x).1 (h2 x hx)⟩

theorem hit_plain {n r : Str} (h : Name n) (hr : ∀ c r', r = c :: r' → ¬LetterOrDigit c) :
    hit (n ++ r) = (.named n, r) := by
  obtain ⟨c, n', rfl, hc, hn⟩ := name_ids h
  have hne := letter_ne ((idStart_iff c).1 hc)
  have := take_ids n' r hn (fun c r' e => by
    have := hr c r' e
    rw [← idChar_iff] at this
    simpa using this)
  rw [List.cons_append]
  unfold hit
  split
  · rename_i h; cases h; exact absurd rfl hne.1
  · rename_i h; injection h with h1 _; exact absurd h1 hne.2.1
  · rename_i h; injection h with h1 h2; subst h1; subst h2; simp [hc, this]
  · rename_i h; cases h

theorem hit_braced {n r : Str} (h : Name n) : hit ('{' :: n ++ '}' :: r) = (.braced n, r) := by
  obtain ⟨c, n', rfl, hc, hn⟩ := name_ids h
  have := take_ids n' ('}' :: r) hn (fun c r' e => by cases e; exact brace_not)
  simp [hit, hc, this]

/-- What `hit` finds is there. -/
def Found (s : Str) : Hit × Str → Prop
  | (.escaped, r) => s = '$' :: r
  | (.named n, r) => Name n ∧ s = n ++ r ∧ ∀ c r', r = c :: r' → ¬LetterOrDigit c
  | (.braced n, r) => Name n ∧ s = '{' :: n ++ '}' :: r
  | (.invalid, r) => s = r

theorem takeWhile_all (p : Char → Bool) : ∀ s : Str, ∀ x ∈ s.takeWhile p, p x = true
  | [], _, h => by simp at h
  | c :: s, x, h => by
    cases e : p c with
    | false => simp [e] at h
    | true =>
      simp [e] at h
      rcases h with rfl | h
      · exact e
      · exact takeWhile_all p s x h

theorem dropWhile_head (p : Char → Bool) : ∀ s : Str, ∀ c r, s.dropWhile p = c :: r → p c = false
  | [], _, _, h => by simp at h
  | x :: s, c, r, h => by
    cases e : p x with
    | false => simp [e] at h; rw [← h.1]; exact e
    | true => simp [e] at h; exact dropWhile_head p s c r h

theorem hit_found (s : Str) : Found s (hit s) := by
  unfold hit
  split
  · rfl
  · rename_i c r
    split
    · rename_i hc
      split
      · rename_i r' hr
        refine ⟨ids_name hc (takeWhile_all _ _), ?_⟩
        rw [← hr]; simp
      · rfl
    · rfl
  · rename_i c r _ _
    split
    · rename_i hc
      refine ⟨ids_name hc (takeWhile_all _ _), by simp, fun c' r' e h => ?_⟩
      have := dropWhile_head _ _ _ _ e
      rw [← idChar_iff, this] at h; cases h
    · rfl
  · rfl

theorem hit_stray {r : Str} (h : Piece.fine .stray r) : hit r = (.invalid, r) := by
  obtain ⟨h1, h2, h3⟩ := h
  have := hit_found r
  rcases e : hit r with ⟨x, r'⟩
  rw [e] at this
  cases x with
  | escaped => exact absurd this (h1 r')
  | named n => exact absurd this.2.1 (h2 n r' this.1)
  | braced n => exact absurd this.2 (h3 n r' this.1)
  | invalid => rw [show r = r' from this]

theorem name_head {n : Str} (h : Name n) {r s : Str} (hs : s = n ++ r) : ∃ c t, s = c :: t ∧ idStart c = true := by
  obtain ⟨c, n', rfl, hc, _⟩ := name_ids h
  exact ⟨c, n' ++ r, hs, hc⟩

theorem stray_of_hit {s r : Str} (h : hit s = (.invalid, r)) : s = r ∧ Piece.fine .stray s := by
  have hf := hit_found s
  rw [h] at hf
  refine ⟨hf, ?_, ?_, ?_⟩
  · rintro r' rfl; simp [hit] at h
  · intro n r' hn e
    obtain ⟨c, t, rfl, hc⟩ := name_head hn e
    have hne := letter_ne ((idStart_iff c).1 hc)
    unfold hit at h
    split at h
    · cases h
    · rename_i h'; cases h'; exact absurd rfl hne.2.1
    · rename_i h'; cases h'; simp [hc] at h
    · rename_i h'; cases h'
  · intro n r' hn e
    rw [e, hit_braced hn] at h; cases h

theorem hit_len (s : Str) : (hit s).2.length ≤ s.length := by
  have := hit_found s
  rcases e : hit s with ⟨x, r⟩
  rw [e] at this
  cases x with
  | escaped => rw [show s = _ from this]; simp
  | named n => rw [this.2.1]; simp
  | braced n => rw [this.2]; simp; omega
  | invalid => rw [show s = r from this]; simp

theorem sub_fuel (conv : Nat → Hit → Except Err Str) : ∀ (f g i : Nat) (s : Str), s.length ≤ f → s.length ≤ g →
    sub conv f i s = sub conv g i s
  | f, g, i, [], _, _ => by cases f <;> cases g <;> simp [sub]
  | 0, _, _, c :: s, h, _ => by simp at h
  | _, 0, _, c :: s, _, h => by simp at h
  | f + 1, g + 1, i, c :: s, h, h' => by
    simp only [List.length_cons] at h h'
    have := hit_len s
    unfold sub
    rw [sub_fuel conv f g _ (hit s).2 (by omega) (by omega), sub_fuel conv f g (i + 1) s (by omega) (by omega)]

/-- `sub` with enough turns. -/
def all (conv : Nat → Hit → Except Err Str) (i : Nat) (s : Str) : Except Err Str := sub conv s.length i s

/-- One result before another. -/
def join (a b : Except Err Str) : Except Err Str :=
  match a with
  | .error e => .error e
  | .ok v => match b with
    | .error e => .error e
    | .ok t => .ok (v ++ t)

theorem all_char {c : Char} (h : c ≠ '$') (conv : Nat → Hit → Except Err Str) (i : Nat) (s : Str) :
    all conv i (c :: s) = join (.ok [c]) (all conv (i + 1) s) := by
  simp only [all, List.length_cons, sub, h, if_false, join]
  cases sub conv s.length (i + 1) s <;> rfl

theorem all_dollar (conv : Nat → Hit → Except Err Str) (i : Nat) {s r : Str} {x : Hit} (h : hit s = (x, r)) :
    all conv i ('$' :: s) = join (conv (i + 1) x) (all conv (i + 1 + (s.length - r.length)) r) := by
  have hl := hit_len s
  rw [h] at hl
  simp only [all, List.length_cons, sub, h, if_true, join]
  rw [sub_fuel conv s.length r.length _ r hl (Nat.le_refl _)]
  cases conv (i + 1) x with
  | error e => rfl
  | ok v => cases sub conv r.length (i + 1 + (s.length - r.length)) r <;> rfl

/-- What the conversion makes of a piece at a position. -/
def made (conv : Nat → Hit → Except Err Str) (i : Nat) : Piece → Except Err Str
  | .text s => .ok s
  | .dollar => conv (i + 1) .escaped
  | .plain n => conv (i + 1) (.named n)
  | .braced n => conv (i + 1) (.braced n)
  | .stray => conv (i + 1) .invalid

theorem all_text (conv : Nat → Hit → Except Err Str) (r : Str) : ∀ (s : Str) (i : Nat), '$' ∉ s →
    all conv i (s ++ r) = join (.ok s) (all conv (i + s.length) r)
  | [], i, _ => by
    simp only [List.nil_append, List.length_nil, Nat.add_zero, join]
    cases all conv i r <;> rfl
  | c :: s, i, h => by
    simp only [List.mem_cons, not_or] at h
    rw [List.cons_append, all_char (fun e => h.1 e.symm), all_text conv r s (i + 1) h.2]
    rw [List.length_cons, show i + 1 + s.length = i + (s.length + 1) by omega]
    cases all conv (i + (s.length + 1)) r <;> rfl

theorem all_piece (conv : Nat → Hit → Except Err Str) (i : Nat) {p : Piece} {r : Str} (h : p.fine r) :
    all conv i (p.write ++ r) = join (made conv i p) (all conv (i + p.write.length) r) := by
  cases p with
  | text s => exact all_text conv r s i h
  | dollar =>
    show all conv i ('$' :: '$' :: r) = _
    rw [all_dollar conv i (show hit ('$' :: r) = (.escaped, r) from rfl)]
    simp [made, Piece.write, show r.length + 1 - r.length = 1 by omega]
  | plain n =>
    show all conv i ('$' :: (n ++ r)) = _
    rw [all_dollar conv i (hit_plain h.1 h.2)]
    simp [made, Piece.write, show i + 1 + n.length = i + (n.length + 1) by omega]
  | braced n =>
    rw [show Piece.write (.braced n) ++ r = '$' :: ('{' :: n ++ '}' :: r) by simp [Piece.write]]
    rw [all_dollar conv i (hit_braced h)]
    simp only [made, Piece.write, List.length_append, List.length_cons, List.length_nil]
    rw [show i + 1 + (n.length + 1 + (r.length + 1) - r.length) = i + (n.length + 1 + 1 + (0 + 1)) by omega]
  | stray =>
    show all conv i ('$' :: r) = _
    rw [all_dollar conv i (hit_stray h)]
    simp [made, Piece.write]

theorem write_append (a b : List Piece) : write (a ++ b) = write a ++ write b := by simp [write]

theorem join_assoc (a b c : Except Err Str) : join (join a b) c = join a (join b c) := by
  cases a <;> cases b <;> cases c <;> simp [join]

/-- Pieces that can be made. -/
theorem all_made (conv : Nat → Hit → Except Err Str) (val : Piece → Str) (b : List Piece) : ∀ (a : List Piece) (i : Nat),
    Fine (a ++ b) → (∀ p ∈ a, ∀ j, made conv j p = .ok (val p)) →
    all conv i (write (a ++ b)) = join (.ok (a.flatMap val)) (all conv (i + (write a).length) (write b))
  | [], i, _, _ => by
    simp only [List.nil_append, List.flatMap_nil, join, write, List.length_nil, Nat.add_zero]
    cases all conv i (List.flatMap Piece.write b) <;> rfl
  | p :: a, i, hf, hm => by
    have e : write (p :: (a ++ b)) = p.write ++ write (a ++ b) := by simp [write]
    have e2 : (write (p :: a)).length = p.write.length + (write a).length := by simp [write]
    have hf1 : p.fine (write (a ++ b)) := hf.1
    rw [List.cons_append, e, all_piece conv i hf1, hm p List.mem_cons_self,
      all_made conv val b a _ hf.2 (fun q hq => hm q (List.mem_cons_of_mem _ hq)), ← join_assoc, e2, Nat.add_assoc]
    rfl

theorem fine_tail : ∀ {a b : List Piece}, Fine (a ++ b) → Fine b
  | [], _, h => h
  | _ :: _, _, h => fine_tail h.2

/-- Lines and columns. -/
theorem lines_place : ∀ (cur s : Str) (l : Nat), ∃ init last, splitlines cur (s ++ ['$']) = init ++ [last] ∧
    place l (cur.length + 1) s = (l + init.length, last.length) ∧
    init.flatten.length + last.length = cur.length + s.length + 1
  | cur, [], l => by
    have : isBreak '$' = false := by decide
    refine ⟨[], ('$' :: cur).reverse, ?_, ?_, ?_⟩
    · simp [splitlines, this]
    · simp [place]
    · simp
  | cur, c :: s, l => by
    by_cases hrn : c = '\r' ∧ ∃ s', s = '\n' :: s'
    · obtain ⟨rfl, s', rfl⟩ := hrn
      obtain ⟨init, last, h1, h2, h3⟩ := lines_place [] s' (l + 1)
      refine ⟨('\n' :: '\r' :: cur).reverse :: init, last, ?_, ?_, ?_⟩
      · simp only [List.cons_append, splitlines, h1]
      · simp only [place]
        rw [show ([] : Str).length + 1 = 1 from rfl] at h2
        rw [h2]; simp; omega
      · simp at h3 ⊢; omega
    · have e1 : splitlines cur ((c :: s) ++ ['$']) =
          if isBreak c then (c :: cur).reverse :: splitlines [] (s ++ ['$']) else splitlines (c :: cur) (s ++ ['$']) := by
        rw [List.cons_append]
        apply splitlines.eq_4
        intro s' ec es
        apply hrn
        refine ⟨ec, ?_⟩
        cases s with
        | nil => simp at es
        | cons x s => simp at es; exact ⟨s, by rw [es.1]⟩
      have e2 : place l (cur.length + 1) (c :: s) =
          if isBreak c then place (l + 1) 1 s else place l (cur.length + 1 + 1) s := by
        apply place.eq_3
        intro s' ec es
        exact hrn ⟨ec, s', es⟩
      rw [e1, e2]
      split
      · obtain ⟨init, last, h1, h2, h3⟩ := lines_place [] s (l + 1)
        refine ⟨(c :: cur).reverse :: init, last, by rw [h1]; rfl, ?_, ?_⟩
        · rw [show ([] : Str).length + 1 = 1 from rfl] at h2
          rw [h2]; simp; omega
        · simp at h3 ⊢; omega
      · obtain ⟨init, last, h1, h2, h3⟩ := lines_place (c :: cur) s l
        exact ⟨init, last, h1, h2, by simp at h3 ⊢; omega⟩
termination_by _ s => s.length

theorem invalid_place (a r : Str) :
    invalid (a ++ '$' :: r) (a.length + 1) = .value (place 1 1 a).1 (place 1 1 a).2 := by
  obtain ⟨init, last, h1, h2, h3⟩ := lines_place [] a 1
  have e : (a ++ '$' :: r).take (a.length + 1) = a ++ ['$'] := by
    rw [show a ++ '$' :: r = (a ++ ['$']) ++ r by simp, List.take_append_of_le_length (by simp)]
    exact List.take_of_length_le (by simp)
  simp only [invalid, e, h1]
  rw [show ([] : Str).length + 1 = 1 from rfl] at h2
  rw [h2, if_neg (by simp)]
  simp only [List.length_append, List.length_cons, List.length_nil, List.dropLast_concat]
  simp at h3
  rw [show a.length + 1 - init.flatten.length = last.length by simp; omega, Nat.add_comm init.length]

end Verif.Util.Template
