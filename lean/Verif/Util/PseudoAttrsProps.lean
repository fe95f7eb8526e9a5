import Verif.Util.PseudoAttrs
/-
C106: `parse_pi_pseudo_attrs`.
-/
namespace Verif.Util.Pseudo

/-! ### Specification -/

def WordChar (c : Char) : Prop := c ∈ s!! "abcdefghijklmnopqrstuvwxyzABCDEFGHIJKLMNOPQRSTUVWXYZ0123456789_"
def SpaceChar (c : Char) : Prop := c ∈ [' ', '\t', '\n', '\r', '\x0b', '\x0c']

/-- A pseudo-attribute as written: white space before it, the name, white space around the equals sign, the value. -/
structure Written where
  before : Str
  name : Str
  left : Str
  right : Str
  value : Str

def Written.ok (w : Written) : Prop :=
  (∀ c ∈ w.before, SpaceChar c) ∧ (w.name ≠ [] ∧ ∀ c ∈ w.name, WordChar c) ∧ (∀ c ∈ w.left, SpaceChar c) ∧
    (∀ c ∈ w.right, SpaceChar c) ∧ '"' ∉ w.value

def Written.text (w : Written) : Str :=
  w.before ++ (w.name ++ (w.left ++ '=' :: (w.right ++ '"' :: (w.value ++ s!! "\""))))

/-! ### Lemmas -/

theorem takeWhile_run {p : Char → Bool} {a : Str} {c : Char} {r : Str} (ha : ∀ x ∈ a, p x = true) (hc : p c = false) :
    (a ++ c :: r).takeWhile p = a ∧ (a ++ c :: r).dropWhile p = c :: r := by
  induction a with
  | nil => simp [hc]
  | cons x a ih =>
    have hx := ha x (by simp)
    have := ih (fun y hy => ha y (by simp [hy]))
    simp [hx] at this ⊢
    exact this

theorem space_iff {c : Char} : space c = true ↔ SpaceChar c := List.contains_iff_mem
theorem word_iff {c : Char} : word c = true ↔ WordChar c := List.contains_iff_mem

theorem space_not_word {c : Char} (h : SpaceChar c) : word c = false := by
  simp only [SpaceChar, List.mem_cons, List.not_mem_nil, or_false] at h
  rcases h with rfl | rfl | rfl | rfl | rfl | rfl <;> decide

theorem matchValue_written {r v t : Str} (hr : ∀ c ∈ r, SpaceChar c) (hv : '"' ∉ v) :
    matchValue (r ++ '"' :: (v ++ '"' :: t)) = some (v, t) := by
  have h1 := (takeWhile_run (p := space) (a := r) (c := '"') (r := v ++ '"' :: t)
    (fun x hx => space_iff.2 (hr x hx)) (by decide)).2
  obtain ⟨h2, h3⟩ := takeWhile_run (p := fun c => decide (c ≠ '"')) (a := v) (c := '"') (r := t)
    (fun x hx => by simp; rintro rfl; exact hv hx) (by simp)
  unfold matchValue
  rw [h1]
  simp only
  rw [h3, h2]

theorem matchAt_written {n l r v t : Str} (h0 : n ≠ []) (hn : ∀ c ∈ n, WordChar c) (hl : ∀ c ∈ l, SpaceChar c)
    (hr : ∀ c ∈ r, SpaceChar c) (hv : '"' ∉ v) :
    matchAt (n ++ (l ++ '=' :: (r ++ '"' :: (v ++ '"' :: t)))) = some (n, v, t) := by
  have hnw : ∀ x ∈ n, word x = true := fun x hx => word_iff.2 (hn x hx)
  have h1 : (n ++ (l ++ '=' :: (r ++ '"' :: (v ++ '"' :: t)))).takeWhile word = n ∧
      (n ++ (l ++ '=' :: (r ++ '"' :: (v ++ '"' :: t)))).dropWhile word = l ++ '=' :: (r ++ '"' :: (v ++ '"' :: t)) := by
    cases l with
    | nil => exact takeWhile_run hnw (by decide)
    | cons c l => exact takeWhile_run hnw (space_not_word (hl c (by simp)))
  have h2 := (takeWhile_run (p := space) (a := l) (c := '=') (r := r ++ '"' :: (v ++ '"' :: t))
    (fun x hx => space_iff.2 (hl x hx)) (by decide)).2
  unfold matchAt
  rw [h1.1, h1.2, if_neg h0, h2]
  simp only
  rw [matchValue_written hr hv]
  rfl

theorem matchAt_space {c : Char} {s : Str} (h : SpaceChar c) : matchAt (c :: s) = none := by
  unfold matchAt
  rw [if_pos (by simp [space_not_word h])]

theorem findall_spaces : ∀ {a : Str} {k : Nat} {s : Str}, (∀ c ∈ a, SpaceChar c) →
    findall (a.length + k) (a ++ s) = findall k s := by
  intro a
  induction a with
  | nil => intro k s _; simp
  | cons c a ih =>
    intro k s h
    have e : (c :: a).length + k = (a.length + k) + 1 := by simp; omega
    rw [e, List.cons_append, findall, matchAt_space (h c (by simp))]
    exact ih (fun x hx => h x (by simp [hx]))

/-- What a match consists of. -/
theorem matchAt_sound {s n v rest : Str} (h : matchAt s = some (n, v, rest)) :
    ∃ l r, s = n ++ (l ++ '=' :: (r ++ '"' :: (v ++ '"' :: rest))) ∧ n ≠ [] ∧ (∀ c ∈ n, WordChar c) ∧
      (∀ c ∈ l, SpaceChar c) ∧ (∀ c ∈ r, SpaceChar c) ∧ '"' ∉ v := by
  have tw : ∀ (p : Char → Bool) (l : Str), ∀ x ∈ l.takeWhile p, p x = true := by
    intro p l
    induction l with
    | nil => simp
    | cons y l ih =>
      intro x hx
      rw [List.takeWhile_cons] at hx
      split at hx
      · rename_i hy
        rcases List.mem_cons.1 hx with rfl | hx
        · exact hy
        · exact ih x hx
      · cases hx
  unfold matchAt at h
  split at h
  · cases h
  · rename_i h0
    split at h
    · rename_i t ht
      cases hm : matchValue t with
      | none => rw [hm] at h; cases h
      | some m =>
        obtain ⟨v', rest'⟩ := m
        rw [hm] at h
        simp at h
        obtain ⟨rfl, rfl, rfl⟩ := h
        unfold matchValue at hm
        split at hm
        · rename_i u hu
          split at hm
          · cases hm
          · rename_i q w hw
            simp at hm
            obtain ⟨rfl, rfl⟩ := hm
            have hq : q = '"' := by
              have := List.head_dropWhile_not (p := fun c => decide (c ≠ '"')) (l := u) (by rw [hw]; simp)
              simp only [hw, List.head_cons] at this
              simpa using this
            subst hq
            refine ⟨(s.dropWhile word).takeWhile space, t.takeWhile space, ?_, h0, ?_, ?_, ?_, ?_⟩
            · have e1 := List.takeWhile_append_dropWhile (p := word) (l := s)
              have e2 := List.takeWhile_append_dropWhile (p := space) (l := s.dropWhile word)
              have e3 := List.takeWhile_append_dropWhile (p := space) (l := t)
              have e4 := List.takeWhile_append_dropWhile (p := fun c => decide (c ≠ '"')) (l := u)
              rw [ht] at e2; rw [hu] at e3; rw [hw] at e4
              have e4' : u.takeWhile (fun c => !decide (c = '"')) ++ '"' :: w = u := by simpa using e4
              rw [e4', e3, e2, e1]
            · exact fun c hc => word_iff.1 (tw _ _ c hc)
            · exact fun c hc => space_iff.1 (tw _ _ c hc)
            · exact fun c hc => space_iff.1 (tw _ _ c hc)
            · intro hc; have := tw _ _ _ hc; simp at this
        · cases hm
    · cases h

theorem findall_written : ∀ (ws : List Written) (after : Str), (∀ w ∈ ws, w.ok) → (∀ c ∈ after, SpaceChar c) →
    ∀ k, ((ws.map Written.text).flatten ++ after).length ≤ k →
    findall k ((ws.map Written.text).flatten ++ after) = ws.map (fun w => (w.name, w.value)) := by
  intro ws
  induction ws with
  | nil =>
    intro after _ ha k hk
    simp at hk ⊢
    obtain ⟨m, rfl⟩ : ∃ m, k = after.length + m := ⟨k - after.length, by omega⟩
    have := findall_spaces (k := m) (s := []) ha
    rw [List.append_nil] at this
    rw [this]; cases m <;> rfl
  | cons w ws ih =>
    intro after hw ha k hk
    obtain ⟨h1, ⟨h2, h3⟩, h4, h5, h6⟩ := hw w (by simp)
    have e : ((w :: ws).map Written.text).flatten ++ after = w.before ++ (w.name ++ (w.left ++ '=' :: (w.right ++
        '"' :: (w.value ++ '"' :: ((ws.map Written.text).flatten ++ after))))) := by
      simp [Written.text]
    rw [e] at hk ⊢
    obtain ⟨m, rfl⟩ : ∃ m, k = w.before.length + (m + 1) := ⟨k - w.before.length - 1, by simp at hk; omega⟩
    rw [findall_spaces h1]
    have hm := matchAt_written (t := (ws.map Written.text).flatten ++ after) h2 h3 h4 h5 h6
    cases hn : w.name with
    | nil => exact absurd hn h2
    | cons c n =>
      rw [hn] at hm
      rw [List.cons_append] at hm ⊢
      rw [findall, hm]
      simp only
      rw [ih after (fun x hx => hw x (by simp [hx])) ha m (by simp at hk ⊢; omega)]
      simp [hn]

theorem dictGet_last {pairs : List (Str × Str)} {key v : Str} (h : dictGet pairs key = some v) : (key, v) ∈ pairs := by
  unfold dictGet at h
  cases hf : pairs.reverse.find? (fun p => decide (p.1 = key)) with
  | none => rw [hf] at h; cases h
  | some p =>
    rw [hf] at h
    simp at h
    have h1 := List.find?_some hf
    have h2 := List.mem_of_find?_eq_some hf
    simp at h1 h2
    subst h1; subst h
    exact h2

theorem findall_sound : ∀ {k : Nat} {s n v : Str}, (n, v) ∈ findall k s → ∃ pre post l r,
    s = pre ++ (n ++ (l ++ '=' :: (r ++ '"' :: (v ++ '"' :: post)))) ∧ n ≠ [] ∧ (∀ c ∈ n, WordChar c) ∧
      (∀ c ∈ l, SpaceChar c) ∧ (∀ c ∈ r, SpaceChar c) ∧ '"' ∉ v := by
  intro k
  induction k with
  | zero => intro s n v h; cases h
  | succ k ih =>
    intro s n v h
    cases s with
    | nil => cases h
    | cons c s =>
      rw [findall] at h
      split at h
      · rename_i n' v' rest he
        obtain ⟨l, r, e, hh⟩ := matchAt_sound he
        rcases List.mem_cons.1 h with h | h
        · simp at h; obtain ⟨rfl, rfl⟩ := h
          exact ⟨[], rest, l, r, e, hh⟩
        · obtain ⟨pre, post, l', r', e', hh'⟩ := ih h
          refine ⟨n' ++ (l ++ '=' :: (r ++ '"' :: (v' ++ '"' :: pre))), post, l', r', ?_, hh'⟩
          rw [e, e']; simp
      · obtain ⟨pre, post, l', r', e', hh'⟩ := ih h
        exact ⟨c :: pre, post, l', r', by rw [e']; rfl, hh'⟩

/-! ### C106 -/

/-- C106. Pseudo-attributes in double quotes are all read back; of two with the same name the last counts. -/
theorem C106_read (ws : List Written) (after : Str) (hw : ∀ w ∈ ws, w.ok) (ha : ∀ c ∈ after, SpaceChar c)
    (front back : List Written) (w : Written) (hs : ws = front ++ w :: back) (hl : ∀ x ∈ back, x.name ≠ w.name) :
    pseudoAttrs ((ws.map Written.text).flatten ++ after) w.name = some w.value := by
  unfold pseudoAttrs
  rw [findall_written ws after hw ha _ (Nat.le_refl _), hs]
  unfold dictGet
  have hn : (back.map (fun x => (x.name, x.value))).reverse.find? (fun p => decide (p.1 = w.name)) = none := by
    rw [List.find?_eq_none]
    intro p hp
    simp at hp
    obtain ⟨x, hx, rfl⟩ := hp
    simpa using hl x hx
  rw [List.map_append, List.reverse_append, List.map_cons, List.reverse_cons, List.find?_append, List.find?_append, hn]
  simp

/-- C106. No other names are found in them. -/
theorem C106_no_other (ws : List Written) (after : Str) (hw : ∀ w ∈ ws, w.ok) (ha : ∀ c ∈ after, SpaceChar c)
    (key : Str) (hk : ∀ w ∈ ws, w.name ≠ key) : pseudoAttrs ((ws.map Written.text).flatten ++ after) key = none := by
  cases h : pseudoAttrs ((ws.map Written.text).flatten ++ after) key with
  | none => rfl
  | some v =>
    unfold pseudoAttrs at h
    rw [findall_written ws after hw ha _ (Nat.le_refl _)] at h
    have := dictGet_last h
    simp at this
    obtain ⟨w, hm, rfl, _⟩ := this
    exact absurd rfl (hk w hm)

/-- C106. For any data: what is returned for a name is written there, between double quotes after the name and an equals
sign. -/
theorem C106_found (data key v : Str) (h : pseudoAttrs data key = some v) : ∃ pre post l r,
    data = pre ++ (key ++ (l ++ '=' :: (r ++ '"' :: (v ++ '"' :: post)))) ∧ key ≠ [] ∧ (∀ c ∈ key, WordChar c) ∧
      (∀ c ∈ l, SpaceChar c) ∧ (∀ c ∈ r, SpaceChar c) ∧ '"' ∉ v := findall_sound (dictGet_last h)

/-- C106 refuted for the other forms allowed in `xml-stylesheet`: a value in single quotes is not found, and one inside
such a value is; of a name with a hyphen only the end is taken. -/
theorem C106_refuted_forms : pseudoAttrs (s!! "type='text/xml'") (s!! "type") = none ∧
    pseudoAttrs (s!! "title='x=\"y\"'") (s!! "x") = some (s!! "y") ∧
    pseudoAttrs (s!! "my-type=\"a\"") (s!! "my-type") = none ∧
    pseudoAttrs (s!! "my-type=\"a\"") (s!! "type") = some (s!! "a") := by decide +kernel

example : pseudoAttrs (s!! "type=\"text/xml\" href = \"a.xsl\"") (s!! "href") = some (s!! "a.xsl") ∧
    pseudoAttrs (s!! "a=\"1\" a=\"2\"") (s!! "a") = some (s!! "2") := by decide +kernel

example : Written.ok ⟨s!! " ", s!! "href", s!! " ", [], s!! "a='b' c=d"⟩ := by
  refine ⟨?_, ⟨by decide, ?_⟩, ?_, ?_, by decide⟩ <;> simp [SpaceChar, WordChar]

end Verif.Util.Pseudo
