import Verif.Iri.PercentLemmas
/-
Lemmas about case normalisation, public identifiers, file paths and `iri_to_uri`.
-/
namespace Verif.Iri
open Spec

/-! ### case normalisation -/

theorem lower_upper_hex (c : Char) (h : isLowerHex c = true) :
    lower (upper c) = lower c ∧ (isLowerHex (upper c) = true → upper (upper c) = upper c) ∧ upper c ≠ '%' := by
  have hc : c.toNat < 128 := by
    simp only [isLowerHex, Bool.or_eq_true, Bool.and_eq_true, decide_eq_true_eq, Char.le_def,
      UInt32.le_iff_toNat_le] at h
    change c.val.toNat < _
    have e1 : ('9' : Char).val.toNat = 57 := rfl
    have e2 : ('f' : Char).val.toNat = 102 := rfl
    omega
  revert h
  exact char_lt_of (P := fun c => isLowerHex c = true → lower (upper c) = lower c ∧
    (isLowerHex (upper c) = true → upper (upper c) = upper c) ∧ upper c ≠ '%') 128 hc (by decide +kernel)

theorem isLowerHex_ne_pct {c : Char} (h : isLowerHex c = true) : c ≠ '%' := by
  rintro rfl; revert h; decide

@[simp] theorem up_nil : upperTriplets [] = [] := by rw [upperTriplets]

theorem up_cons {c : Char} (h : c ≠ '%') (s : Str) : upperTriplets (c :: s) = c :: upperTriplets s := by
  rw [upperTriplets]
  rintro _ _ _ rfl; exact absurd rfl h

theorem up_triplet {a b : Char} (ha : isLowerHex a = true) (hb : isLowerHex b = true) (s : Str) :
    upperTriplets ('%' :: a :: b :: s) = '%' :: upper a :: upper b :: upperTriplets s := by
  rw [upperTriplets]; simp [ha, hb]

theorem up_other {s : Str} (h : ∀ a b r, s = a :: b :: r → ¬ (isLowerHex a = true ∧ isLowerHex b = true)) :
    upperTriplets ('%' :: s) = '%' :: upperTriplets s := by
  match s, h with
  | [], _ => rw [upperTriplets]; simp
  | [x], _ => rw [upperTriplets]; simp
  | a :: b :: r, h =>
    rw [upperTriplets]
    have := h a b r rfl
    rw [if_neg (by simpa using this)]

/-- Induction on the structure of `upperTriplets`. -/
theorem up_induct {P : Str → Prop} (hn : P []) (hc : ∀ c s, c ≠ '%' → P s → P (c :: s))
    (ht : ∀ a b s, isLowerHex a = true → isLowerHex b = true → P s → P ('%' :: a :: b :: s))
    (ho : ∀ s, (∀ a b r, s = a :: b :: r → ¬ (isLowerHex a = true ∧ isLowerHex b = true)) → P s → P ('%' :: s))
    (s : Str) : P s := by
  induction hlen : s.length using Nat.strongRecOn generalizing s with
  | _ n ih =>
    match s with
    | [] => exact hn
    | c :: s =>
      simp only [List.length_cons] at hlen
      by_cases hp : c = '%'
      · subst hp
        by_cases h : ∃ a b r, s = a :: b :: r ∧ isLowerHex a = true ∧ isLowerHex b = true
        · obtain ⟨a, b, r, rfl, ha, hb⟩ := h
          exact ht a b r ha hb (ih r.length (by simp only [List.length_cons] at hlen; omega) r rfl)
        · refine ho s ?_ (ih s.length (by omega) s rfl)
          intro a b r e hh
          exact h ⟨a, b, r, e, hh⟩
      · exact hc c s hp (ih s.length (by omega) s rfl)

theorem up_lower (s : Str) : (upperTriplets s).map lower = s.map lower := by
  induction s using up_induct with
  | hn => simp
  | hc c s h ih => rw [up_cons h]; simp [ih]
  | ht a b s ha hb ih =>
    rw [up_triplet ha hb]; simp [ih, (lower_upper_hex a ha).1, (lower_upper_hex b hb).1]
  | ho s h ih => rw [up_other h]; simp [ih]

/-- `y` is `x` or the upper-case of a lower-case hexadecimal digit `x`. -/
def UpRel (x y : Char) : Prop := x = y ∨ (isLowerHex x = true ∧ y = upper x)

/-- Pointwise relation of two lists. -/
inductive Pointwise {α} (R : α → α → Prop) : List α → List α → Prop
  | nil : Pointwise R [] []
  | cons {x y s t} : R x y → Pointwise R s t → Pointwise R (x :: s) (y :: t)

theorem Pointwise.length {α} {R : α → α → Prop} {s t : List α} (h : Pointwise R s t) : t.length = s.length := by
  induction h with
  | nil => rfl
  | cons _ _ ih => simp [ih]

theorem up_rel (s : Str) : Pointwise UpRel s (upperTriplets s) := by
  induction s using up_induct with
  | hn => simpa using .nil
  | hc c s h ih => rw [up_cons h]; exact .cons (Or.inl rfl) ih
  | ht a b s ha hb ih =>
    rw [up_triplet ha hb]
    exact .cons (Or.inl rfl) (.cons (Or.inr ⟨ha, rfl⟩) (.cons (Or.inr ⟨hb, rfl⟩) ih))
  | ho s h ih => rw [up_other h]; exact .cons (Or.inl rfl) ih

theorem isLowerHex_lt {c : Char} (h : isLowerHex c = true) : c.toNat < 128 := by
  simp only [isLowerHex, Bool.or_eq_true, Bool.and_eq_true, decide_eq_true_eq, Char.le_def,
      UInt32.le_iff_toNat_le] at h
  change c.val.toNat < _
  have e1 : ('9' : Char).val.toNat = 57 := rfl
  have e2 : ('f' : Char).val.toNat = 102 := rfl
  omega

/-- Upper-casing never yields a lower-case hexadecimal letter. -/
theorem upRel_hex {x y : Char} (h : UpRel x y) (hy : isLowerHex y = true) : isLowerHex x = true := by
  rcases h with rfl | ⟨h, rfl⟩
  · exact hy
  · exact h

theorem up_idem (s : Str) : upperTriplets (upperTriplets s) = upperTriplets s := by
  induction s using up_induct with
  | hn => simp
  | hc c s h ih => rw [up_cons h, up_cons h, ih]
  | ht a b s ha hb ih =>
    rw [up_triplet ha hb]
    obtain ⟨_, a2, a3⟩ := lower_upper_hex a ha
    obtain ⟨_, b2, b3⟩ := lower_upper_hex b hb
    by_cases h : isLowerHex (upper a) = true ∧ isLowerHex (upper b) = true
    · rw [up_triplet h.1 h.2, ih, a2 h.1, b2 h.2]
    · rw [up_other, up_cons a3, up_cons b3, ih]
      intro x y r e
      simp only [List.cons.injEq] at e
      obtain ⟨rfl, rfl, _⟩ := e
      exact h
  | ho s h ih =>
    rw [up_other h, up_other, ih]
    intro a b r e hh
    have hr := up_rel s
    rw [e] at hr
    cases hr with
    | cons h1 hr =>
      cases hr with
      | cons h2 hr => exact h _ _ _ rfl ⟨upRel_hex h1 hh.1, upRel_hex h2 hh.2⟩

theorem up_append_sep {c : Char} (hc : c ≠ '%') (hx : isLowerHex c = false) (s t : Str) :
    upperTriplets (s ++ c :: t) = upperTriplets s ++ c :: upperTriplets t := by
  induction s using up_induct with
  | hn => simp [up_cons hc]
  | hc d s h ih => simp only [List.cons_append]; rw [up_cons h, up_cons h, ih]; rfl
  | ht a b s ha hb ih => simp only [List.cons_append]; rw [up_triplet ha hb, up_triplet ha hb, ih]; rfl
  | ho s h ih =>
    simp only [List.cons_append]
    rw [up_other h, up_other, ih]; rfl
    intro a b r e
    match s, h with
    | [], _ =>
      simp only [List.nil_append, List.cons.injEq] at e
      rw [← e.1, hx]; simp
    | [x], _ =>
      simp only [List.cons_append, List.nil_append, List.cons.injEq] at e
      rw [← e.2.1, hx]; simp
    | x :: y :: r', h =>
      simp only [List.cons_append, List.cons.injEq] at e
      rw [← e.1, ← e.2.1]; exact h x y r' rfl

theorem lower_lt {c : Char} (h : lower c ≠ c) : c.toNat < 128 := by
  unfold lower at h
  split at h
  · rename_i h1
    simp only [Char.le_def, UInt32.le_iff_toNat_le] at h1
    have e1 : ('Z' : Char).val.toNat = 90 := rfl
    change c.val.toNat < _
    omega
  · exact absurd rfl h

theorem lower_props (c : Char) : lower (lower c) = lower c ∧ (lower c = '@' ↔ c = '@') ∧
    (lower c = ':' ↔ c = ':') ∧ (lower c = '\n' ↔ c = '\n') ∧ (lower c ∈ s!! ":/?#" ↔ c ∈ s!! ":/?#") := by
  by_cases h : lower c = c
  · simp [h]
  · exact char_lt_of (P := fun c => lower (lower c) = lower c ∧ (lower c = '@' ↔ c = '@') ∧
      (lower c = ':' ↔ c = ':') ∧ (lower c = '\n' ↔ c = '\n') ∧ (lower c ∈ s!! ":/?#" ↔ c ∈ s!! ":/?#"))
      128 (lower_lt h) (by decide +kernel)

theorem map_lower_idem (s : Str) : (s.map lower).map lower = s.map lower := by
  simp [lower_props]

theorem up_fix_parts {c : Char} (hc : c ≠ '%') (hx : isLowerHex c = false) {s t : Str}
    (h : upperTriplets (s ++ c :: t) = s ++ c :: t) : upperTriplets s = s ∧ upperTriplets t = t := by
  rw [up_append_sep hc hx] at h
  obtain ⟨h1, h2⟩ := List.append_inj h (up_rel s).length
  exact ⟨h1, by simpa using h2⟩

theorem eq_takeWhile_sep {c : Char} {a r : Str} (h : a.dropWhile (· ≠ c) = c :: r) :
    a = a.takeWhile (· ≠ c) ++ c :: r := by
  have := List.takeWhile_append_dropWhile (p := fun x => decide (x ≠ c)) (l := a)
  rw [h] at this
  exact this.symm

theorem dropWhile_sep_none {c : Char} {a : Str} (h : ∀ r, a.dropWhile (· ≠ c) ≠ c :: r) : c ∉ a := by
  intro hm
  cases hd : a.dropWhile (· ≠ c) with
  | nil =>
    have e := List.takeWhile_append_dropWhile (p := fun x => decide (x ≠ c)) (l := a)
    rw [hd, List.append_nil] at e
    rw [← e] at hm
    have := mem_takeWhile hm
    simp at this
  | cons x r =>
    have := head_dropWhile (p := fun x => decide (x ≠ c)) (l := a) (x := x) (by rw [hd]; rfl)
    simp at this
    subst this
    exact h r hd

theorem not_mem_takeWhile_ne {c : Char} {a : Str} : c ∉ a.takeWhile (· ≠ c) := by
  intro h
  have := mem_takeWhile h
  simp at this

theorem takeWhile_ne_id {c : Char} {a : Str} (h : c ∉ a) : a.takeWhile (· ≠ c) = a := by
  have := takeWhile_append_stop (p := fun x => decide (x ≠ c)) (a := a) (b := [])
    (by intro x hx; simp; rintro rfl; exact h hx) (by simp)
  simpa using this

theorem takeWhile_ne_sep {c : Char} {a r : Str} (h : c ∉ a) : (a ++ c :: r).takeWhile (· ≠ c) = a :=
  takeWhile_append_stop (by intro x hx; simp; rintro rfl; exact h hx) (by simp)

theorem dropWhile_ne_sep {c : Char} {a r : Str} (h : c ∉ a) : (a ++ c :: r).dropWhile (· ≠ c) = c :: r :=
  dropWhile_append_stop (by intro x hx; simp; rintro rfl; exact h hx) (by simp)

theorem splitHost_fix {x : Str} (hx : upperTriplets x = x) :
    let t := splitHost x
    (∀ p, t.2 = some p → upperTriplets p = p ∧ '\n' ∉ p ∧ ∀ c ∈ p, c ∈ x) ∧ ':' ∉ t.1 ∧ (∀ c ∈ t.1, c ∈ x) := by
  unfold splitHost
  split
  · rename_i p e
    have ex := eq_takeWhile_sep e
    have hp : upperTriplets p = p := by
      rw [ex] at hx
      exact (up_fix_parts (by decide) (by decide) hx).2
    refine ⟨?_, not_mem_takeWhile_ne, ?_⟩
    · intro q hq
      simp only [Option.some.injEq] at hq
      subst hq
      refine ⟨?_, not_mem_takeWhile_ne, ?_⟩
      · by_cases hn : '\n' ∈ p
        · have : ∃ r, p.dropWhile (· ≠ '\n') = '\n' :: r := by
            refine Classical.byContradiction fun hh => ?_
            exact dropWhile_sep_none (fun r hr => hh ⟨r, hr⟩) hn
          obtain ⟨r, hr⟩ := this
          have ep := eq_takeWhile_sep hr
          rw [ep] at hp
          exact (up_fix_parts (by decide) (by decide) hp).1
        · rw [takeWhile_ne_id hn]; exact hp
      · intro c hc
        have : c ∈ p := (List.takeWhile_sublist _).subset hc
        rw [ex]; simp [this]
    · intro c hc; exact (List.takeWhile_sublist _).subset hc
  · exact ⟨by simp, not_mem_takeWhile_ne, fun c hc => (List.takeWhile_sublist _).subset hc⟩

theorem joinAuth_eq (u : Option Str) (h : Str) (p : Option Str) :
    joinAuth (u, h, p) = post ['@'] u ++ h ++ pre [':'] p := by
  cases u <;> cases p <;> rfl

theorem splitHost_join {h : Str} {p : Option Str} (hh : ':' ∉ h) (hp : ∀ q, p = some q → '\n' ∉ q) :
    splitHost (h ++ pre [':'] p) = (h, p) := by
  cases p with
  | none =>
    unfold splitHost
    simp only [pre, List.append_nil]
    split
    · rename_i e
      have := eq_takeWhile_sep e
      rw [this] at hh; simp at hh
    · rw [takeWhile_ne_id hh]
  | some q =>
    unfold splitHost
    simp only [pre, List.cons_append, List.nil_append, dropWhile_ne_sep hh, takeWhile_ne_sep hh, takeWhile_ne_id (hp q rfl)]

theorem splitAuthority_join {u : Option Str} {h : Str} {p : Option Str}
    (hu : ∀ x, u = some x → '@' ∉ x) (hu' : u = none → '@' ∉ h ∧ ∀ q, p = some q → '@' ∉ q)
    (hh : ':' ∉ h) (hp : ∀ q, p = some q → '\n' ∉ q) :
    splitAuthority (joinAuth (u, h, p)) = (u, h, p) := by
  unfold splitAuthority
  cases u with
  | some x =>
    have e : joinAuth (some x, h, p) = x ++ '@' :: (h ++ pre [':'] p) := by
      simp [joinAuth_eq, pre, post]
    rw [e]
    simp only [dropWhile_ne_sep (hu x rfl), takeWhile_ne_sep (hu x rfl), splitHost_join hh hp]
  | none =>
    have e : joinAuth (none, h, p) = (h ++ pre [':'] p) := by
      simp [joinAuth_eq, pre, post]
    have hn : '@' ∉ joinAuth (none, h, p) := by
      rw [e]
      obtain ⟨h1, h2⟩ := hu' rfl
      cases p with
      | none => simpa [pre] using h1
      | some q => simp [pre, h1, h2 q rfl]
    split
    · rename_i e'
      rw [eq_takeWhile_sep e'] at hn; simp at hn
    · rw [e, splitHost_join hh hp]

theorem up_joinAuth (u : Option Str) (h : Str) (p : Option Str) :
    upperTriplets (joinAuth (u, h, p)) = joinAuth (u.map upperTriplets, upperTriplets h, p.map upperTriplets) := by
  have h2 : upperTriplets (h ++ pre [':'] p) =
      upperTriplets h ++ pre [':'] (p.map upperTriplets) := by
    cases p with
    | none => simp [pre]
    | some q => simp [pre, up_append_sep (c := ':') (by decide) (by decide)]
  rw [joinAuth_eq, joinAuth_eq]
  cases u with
  | none => simpa [post] using h2
  | some x =>
    have := up_append_sep (c := '@') (by decide) (by decide) x (h ++ pre [':'] p)
    simp only [post, Option.map_some, List.append_assoc, List.cons_append, List.nil_append] at *
    rw [this, h2]

theorem normAuth_fix {a : Str} (ha : upperTriplets a = a) :
    normAuth (upperTriplets (normAuth a)) = normAuth a := by
  have key : ∃ u h p, splitAuthority a = (u, h, p) ∧ u.map upperTriplets = u ∧
      p.map upperTriplets = p ∧ (∀ x, u = some x → '@' ∉ x) ∧
      (u = none → '@' ∉ h ∧ ∀ q, p = some q → '@' ∉ q) ∧ ':' ∉ h ∧ (∀ q, p = some q → '\n' ∉ q) := by
    unfold splitAuthority
    split
    · rename_i r e
      have ea := eq_takeWhile_sep e
      rw [ea] at ha
      obtain ⟨f1, f2⟩ := up_fix_parts (by decide) (by decide) ha
      obtain ⟨g1, g2, g3⟩ := splitHost_fix f2
      rcases hsh : splitHost r with ⟨h, p⟩
      rw [hsh] at g1 g2 g3
      refine ⟨_, _, _, rfl, by rw [Option.map_some, f1], ?_, ?_, by simp, g2, fun q hq => (g1 q hq).2.1⟩
      · cases hp : p with
        | none => rfl
        | some q => rw [Option.map_some, (g1 q hp).1]
      · intro x hx
        simp only [Option.some.injEq] at hx
        subst hx; exact not_mem_takeWhile_ne
    · rename_i hno
      have hn := dropWhile_sep_none (a := a) (c := '@') (fun r hr => hno r hr)
      obtain ⟨g1, g2, g3⟩ := splitHost_fix ha
      rcases hsh : splitHost a with ⟨h, p⟩
      rw [hsh] at g1 g2 g3
      refine ⟨_, _, _, rfl, rfl, ?_, by simp, ?_, g2, fun q hq => (g1 q hq).2.1⟩
      · cases hp : p with
        | none => rfl
        | some q => rw [Option.map_some, (g1 q hp).1]
      · intro _
        exact ⟨fun h => hn (g3 _ h), fun q hq h => hn ((g1 q hq).2.2 _ h)⟩
  obtain ⟨u, h, p, es, hu, hp, c1, c2, c3, c4⟩ := key
  have e1 : normAuth a = joinAuth (u, h.map lower, p) := by simp [normAuth, es]
  have hne : ∀ c ∈ s!! "@:\n", c ∉ h.map lower → c ∉ upperTriplets (h.map lower) := by
    intro c hc hm hmem
    have : ∀ s t : Str, Pointwise UpRel s t → c ∉ s → c ∈ t → ∃ d, isLowerHex d = true ∧ c = upper d := by
      intro s t hr hs ht
      induction hr with
      | nil => simp at ht
      | @cons x y s t hxy _ ih =>
        rcases List.mem_cons.1 ht with e | e
        · subst e
          rcases hxy with e | ⟨e, e'⟩
          · exact absurd (by simp [e]) hs
          · exact ⟨x, e, e'⟩
        · exact ih (fun hh => hs (by simp [hh])) e
    obtain ⟨d, hd, hdc⟩ := this _ _ (up_rel _) hm hmem
    have : ∀ k < 128, isLowerHex (Char.ofNat k) = true →
        upper (Char.ofNat k) ∉ s!! "@:\n" := by decide +kernel
    have h3 := char_lt_of (P := fun d => isLowerHex d = true → upper d ∉ s!! "@:\n") 128
      (isLowerHex_lt hd) this hd
    rw [← hdc] at h3
    exact h3 hc
  have e2 : upperTriplets (normAuth a) = joinAuth (u, upperTriplets (h.map lower), p) := by
    rw [e1, up_joinAuth, hu, hp]
  rw [e2]
  have hs : splitAuthority (joinAuth (u, upperTriplets (h.map lower), p)) = (u, upperTriplets (h.map lower), p) := by
    apply splitAuthority_join c1 _ _ c4
    · intro hn
      refine ⟨hne _ (by decide) ?_, (c2 hn).2⟩
      intro hm
      obtain ⟨x, hx, e⟩ := List.mem_map.1 hm
      rw [(lower_props x).2.1.1 e] at hx
      exact (c2 hn).1 hx
    · refine hne _ (by decide) ?_
      intro hm
      obtain ⟨x, hx, e⟩ := List.mem_map.1 hm
      rw [(lower_props x).2.2.1.1 e] at hx
      exact c3 hx
  unfold normAuth
  rw [hs, es]
  simp only [up_lower, map_lower_idem]

end Verif.Iri
