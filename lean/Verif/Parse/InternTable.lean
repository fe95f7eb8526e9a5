import Verif.Parse.InternProbe

/-
The tables: what is in them, insertion, growth.
-/
namespace Verif.Parse.Intern
variable {V : Type}

theorem checkEntry_iff (e : Entry V) (key : UStr) (h : Nat) :
    checkEntry e key h = true ↔ e.hash = h ∧ e.key = key := by
  simp only [checkEntry, Bool.and_eq_true, beq_iff_eq]
  constructor
  · rintro ⟨⟨h1, h2⟩, h3⟩
    refine ⟨h1, ?_⟩
    rw [← h2, List.take_length] at h3
    exact h3
  · rintro ⟨h1, h2⟩
    subst h2
    exact ⟨⟨h1, rfl⟩, List.take_length⟩

/-- The slot that is found is empty or has the key. -/
def Fits (slots : List (Option (Entry V))) (key : UStr) (h : Nat) (j : Nat) : Prop :=
  slots[j]? = some none ∨ ∃ e : Entry V, slots[j]? = some (some e) ∧ e.hash = h ∧ e.key = key

theorem probe_fits (mask : Nat) (slots : List (Option (Entry V))) (key : UStr) (h : Nat) :
    ∀ (f i p j : Nat), probe mask slots key h f i p = some j → Fits slots key h j := by
  intro f
  induction f with
  | zero => intro i p j hj; simp [probe] at hj
  | succ f ih =>
    intro i p j hj
    rw [probe] at hj
    split at hj
    · exact nomatch hj
    · rename_i hs; cases hj; exact Or.inl hs
    · rename_i e hs
      split at hj
      · rename_i hc; cases hj; exact Or.inr ⟨e, hs, (checkEntry_iff _ _ _).mp hc⟩
      · exact ih _ _ _ hj

theorem lookupEntry_fits {mask : Nat} {slots : List (Option (Entry V))} {key : UStr} {h j : Nat}
    (hj : lookupEntry mask slots key h = some j) : Fits slots key h j := by
  rw [lookupEntry] at hj
  split at hj
  · exact nomatch hj
  · rename_i hs; cases hj; exact Or.inl hs
  · rename_i e hs
    split at hj
    · rename_i hc; cases hj; exact Or.inr ⟨e, hs, (checkEntry_iff _ _ _).mp hc⟩
    · exact probe_fits _ _ _ _ _ _ _ _ hj

theorem probe_set (mask : Nat) (slots : List (Option (Entry V))) (key : UStr) (h : Nat) (p : Nat) (x : Entry V)
    (hp : slots[p]? = some none) :
    ∀ (f i q j : Nat), probe mask slots key h f i q = some j → (j = p → x.hash = h ∧ x.key = key) →
      probe mask (slots.set p (some x)) key h f i q = some j := by
  have hlt : p < slots.length := by
    rcases Nat.lt_or_ge p slots.length with h | h
    · exact h
    · rw [List.getElem?_eq_none h] at hp; exact nomatch hp
  intro f
  induction f with
  | zero => intro i q j hj; simp [probe] at hj
  | succ f ih =>
    intro i q j hj hx
    rw [probe] at hj ⊢
    by_cases hi : p = (i * 4 + i + q + 1) % 2 ^ 32 &&& mask
    · rw [← hi, hp] at hj
      rw [← hi, List.getElem?_set_self hlt]
      cases hj
      dsimp only
      rw [if_pos ((checkEntry_iff _ _ _).mpr (hx rfl))]
    · rw [List.getElem?_set_ne hi]
      split at hj
      · exact nomatch hj
      · exact hj
      · rename_i e hs
        split at hj
        · rename_i hc; rw [if_pos hc]; exact hj
        · rename_i hc; rw [if_neg hc]; exact ih _ _ _ hj hx

theorem lookupEntry_set {mask : Nat} {slots : List (Option (Entry V))} {key : UStr} {h j : Nat} (p : Nat) (x : Entry V)
    (hp : slots[p]? = some none) (hj : lookupEntry mask slots key h = some j)
    (hx : j = p → x.hash = h ∧ x.key = key) :
    lookupEntry mask (slots.set p (some x)) key h = some j := by
  have hlt : p < slots.length := by
    rcases Nat.lt_or_ge p slots.length with h | h
    · exact h
    · rw [List.getElem?_eq_none h] at hp; exact nomatch hp
  rw [lookupEntry] at hj ⊢
  by_cases hi : p = h &&& mask
  · rw [← hi, hp] at hj
    rw [← hi, List.getElem?_set_self hlt]
    cases hj
    dsimp only
    rw [if_pos ((checkEntry_iff _ _ _).mpr (hx rfl))]
  · rw [List.getElem?_set_ne hi]
    split at hj
    · exact nomatch hj
    · exact hj
    · rename_i e hs
      split at hj
      · rename_i hc; rw [if_pos hc]; exact hj
      · rename_i hc; rw [if_neg hc]; exact probe_set _ _ _ _ _ _ hp _ _ _ _ hj hx

/-- Every entry is where the probe for its key ends. -/
def Found (mask : Nat) (slots : List (Option (Entry V))) : Prop :=
  ∀ (j : Nat) (e : Entry V), slots[j]? = some (some e) → lookupEntry mask slots e.key e.hash = some j

theorem Found.set {mask : Nat} {slots : List (Option (Entry V))} (hf : Found mask slots) {p : Nat} {x : Entry V}
    (hp : slots[p]? = some none) (hj : lookupEntry mask slots x.key x.hash = some p) :
    Found mask (slots.set p (some x)) := by
  have hlt : p < slots.length := by
    rcases Nat.lt_or_ge p slots.length with h | h
    · exact h
    · rw [List.getElem?_eq_none h] at hp; exact nomatch hp
  intro j e he
  by_cases hjp : p = j
  · subst hjp
    rw [List.getElem?_set_self hlt] at he
    cases he
    exact lookupEntry_set _ _ hp hj (fun _ => ⟨rfl, rfl⟩)
  · rw [List.getElem?_set_ne hjp] at he
    exact lookupEntry_set _ _ hp (hf j e he) (fun h => absurd h.symm hjp)

/-- No two entries have the same key and hash. -/
def Distinct (slots : List (Option (Entry V))) : Prop :=
  ∀ (i j : Nat) (a b : Entry V), slots[i]? = some (some a) → slots[j]? = some (some b) → a.key = b.key →
    a.hash = b.hash → i = j

theorem Found.distinct {mask : Nat} {slots : List (Option (Entry V))} (hf : Found mask slots) : Distinct slots := by
  intro i j a b ha hb hk hh
  have h1 := hf i a ha
  have h2 := hf j b hb
  rw [hk, hh, h2] at h1
  cases h1; rfl

/-- The number of entries. -/
def count : List (Option (Entry V)) → Nat
  | [] => 0
  | none :: l => count l
  | some _ :: l => count l + 1

theorem count_replicate (n : Nat) : count (List.replicate n (none : Option (Entry V))) = 0 := by
  induction n with
  | zero => rfl
  | succ n ih => rw [List.replicate_succ]; exact ih

theorem count_set (slots : List (Option (Entry V))) (p : Nat) (x : Entry V) (hp : slots[p]? = some none) :
    count (slots.set p (some x)) = count slots + 1 := by
  induction slots generalizing p with
  | nil => simp at hp
  | cons a l ih =>
    cases p with
    | zero =>
      have : a = none := by simpa using hp
      subst this; rfl
    | succ p =>
      have hp' : l[p]? = some none := by simpa using hp
      cases a with
      | none => simp only [List.set_cons_succ, count]; exact ih p hp'
      | some a => simp only [List.set_cons_succ, count]; rw [ih p hp']

theorem exists_empty (slots : List (Option (Entry V))) (h : count slots < slots.length) :
    ∃ z : Nat, slots[z]? = some none := by
  induction slots with
  | nil => simp at h
  | cons a l ih =>
    cases a with
    | none => exact ⟨0, rfl⟩
    | some a =>
      simp only [count, List.length_cons] at h
      obtain ⟨z, hz⟩ := ih (by omega)
      exact ⟨z + 1, by simpa using hz⟩

theorem mem_set (slots : List (Option (Entry V))) (p : Nat) (x : Entry V) (hp : slots[p]? = some none) (e : Entry V) :
    some e ∈ slots.set p (some x) ↔ e = x ∨ some e ∈ slots := by
  induction slots generalizing p with
  | nil => simp at hp
  | cons a l ih =>
    cases p with
    | zero =>
      have : a = none := by simpa using hp
      subst this
      simp
    | succ p =>
      have hp' : l[p]? = some none := by simpa using hp
      simp only [List.set_cons_succ, List.mem_cons, ih p hp']
      constructor
      · rintro (h | h | h)
        · exact Or.inr (Or.inl h)
        · exact Or.inl h
        · exact Or.inr (Or.inr h)
      · rintro (h | h | h)
        · exact Or.inr (Or.inl h)
        · exact Or.inl h
        · exact Or.inr (Or.inr h)

theorem count_zero {slots : List (Option (Entry V))} (h : count slots = 0) (e : Entry V) : some e ∉ slots := by
  induction slots with
  | nil => simp
  | cons a l ih =>
    cases a with
    | none => simp only [count] at h; simp only [List.mem_cons, reduceCtorEq, false_or]; exact ih h
    | some a => simp [count] at h

theorem Distinct.tail {a : Option (Entry V)} {l : List (Option (Entry V))} (h : Distinct (a :: l)) : Distinct l := by
  intro i j x y hx hy hk hh
  have := h (i + 1) (j + 1) x y (by simpa using hx) (by simpa using hy) hk hh
  omega

theorem copyEntries_spec {mask k : Nat} (hm : mask + 1 = 2 ^ k) (hk : k ≤ 32) :
    ∀ (old new : List (Option (Entry V))), Distinct old → Found mask new → new.length = 2 ^ k →
      count old + count new < 2 ^ k →
      (∀ a b : Entry V, some a ∈ old → some b ∈ new → a.key = b.key → a.hash = b.hash → False) →
      ∃ res, copyEntries mask (count old) old new = some res ∧ Found mask res ∧ res.length = 2 ^ k ∧
        (∀ e : Entry V, some e ∈ res ↔ some e ∈ old ∨ some e ∈ new) ∧ count res = count old + count new := by
  intro old
  induction old with
  | nil =>
    intro new _ hf hl hc _
    exact ⟨new, rfl, hf, hl, by simp, by simp [count]⟩
  | cons a old ih =>
    intro new hd hf hl hc hx
    cases a with
    | none =>
      obtain ⟨res, h1, h2, h3, h4, h5⟩ := ih new hd.tail hf hl hc
        (fun a b ha hb => hx a b (List.mem_cons_of_mem _ ha) hb)
      refine ⟨res, ?_, h2, h3, ?_, h5⟩
      · show copyEntries mask (count old) (none :: old) new = some res
        cases hn : count old with
        | zero =>
          rw [hn, copyEntries] at h1
          rw [copyEntries]; exact h1
        | succ n => rw [copyEntries, ← hn]; exact h1
      · intro e; rw [h4]; simp
    | some x =>
      simp only [count] at hc ⊢
      rw [copyEntries]
      have hlt : count new < new.length := by omega
      obtain ⟨z, hz⟩ := exists_empty new hlt
      obtain ⟨j, hj⟩ := lookupEntry_total new x.key x.hash hm hk hl z hz
      have hempty : new[j]? = some none := by
        rcases lookupEntry_fits hj with h | ⟨e, he, hh, hkey⟩
        · exact h
        · exact (hx x e (by simp) (List.mem_of_getElem? he) hkey.symm hh.symm).elim
      rw [hj]
      have hc' := count_set new j x hempty
      obtain ⟨res, h1, h2, h3, h4, h5⟩ := ih (new.set j (some x)) hd.tail (hf.set hempty hj) (by simp [hl])
        (by omega) (by
          intro a b ha hb hkey hhash
          rcases (mem_set new j x hempty b).mp hb with h | h
          · subst h
            obtain ⟨i, hi⟩ := List.getElem?_of_mem ha
            have := hd 0 (i + 1) b a rfl (by simpa using hi) hkey.symm hhash.symm
            omega
          · exact hx a b (List.mem_cons_of_mem _ ha) h hkey hhash)
      refine ⟨res, h1, h2, h3, ?_, by omega⟩
      intro e
      rw [h4, mem_set new j x hempty]
      simp only [List.mem_cons, Option.some.injEq]
      constructor
      · rintro (h | h | h)
        · exact Or.inl (Or.inr h)
        · exact Or.inl (Or.inl h)
        · exact Or.inr h
      · rintro ((h | h) | h)
        · exact Or.inr (Or.inl h)
        · exact Or.inl h
        · exact Or.inr (Or.inr h)

/-- The state of a table between two lookups. -/
structure Good (t : Table V) : Prop where
  size : ∃ m : Nat, 3 ≤ m ∧ m ≤ 15 ∧ t.mask + 1 = 2 ^ (2 * m)
  len : t.slots.length = t.mask + 1
  found : Found t.mask t.slots
  count : count t.slots = t.used
  room : t.used * 3 < (t.mask + 1) * 2

def Table.Has (t : Table V) (e : Entry V) : Prop := some e ∈ t.slots

theorem found_replicate (mask n : Nat) : Found mask (List.replicate n (none : Option (Entry V))) := by
  intro j e he
  have := List.eq_of_mem_replicate (List.mem_of_getElem? he)
  exact nomatch this

theorem good_empty : Good (empty : Table V) where
  size := ⟨3, by decide, by decide, rfl⟩
  len := by rw [empty, List.length_replicate]
  found := found_replicate _ _
  count := count_replicate _
  room := by show 0 * 3 < (63 + 1) * 2; decide

theorem has_empty (e : Entry V) : ¬ (empty : Table V).Has e := fun h =>
  nomatch List.eq_of_mem_replicate h

theorem Good.unique {t : Table V} (hg : Good t) {a b : Entry V} (ha : t.Has a) (hb : t.Has b) (hk : a.key = b.key)
    (hh : a.hash = b.hash) : a = b := by
  obtain ⟨i, hi⟩ := List.getElem?_of_mem ha
  obtain ⟨j, hj⟩ := List.getElem?_of_mem hb
  have := hg.found.distinct i j a b hi hj hk hh
  subst this
  rw [hi] at hj
  cases hj; rfl

theorem resize_spec (t : Table V) {m : Nat} (h3 : 3 ≤ m) (h14 : m ≤ 14) (hm : t.mask + 1 = 2 ^ (2 * m))
    (hf : Found t.mask t.slots) (hc : count t.slots = t.used) (hr : t.used * 3 < (t.mask + 1) * 2 + 3) :
    ∃ t', resize t = some t' ∧ Good t' ∧ t'.used = t.used ∧ ∀ e : Entry V, t'.Has e ↔ t.Has e := by
  have hpow : (2 : Nat) ^ (2 * (m + 1)) = (t.mask + 1) * 4 := by
    rw [show 2 * (m + 1) = 2 * m + 2 from by omega, Nat.pow_add, hm]
  have h64 : 64 ≤ t.mask + 1 := by
    rw [hm]; exact Nat.le_trans (by decide) (Nat.pow_le_pow_right (n := 2) (by decide) (show 6 ≤ 2 * m by omega))
  have hnew : (t.mask + 1) * 4 - 1 + 1 = 2 ^ (2 * (m + 1)) := by omega
  obtain ⟨res, h1, h2, h3', h4, h5⟩ := copyEntries_spec hnew (by omega) t.slots
    (List.replicate ((t.mask + 1) * 4) none) hf.distinct (found_replicate _ _)
    (by rw [List.length_replicate, hpow]) (by rw [count_replicate, hpow, hc]; omega)
    (fun a b _ hb => by exact absurd (List.eq_of_mem_replicate hb) (by simp))
  rw [hc] at h1
  refine ⟨{ used := t.used, mask := (t.mask + 1) * 4 - 1, slots := res }, ?_, ?_, rfl, ?_⟩
  · rw [resize, h1]
  · exact {
      size := ⟨m + 1, by omega, by omega, hnew⟩
      len := by show res.length = (t.mask + 1) * 4 - 1 + 1; rw [h3', hnew]
      found := h2
      count := by show Intern.count res = t.used; rw [h5, count_replicate, hc]; rfl
      room := by show t.used * 3 < ((t.mask + 1) * 4 - 1 + 1) * 2; omega }
  · intro e
    show some e ∈ res ↔ some e ∈ t.slots
    rw [h4]
    constructor
    · rintro (h | h)
      · exact h
      · exact absurd (List.eq_of_mem_replicate h) (by simp)
    · exact Or.inl

theorem lookup_spec {S : Type} (t : Table V) (hg : Good t) (hs : t.used + 1 < 2 ^ 29) (str : UStr) (after : Nat)
    (build : S → Option (Option V × S)) (s : S) (hb : ∃ r, build s = some r) :
    ∃ v t' s', lookup t str after build s = some (v, t', s') ∧ Good t' ∧ t'.used ≤ t.used + 1 ∧
      (∀ e, t.Has e → t'.Has e) ∧
      ((∃ e, t.Has e ∧ e.key = str ∧ e.hash = hashOf str after ∧ v = some e.value ∧ t' = t ∧ s' = s) ∨
       ((∀ e, t.Has e → e.key = str → e.hash = hashOf str after → False) ∧
        ((build s = some (none, s') ∧ v = none ∧ t' = t) ∨
         ∃ value, build s = some (some value, s') ∧ v = some value ∧
           ∀ e, t'.Has e ↔ e = ⟨hashOf str after, str, value⟩ ∨ t.Has e))) := by
  obtain ⟨m, h3, h15, hm⟩ := hg.size
  have hlt : count t.slots < t.slots.length := by
    have := hg.room; rw [hg.count, hg.len]; omega
  obtain ⟨z, hz⟩ := exists_empty t.slots hlt
  have hlen : t.slots.length = 2 ^ (2 * m) := by rw [hg.len, hm]
  obtain ⟨j, hj⟩ := lookupEntry_total t.slots str (hashOf str after) hm (by omega) hlen z hz
  rcases lookupEntry_fits hj with hn | ⟨e, he, hh, hk⟩
  · have hmiss : ∀ e : Entry V, t.Has e → e.key = str → e.hash = hashOf str after → False := by
      intro e he hk hh
      obtain ⟨i, hi⟩ := List.getElem?_of_mem he
      have := hg.found i e hi
      rw [hk, hh, hj] at this
      cases this
      rw [hi] at hn
      exact nomatch hn
    obtain ⟨⟨o, s'⟩, hr⟩ := hb
    rw [lookup]
    dsimp only
    rw [hj]
    dsimp only
    rw [hn]
    dsimp only
    rw [hr]
    cases o with
    | none => exact ⟨none, t, s', rfl, hg, by omega, fun _ h => h, Or.inr ⟨hmiss, Or.inl ⟨rfl, rfl, rfl⟩⟩⟩
    | some value =>
      dsimp only
      have hc := count_set t.slots j ⟨hashOf str after, str, value⟩ hn
      have hf := hg.found.set (x := ⟨hashOf str after, str, value⟩) hn hj
      have hmem := mem_set t.slots j ⟨hashOf str after, str, value⟩ hn
      have hroom := hg.room
      rw [hg.count] at hc
      split
      · rename_i hbig
        have h14 : m ≤ 14 := by
          rcases Nat.lt_or_ge 14 m with h | h
          · have : m = 15 := by omega
            subst this
            rw [hm] at hbig
            have : (2 : Nat) ^ (2 * 15) = 2 * 2 ^ 29 := by decide
            omega
          · exact h
        obtain ⟨t', e1, e2, e3, e4⟩ := resize_spec
          { t with slots := t.slots.set j (some ⟨hashOf str after, str, value⟩), used := t.used + 1 } h3 h14 hm hf hc
          (by show (t.used + 1) * 3 < (t.mask + 1) * 2 + 3; omega)
        rw [e1]
        refine ⟨some value, t', s', rfl, e2, by rw [e3]; exact Nat.le_refl _, ?_, Or.inr ⟨hmiss, Or.inr ⟨value, rfl, rfl, ?_⟩⟩⟩
        · intro e he; rw [e4]; exact (hmem e).mpr (Or.inr he)
        · intro e; rw [e4]; exact hmem e
      · rename_i hsmall
        refine ⟨some value, _, s', rfl, ?_, Nat.le_refl _, fun e he => (hmem e).mpr (Or.inr he),
          Or.inr ⟨hmiss, Or.inr ⟨value, rfl, rfl, hmem⟩⟩⟩
        exact {
          size := ⟨m, h3, h15, hm⟩
          len := by show (t.slots.set j _).length = t.mask + 1; rw [List.length_set]; exact hg.len
          found := hf
          count := hc
          room := by show (t.used + 1) * 3 < (t.mask + 1) * 2; exact Nat.lt_of_not_le hsmall }
  · refine ⟨some e.value, t, s, ?_, hg, by omega, fun _ h => h, Or.inl ⟨e, List.mem_of_getElem? he, hk, hh, rfl, rfl, rfl⟩⟩
    rw [lookup]
    dsimp only
    rw [hj]
    dsimp only
    rw [he]

/-- Releasing a table frees every entry once. -/
theorem release_spec (slots : List (Option (Entry V))) :
    release (count slots) slots = some (slots.filterMap id) := by
  induction slots with
  | nil => rfl
  | cons a l ih =>
    cases a with
    | none =>
      simp only [count, List.filterMap_cons_none, id]
      cases hn : count l with
      | zero =>
        rw [hn] at ih
        rw [release] at ih ⊢
        exact ih
      | succ n => rw [release, ← hn]; exact ih
    | some a => simp only [count]; rw [release, ih]; rfl

theorem hashOf_after (str : UStr) (h : str ≠ []) (a b : Nat) : hashOf str a = hashOf str b := by
  cases str with
  | nil => exact absurd rfl h
  | cons c s => rfl

end Verif.Parse.Intern
