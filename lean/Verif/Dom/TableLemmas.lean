import Verif.Dom.Probe

/-
The invariant of the hash tables.
-/
namespace Verif.Dom.Table

set_option linter.unusedSectionVars false

variable {K V : Type} [DecidableEq K]

abbrev Tab (K V : Type) := List (Option (Entry K V))

/-- The slot looked at in round `n`. -/
def pos (w size hash n : Nat) : Nat := slotOf size (probe w (slotOf size hash, hash) n).1

/-- Every entry is on the probe path of its key, and the path up to it is occupied by other keys. -/
structure TInv (w k : Nat) (H : K → Nat) (t : Tab K V) : Prop where
  len : t.length = 2 ^ k
  hash : ∀ (s : Nat) (e : Entry K V), t[s]? = some (some e) → e.hash = H e.key
  chain : ∀ (s : Nat) (e : Entry K V), t[s]? = some (some e) → ∃ n, pos w t.length (H e.key) n = s ∧
    ∀ j, j < n → ∃ e' : Entry K V, t[pos w t.length (H e.key) j]? = some (some e') ∧ e'.key ≠ e.key

/-- The number of entries. -/
def cnt (t : Tab K V) : Nat := (t.filterMap id).length

theorem cnt_nil : cnt ([] : Tab K V) = 0 := rfl
theorem cnt_none (t : Tab K V) : cnt (none :: t) = cnt t := rfl
theorem cnt_some (e : Entry K V) (t : Tab K V) : cnt (some e :: t) = cnt t + 1 := rfl

theorem cnt_replicate (n : Nat) : cnt (List.replicate n none : Tab K V) = 0 := by
  induction n with
  | zero => rfl
  | succ n ih => rw [List.replicate_succ, cnt_none, ih]

theorem exists_free (t : Tab K V) (hf : cnt t < t.length) : ∃ j, j < t.length ∧ t[j]? = some none := by
  induction t with
  | nil => simp at hf
  | cons x t ih =>
    cases x with
    | none => exact ⟨0, by simp, by simp⟩
    | some e =>
      rw [cnt_some, List.length_cons] at hf
      obtain ⟨j, h1, h2⟩ := ih (by omega)
      exact ⟨j + 1, by simp; omega, by simpa using h2⟩

theorem cnt_set_none (t : Tab K V) (s : Nat) (e : Entry K V) (hs : t[s]? = some none) :
    cnt (t.set s (some e)) = cnt t + 1 := by
  induction t generalizing s with
  | nil => simp at hs
  | cons x t ih =>
    cases s with
    | zero => simp at hs; subst hs; rw [List.set_cons_zero, cnt_some, cnt_none]
    | succ s =>
      have := ih s (by simpa using hs)
      cases x with
      | none => rw [List.set_cons_succ, cnt_none, cnt_none, this]
      | some y => rw [List.set_cons_succ, cnt_some, cnt_some, this]

theorem cnt_set_some (t : Tab K V) (s : Nat) (e e' : Entry K V) (hs : t[s]? = some (some e')) :
    cnt (t.set s (some e)) = cnt t := by
  induction t generalizing s with
  | nil => simp at hs
  | cons x t ih =>
    cases s with
    | zero => simp at hs; subst hs; rw [List.set_cons_zero, cnt_some, cnt_some]
    | succ s =>
      have := ih s (by simpa using hs)
      cases x with
      | none => rw [List.set_cons_succ, cnt_none, cnt_none, this]
      | some y => rw [List.set_cons_succ, cnt_some, cnt_some, this]

theorem mem_iff_slot (t : Tab K V) (e : Entry K V) : some e ∈ t ↔ ∃ s : Nat, t[s]? = some (some e) :=
  List.mem_iff_getElem?

/-- The round `n` of the loop started in `s` ends it. -/
def Stop (w : Nat) (t : Tab K V) (hash : Nat) (key : K) (s : Nat × Nat) (n : Nat) : Prop :=
  t[slotOf t.length (probe w s n).1]? = some none ∨
    ∃ e : Entry K V, t[slotOf t.length (probe w s n).1]? = some (some e) ∧ e.hash = hash ∧ e.key = key

theorem getLoop_spec {w : Nat} {t : Tab K V} {hash : Nat} {key : K}
    (hb : ∀ i, slotOf t.length i < t.length) (f : Nat) (s : Nat × Nat)
    (hx : ∃ n, n < f ∧ Stop w t hash key s n) :
    ∃ n, n < f ∧ getLoop w t hash key f s = some (slotOf t.length (probe w s n).1) ∧
      Stop w t hash key s n ∧ ∀ j, j < n → ∃ e : Entry K V,
        t[slotOf t.length (probe w s j).1]? = some (some e) ∧ ¬ (e.hash = hash ∧ e.key = key) := by
  induction f generalizing s with
  | zero => obtain ⟨n, hn, _⟩ := hx; omega
  | succ f ih =>
    have h0 : ∃ o, t[slotOf t.length s.1]? = some o := ⟨_, List.getElem?_eq_getElem (hb s.1)⟩
    obtain ⟨o, ho⟩ := h0
    cases o with
    | none =>
      exact ⟨0, by omega, by simp only [getLoop, ho]; rfl, .inl ho, fun j hj => by omega⟩
    | some e =>
      by_cases hm : e.hash = hash ∧ e.key = key
      · exact ⟨0, by omega, by simp only [getLoop, ho, if_pos hm]; rfl, .inr ⟨e, ho, hm⟩,
          fun j hj => by omega⟩
      · have hne : ¬ Stop w t hash key s 0 := by
          rintro (h1 | ⟨e', h1, h2⟩)
          · rw [show (probe w s 0) = s from rfl, ho] at h1; simp at h1
          · rw [show (probe w s 0) = s from rfl, ho] at h1
            simp at h1; subst h1; exact hm h2
        obtain ⟨n, hn, hst⟩ := hx
        obtain ⟨n, rfl⟩ : ∃ m, n = m + 1 := by
          cases n with
          | zero => exact absurd hst hne
          | succ m => exact ⟨m, rfl⟩
        have hst' : Stop w t hash key (nextProbe w s) n := by
          unfold Stop at hst ⊢
          rw [probe_shift]; exact hst
        obtain ⟨n', h1, h2, h3, h4⟩ := ih (nextProbe w s) ⟨n, by omega, hst'⟩
        refine ⟨n' + 1, by omega, ?_, ?_, ?_⟩
        · simp only [getLoop, ho, if_neg hm]
          rw [h2, probe_shift]
        · unfold Stop at h3 ⊢
          rw [probe_shift] at h3; exact h3
        · intro j hj
          cases j with
          | zero => exact ⟨e, ho, hm⟩
          | succ j => have := h4 j (by omega); rw [probe_shift] at this; exact this

theorem slot_lt {k : Nat} {t : Tab K V} (hl : t.length = 2 ^ k) (i : Nat) :
    slotOf t.length i < t.length := by
  rw [hl, slotOf_mod]; exact Nat.mod_lt _ (Nat.two_pow_pos k)

/-- What `get_entry` finds. -/
theorem getEntry_spec {w k : Nat} {H : K → Nat} {t : Tab K V} (hi : TInv w k H t) (hk : k ≤ w)
    (hH : ∀ x, H x < 2 ^ w) (hf : cnt t < t.length) (key : K) :
    ∃ s n, getEntry w t (H key) key = some s ∧ pos w t.length (H key) n = s ∧
      (∀ j, j < n → ∃ e : Entry K V, t[pos w t.length (H key) j]? = some (some e) ∧ e.key ≠ key) ∧
      ((t[s]? = some none ∧ ∀ e, some e ∈ t → e.key ≠ key) ∨
        ∃ e, t[s]? = some (some e) ∧ e.key = key) ∧ n < rounds w t.length := by
  obtain ⟨j, hj1, hj2⟩ := exists_free t hf
  obtain ⟨n0, hn0, he0⟩ := probe_cover hk (slotOf t.length (H key), H key) (hH key) (hi.len ▸ hj1)
  rw [← hi.len] at hn0 he0
  obtain ⟨n, h1, h2, h3, h4⟩ := getLoop_spec (slot_lt hi.len) (rounds w t.length)
    (slotOf t.length (H key), H key) (hash := H key) (key := key) (w := w)
    ⟨n0, hn0, .inl (by rw [he0]; exact hj2)⟩
  have h4' : ∀ j, j < n → ∃ e : Entry K V, t[pos w t.length (H key) j]? = some (some e) ∧ e.key ≠ key := by
    intro j hj
    obtain ⟨e, h5, h6⟩ := h4 j hj
    refine ⟨e, h5, fun e1 => h6 ⟨?_, e1⟩⟩
    rw [hi.hash _ _ h5, e1]
  refine ⟨_, n, h2, rfl, h4', ?_, h1⟩
  rcases h3 with h3 | ⟨e, h3, _, h5⟩
  · refine .inl ⟨h3, ?_⟩
    intro e he hke
    obtain ⟨s', hs'⟩ := (mem_iff_slot t e).1 he
    obtain ⟨n', h6, h7⟩ := hi.chain s' e hs'
    rw [hke] at h6 h7
    rcases Nat.lt_trichotomy n' n with hl | hl | hl
    · obtain ⟨e2, h8, h9⟩ := h4' n' hl
      rw [h6, hs'] at h8
      simp at h8; subst h8; exact h9 hke
    · subst hl
      have : pos w t.length (H key) n' = slotOf t.length (probe w (slotOf t.length (H key), H key) n').1 := rfl
      rw [← this, h6, hs'] at h3
      simp at h3
    · obtain ⟨e2, h8, _⟩ := h7 n hl
      have : pos w t.length (H key) n = slotOf t.length (probe w (slotOf t.length (H key), H key) n).1 := rfl
      rw [this, h3] at h8
      simp at h8
  · exact .inr ⟨e, h3, h5⟩

/-- Two entries with the same key are in the same slot. -/
theorem slot_unique {w k : Nat} {H : K → Nat} {t : Tab K V} (hi : TInv w k H t) {s s' : Nat}
    {e e' : Entry K V} (h1 : t[s]? = some (some e)) (h2 : t[s']? = some (some e')) (hk : e.key = e'.key) :
    s = s' := by
  obtain ⟨n, a1, a2⟩ := hi.chain s e h1
  obtain ⟨m, b1, b2⟩ := hi.chain s' e' h2
  rw [hk] at a1 a2
  rcases Nat.lt_trichotomy n m with hl | hl | hl
  · obtain ⟨x, c1, c2⟩ := b2 n hl
    rw [a1, h1] at c1
    simp at c1; subst c1; exact absurd hk c2
  · subst hl; rw [← a1, ← b1]
  · obtain ⟨x, c1, c2⟩ := a2 m hl
    rw [b1, h2] at c1
    simp at c1; subst c1; exact absurd rfl c2

theorem keys_nodup_of (t : Tab K V)
    (hu : ∀ (i j : Nat) (e e' : Entry K V), t[i]? = some (some e) → t[j]? = some (some e') →
      e.key = e'.key → i = j) : ((t.filterMap id).map Entry.key).Nodup := by
  induction t with
  | nil => simp
  | cons x t ih =>
    have ih' := ih (fun i j e e' h1 h2 h3 => by
      have := hu (i + 1) (j + 1) e e' (by simpa using h1) (by simpa using h2) h3; omega)
    cases x with
    | none => simpa using ih'
    | some y =>
      rw [List.filterMap_cons_some (by rfl), List.map_cons, List.nodup_cons]
      refine ⟨?_, ih'⟩
      intro hm
      simp only [List.mem_map, List.mem_filterMap, id] at hm
      obtain ⟨e, ⟨_, he, rfl⟩, hke⟩ := hm
      obtain ⟨j, hj⟩ := (mem_iff_slot t e).1 he
      have := hu 0 (j + 1) y e (by simp) (by simpa using hj) hke.symm
      omega

theorem keys_nodup {w k : Nat} {H : K → Nat} {t : Tab K V} (hi : TInv w k H t) :
    ((t.filterMap id).map Entry.key).Nodup :=
  keys_nodup_of t (fun _ _ _ _ h1 h2 h3 => slot_unique hi h1 h2 h3)

/-- Writing an entry to the slot found for its key keeps the invariant. -/
theorem tinv_set {w k : Nat} {H : K → Nat} {t : Tab K V} (hi : TInv w k H t) {key : K} {s n : Nat}
    (v : V) (hn : pos w t.length (H key) n = s) (hs : s < t.length)
    (hch : ∀ j, j < n → ∃ e : Entry K V, t[pos w t.length (H key) j]? = some (some e) ∧ e.key ≠ key)
    (hcase : (t[s]? = some none) ∨ ∃ e : Entry K V, t[s]? = some (some e) ∧ e.key = key) :
    TInv w k H (t.set s (some ⟨key, H key, v⟩)) := by
  have hget : ∀ (x : Nat) (e : Entry K V), (t.set s (some ⟨key, H key, v⟩))[x]? = some (some e) →
      (x = s ∧ e = ⟨key, H key, v⟩) ∨ (x ≠ s ∧ t[x]? = some (some e)) := by
    intro x e hx
    by_cases hxs : x = s
    · subst hxs
      rw [List.getElem?_set_self hs] at hx
      simp at hx; exact .inl ⟨rfl, hx.symm⟩
    · rw [List.getElem?_set_ne (Ne.symm hxs)] at hx
      exact .inr ⟨hxs, hx⟩
  refine ⟨by simp [hi.len], ?_, ?_⟩
  · intro x e hx
    rcases hget x e hx with ⟨_, rfl⟩ | ⟨_, hx⟩
    · rfl
    · exact hi.hash x e hx
  · intro x e hx
    rw [List.length_set]
    rcases hget x e hx with ⟨rfl, rfl⟩ | ⟨hne, hx⟩
    · refine ⟨n, hn, fun j hj => ?_⟩
      obtain ⟨e, h1, h2⟩ := hch j hj
      refine ⟨e, ?_, h2⟩
      rw [List.getElem?_set_ne ?_]
      · exact h1
      · intro hjs
        rw [← hjs] at h1
        rcases hcase with h3 | ⟨e', h3, h4⟩
        · rw [h3] at h1; simp at h1
        · rw [h3] at h1; simp at h1; subst h1; exact h2 h4
    · obtain ⟨m, h1, h2⟩ := hi.chain x e hx
      refine ⟨m, h1, fun j hj => ?_⟩
      obtain ⟨e', h3, h4⟩ := h2 j hj
      by_cases hjs : pos w t.length (H e.key) j = s
      · refine ⟨⟨key, H key, v⟩, by rw [hjs, List.getElem?_set_self hs], ?_⟩
        rw [hjs] at h3
        rcases hcase with h5 | ⟨e2, h5, h6⟩
        · rw [h5] at h3; simp at h3
        · rw [h5] at h3; simp at h3; subst h3; rw [← h6]; exact h4
      · exact ⟨e', by rw [List.getElem?_set_ne (Ne.symm hjs)]; exact h3, h4⟩

theorem mem_set {w k : Nat} {H : K → Nat} {t : Tab K V} (hi : TInv w k H t) {key : K} {s : Nat}
    (v : V) (hs : s < t.length)
    (hcase : (t[s]? = some none ∧ ∀ e, some e ∈ t → e.key ≠ key) ∨
      ∃ e : Entry K V, t[s]? = some (some e) ∧ e.key = key) (e : Entry K V) :
    some e ∈ t.set s (some ⟨key, H key, v⟩) ↔ e = ⟨key, H key, v⟩ ∨ (some e ∈ t ∧ e.key ≠ key) := by
  rw [mem_iff_slot, mem_iff_slot]
  constructor
  · rintro ⟨x, hx⟩
    by_cases hxs : x = s
    · subst hxs
      rw [List.getElem?_set_self hs] at hx
      simp at hx; exact .inl hx.symm
    · rw [List.getElem?_set_ne (Ne.symm hxs)] at hx
      refine .inr ⟨⟨x, hx⟩, ?_⟩
      rcases hcase with ⟨_, h1⟩ | ⟨e', h1, h2⟩
      · exact h1 e ((mem_iff_slot t e).2 ⟨x, hx⟩)
      · intro h3
        exact hxs (slot_unique hi hx h1 (h3.trans h2.symm))
  · rintro (rfl | ⟨⟨x, hx⟩, hne⟩)
    · exact ⟨s, List.getElem?_set_self hs⟩
    · refine ⟨x, ?_⟩
      rw [List.getElem?_set_ne ?_]
      · exact hx
      · rintro rfl
        rcases hcase with ⟨h1, _⟩ | ⟨e', h1, h2⟩
        · rw [h1] at hx; simp at hx
        · rw [h1] at hx; simp at hx; subst hx; exact hne h2

theorem setLoop_eq (w : Nat) (t : Tab K V) (hash : Nat) (key : K) (hno : ∀ e, some e ∈ t → e.key ≠ key)
    (f : Nat) (s : Nat × Nat) : setLoop w t f s = getLoop w t hash key f s := by
  induction f generalizing s with
  | zero => rfl
  | succ f ih =>
    simp only [setLoop, getLoop]
    cases ho : t[slotOf t.length s.1]? with
    | none => rfl
    | some o =>
      cases o with
      | none => rfl
      | some e =>
        have := hno e ((mem_iff_slot t e).2 ⟨_, ho⟩)
        simp only [this, and_false, if_false]
        exact ih _

theorem setEntry_spec {w k : Nat} {H : K → Nat} {t : Tab K V} (hi : TInv w k H t) (hk : k ≤ w)
    (hH : ∀ x, H x < 2 ^ w) (hf : cnt t < t.length) (e : Entry K V) (he : e.hash = H e.key)
    (hno : ∀ e', some e' ∈ t → e'.key ≠ e.key) :
    ∃ t', setEntry w t e = some t' ∧ TInv w k H t' ∧ cnt t' = cnt t + 1 ∧
      ∀ x, some x ∈ t' ↔ x = e ∨ some x ∈ t := by
  obtain ⟨s, n, h1, h2, h3, h4, _⟩ := getEntry_spec hi hk hH hf e.key
  have hs : s < t.length := by rw [← h2]; exact slot_lt hi.len _
  have hempty : t[s]? = some none := by
    rcases h4 with h4 | ⟨e', h5, h6⟩
    · exact h4.1
    · exact absurd h6 (hno e' ((mem_iff_slot t e').2 ⟨s, h5⟩))
  have hE : e = ⟨e.key, H e.key, e.val⟩ := by cases e; simp_all
  refine ⟨t.set s (some e), ?_, ?_, cnt_set_none t s e hempty, ?_⟩
  · have : setLoop w t (rounds w t.length) (slotOf t.length e.hash, e.hash) = some s := by
      rw [setLoop_eq w t (H e.key) e.key hno, he]; exact h1
    simp only [setEntry, this]
  · rw [hE]; exact tinv_set hi e.val h2 hs h3 (.inl hempty)
  · intro x
    have := mem_set hi (key := e.key) e.val hs (.inl ⟨hempty, hno⟩) x
    rw [← hE] at this
    rw [this]
    constructor
    · rintro (h5 | h5)
      · exact .inl h5
      · exact .inr h5.1
    · rintro (h5 | h5)
      · exact .inl h5
      · exact .inr ⟨h5, hno x h5⟩

theorem copyEntries_spec {w k : Nat} {H : K → Nat} (hk : k ≤ w) (hH : ∀ x, H x < 2 ^ w)
    (old t : Tab K V) (hi : TInv w k H t) (hh : ∀ e, some e ∈ old → e.hash = H e.key)
    (hn : ((old.filterMap id).map Entry.key).Nodup)
    (hd : ∀ e e', some e ∈ old → some e' ∈ t → e'.key ≠ e.key) (hf : cnt t + cnt old < t.length) :
    ∃ t', copyEntries w (cnt old) old t = some t' ∧ TInv w k H t' ∧ cnt t' = cnt t + cnt old ∧
      ∀ x, some x ∈ t' ↔ some x ∈ old ∨ some x ∈ t := by
  induction old generalizing t with
  | nil => exact ⟨t, by simp [cnt_nil, copyEntries], hi, by simp [cnt_nil], by simp⟩
  | cons o old ih =>
    cases o with
    | none =>
      rw [cnt_none] at hf ⊢
      obtain ⟨t', h1, h2, h3, h4⟩ := ih t hi (fun e he => hh e (by simp [he])) (by simpa using hn)
        (fun e e' he => hd e e' (by simp [he])) hf
      refine ⟨t', ?_, h2, h3, fun x => by rw [h4]; simp⟩
      cases hc : cnt old with
      | zero => rw [hc] at h1; simpa [copyEntries] using h1
      | succ m => rw [hc] at h1; simpa [copyEntries] using h1
    | some e =>
      rw [cnt_some] at hf ⊢
      rw [List.filterMap_cons_some (by rfl), List.map_cons, List.nodup_cons] at hn
      obtain ⟨t1, a1, a2, a3, a4⟩ := setEntry_spec hi hk hH (by omega) e (hh e (by simp))
        (fun e' he' => hd e e' (by simp) he')
      obtain ⟨t', h1, h2, h3, h4⟩ := ih t1 a2 (fun e he => hh e (by simp [he])) hn.2
        (by
          intro x y hx hy
          rcases (a4 y).1 hy with rfl | hy
          · intro he
            refine hn.1 ?_
            rw [List.mem_map]
            exact ⟨x, by simp only [List.mem_filterMap, id]; exact ⟨_, hx, rfl⟩, he.symm⟩
          · exact hd x y (by simp [hx]) hy)
        (by rw [a2.len, ← hi.len]; omega)
      refine ⟨t', by simp [copyEntries, a1, h1], h2, by omega, fun x => ?_⟩
      rw [h4, a4]
      simp only [List.mem_cons, Option.some.injEq]
      constructor
      · rintro (h5 | h5 | h5)
        · exact .inl (.inr h5)
        · exact .inl (.inl h5)
        · exact .inr h5
      · rintro ((h5 | h5) | h5)
        · exact .inr (.inl h5)
        · exact .inl h5
        · exact .inr (.inr h5)

theorem tinv_new (w k : Nat) (H : K → Nat) : TInv w k H (List.replicate (2 ^ k) none : Tab K V) := by
  have : ∀ (s : Nat) (e : Entry K V), (List.replicate (2 ^ k) none : Tab K V)[s]? ≠ some (some e) := by
    intro s e
    rw [List.getElem?_replicate]; split <;> simp
  exact ⟨by simp, fun s e h => absurd h (this s e), fun s e h => absurd h (this s e)⟩

/-- The invariant of maps between operations. -/
structure MInv (w k : Nat) (H : K → Nat) (m : Map K V) : Prop where
  tab : TInv w k H m.table
  used : m.used = cnt m.table
  load : m.used * 3 < 2 ^ k * 2
  min : 3 ≤ k
  max : k ≤ w

theorem minv_new {w : Nat} (hw : 3 ≤ w) (H : K → Nat) : MInv w 3 H (Map.new : Map K V) :=
  ⟨tinv_new w 3 H, (cnt_replicate 8).symm, by simp [Map.new], Nat.le_refl _, hw⟩

theorem MInv.free {w k : Nat} {H : K → Nat} {m : Map K V} (hi : MInv w k H m) :
    cnt m.table < m.table.length := by
  have := hi.load; have := hi.used; rw [hi.tab.len]; omega

/-- Setting a key. -/
theorem set_spec {w k limit : Nat} {H : K → Nat} (hH : ∀ x, H x < 2 ^ w) (hlim : limit ≤ 2 ^ w)
    {m : Map K V} (hi : MInv w k H m) (key : K) (v : V) :
    (m.set w limit H key v = .noMemory ∧ limit < 3 * (m.used + 1)) ∨
    ∃ m' k', m.set w limit H key v = .ok m' ∧ MInv w k' H m' ∧ m'.used ≤ m.used + 1 ∧
      ∀ x, some x ∈ m'.table ↔ x = ⟨key, H key, v⟩ ∨ (some x ∈ m.table ∧ x.key ≠ key) := by
  obtain ⟨s, n, h1, h2, h3, h4, _⟩ := getEntry_spec hi.tab hi.max hH hi.free key
  have hs : s < m.table.length := by rw [← h2]; exact slot_lt hi.tab.len _
  have hmem := mem_set hi.tab v hs h4
  have htab := tinv_set hi.tab v h2 hs h3 (h4.imp (fun h => h.1) id)
  have hused : ∃ u, usedAfter m s = u ∧ u = cnt (m.table.set s (some ⟨key, H key, v⟩)) ∧ u ≤ m.used + 1 ∧
        m.used ≤ u := by
    rcases h4 with ⟨h5, _⟩ | ⟨e, h5, _⟩
    · exact ⟨m.used + 1, by rw [usedAfter, h5], by rw [cnt_set_none _ _ _ h5, hi.used], by omega, by omega⟩
    · exact ⟨m.used, by rw [usedAfter, h5], by rw [cnt_set_some _ _ _ _ h5, hi.used], by omega, by omega⟩
  obtain ⟨u, hu1, hu2, hu3, hu4⟩ := hused
  have hload := hi.load
  have hlen := hi.tab.len
  have hk8 : 2 ^ k ≥ 8 := by
    have := Nat.pow_le_pow_right (n := 2) (by omega) hi.min; simpa using this
  simp only [Map.set, h1, hu1, List.length_set]
  by_cases hfull : u * 3 ≥ m.table.length * 2
  · rw [if_pos hfull]
    simp only [resize, List.length_set, minSize]
    rw [if_neg (by omega)]
    by_cases hl : m.table.length * 2 > limit
    · rw [if_pos hl]; exact .inl ⟨rfl, by omega⟩
    · rw [if_neg hl]
      right
      have hk1 : k + 1 ≤ w := by
        refine Classical.byContradiction fun hc => ?_
        have : w = k := by have := hi.max; omega
        subst this
        omega
      have e2 : m.table.length * 2 = 2 ^ (k + 1) := by rw [hlen, Nat.pow_succ]
      rw [hu2, e2]
      obtain ⟨t', a1, a2, a3, a4⟩ := copyEntries_spec hk1 hH (m.table.set s (some ⟨key, H key, v⟩))
        (List.replicate (2 ^ (k + 1)) none) (tinv_new w (k + 1) H)
        (fun e he => by
          obtain ⟨x, hx⟩ := (mem_iff_slot _ e).1 he
          exact htab.hash x e hx)
        (keys_nodup htab) (by simp)
        (by rw [cnt_replicate, List.length_replicate, Nat.pow_succ]; omega)
      rw [a1]
      refine ⟨_, k + 1, rfl, ⟨a2, ?_, ?_, by have := hi.min; omega, hk1⟩, ?_, ?_⟩
      · show cnt _ = cnt _
        rw [a3, cnt_replicate]; omega
      · show cnt _ * 3 < _
        rw [← hu2, Nat.pow_succ]; omega
      · show cnt _ ≤ _
        omega
      · intro x
        rw [a4, hmem]; simp
  · rw [if_neg hfull]
    right
    exact ⟨_, k, rfl, ⟨htab, hu2, by show u * 3 < _; omega, hi.min, hi.max⟩, hu3, hmem⟩

end Verif.Dom.Table
