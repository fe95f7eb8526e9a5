import Verif.Iri.PercentLemmas3
/- Lemmas about `iri_to_uri`. -/
namespace Verif.Iri
open Spec

theorem iriToUri_ascii (surr : Option Nat) (l : List Nat) (h : ∀ c ∈ l, c < 128) : iriToUri surr l = some l := by
  induction l with
  | nil => rfl
  | cons c l ih =>
    have hc := h c (by simp)
    rw [iriToUri.eq_def]
    simp only [show ¬ c > 128 by omega, if_false]
    rw [ih (fun d hd => h d (by simp [hd]))]
    rfl

theorem pct_ascii {n : Nat} (hn : n < 256) : ∀ c ∈ pct n, c.toNat < 128 := by
  intro c hc
  rcases mem_pct hn hc with h | h
  · subst h; decide
  · rw [unreserved_iff] at h
    have : ∀ d ∈ Spec.unreserved, d.toNat < 128 := by decide
    exact this c h

theorem pcts_ascii {bs : List Nat} (h : ∀ b ∈ bs, b < 256) : ∀ n ∈ pctUnits bs, n < 128 := by
  intro n hn
  unfold pctUnits at hn
  simp only [List.mem_map, List.mem_flatMap] at hn
  obtain ⟨c, ⟨b, hb, hc⟩, rfl⟩ := hn
  exact pct_ascii (h b hb) c hc

theorem iriToUri_out {surr : Option Nat} {l r : List Nat} (hs : ∀ h, surr = some h → h < 0xDC00)
    (h : iriToUri surr l = some r) : ∀ n ∈ r, n < 128 ∨ (n = 128 ∧ 128 ∈ l) := by
  induction l generalizing surr r with
  | nil => simp [iriToUri] at h; subst h; simp
  | cons c l ih =>
    have lift : ∀ n, n < 128 ∨ (n = 128 ∧ 128 ∈ l) → n < 128 ∨ (n = 128 ∧ 128 ∈ c :: l) :=
      fun n hn => hn.imp id (fun ⟨a, b⟩ => ⟨a, by simp [b]⟩)
    rw [iriToUri.eq_def] at h
    simp only at h
    split at h
    · split at h
      · cases h
      · split at h
        · split at h
          · rename_i h1 _ h2 h3
            intro n hn
            exact lift n (ih (by intro x hx; simp at hx; omega) h n hn)
          · split at h
            · cases hsr : surr with
              | none => rw [hsr] at h; cases h
              | some hi =>
                rw [hsr] at h
                simp only [Option.map_eq_some_iff] at h
                obtain ⟨r', h', rfl⟩ := h
                intro n hn
                rcases List.mem_append.1 hn with hn | hn
                · have := hs hi hsr
                  exact Or.inl (pcts_ascii (utf8_lt (by omega)) n hn)
                · exact lift n (ih (by simp) h' n hn)
            · cases h
        · simp only [Option.map_eq_some_iff] at h
          obtain ⟨r', h', rfl⟩ := h
          intro n hn
          rcases List.mem_append.1 hn with hn | hn
          · exact Or.inl (pcts_ascii (utf8_lt (by omega)) n hn)
          · exact lift n (ih hs h' n hn)
    · simp only [Option.map_eq_some_iff] at h
      obtain ⟨r', h', rfl⟩ := h
      intro n hn
      rcases List.mem_cons.1 hn with rfl | hn
      · rename_i h1
        by_cases e : n = 128
        · right; subst e; simp
        · left; omega
      · exact lift n (ih hs h' n hn)

theorem map_toNat_ofNat (s : Str) : (s.map Char.toNat).map Char.ofNat = s := by
  induction s with
  | nil => rfl
  | cons c s ih => simp only [List.map_cons, ih, ofNat_toNat]

/-- The code points `iri_to_uri` can convert (after 0x80): no C1 control, nothing in U+E000..U+FFFF. -/
def convertible (n : Nat) : Prop := n < 128 ∨ (160 ≤ n ∧ n < 0xD800) ∨ (0x10000 ≤ n ∧ n < 0x110000)

theorem iriToUri_scalars (us : List Nat) (h : ∀ n ∈ us, convertible n) :
    iriToUri none (us.flatMap utf16) =
      some (us.flatMap (fun n => if n < 128 then [n] else pctUnits (utf8 n))) := by
  induction us with
  | nil => rfl
  | cons n us ih =>
    have ih := ih (fun m hm => h m (by simp [hm]))
    have hn := h n (by simp)
    rw [List.flatMap_cons, List.flatMap_cons]
    rcases hn with hn | hn | hn
    · have : utf16 n = [n] := by simp [utf16]; omega
      rw [this, List.cons_append, List.nil_append, iriToUri]
      simp only [show ¬ n > 128 by omega, if_false]
      rw [ih]; simp [hn]
    · have : utf16 n = [n] := by simp [utf16]; omega
      rw [this, List.cons_append, List.nil_append, iriToUri]
      simp only [show n > 128 by omega, show ¬ n < 160 by omega, show ¬ n > 55295 by omega, if_false, if_true]
      rw [ih]; simp [show ¬ n < 128 by omega]
    · have : utf16 n = [0xD800 + (n - 0x10000) / 0x400, 0xDC00 + (n - 0x10000) % 0x400] := by
        unfold utf16; rw [if_neg (by omega)]
      rw [this, List.cons_append, List.cons_append, List.nil_append, iriToUri]
      simp only [show 0xD800 + (n - 0x10000) / 0x400 > 128 by omega,
        show ¬ 0xD800 + (n - 0x10000) / 0x400 < 160 by omega,
        show 0xD800 + (n - 0x10000) / 0x400 > 55295 by omega,
        show 0xD800 + (n - 0x10000) / 0x400 < 56320 by omega, if_false, if_true]
      rw [iriToUri]
      simp only [show 0xDC00 + (n - 0x10000) % 0x400 > 128 by omega,
        show ¬ 0xDC00 + (n - 0x10000) % 0x400 < 160 by omega,
        show 0xDC00 + (n - 0x10000) % 0x400 > 55295 by omega,
        show ¬ 0xDC00 + (n - 0x10000) % 0x400 < 56320 by omega,
        show 0xDC00 + (n - 0x10000) % 0x400 < 57344 by omega, if_false, if_true]
      rw [ih]
      have e : 0x10000 + (0xD800 + (n - 0x10000) / 0x400 - 0xD800) * 0x400 +
          (0xDC00 + (n - 0x10000) % 0x400 - 0xDC00) = n := by omega
      rw [e]
      simp [show ¬ n < 128 by omega]

theorem decode_iri (us : List Nat) (h : ∀ n ∈ us, convertible n) (hp : '%'.toNat ∉ us) :
    percentDecode none
      ((us.flatMap (fun n => if n < 128 then [n] else pctUnits (utf8 n))).map Char.ofNat) =
    (us.flatMap utf8).map Char.ofNat := by
  induction us with
  | nil => rfl
  | cons n us ih =>
    have ih := ih (fun m hm => h m (by simp [hm])) (fun hh => hp (List.mem_cons_of_mem _ hh))
    have hn := h n (by simp)
    simp only [List.flatMap_cons, List.map_append]
    by_cases h1 : n < 128
    · simp only [h1, if_true, List.map_cons, List.map_nil, List.cons_append, List.nil_append, utf8_ascii h1]
      rw [percentDecode_cons, ih]
      intro e
      apply hp
      have : (Char.ofNat n).toNat = n := by
        have : ∀ k < 128, (Char.ofNat k).toNat = k := by decide +kernel
        exact this n h1
      rw [← e, this]; simp
    · generalize (us.flatMap (fun n => if n < 128 then [n] else pctUnits (utf8 n))).map Char.ofNat = t at ih
      simp only [h1, if_false, pctUnits, map_toNat_ofNat]
      rw [percentDecode_flatMap_pct _ (utf8_lt (by unfold convertible at hn; omega)), ih]

end Verif.Iri
