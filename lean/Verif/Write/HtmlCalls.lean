import Verif.Write.HtmlTags

/-
Reading back a sequence of calls.
-/
namespace Verif.Write.Html
open Verif Verif.Write Verif.Write.Html.Spec
open Verif.Write.Spec (Legal space skipSpace upTo eol needSpace Phase Raw Occurs LegalText Encodable)

/-! Attributes -/

/-- The pairs of an element and an attribute in a table. -/
def pairs (table : List (UStr × List UStr)) : List (UStr × UStr) := table.flatMap fun p => p.2.map (·, p.1)

theorem lookup_key {t : List (UStr × List UStr)} {attr : UStr} {r : List UStr} (hl : t.lookup attr = some r) :
    attr ∈ t.map (·.1) := by
  induction t with
  | nil => cases hl
  | cons q t ih =>
    obtain ⟨k, v⟩ := q
    rw [List.lookup_cons] at hl
    cases hk : attr == k with
    | true => simp at hk; simp [hk]
    | false => rw [hk] at hl; simp only [List.map_cons, List.mem_cons]; exact Or.inr (ih hl)

theorem listed_iff {table : List (UStr × List UStr)} (hd : (table.map (·.1)).Nodup) (attr element : UStr) :
    listed table attr element = true ↔ (element, attr) ∈ pairs table := by
  induction table with
  | nil => simp [listed, pairs]
  | cons p t ih =>
    obtain ⟨k, es⟩ := p
    simp only [List.map_cons, List.nodup_cons] at hd
    have ih := ih hd.2
    have hp : pairs ((k, es) :: t) = es.map (·, k) ++ pairs t := rfl
    rw [hp, List.mem_append, ← ih]
    unfold listed
    rw [List.lookup_cons]
    cases hk : attr == k with
    | true =>
      have hk : attr = k := by simpa using hk
      subst hk
      have : t.lookup attr = none := by
        cases hl : t.lookup attr with
        | none => rfl
        | some r =>
          exact absurd (lookup_key hl) hd.1
      simp [this]
    | false =>
      have : attr ≠ k := by simpa using hk
      simp only [List.mem_map, Prod.mk.injEq]
      constructor
      · exact Or.inr
      · rintro (⟨_, _, _, h⟩ | h)
        · exact absurd h.symm this
        · exact h

theorem toLower_name {n : UStr} (h : Ascii n) : toLower n = low n := by
  unfold toLower low
  refine List.map_congr_left fun c hc => ?_
  have := h c hc
  unfold pyLower
  split
  · rfl
  · rw [if_neg (by omega), if_neg (by omega)]

theorem bool_iff {n a : UStr} (hn : Ascii n) (ha : Ascii a) :
    listed booleanAttributes (toLower a) (toLower n) = true ↔
      isBool n a = true ∨ (low n = u!! "li" ∧ low a = u!! "compact") := by
  rw [listed_iff (by decide), toLower_name hn, toLower_name ha]
  have h1 : ∀ x ∈ pairs booleanAttributes, x ∈ ([(u!! "li", u!! "compact")] : List (UStr × UStr)) ∨
      isBool x.1 x.2 = true := by decide +kernel
  have hlow : ∀ s : UStr, low (low s) = low s := by
    intro s
    unfold low
    rw [List.map_map]
    refine List.map_congr_left fun c _ => ?_
    simp only [Function.comp]
    split
    · rename_i h; rw [if_neg (by omega)]
    · rename_i h; rfl
  constructor
  · intro h
    rcases h1 _ h with h | h
    · simp at h; exact Or.inr h
    · left
      unfold isBool at h ⊢
      dsimp only at h
      rw [hlow, hlow] at h
      exact h
  · rintro (h | ⟨h, h'⟩)
    · unfold isBool at h
      have h2 := List.contains_iff_mem.1 h
      revert h2
      generalize (low n, low a) = x
      revert x
      decide +kernel
    · rw [h, h']; decide

theorem uri_iff {n a : UStr} (hn : Ascii n) (ha : Ascii a) :
    listed uriAttributes (toLower a) (toLower n) = true ↔ isUri n a = true := by
  rw [listed_iff (by decide), toLower_name hn, toLower_name ha]
  unfold isUri
  rw [List.contains_iff_mem]
  generalize (low n, low a) = x
  constructor
  · revert x; decide +kernel
  · revert x; decide +kernel

theorem percent_pct {b : Nat} (h1 : 128 ≤ b) (h2 : b < 256) : percent b = pct b := by
  have h : ∀ i : Fin 256, 128 ≤ i.val → percent i.val = pct i.val := by decide +kernel
  exact h ⟨b, h2⟩ h1

theorem utf8Char_bytes {c : Nat} (h1 : 128 ≤ c) (h2 : Legal c) : ∀ b ∈ utf8Char c, 128 ≤ b ∧ b < 256 := by
  unfold Legal at h2
  unfold utf8Char
  rw [if_neg (by omega)]
  split
  · intro b hb; simp only [List.mem_cons, List.not_mem_nil, or_false] at hb; omega
  · split
    · intro b hb; simp only [List.mem_cons, List.not_mem_nil, or_false] at hb; omega
    · intro b hb; simp only [List.mem_cons, List.not_mem_nil, or_false] at hb; omega

theorem flatMap_percent {l : Bytes} (h : ∀ b ∈ l, 128 ≤ b ∧ b < 256) : l.flatMap percent = l.flatMap pct := by
  induction l with
  | nil => rfl
  | cons b l ih =>
    rw [List.flatMap_cons, List.flatMap_cons, ih (fun x hx => h x (by simp [hx])),
      percent_pct (h b (by simp)).1 (h b (by simp)).2]

theorem escapeUri_cons (c : Nat) (s : UStr) : escapeUri (c :: s) = (utf8Char c).flatMap percent ++ escapeUri s := by
  unfold escapeUri
  rw [List.flatMap_cons, List.flatMap_append]

theorem escapeUri_spec {v : UStr} (h : ∀ c ∈ v, Legal c) : EscapesTo v (escapeUri v) := by
  induction v with
  | nil => exact .nil
  | cons c s ih =>
    have ih := ih fun x hx => h x (by simp [hx])
    rw [escapeUri_cons]
    by_cases hc : c < 128
    · have : (utf8Char c).flatMap percent = [c] := by
        unfold utf8Char
        rw [if_pos hc, List.flatMap_cons, List.flatMap_nil, List.append_nil]
        unfold percent
        rw [if_neg (by omega)]
      rw [this]
      exact .ascii hc ih
    · have hc : 128 ≤ c := by omega
      rw [flatMap_percent (utf8Char_bytes hc (h c (by simp)))]
      refine .other hc ?_ ih
      have := decodeUtf8_char (h c (by simp)) []
      rw [List.append_nil] at this
      rw [this]; rfl

theorem pct_ascii {b : Nat} (h : b < 256) : ∀ x ∈ pct b, 32 ≤ x ∧ x < 128 := by
  have h' : ∀ i : Fin 256, ∀ x ∈ pct i.val, 32 ≤ x ∧ x < 128 := by decide +kernel
  exact h' ⟨b, h⟩

theorem escapeUri_chars {v : UStr} (h : ∀ c ∈ v, Legal c) : ∀ x ∈ escapeUri v, Legal x ∧ x < 128 := by
  induction v with
  | nil => intro x hx; cases hx
  | cons c s ih =>
    have ih := ih fun x hx => h x (by simp [hx])
    rw [escapeUri_cons]
    intro x hx
    rcases List.mem_append.1 hx with hx | hx
    · by_cases hc : c < 128
      · have : (utf8Char c).flatMap percent = [c] := by
          unfold utf8Char
          rw [if_pos hc, List.flatMap_cons, List.flatMap_nil, List.append_nil]
          unfold percent
          rw [if_neg (by omega)]
        rw [this] at hx
        simp at hx; subst hx
        exact ⟨h _ (by simp), hc⟩
      · have hc : 128 ≤ c := by omega
        have hb := utf8Char_bytes hc (h c (by simp))
        rw [flatMap_percent hb] at hx
        obtain ⟨b, hb', hx⟩ := List.mem_flatMap.1 hx
        have := pct_ascii (hb b hb').2 x hx
        exact ⟨by unfold Legal; omega, this.2⟩
    · exact ih x hx

/-- What is written for an attribute is what is wanted. -/
theorem translate_ok {wide : Bool} {version n : UStr} (hn : Spec.isName n = true) {a : UStr × UStr}
    (ha : Spec.isName a.1 = true ∧ LegalText wide a.2) (hg : ∀ c ∈ a.2, Good version c) (hl : ¬ LiCompact n a) :
    WantAttr n a (translate (toLower n) a) ∧ AttrOk wide version n (translate (toLower n) a) := by
  have hb := bool_iff (hname_ascii hn) (hname_ascii ha.1)
  have hu := uri_iff (hname_ascii hn) (hname_ascii ha.1)
  have hlegal : ∀ c ∈ a.2, Legal c := fun c hc => (ha.2 c hc).1
  have hfold : (toLower a.1 = toLower a.2) ↔ a.2.map fold = low a.1 := by
    rw [toLower_name (hname_ascii ha.1)]
    have : toLower a.2 = a.2.map fold := rfl
    rw [this]
    exact eq_comm
  have plain : ∀ (b : UStr × Option UStr), b = (a.1, some a.2) → AttrOk wide version n b := by
    rintro b rfl
    refine ⟨ha.1, (nomatch ·), fun v hv => ?_⟩
    cases hv
    exact ⟨ha.2, hg⟩
  have hnotboth : isBool n a.1 = true → isUri n a.1 = true → False := by
    unfold isBool isUri
    intro h1 h2
    rw [List.contains_iff_mem] at h1 h2
    revert h1 h2
    generalize (low n, low a.1) = x
    revert x
    decide +kernel
  unfold translate
  by_cases h1 : listed booleanAttributes (toLower a.1) (toLower n) = true
  · rw [if_pos h1]
    by_cases h2 : toLower a.1 = toLower a.2
    · have hbool : isBool n a.1 = true := by
        rcases hb.1 h1 with h | h
        · exact h
        · exact absurd ⟨h.1, h.2, hfold.1 h2⟩ hl
      rw [if_pos h2]
      refine ⟨⟨rfl, ?_⟩, ha.1, fun _ => hbool, fun v hv => by cases hv⟩
      rw [if_pos ⟨hbool, hfold.1 h2⟩]
    · rw [if_neg h2]
      refine ⟨⟨rfl, ?_⟩, plain _ rfl⟩
      rw [if_neg (fun h => h2 (hfold.2 h.2)), if_neg]
      intro hu'
      rcases hb.1 h1 with h | h
      · exact hnotboth h hu'
      · unfold isUri at hu'
        rw [h.1, h.2] at hu'
        revert hu'; decide
  · rw [if_neg h1]
    have hnb : ¬ (isBool n a.1 = true ∧ a.2.map fold = low a.1) := fun h => h1 (hb.2 (Or.inl h.1))
    by_cases h2 : listed uriAttributes (toLower a.1) (toLower n) = true
    · rw [if_pos h2]
      refine ⟨⟨rfl, ?_⟩, ha.1, (nomatch ·), fun v hv => ?_⟩
      · rw [if_neg hnb, if_pos (hu.1 h2)]
        exact ⟨_, rfl, escapeUri_spec hlegal⟩
      · cases hv
        have := escapeUri_chars hlegal
        exact ⟨fun c hc => ⟨(this c hc).1, Or.inr (by have := (this c hc).2; omega)⟩,
          fun c hc h => by have := (this c hc).2; omega⟩
    · rw [if_neg h2]
      refine ⟨⟨rfl, ?_⟩, plain _ rfl⟩
      rw [if_neg hnb, if_neg (fun h => h2 (hu.2 h))]

theorem translates_ok {wide : Bool} {version n : UStr} (hn : Spec.isName n = true) {as : List (UStr × UStr)}
    (ha : ∀ a ∈ as, (Spec.isName a.1 = true ∧ LegalText wide a.2) ∧ (∀ c ∈ a.2, Good version c) ∧ ¬ LiCompact n a) :
    WantAttrs n as (as.map (translate (toLower n))) ∧
      ∀ b ∈ as.map (translate (toLower n)), AttrOk wide version n b := by
  induction as with
  | nil => exact ⟨rfl, by simp⟩
  | cons a as ih =>
    obtain ⟨h1, h2⟩ := ih fun x hx => ha x (by simp [hx])
    obtain ⟨g1, g2, g3⟩ := ha a (by simp)
    obtain ⟨k1, k2⟩ := translate_ok hn g1 g2 g3
    refine ⟨⟨_, _, rfl, k1, h1⟩, ?_⟩
    intro b hb
    rcases List.mem_cons.1 hb with rfl | hb
    · exact k2
    · exact h2 b hb

end Verif.Write.Html
