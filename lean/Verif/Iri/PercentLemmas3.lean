import Verif.Iri.PercentLemmas2
/-
Lemmas about public identifiers, file paths and `iri_to_uri`.
-/
namespace Verif.Iri
open Spec

/-! ### joining encoded pieces -/

theorem join_map_split (c : Char) (f : Char → Str) (s : Str) :
    Py.join [c] ((Py.split c s).map (fun x => x.flatMap f)) =
      s.flatMap (fun x => if x = c then [c] else f x) := by
  induction s with
  | nil => rfl
  | cons x s ih =>
    unfold Py.split
    cases hs : Py.split c s with
    | nil => exact absurd hs (Py.split_ne_nil c s)
    | cons p ps =>
      rw [hs] at ih
      by_cases h : x = c
      · simp only [h, if_true, List.flatMap_cons, ← ih]
        simp [Py.join]
      · simp only [h, if_false, List.flatMap_cons, ← ih]
        cases ps with
        | nil => simp [Py.join]
        | cons q qs => simp [Py.join]

/-- One character of an encoded POSIX path. -/
def encPathChar (x : Char) : Str := if x = '/' then ['/'] else encodeByte {} x

theorem osPathToUri_abs (q : Str) : osPathToUri ('/' :: q) =
    s!! "file://" ++ (removeDotSegments ('/' :: q)).flatMap encPathChar := by
  unfold osPathToUri percentEncode
  simp only [List.head?_cons, if_true]
  rw [join_map_split]
  rfl

theorem escapeSlash_cons {c : Char} (h : c ≠ '%') (s : Str) : escapeSlash (c :: s) = c :: escapeSlash s := by
  rw [escapeSlash]
  · rintro _ rfl; exact absurd rfl h
  · rintro _ rfl; exact absurd rfl h

theorem escapeSlash_triplet {a b : Char} (h : ¬ (a = '2' ∧ (b = 'f' ∨ b = 'F')))
    (ha : a ≠ '%') (hb : b ≠ '%') (s : Str) :
    escapeSlash ('%' :: a :: b :: s) = '%' :: a :: b :: escapeSlash s := by
  rw [escapeSlash, escapeSlash_cons ha, escapeSlash_cons hb]
  · rintro r - e; injection e with e1 e2; injection e2 with e2 _; exact h ⟨e1, Or.inl e2⟩
  · rintro r - e; injection e with e1 e2; injection e2 with e2 _; exact h ⟨e1, Or.inr e2⟩

theorem hexDigit_facts : ∀ n < 256, n ≠ 47 →
    ¬ (hexDigit (n / 16) = '2' ∧ (hexDigit (n % 16) = 'f' ∨ hexDigit (n % 16) = 'F')) := by
  decide +kernel

theorem hexDigit_ne_pct : ∀ n < 16, hexDigit n ≠ '%' := by decide

theorem escapeSlash_encode {c : Char} (hc : c.toNat < 256) (s : Str) :
    escapeSlash (encPathChar c ++ s) = encPathChar c ++ escapeSlash s := by
  unfold encPathChar
  split
  · exact escapeSlash_cons (by decide) s
  · rename_i hs
    have hp : escapeSlash (pct c.toNat ++ s) = pct c.toNat ++ escapeSlash s := by
      have h47 : c.toNat ≠ 47 := by
        intro e
        have := ofNat_toNat c
        rw [e] at this
        exact hs this.symm
      simp only [pct, List.cons_append, List.nil_append]
      rw [escapeSlash_triplet (hexDigit_facts _ hc h47) (hexDigit_ne_pct _ (by omega))
        (hexDigit_ne_pct _ (by omega))]
    unfold encodeByte
    split
    · rename_i h; exact escapeSlash_cons (unreserved_ne_pct h) s
    · simp only [Bool.false_and, Bool.false_eq_true, if_false, ite_self, if_true]
      exact hp

theorem decode_encPath {s : Str} (hs : ∀ c ∈ s, c.toNat < 256) :
    percentDecode none (escapeSlash (s.flatMap encPathChar)) = s := by
  induction s with
  | nil => rfl
  | cons c s ih =>
    rw [List.flatMap_cons, escapeSlash_encode (hs c (by simp))]
    have ih := ih (fun d hd => hs d (by simp [hd]))
    generalize escapeSlash (s.flatMap encPathChar) = t at ih
    unfold encPathChar
    split
    · rename_i e; subst e
      simp only [List.cons_append, List.nil_append]
      rw [percentDecode_cons (by decide), ih]
    · rw [percentDecode_encodeByte rfl (Or.inl rfl) (hs c (by simp)), ih]

theorem mem_encodeByte_default {c d : Char} (hc : c.toNat < 256) (o : EncOpts) (ho : o.encodeReserved = true)
    (h : d ∈ encodeByte o c) : d = '%' ∨ isUnreserved d = true ∨ (o.spaceToPlus = true ∧ d = '+') := by
  have hp : d ∈ pct c.toNat → d = '%' ∨ isUnreserved d = true ∨ (o.spaceToPlus = true ∧ d = '+') :=
    fun h => (mem_pct hc h).imp id Or.inl
  unfold encodeByte at h
  split at h
  · rename_i hu; simp at h; subst h; exact Or.inr (Or.inl hu)
  · split at h
    · split at h
      · rename_i hs; simp at h hs; exact Or.inr (Or.inr ⟨hs.1, h⟩)
      · rw [ite_self] at h; exact hp h
    · exact hp h

theorem mem_encPathChar {c d : Char} (hc : c.toNat < 256) (h : d ∈ encPathChar c) :
    d = '/' ∨ d = '%' ∨ isUnreserved d = true := by
  unfold encPathChar at h
  split at h
  · simp at h; exact Or.inl h
  · rcases mem_encodeByte_default hc {} rfl h with h | h | ⟨h, _⟩
    · exact Or.inr (Or.inl h)
    · exact Or.inr (Or.inr h)
    · cases h

theorem split_file_uri {e : Str} (h1 : ∀ c ∈ e, c ∉ s!! "?#") (h2 : e.head? = some '/') :
    splitUriRef (s!! "file://" ++ e) = .ok ⟨some (s!! "file"), some [], e, none, none⟩ := by
  have hwf : WellFormed ⟨some (s!! "file"), some [], e, none, none⟩ := by
    refine ⟨?_, ?_, h1, ?_, ?_, ?_, ?_⟩
    · intro s hs; simp at hs; subst hs; decide
    · intro a ha; simp at ha; subst ha; simp
    · simp
    · intro _
      cases e with
      | nil => simp at h2
      | cons c r => simp at h2; subst h2; right; exact ⟨r, rfl⟩
    · simp
    · simp
  have := split_unsplit hwf (by simp)
  rw [unsplit_eq] at this
  simpa [pre, post] using this

/-- Dot-segment removal introduces no characters. -/
theorem run_mem : ∀ (segs ks : List Str) (c : Char), (∃ k ∈ run segs ks, c ∈ k) →
    (∃ k ∈ segs, c ∈ k) ∨ (∃ k ∈ ks, c ∈ k) := by
  intro segs
  induction segs with
  | nil => intro ks c h; exact Or.inr h
  | cons s segs ih =>
    intro ks c h
    have tl : ∀ ks : List Str, (∃ k ∈ ks.tail, c ∈ k) → (∃ k ∈ ks, c ∈ k) := by
      rintro ks ⟨k, hk, hc⟩; exact ⟨k, List.mem_of_mem_tail hk, hc⟩
    have lift : (∃ k ∈ segs, c ∈ k) → (∃ k ∈ s :: segs, c ∈ k) := by
      rintro ⟨k, hk, hc⟩; exact ⟨k, by simp [hk], hc⟩
    have nl : ∀ ks : List Str, (∃ k ∈ [] :: ks, c ∈ k) → (∃ k ∈ ks, c ∈ k) := by
      rintro ks ⟨k, hk, hc⟩
      rcases List.mem_cons.1 hk with rfl | hk
      · simp at hc
      · exact ⟨k, hk, hc⟩
    unfold run at h
    split at h
    · split at h
      · exact Or.inr (tl _ (nl _ h))
      · exact (ih _ _ h).imp lift (tl _)
    · split at h
      · split at h
        · exact Or.inr (nl _ h)
        · exact (ih _ _ h).imp lift id
      · rcases ih _ _ h with h | ⟨k, hk, hc⟩
        · exact Or.inl (lift h)
        · rcases List.mem_cons.1 hk with rfl | hk
          · exact Or.inl ⟨k, by simp, hc⟩
          · exact Or.inr ⟨k, hk, hc⟩

theorem mem_of_mem_split {c d : Char} {s p : Str} (hp : p ∈ Py.split d s) (hc : c ∈ p) : c ∈ s := by
  induction s generalizing p with
  | nil => simp [Py.split] at hp; subst hp; simp at hc
  | cons x s ih =>
    unfold Py.split at hp
    split at hp
    · rcases List.mem_cons.1 hp with rfl | hp
      · simp at hc
      · simp [ih hp hc]
    · cases hs : Py.split d s with
      | nil => exact absurd hs (Py.split_ne_nil _ _)
      | cons q qs =>
        rw [hs] at hp ih
        rcases List.mem_cons.1 hp with rfl | hp
        · rcases List.mem_cons.1 hc with rfl | hc
          · simp
          · simp [ih (p := q) (by simp) hc]
        · simp [ih (p := p) (by simp [hp]) hc]

theorem rds_mem {q : Str} {c : Char} (h : c ∈ removeDotSegments ('/' :: q)) : c ∈ '/' :: q := by
  rw [rds_abs] at h
  simp only [cat, List.mem_flatMap, List.mem_reverse] at h
  obtain ⟨k, hk, hc⟩ := h
  rcases List.mem_cons.1 hc with rfl | hc
  · simp
  · rcases run_mem _ _ c ⟨k, hk, hc⟩ with ⟨p, hp, hc⟩ | ⟨p, hp, _⟩
    · simp [mem_of_mem_split hp hc]
    · simp at hp

/-! ### public identifiers -/

theorem join_split2 (a b : Char) (s : Str) : Py.join [a, b] (split2 a b s) = s ∧ split2 a b s ≠ [] := by
  induction hlen : s.length using Nat.strongRecOn generalizing s with
  | _ n ih =>
    match s with
    | [] => simp [split2, Py.join]
    | [x] => simp [split2, Py.join]
    | x :: y :: r =>
      simp only [List.length_cons] at hlen
      rw [split2]
      split
      · rename_i h
        obtain ⟨rfl, rfl⟩ := h
        obtain ⟨h1, h2⟩ := ih r.length (by omega) r rfl
        refine ⟨?_, by simp⟩
        cases hs : split2 x y r with
        | nil => exact absurd hs h2
        | cons p ps => rw [hs] at h1; simp [Py.join, h1]
      · obtain ⟨h1, h2⟩ := ih (y :: r).length (by simp only [List.length_cons]; omega) (y :: r) rfl
        cases hs : split2 a b (y :: r) with
        | nil => exact absurd hs h2
        | cons p ps =>
          rw [hs] at h1
          refine ⟨?_, by simp⟩
          cases ps with
          | nil => simpa [Py.join] using h1
          | cons q qs => simp [Py.join] at h1 ⊢; exact h1

theorem mem_of_mem_split2 {a b c : Char} {s p : Str} (hp : p ∈ split2 a b s) (hc : c ∈ p) : c ∈ s := by
  induction hlen : s.length using Nat.strongRecOn generalizing s p with
  | _ n ih =>
    match s with
    | [] => simp [split2] at hp; subst hp; simp at hc
    | [x] => simp [split2] at hp; subst hp; exact hc
    | x :: y :: r =>
      simp only [List.length_cons] at hlen
      rw [split2] at hp
      split at hp
      · rcases List.mem_cons.1 hp with rfl | hp
        · simp at hc
        · have := ih r.length (by omega) hp hc rfl
          simp [this]
      · have ih' := fun p' (hp' : p' ∈ split2 a b (y :: r)) hc' =>
          ih (y :: r).length (by simp only [List.length_cons]; omega) (p := p') hp' hc' rfl
        cases hs : split2 a b (y :: r) with
        | nil => exact absurd hs (join_split2 _ _ _).2
        | cons q qs =>
          rw [hs] at hp ih'
          rcases List.mem_cons.1 hp with rfl | hp
          · rcases List.mem_cons.1 hc with rfl | hc
            · simp
            · have := ih' q (by simp) hc
              exact List.mem_cons_of_mem _ this
          · have := ih' p (by simp [hp]) hc
            exact List.mem_cons_of_mem _ this

/-- The decoding done by `urn_to_public_id` on the NSS. -/
def nssDecode (x : Str) : Str :=
  percentDecode none (replace1 ';' (s!! "::") (replace1 ':' (s!! "//") (replace1 '+' (s!! " ") x)))

theorem nss_nil : nssDecode [] = [] := rfl

theorem nss_colon (t : Str) : nssDecode (':' :: t) = s!! "//" ++ nssDecode t := by
  have : nssDecode (':' :: t) = percentDecode none ('/' :: '/' ::
    (replace1 ';' (s!! "::") (replace1 ':' (s!! "//") (replace1 '+' (s!! " ") t)))) := by
    simp [nssDecode, replace1]
  rw [this, percentDecode_cons (by decide), percentDecode_cons (by decide)]; rfl

theorem nss_semi (t : Str) : nssDecode (';' :: t) = s!! "::" ++ nssDecode t := by
  have : nssDecode (';' :: t) = percentDecode none (':' :: ':' ::
    (replace1 ';' (s!! "::") (replace1 ':' (s!! "//") (replace1 '+' (s!! " ") t)))) := by
    simp [nssDecode, replace1]
  rw [this, percentDecode_cons (by decide), percentDecode_cons (by decide)]; rfl

/-- The options used by `public_id_to_urn`. -/
abbrev urnOpts : EncOpts := { spaceToPlus := true }

theorem not_mem_enc {c : Char} {s : Str} (hs : ∀ c ∈ s, c.toNat < 256) (h1 : c ≠ '%') (h2 : isUnreserved c = false)
    (h3 : c ≠ '+') : c ∉ percentEncode urnOpts s := by
  intro h
  simp only [percentEncode, List.mem_flatMap] at h
  obtain ⟨d, hd, hc⟩ := h
  rcases mem_encodeByte_default (hs d hd) _ rfl hc with h | h | ⟨_, h⟩
  · exact h1 h
  · rw [h2] at h; cases h
  · exact h3 h

theorem not_mem_replace1 {c d : Char} {r s : Str} (h : c ∉ s) (hr : c ∉ r) : c ∉ replace1 d r s := by
  intro hm
  simp only [replace1, List.mem_flatMap] at hm
  obtain ⟨x, hx, hc⟩ := hm
  split at hc
  · exact hr hc
  · simp at hc; subst hc; exact h hx

theorem nss_enc {s : Str} (hs : ∀ c ∈ s, c.toNat < 256) (t : Str) :
    nssDecode (percentEncode urnOpts s ++ t) = s ++ nssDecode t := by
  unfold nssDecode
  simp only [replace1_append]
  have h1 : ':' ∉ replace1 '+' (s!! " ") (percentEncode urnOpts s) :=
    not_mem_replace1 (not_mem_enc hs (by decide) (by decide) (by decide)) (by decide)
  have h2 : ';' ∉ replace1 '+' (s!! " ") (percentEncode urnOpts s) :=
    not_mem_replace1 (not_mem_enc hs (by decide) (by decide) (by decide)) (by decide)
  rw [replace1_id h1, replace1_id h2]
  exact percentDecode_percentEncode_plus rfl rfl hs _

theorem nss_join_semi (l : List Str) (hl : ∀ p ∈ l, ∀ c ∈ p, c.toNat < 256) (t : Str) :
    nssDecode (Py.join (s!! ";") (l.map (percentEncode urnOpts)) ++ t) = Py.join (s!! "::") l ++ nssDecode t := by
  induction l with
  | nil => rfl
  | cons p ps ih =>
    have hp := hl p (by simp)
    have ih := ih (fun q hq => hl q (by simp [hq]))
    cases ps with
    | nil => simpa [Py.join] using nss_enc hp t
    | cons q qs =>
      have : Py.join (s!! ";") ((p :: q :: qs).map (percentEncode urnOpts)) ++ t =
        percentEncode urnOpts p ++ (';' :: (Py.join (s!! ";") ((q :: qs).map (percentEncode urnOpts)) ++ t)) := by
        simp [Py.join]
      rw [this, nss_enc hp, nss_semi, ih]
      simp [Py.join]

theorem nss_join_colon (l : List Str) (hl : ∀ p ∈ l, ∀ c ∈ p, c.toNat < 256) (t : Str) :
    nssDecode (Py.join (s!! ":") (l.map (fun d => Py.join (s!! ";")
      ((split2 ':' ':' d).map (percentEncode urnOpts)))) ++ t) = Py.join (s!! "//") l ++ nssDecode t := by
  have one : ∀ d, (∀ c ∈ d, c.toNat < 256) → ∀ t, nssDecode (Py.join (s!! ";")
      ((split2 ':' ':' d).map (percentEncode urnOpts)) ++ t) = d ++ nssDecode t := by
    intro d hd t
    rw [nss_join_semi _ (fun p hp c hc => hd c (mem_of_mem_split2 hp hc)), (join_split2 ':' ':' d).1]
  induction l with
  | nil => rfl
  | cons p ps ih =>
    have hp := hl p (by simp)
    have ih := ih (fun q hq => hl q (by simp [hq]))
    cases ps with
    | nil => simpa [Py.join] using one p hp t
    | cons q qs =>
      simp only [List.map_cons, Py.join, List.append_assoc, List.cons_append, List.nil_append] at ih ⊢
      rw [one p hp, nss_colon, ih]
      rfl

end Verif.Iri
