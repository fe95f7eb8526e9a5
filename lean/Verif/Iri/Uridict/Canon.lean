import Verif.Iri.Uridict.Model
import Verif.Iri.Uridict.Spec
import Verif.Iri.Props
import Verif.Iri.PercentProps
import Verif.Iri.RelProps
/-
C88: the key of a URI is a canonical form of the equivalence.
-/
namespace Verif.Iri.Uridict
open Verif.Iri Verif.Iri.Spec Verif.Iri.Uridict.Spec

/-- Canonical triplets: unreserved characters decoded, digits in upper case. -/
def canon : Str → Str
  | '%' :: a :: b :: r =>
    if Char.ofNat (16 * digitValue a + digitValue b) ∈ unreserved then Char.ofNat (16 * digitValue a + digitValue b) :: canon r
    else '%' :: a.toUpper :: b.toUpper :: canon r
  | c :: r => c :: canon r
  | [] => []

theorem canon_cons {c : Char} (h : c ≠ '%') (r : Str) : canon (c :: r) = c :: canon r := by
  rw [canon.eq_def]
  split
  · rename_i e; exact absurd (List.cons.inj e).1 h
  · rename_i e; cases e; rfl
  · rename_i e; cases e

theorem canon_append {x : Str} (h : PctWellFormed x) (y : Str) : canon (x ++ y) = canon x ++ canon y := by
  induction h with
  | nil => rfl
  | char c s h _ ih => rw [List.cons_append, canon_cons h, canon_cons h, ih]; rfl
  | triplet a b s ha hb _ ih =>
    simp only [List.cons_append, canon]
    split <;> simp [ih]

theorem wf_append {x y : Str} (h : PctWellFormed x) (h' : PctWellFormed y) : PctWellFormed (x ++ y) := by
  induction h with
  | nil => exact h'
  | char c s h _ ih => exact .char c _ h ih
  | triplet a b s ha hb _ ih => exact .triplet a b _ ha hb ih

theorem wf_split_pct {z : Str} : ∀ {u x : Str}, PctWellFormed u → u = x ++ '%' :: z → PctWellFormed x ∧ PctWellFormed ('%' :: z) := by
  intro u x h
  induction h generalizing x with
  | nil => intro e; cases x <;> cases e
  | char c s hc hs ih =>
    intro e
    cases x with
    | nil => exact absurd (List.cons.inj e).1 hc
    | cons d x =>
      cases e
      have := ih rfl
      exact ⟨.char _ _ hc this.1, this.2⟩
  | triplet a b s ha hb hs ih =>
    intro e
    match x with
    | [] => rw [List.nil_append] at e; rw [← e]; exact ⟨.nil, .triplet a b s ha hb hs⟩
    | [d] => cases e; exact absurd rfl (hexAny_ne_pct ha)
    | [d, d'] => cases e; exact absurd rfl (hexAny_ne_pct hb)
    | d :: d' :: d'' :: x =>
      cases e
      have := ih rfl
      exact ⟨.triplet _ _ _ ha hb this.1, this.2⟩

theorem wf_triplet {a b : Char} {y : Str} (h : PctWellFormed ('%' :: a :: b :: y)) : PctWellFormed y := by
  cases h with
  | char _ _ h _ => exact absurd rfl h
  | triplet _ _ _ _ _ h => exact h

theorem wf_plain {s : Str} (h : '%' ∉ s) : PctWellFormed s := by
  induction s with
  | nil => exact .nil
  | cons c s ih => exact .char c s (by rintro rfl; exact h (.head _)) (ih fun hc => h (.tail _ hc))

theorem canon_plain {s : Str} (h : '%' ∉ s) : canon s = s := by
  induction s with
  | nil => rfl
  | cons c s ih => rw [canon_cons (by rintro rfl; exact h (.head _)), ih fun hc => h (.tail _ hc)]

/-! ### Schemes -/

theorem scheme_char {s : Str} (h : IsScheme s) {c : Char} (hc : c ∈ s) : c ≠ '%' ∧ c ≠ ':' ∧ c ≠ '\n' ∧ c.toNat < 128 := by
  obtain ⟨d, r, rfl, h1, h2⟩ := h
  have key : (c.toNat ∈ List.range' 65 26 ∨ c.toNat ∈ List.range' 97 26) ∨ c.toNat ∈ List.range' 48 10 ∨ c ∈ s!! "+-." := by
    rcases List.mem_cons.1 hc with rfl | hc
    · exact .inl h1
    · exact h2 c hc
  simp only [List.mem_range'_1] at key
  rcases key with h | h | h
  · refine ⟨?_, ?_, ?_, by omega⟩ <;> (rintro rfl; revert h; decide)
  · refine ⟨?_, ?_, ?_, by omega⟩ <;> (rintro rfl; revert h; decide)
  · simp only [List.mem_cons, List.not_mem_nil, or_false] at h
    rcases h with rfl | rfl | rfl <;> decide

theorem lower_scheme {s : Str} (h : IsScheme s) : IsScheme (s.map Char.toLower) := by
  have hl : ∀ c : Char, (c.toNat ∈ List.range' 65 26 ∨ c.toNat ∈ List.range' 97 26) →
      (c.toLower.toNat ∈ List.range' 65 26 ∨ c.toLower.toNat ∈ List.range' 97 26) := by
    intro c hc
    have h128 : c.toNat < 128 := by simp only [List.mem_range'_1] at hc; omega
    revert hc
    exact char_lt_of (P := fun c => (c.toNat ∈ List.range' 65 26 ∨ c.toNat ∈ List.range' 97 26) →
      (c.toLower.toNat ∈ List.range' 65 26 ∨ c.toLower.toNat ∈ List.range' 97 26)) 128 h128 (by decide +kernel)
  obtain ⟨d, r, rfl, h1, h2⟩ := h
  refine ⟨d.toLower, r.map Char.toLower, rfl, hl d h1, ?_⟩
  intro c hc
  obtain ⟨c, hc', rfl⟩ := List.mem_map.1 hc
  rcases h2 c hc' with h | h | h
  · exact .inl (hl c h)
  · right; left
    have h128 : c.toNat < 128 := by simp only [List.mem_range'_1] at h; omega
    revert h
    exact char_lt_of (P := fun c => c.toNat ∈ List.range' 48 10 → c.toLower.toNat ∈ List.range' 48 10) 128 h128 (by decide +kernel)
  · right; right
    simp only [List.mem_cons, List.not_mem_nil, or_false] at h
    rcases h with rfl | rfl | rfl <;> decide

theorem toLower_idem (c : Char) : c.toLower.toLower = c.toLower := by
  rw [← lower_eq, ← lower_eq]; exact (lower_props c).1

/-- `file://localhost/` to `file:///`. -/
def loc (k : Str) : Str := if k.take 17 = s!! "file://localhost/" then s!! "file://" ++ k.drop 16 else k

/-- The canonical form. -/
def norm (u : Str) : Str := loc ((u.takeWhile (· ≠ ':')).map Char.toLower ++ canon (u.dropWhile (· ≠ ':')))

theorem norm_eq {s : Str} (h : ':' ∉ s) (r : Str) : norm (s ++ ':' :: r) = loc (s.map Char.toLower ++ ':' :: canon r) := by
  unfold norm
  rw [takeWhile_ne_sep h, dropWhile_ne_sep h, canon_cons (by decide)]

theorem scheme_colon {s : Str} (h : IsScheme s) : ':' ∉ s := fun hc => (scheme_char h hc).2.1 rfl

theorem loc_host (p : Str) : loc (s!! "file://localhost/" ++ p) = s!! "file:///" ++ p := by
  unfold loc
  rw [if_pos (by rfl)]
  rfl

theorem loc_local (p : Str) : loc (s!! "file:///" ++ p) = s!! "file:///" ++ p := by
  unfold loc
  rw [if_neg]
  intro h
  have := congrArg (fun l => l[7]?) h
  simp at this

theorem loc_cases (k : Str) : loc k = k ∧ (∀ p, k ≠ s!! "file://localhost/" ++ p) ∨ ∃ p, k = s!! "file://localhost/" ++ p ∧ loc k = s!! "file:///" ++ p := by
  by_cases h : k.take 17 = s!! "file://localhost/"
  · right
    have e : k = s!! "file://localhost/" ++ k.drop 17 := by rw [← h, List.take_append_drop]
    exact ⟨_, e, by rw [e, loc_host]; rfl⟩
  · left
    refine ⟨by unfold loc; rw [if_neg h], ?_⟩
    rintro p rfl
    exact h rfl

/-! ### The equivalence has the same canonical forms -/

theorem uri_split_pct {u x z : Str} (h : IsUri u) (e : u = x ++ '%' :: z) :
    ∃ s x', x = s ++ ':' :: x' ∧ IsScheme s ∧ PctWellFormed x' ∧ PctWellFormed ('%' :: z) ∧ '\n' ∉ x' ++ '%' :: z := by
  obtain ⟨s, r, rfl, hs, hr, hn⟩ := h
  rcases List.append_eq_append_iff.1 e with ⟨a, h1, h2⟩ | ⟨a, h1, h2⟩
  · cases a with
    | nil => exact absurd (List.cons.inj h2).1 (by decide)
    | cons c a =>
      obtain ⟨rfl, h3⟩ := List.cons.inj h2
      have := wf_split_pct hr h3
      exact ⟨s, a, h1, hs, this.1, this.2, by rw [show r = a ++ '%' :: z from h3] at hn; exact hn⟩
  · cases a with
    | nil => exact absurd (List.cons.inj h2).1 (by decide)
    | cons c a =>
      obtain ⟨rfl, h3⟩ := List.cons.inj h2
      exact absurd rfl (scheme_char hs (c := '%') (by rw [h1]; simp)).1

theorem upper_of_value : ∀ a ∈ hexAny, ∀ a' ∈ hexAny, digitValue a = digitValue a' → a.toUpper = a'.toUpper := by decide

theorem norm_of_equiv {u v : Str} (h : Equiv u v) : norm u = norm v := by
  induction h with
  | refl u => rfl
  | symm _ ih => exact ih.symm
  | trans _ _ ih ih' => exact ih.trans ih'
  | scheme s s' r hs hs' e => rw [norm_eq (scheme_colon hs), norm_eq (scheme_colon hs'), e]
  | hex x y a b a' b' hu ha hb ha' hb' ea eb =>
    obtain ⟨s, x', rfl, hs, hx, _⟩ := uri_split_pct hu rfl
    simp only [List.append_assoc, List.cons_append]
    rw [norm_eq (scheme_colon hs), norm_eq (scheme_colon hs), canon_append hx, canon_append hx]
    simp only [canon]
    rw [ea, eb, upper_of_value a ha a' ha' ea, upper_of_value b hb b' hb' eb]
  | unreserved x y a b c hu ha hb e hc =>
    obtain ⟨s, x', rfl, hs, hx, _⟩ := uri_split_pct hu rfl
    simp only [List.append_assoc, List.cons_append]
    rw [norm_eq (scheme_colon hs), norm_eq (scheme_colon hs), canon_append hx, canon_append hx]
    have hc' : c ≠ '%' := by rintro rfl; exact absurd hc (by decide)
    rw [canon_cons hc']
    simp only [canon]
    rw [← e, if_pos hc]
  | localhost p =>
    have e1 : (s!! "file://localhost/" ++ p : Str) = s!! "file" ++ ':' :: (s!! "//localhost/" ++ p) := rfl
    have e2 : (s!! "file:///" ++ p : Str) = s!! "file" ++ ':' :: (s!! "///" ++ p) := rfl
    rw [e1, e2, norm_eq (by decide), norm_eq (by decide), canon_append (wf_plain (by decide)), canon_append (wf_plain (by decide)),
      canon_plain (s := s!! "//localhost/") (by decide), canon_plain (s := s!! "///") (by decide)]
    exact (loc_host (canon p)).trans (loc_local (canon p)).symm

theorem upper_hex : ∀ a ∈ hexAny, a.toUpper ∈ hexAny ∧ digitValue a = digitValue a.toUpper ∧ a.toUpper ∈ hexUpper := by decide

theorem equiv_canon {s : Str} (hs : IsScheme s) {r : Str} (h : PctWellFormed r) : ∀ {x : Str}, PctWellFormed x → '\n' ∉ x ++ r →
    Equiv (s ++ ':' :: (x ++ r)) (s ++ ':' :: (x ++ canon r)) := by
  induction h with
  | nil => intro x _ _; exact .refl _
  | char c r hc hr ih =>
    intro x hx hn
    have := ih (x := x ++ [c]) (wf_append hx (.char c [] hc .nil)) (by simpa using hn)
    rw [canon_cons hc]
    simpa using this
  | triplet a b r ha hb hr ih =>
    intro x hx hn
    have hu : IsUri ((s ++ ':' :: x) ++ '%' :: a :: b :: r) :=
      ⟨s, x ++ '%' :: a :: b :: r, by simp, hs, wf_append hx (.triplet a b r ha hb hr), hn⟩
    simp only [canon]
    split
    · rename_i hc
      have h1 := Equiv.unreserved _ _ a b _ hu ha hb rfl hc
      have hcp : Char.ofNat (16 * digitValue a + digitValue b) ≠ '%' := by intro e; rw [e] at hc; exact absurd hc (by decide)
      have hcn : Char.ofNat (16 * digitValue a + digitValue b) ≠ '\n' := by intro e; rw [e] at hc; exact absurd hc (by decide)
      have h2 := ih (x := x ++ [Char.ofNat (16 * digitValue a + digitValue b)]) (wf_append hx (.char _ [] hcp .nil)) (by
        simp only [List.mem_append, List.mem_cons, not_or, List.not_mem_nil, or_false] at hn ⊢
        exact ⟨⟨hn.1, fun e => hcn e.symm⟩, hn.2.2.2.2⟩)
      simp only [List.append_assoc, List.cons_append, List.nil_append] at h1 h2
      exact h1.trans h2
    · have fa := upper_hex a ha
      have fb := upper_hex b hb
      have h1 := Equiv.hex _ _ a b a.toUpper b.toUpper hu ha hb fa.1 fb.1 fa.2.1 fb.2.1
      have nn : ∀ c ∈ hexAny, c ≠ '\n' := by decide
      have h2 := ih (x := x ++ ['%', a.toUpper, b.toUpper]) (wf_append hx (.triplet _ _ [] fa.1 fb.1 .nil)) (by
        simp only [List.mem_append, List.mem_cons, not_or, List.not_mem_nil, or_false] at hn ⊢
        exact ⟨⟨hn.1, by decide, fun e => nn _ fa.1 e.symm, fun e => nn _ fb.1 e.symm⟩, hn.2.2.2.2⟩)
      simp only [List.append_assoc, List.cons_append, List.nil_append] at h1 h2
      exact h1.trans h2

theorem canon_wf {r : Str} (h : PctWellFormed r) : PctWellFormed (canon r) := by
  induction h with
  | nil => exact .nil
  | char c r hc hr ih => rw [canon_cons hc]; exact .char _ _ hc ih
  | triplet a b r ha hb hr ih =>
    simp only [canon]
    split
    · rename_i hc
      exact .char _ _ (by intro e; rw [e] at hc; exact absurd hc (by decide)) ih
    · exact .triplet _ _ _ (upper_hex a ha).1 (upper_hex b hb).1 ih

theorem canon_nl {r : Str} (h : PctWellFormed r) (hn : '\n' ∉ r) : '\n' ∉ canon r := by
  induction h with
  | nil => exact hn
  | char c r hc hr ih =>
    rw [canon_cons hc]
    simp only [List.mem_cons, not_or] at hn ⊢
    exact ⟨hn.1, ih hn.2⟩
  | triplet a b r ha hb hr ih =>
    have nn : ∀ c ∈ hexAny, c ≠ '\n' := by decide
    simp only [List.mem_cons, not_or] at hn
    simp only [canon]
    split
    · rename_i hc
      simp only [List.mem_cons, not_or]
      exact ⟨fun e => by rw [← e] at hc; exact absurd hc (by decide), ih hn.2.2.2⟩
    · simp only [List.mem_cons, not_or]
      exact ⟨by decide, fun e => nn _ (upper_hex a ha).1 e.symm, fun e => nn _ (upper_hex b hb).1 e.symm, ih hn.2.2.2⟩

theorem oneCased_tail {c : Char} {z : Str} (hc : c ≠ '%') (h : OneCased (c :: z)) : OneCased z := by
  cases h with
  | char _ _ _ h => exact h
  | triplet _ _ _ _ _ _ _ => exact absurd rfl hc

theorem wf_tail {c : Char} {z : Str} (hc : c ≠ '%') (h : PctWellFormed (c :: z)) : PctWellFormed z := by
  cases h with
  | char _ _ _ h => exact h
  | triplet _ _ _ _ _ _ => exact absurd rfl hc

theorem upper_idem : ∀ a ∈ hexAny, a.toUpper.toUpper = a.toUpper := by decide

theorem canon_idem {r : Str} (h : PctWellFormed r) : canon (canon r) = canon r := by
  induction h with
  | nil => rfl
  | char c r hc hr ih => rw [canon_cons hc, canon_cons hc, ih]
  | triplet a b r ha hb hr ih =>
    by_cases hc : Char.ofNat (16 * digitValue a + digitValue b) ∈ unreserved
    · simp only [canon, if_pos hc]
      rw [canon_cons (by intro e; rw [e] at hc; exact absurd hc (by decide)), ih]
    · simp only [canon, if_neg hc]
      rw [← (upper_hex a ha).2.1, ← (upper_hex b hb).2.1, if_neg hc, ih, upper_idem a ha, upper_idem b hb]

theorem canon_oneCased {r : Str} (h : PctWellFormed r) : OneCased (canon r) := by
  have hu : ∀ a ∈ hexUpper, ∀ b ∈ hexUpper, OneCase a b := by unfold OneCase; decide
  induction h with
  | nil => exact .nil
  | char c r hc hr ih => rw [canon_cons hc]; exact .char _ _ hc ih
  | triplet a b r ha hb hr ih =>
    simp only [canon]
    split
    · rename_i hc
      exact .char _ _ (by intro e; rw [e] at hc; exact absurd hc (by decide)) ih
    · exact .triplet _ _ _ (hu _ (upper_hex a ha).2.2 _ (upper_hex b hb).2.2) (upper_hex a ha).1 (upper_hex b hb).1 ih

/-- A URI is equivalent to its canonical form. -/
theorem equiv_norm {u : Str} (h : IsUri u) : Equiv u (norm u) := by
  obtain ⟨s, r, rfl, hs, hr, hn⟩ := h
  rw [norm_eq (scheme_colon hs)]
  have h1 := equiv_canon hs hr (x := []) .nil hn
  have h2 : Equiv (s ++ ':' :: canon r) (s.map Char.toLower ++ ':' :: canon r) := .scheme s _ _ hs (lower_scheme hs) (by
    rw [List.map_map]; exact List.map_congr_left fun c _ => (toLower_idem c).symm)
  refine h1.trans (h2.trans ?_)
  rcases loc_cases (s.map Char.toLower ++ ':' :: canon r) with ⟨e, _⟩ | ⟨p, e, e'⟩
  · rw [e]; exact .refl _
  · rw [e', e]; exact .localhost p

theorem norm_iff {u v : Str} (hu : IsUri u) (hv : IsUri v) : norm u = norm v ↔ Equiv u v :=
  ⟨fun e => (equiv_norm hu).trans (e ▸ (equiv_norm hv).symm), norm_of_equiv⟩

/-- The canonical form is a URI, with triplets of one case. -/
theorem norm_uri {u : Str} (h : IsUri u) : IsUri (norm u) ∧ OneCased (norm u) := by
  obtain ⟨s, r, rfl, hs, hr, hn⟩ := h
  rw [norm_eq (scheme_colon hs)]
  have hp : '%' ∉ s.map Char.toLower := fun hc => (scheme_char (lower_scheme hs) hc).1 rfl
  have oc : ∀ {x y : Str}, '%' ∉ x → OneCased y → OneCased (x ++ y) := by
    intro x y hx hy
    induction x with
    | nil => exact hy
    | cons c x ih => exact .char c _ (by rintro rfl; exact hx (.head _)) (ih fun hc => hx (.tail _ hc))
  have hk : IsUri (s.map Char.toLower ++ ':' :: canon r) ∧ OneCased (s.map Char.toLower ++ ':' :: canon r) :=
    ⟨⟨_, _, rfl, lower_scheme hs, canon_wf hr, canon_nl hr hn⟩, oc hp (.char _ _ (by decide) (canon_oneCased hr))⟩
  rcases loc_cases (s.map Char.toLower ++ ':' :: canon r) with ⟨e, _⟩ | ⟨p, e, e'⟩
  · rw [e]; exact hk
  · rw [e']
    rw [e] at hk
    have hw : ∀ {x y : Str}, '%' ∉ x → OneCased (x ++ y) → OneCased y := by
      intro x y hx hy
      induction x with
      | nil => exact hy
      | cons c x ih =>
        rw [List.cons_append] at hy
        exact ih (fun hc => hx (.tail _ hc)) (oneCased_tail (by rintro rfl; exact hx (.head _)) hy)
    have hw' : ∀ {x y : Str}, '%' ∉ x → PctWellFormed (x ++ y) → PctWellFormed y := by
      intro x y hx hy
      induction x with
      | nil => exact hy
      | cons c x ih =>
        rw [List.cons_append] at hy
        exact ih (fun hc => hx (.tail _ hc)) (wf_tail (by rintro rfl; exact hx (.head _)) hy)
    refine ⟨?_, oc (by decide) (hw (x := s!! "file://localhost/") (by decide) hk.2)⟩
    have hwf : PctWellFormed (s!! "file://localhost/" ++ p) := e ▸ wf_append (wf_plain hp) (.char _ _ (by decide) (canon_wf hr))
    have hnp : '\n' ∉ p := by
      intro hc
      have : '\n' ∈ s.map Char.toLower ++ ':' :: canon r := by rw [e]; exact List.mem_append_right _ hc
      rcases List.mem_append.1 this with h | h
      · exact (scheme_char (lower_scheme hs) h).2.2.1 rfl
      · rcases List.mem_cons.1 h with h | h
        · exact absurd h (by decide)
        · exact canon_nl hr hn h
    refine ⟨s!! "file", s!! "///" ++ p, rfl, ⟨'f', s!! "ile", rfl, by decide, by decide⟩, ?_, ?_⟩
    · exact wf_append (wf_plain (by decide)) (hw' (x := s!! "file://localhost/") (by decide) hwf)
    · simp [hnp]

/-! ### The key -/

theorem npe_eq {r : Str} (h : OneCased r) : upperTriplets (normalizePercentEncoding r) = canon r := by
  have hoc : ∀ a ∈ hexAny, ∀ b ∈ hexAny, OneCase a b →
      (isLowerHex a = true ∧ isLowerHex b = true ∧ upper a = a.toUpper ∧ upper b = b.toUpper) ∨
      (¬ (isLowerHex a = true ∧ isLowerHex b = true) ∧ a.toUpper = a ∧ b.toUpper = b) := by unfold OneCase; decide
  induction h with
  | nil => rfl
  | char c r hc hr ih =>
    unfold normalizePercentEncoding at ih ⊢
    rw [percentDecode_cons hc, up_cons hc, ih, canon_cons hc]
  | triplet a b r h ha hb hr ih =>
    unfold normalizePercentEncoding at ih ⊢
    simp only [canon]
    by_cases hc : Char.ofNat (16 * digitValue a + digitValue b) ∈ unreserved
    · rw [if_pos hc, percentDecode_triplet (c := Char.ofNat (16 * digitValue a + digitValue b)), up_cons, ih]
      · intro e; rw [e] at hc; exact absurd hc (by decide)
      · unfold decode2
        rw [int16_hexAny ha hb]
        simp only []
        rw [if_pos ((decodableSet _).2 hc)]
    · rw [if_neg hc, percentDecode_other]
      · rw [percentDecode_cons (hexAny_ne_pct ha), percentDecode_cons (hexAny_ne_pct hb)]
        rcases hoc a ha b hb h with ⟨h1, h2, h3, h4⟩ | ⟨h1, h2, h3⟩
        · rw [up_triplet h1 h2, h3, h4, ih]
        · rw [up_other, up_cons (hexAny_ne_pct ha), up_cons (hexAny_ne_pct hb), ih, h2, h3]
          intro a' b' r' e
          cases e
          exact h1
      · intro a' b' r' e
        cases e
        unfold decode2
        rw [int16_hexAny ha hb]
        dsimp only
        rw [if_neg fun h => hc ((decodableSet _).1 h)]

theorem up_plain {s : Str} (h : '%' ∉ s) : upperTriplets s = s := by
  induction s with
  | nil => exact up_nil
  | cons c s ih => rw [up_cons (by rintro rfl; exact h (.head _)), ih fun hc => h (.tail _ hc)]

theorem up_append {a b : Str} (h : ∀ c, b.head? = some c → c ∈ s!! "/?#") : upperTriplets (a ++ b) = upperTriplets a ++ upperTriplets b := by
  cases b with
  | nil => simp
  | cons c b =>
    have hc := h c rfl
    have : c ≠ '%' ∧ isLowerHex c = false := by
      simp only [List.mem_cons, List.not_mem_nil, or_false] at hc
      rcases hc with rfl | rfl | rfl <;> decide
    rw [up_append_sep this.1 this.2, up_cons this.1]

theorem npe_scheme {s : Str} (h : '%' ∉ s) (r : Str) : normalizePercentEncoding (s ++ r) = s ++ normalizePercentEncoding r := by
  induction s with
  | nil => rfl
  | cons c s ih =>
    unfold normalizePercentEncoding at ih ⊢
    rw [List.cons_append (as := s), percentDecode_cons (by rintro rfl; exact h (.head _)), ih fun hc => h (.tail _ hc)]
    rfl

theorem normCase_eq {s r : Str} (hs : IsScheme s) (hn : '\n' ∉ r) :
    normalizeCaseStr false (s ++ ':' :: r) = .ok (s.map Char.toLower ++ ':' :: upperTriplets r) := by
  have hn' : '\n' ∉ s ++ ':' :: r := by
    intro h
    rcases List.mem_append.1 h with h | h
    · exact (scheme_char hs h).2.2.1 rfl
    · rcases List.mem_cons.1 h with h | h
      · exact absurd h (by decide)
      · exact hn h
  obtain ⟨T, hT, hu⟩ := C01_split_unsplit _ hn'
  have hsc := C10_scheme_agrees _ s T (getScheme_some.2 ⟨hs, r, rfl⟩) hT
  obtain ⟨wf, _⟩ := split_wf hT
  unfold normalizeCaseStr
  rw [hT]
  show Except.ok _ = _
  congr 1
  dsimp only
  rw [unsplit_eq] at hu ⊢
  unfold normalizeCase
  dsimp only
  rw [hsc] at hu ⊢
  have hr : r = pre (s!! "//") T.authority ++ (T.path ++ (pre (s!! "?") T.query ++ pre (s!! "#") T.fragment)) := by
    have : s ++ ':' :: (pre (s!! "//") T.authority ++ (T.path ++ (pre (s!! "?") T.query ++ pre (s!! "#") T.fragment))) = s ++ ':' :: r := by
      rw [← hu]; simp [post]
    exact ((List.cons.inj (List.append_cancel_left this)).2).symm
  have hup : ∀ (c : Char) (o : Option Str), c ∈ s!! "?#" → pre [c] (o.map upperTriplets) = upperTriplets (pre [c] o) := by
    intro c o hc
    have : c ≠ '%' := by rintro rfl; exact absurd hc (by decide)
    cases o with
    | none => simp [pre]
    | some q => simp [pre, up_cons this]
  have hhead : ∀ (c : Char) (o : Option Str) (y : Str), c ∈ s!! "?#" → (∀ d, y.head? = some d → d ∈ s!! "/?#") → ∀ d, (pre [c] o ++ y).head? = some d → d ∈ s!! "/?#" := by
    intro c o y hc hy d hd
    cases o with
    | none => exact hy d hd
    | some q =>
      simp [pre] at hd
      subst hd
      simp only [List.mem_cons, List.not_mem_nil, or_false] at hc ⊢
      exact .inr hc
  have h1 := hhead '#' T.fragment [] (by decide) (by intro d h; cases h)
  rw [List.append_nil] at h1
  have h2 := hhead '?' T.query _ (by decide) h1
  have e1 : upperTriplets (T.path ++ (pre (s!! "?") T.query ++ pre (s!! "#") T.fragment)) =
      upperTriplets T.path ++ (pre (s!! "?") (T.query.map upperTriplets) ++ pre (s!! "#") (T.fragment.map upperTriplets)) := by
    rw [up_append h2, up_append h1, hup _ _ (by decide), hup _ _ (by decide)]
  have hscm : Option.map (fun x => List.map lower x) (Option.map upperTriplets (some s)) = some (s.map Char.toLower) := by
    rw [Option.map_some, Option.map_some, up_plain fun h => (scheme_char hs h).1 rfl]
    congr 1
    exact List.map_congr_left fun c _ => lower_eq c
  rw [hscm, ← e1]
  have hfin : upperTriplets r = pre (s!! "//") ((T.authority.map upperTriplets).map (fun a => if false = true then normAuth a else a)) ++
      upperTriplets (T.path ++ (pre (s!! "?") T.query ++ pre (s!! "#") T.fragment)) := by
    conv => lhs; rw [hr]
    cases ha : T.authority with
    | none => simp [pre]
    | some a =>
      have hp := wf.path_abempty (by rw [ha]; nofun)
      rw [show pre (s!! "//") (some a) = '/' :: '/' :: a from rfl, List.cons_append, List.cons_append, up_cons (by decide), up_cons (by decide), up_append]
      · simp [pre]
      · intro c hc
        rcases hp with hp | ⟨p, hp⟩
        · rw [hp] at hc; exact h2 c hc
        · rw [hp] at hc; cases hc; decide
  rw [← hfin]
  simp [post]

theorem npe_nl {r : Str} (h : PctWellFormed r) (hn : '\n' ∉ r) : '\n' ∉ normalizePercentEncoding r := by
  have := C12_percent_meaning_partial r h
  generalize normalizePercentEncoding r = t at this
  induction this with
  | nil => exact hn
  | char c s t hc _ ih =>
    simp only [List.mem_cons, not_or] at hn ⊢
    exact ⟨hn.1, ih (wf_tail hc h) hn.2⟩
  | decoded a b s t ha hb hu _ ih =>
    simp only [List.mem_cons, not_or] at hn ⊢
    exact ⟨fun e => by rw [← e] at hu; exact absurd hu (by decide), ih (wf_triplet h) hn.2.2.2⟩
  | kept a b s t ha hb hu _ ih =>
    simp only [List.mem_cons, not_or] at hn ⊢
    exact ⟨hn.1, hn.2.1, hn.2.2.1, ih (wf_triplet h) hn.2.2.2⟩

theorem oneCased_wf {r : Str} (h : OneCased r) : PctWellFormed r := by
  induction h with
  | nil => exact .nil
  | char c s h _ ih => exact .char c s h ih
  | triplet a b s _ ha hb _ ih => exact .triplet a b s ha hb ih

/-- The key of a URI whose triplets are of one case is its canonical form. -/
theorem key_eq {u : Str} (h : IsUri u) (ho : OneCased u) : key u = .ok (norm u) := by
  obtain ⟨s, r, rfl, hs, hr, hn⟩ := h
  have hsp : '%' ∉ s := fun h => (scheme_char hs h).1 rfl
  have hor : OneCased r := by
    have : ∀ {x : Str}, '%' ∉ x → OneCased (x ++ ':' :: r) → OneCased r := by
      intro x hx
      induction x with
      | nil => intro h; exact oneCased_tail (by decide) h
      | cons c x ih => intro h; exact ih (fun hc => hx (.tail _ hc)) (oneCased_tail (by rintro rfl; exact hx (.head _)) h)
    exact this hsp ho
  unfold key
  rw [npe_scheme hsp, show normalizePercentEncoding (':' :: r) = ':' :: normalizePercentEncoding r from percentDecode_cons (by decide) r,
    normCase_eq hs (npe_nl hr hn), norm_eq (scheme_colon hs), npe_eq hor]
  rfl

theorem norm_idem {u : Str} (h : IsUri u) : norm (norm u) = norm u := (norm_of_equiv (equiv_norm h)).symm

end Verif.Iri.Uridict
