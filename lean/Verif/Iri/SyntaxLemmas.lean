import Verif.Iri.Syntax
import Verif.Iri.SyntaxSpec
/-
The language of a regular expression, the matcher decides it, and the language of every part of the pattern.
-/
namespace Verif.Iri.Syntax
open Verif Rx SyntaxSpec

def lang : Rx → Str → Prop
  | .never, _ => False
  | .eps, s => s = []
  | .cls l, s => ∃ c, c ∈ l ∧ s = [c]
  | .cat a b, s => ∃ u v, s = u ++ v ∧ lang a u ∧ lang b v
  | .alt a b, s => lang a s ∨ lang b s
  | .star a, s => ∃ ws : List Str, s = ws.flatten ∧ ∀ w ∈ ws, lang a w

theorem lang_mkCat (a b : Rx) (s : Str) : lang (mkCat a b) s ↔ lang (cat a b) s := by
  unfold mkCat
  split
  · simp [lang]
  · simp only [lang]
    constructor
    · intro h; exact ⟨[], s, rfl, rfl, h⟩
    · rintro ⟨u, v, rfl, rfl, h⟩; exact h
  · rfl

theorem lang_mkAlt (a b : Rx) (s : Str) : lang (mkAlt a b) s ↔ lang (alt a b) s := by
  unfold mkAlt
  split
  · simp [lang]
  · simp [lang]
  · rfl

theorem nullable_lang (r : Rx) : r.nullable = true ↔ lang r [] := by
  induction r with
  | never => simp [nullable, lang]
  | eps => simp [nullable, lang]
  | cls l => simp [nullable, lang]
  | cat a b iha ihb =>
    simp only [nullable, lang, Bool.and_eq_true, iha, ihb]
    constructor
    · intro h; exact ⟨[], [], rfl, h.1, h.2⟩
    · rintro ⟨u, v, e, h1, h2⟩
      have := List.append_eq_nil_iff.1 e.symm
      rw [this.1] at h1; rw [this.2] at h2; exact ⟨h1, h2⟩
  | alt a b iha ihb => simp only [nullable, lang, Bool.or_eq_true, iha, ihb]
  | star a ih =>
    simp only [nullable, lang, true_iff]
    exact ⟨[], rfl, by simp⟩

theorem star_uncons (a : Rx) (c : Char) (s : Str) : lang (star a) (c :: s) ↔
    ∃ u v, s = u ++ v ∧ lang a (c :: u) ∧ lang (star a) v := by
  constructor
  · rintro ⟨ws, e, h⟩
    induction ws with
    | nil => simp at e
    | cons w ws ih =>
      cases w with
      | nil => exact ih (by simpa using e) (fun x hx => h x (List.mem_cons_of_mem _ hx))
      | cons d u =>
        simp only [List.flatten_cons, List.cons_append, List.cons.injEq] at e
        obtain ⟨rfl, e⟩ := e
        exact ⟨u, ws.flatten, e, h _ (by simp), ws, rfl, fun x hx => h x (List.mem_cons_of_mem _ hx)⟩
  · rintro ⟨u, v, e, h, ws, e2, h2⟩
    refine ⟨(c :: u) :: ws, by simp [e, e2], ?_⟩
    intro w hw
    rcases List.mem_cons.1 hw with rfl | hw
    · exact h
    · exact h2 w hw

theorem lang_der (c : Char) (r : Rx) (s : Str) : lang (r.der c) s ↔ lang r (c :: s) := by
  induction r generalizing s with
  | never => simp [der, lang]
  | eps => simp [der, lang]
  | cls l =>
    simp only [der]
    split
    · rename_i h; rw [List.contains_iff_mem] at h
      simp only [lang]
      constructor
      · rintro rfl; exact ⟨c, h, rfl⟩
      · rintro ⟨d, _, e⟩; simp at e; exact e.2
    · rename_i h; rw [List.contains_iff_mem] at h
      simp only [lang, false_iff]
      rintro ⟨d, hd, e⟩; simp at e; exact h (e.1 ▸ hd)
  | cat a b iha ihb =>
    have key : lang (mkCat (a.der c) b) s ↔ ∃ u v, s = u ++ v ∧ lang a (c :: u) ∧ lang b v := by
      rw [lang_mkCat]; simp only [lang, iha]
    simp only [der]
    split
    · rename_i hn
      rw [lang_mkAlt]; simp only [lang]; rw [key, ihb]
      constructor
      · rintro (⟨u, v, e, h1, h2⟩ | h)
        · exact ⟨c :: u, v, by simp [e], h1, h2⟩
        · exact ⟨[], c :: s, rfl, (nullable_lang a).1 hn, h⟩
      · rintro ⟨u, v, e, h1, h2⟩
        cases u with
        | nil => right; simp at e; rw [e]; exact h2
        | cons d u => simp at e; obtain ⟨rfl, e⟩ := e; exact Or.inl ⟨u, v, e, h1, h2⟩
    · rename_i hn
      rw [key]; simp only [lang]
      constructor
      · rintro ⟨u, v, e, h1, h2⟩
        exact ⟨c :: u, v, by simp [e], h1, h2⟩
      · rintro ⟨u, v, e, h1, h2⟩
        cases u with
        | nil => exact absurd ((nullable_lang a).2 h1) hn
        | cons d u => simp at e; obtain ⟨rfl, e⟩ := e; exact ⟨u, v, e, h1, h2⟩
  | alt a b iha ihb => simp only [der]; rw [lang_mkAlt]; simp only [lang, iha, ihb]
  | star a ih =>
    simp only [der]; rw [lang_mkCat, star_uncons]; simp only [lang, ih]

theorem accepts_lang (r : Rx) (s : Str) : r.accepts s = true ↔ lang r s := by
  induction s generalizing r with
  | nil => exact nullable_lang r
  | cons c s ih => rw [accepts, ih, lang_der]

/-! The combinators. -/
theorem lang_cls1 (c : Char) (s : Str) : lang (cls [c]) s ↔ s = [c] := by simp [lang]

theorem lang_opt (r : Rx) (s : Str) : lang (opt r) s ↔ s = [] ∨ lang r s := by
  simp only [opt, lang]; exact Or.comm

theorem lang_after (c : Char) (r : Rx) (s : Str) : lang (cat (cls [c]) r) s ↔ ∃ t, s = c :: t ∧ lang r t := by
  simp only [lang]
  constructor
  · rintro ⟨u, v, e, ⟨d, hd, rfl⟩, h⟩
    simp at hd; subst hd; exact ⟨v, e, h⟩
  · rintro ⟨t, e, h⟩; exact ⟨[c], t, e, ⟨c, by simp, rfl⟩, h⟩

theorem lang_before (c : Char) (r : Rx) (s : Str) : lang (cat r (cls [c])) s ↔ ∃ t, s = t ++ [c] ∧ lang r t := by
  simp only [lang]
  constructor
  · rintro ⟨u, v, e, h, ⟨d, hd, rfl⟩⟩
    simp at hd; subst hd; exact ⟨u, e, h⟩
  · rintro ⟨t, e, h⟩; exact ⟨t, [c], e, h, ⟨c, by simp, rfl⟩⟩

theorem lang_lit (w s : Str) : lang (lit w) s ↔ s = w := by
  induction w generalizing s with
  | nil => simp [lit, lang]
  | cons c w ih => rw [lit, lang_after]; simp only [ih]; simp

theorem lang_star_nil (r : Rx) : lang (star r) [] := ⟨[], rfl, by simp⟩

theorem lang_star_cons {r : Rx} {u v : Str} (h : lang r u) (h2 : lang (star r) v) : lang (star r) (u ++ v) := by
  obtain ⟨ws, rfl, hw⟩ := h2
  refine ⟨u :: ws, rfl, ?_⟩
  intro w hw'
  rcases List.mem_cons.1 hw' with rfl | hw'
  · exact h
  · exact hw w hw'

theorem lang_star_cls (l s : Str) : lang (star (cls l)) s ↔ ∀ c ∈ s, c ∈ l := by
  induction s with
  | nil => simp [lang_star_nil]
  | cons c s ih =>
    rw [star_uncons]
    constructor
    · rintro ⟨u, v, e, ⟨d, hd, e2⟩, h⟩
      simp at e2; obtain ⟨rfl, rfl⟩ := e2
      simp at e; subst e
      intro x hx
      rcases List.mem_cons.1 hx with rfl | hx
      · exact hd
      · exact ih.1 h x hx
    · intro h
      exact ⟨[], s, rfl, ⟨c, h c (by simp), rfl⟩, ih.2 (fun x hx => h x (List.mem_cons_of_mem _ hx))⟩

theorem hx_iff (c : Char) : c ∈ HX ↔ c ∈ hexDigits := Iff.rfl

theorem lang_pct (s : Str) : lang pct s ↔ ∃ a b, a ∈ hexDigits ∧ b ∈ hexDigits ∧ s = ['%', a, b] := by
  rw [pct, lang_after]
  simp only [times, lang]
  constructor
  · rintro ⟨t, e, u, v, e2, ⟨a, ha, rfl⟩, u', v', e3, ⟨b, hb, rfl⟩, rfl⟩
    subst e3 e2 e
    exact ⟨a, b, ha, hb, rfl⟩
  · rintro ⟨a, b, ha, hb, rfl⟩
    exact ⟨_, rfl, [a], [b], rfl, ⟨a, ha, rfl⟩, [b], [], rfl, ⟨b, hb, rfl⟩, rfl⟩

theorem lang_pcts {l ok : Str} (h1 : ∀ c ∈ l, c ∈ ok) (h2 : ∀ c ∈ ok, c ∈ l) (s : Str) :
    lang (star (alt (cls l) pct)) s ↔ Pcts ok s := by
  constructor
  · rintro ⟨ws, rfl, h⟩
    induction ws with
    | nil => exact .nil
    | cons w ws ih =>
      have hr := ih (fun x hx => h x (List.mem_cons_of_mem _ hx))
      rcases h w (by simp) with ⟨c, hc, rfl⟩ | hp
      · exact .char c _ (h1 c hc) hr
      · obtain ⟨a, b, ha, hb, rfl⟩ := (lang_pct _).1 hp
        exact .triplet a b _ ha hb hr
  · intro h
    induction h with
    | nil => exact lang_star_nil _
    | char c s hc _ ih => exact lang_star_cons (u := [c]) (Or.inl ⟨c, h2 c hc, rfl⟩) ih
    | triplet a b s ha hb _ ih =>
      exact lang_star_cons (u := ['%', a, b]) (Or.inr ((lang_pct _).2 ⟨a, b, ha, hb, rfl⟩)) ih

theorem lang_pcts_plus {l ok : Str} (h1 : ∀ c ∈ l, c ∈ ok) (h2 : ∀ c ∈ ok, c ∈ l) (s : Str) :
    lang (plus (alt (cls l) pct)) s ↔ s ≠ [] ∧ Pcts ok s := by
  rw [← lang_pcts h1 h2]
  constructor
  · rintro ⟨u, v, rfl, h, h'⟩
    refine ⟨?_, lang_star_cons h h'⟩
    rcases h with ⟨c, _, rfl⟩ | hp
    · simp
    · obtain ⟨a, b, _, _, rfl⟩ := (lang_pct _).1 hp; simp
  · rintro ⟨hn, h⟩
    cases s with
    | nil => exact absurd rfl hn
    | cons c s =>
      obtain ⟨u, v, e, h1, h2⟩ := (star_uncons _ _ _).1 h
      exact ⟨c :: u, v, by simp [e], h1, h2⟩

theorem pchars_in : ∀ c ∈ AN ++ s!! "-_.!~*'();:@&=+$,", c ∈ pchars := by decide +kernel
theorem pchars_out : ∀ c ∈ pchars, c ∈ AN ++ s!! "-_.!~*'();:@&=+$," := by decide +kernel

theorem lang_segment (s : Str) : lang segment s ↔ Pcts pchars s := lang_pcts pchars_in pchars_out s

theorem lang_fragment (s : Str) : lang fragment s ↔ Pcts (pchars ++ s!! "/?") s :=
  lang_pcts (by decide +kernel) (by decide +kernel) s

theorem lang_reg_name (s : Str) : lang reg_name s ↔ Pcts (unreserved ++ subDelims) s :=
  lang_pcts (by decide +kernel) (by decide +kernel) s

theorem lang_userinfo (s : Str) : lang userinfo s ↔ Pcts (unreserved ++ subDelims ++ s!! ":" ++ s!! "@") s :=
  lang_pcts (by decide +kernel) (by decide +kernel) s

theorem lang_abempty (s : Str) : lang path_abempty s ↔ PathAbempty s := by
  constructor
  · rintro ⟨ws, rfl, h⟩
    induction ws with
    | nil => exact .nil
    | cons w ws ih =>
      have hr := ih (fun x hx => h x (List.mem_cons_of_mem _ hx))
      obtain ⟨t, rfl, ht⟩ := (lang_after _ _ _).1 (h w (by simp))
      exact .seg t _ ((lang_segment t).1 ht) hr
  · intro h
    induction h with
    | nil => exact lang_star_nil _
    | seg x s hx _ ih =>
      exact lang_star_cons (u := '/' :: x) ((lang_after _ _ _).2 ⟨x, rfl, (lang_segment x).2 hx⟩) ih

theorem lang_rootless (s : Str) : lang path_rootless s ↔ PathRootless s := by
  have hp := lang_pcts_plus pchars_in pchars_out
  constructor
  · rintro ⟨u, v, e, h1, h2⟩
    have := (hp u).1 h1
    exact ⟨u, v, e, this.1, this.2, (lang_abempty v).1 h2⟩
  · rintro ⟨u, v, e, h1, h2, h3⟩
    exact ⟨u, v, e, (hp u).2 ⟨h1, h2⟩, (lang_abempty v).2 h3⟩

theorem lang_noscheme (s : Str) : lang path_noscheme s ↔ PathNoscheme s := by
  have hp := lang_pcts_plus (l := AN ++ s!! "-_.!~*'();@&=+$,") (ok := unreserved ++ subDelims ++ s!! "@")
    (by decide +kernel) (by decide +kernel)
  constructor
  · rintro ⟨u, v, e, h1, h2⟩
    have := (hp u).1 h1
    exact ⟨u, v, e, this.1, this.2, (lang_abempty v).1 h2⟩
  · rintro ⟨u, v, e, h1, h2, h3⟩
    exact ⟨u, v, e, (hp u).2 ⟨h1, h2⟩, (lang_abempty v).2 h3⟩

theorem lang_absolute (s : Str) : lang path_absolute s ↔ PathAbsolute s := by
  rw [path_absolute, lang_after]
  simp only [lang_opt, lang_rootless, PathAbsolute]

theorem lang_scheme (s : Str) : lang scheme s ↔ Verif.Iri.Spec.IsScheme s := by
  have a1 : ∀ c ∈ AL, c.toNat ∈ List.range' 65 26 ∨ c.toNat ∈ List.range' 97 26 := by decide +kernel
  have a2 : ∀ n, n ∈ List.range' 65 26 ∨ n ∈ List.range' 97 26 → Char.ofNat n ∈ AL := by
    intro n h
    have h' : n ∈ List.range' 65 26 ++ List.range' 97 26 := List.mem_append.2 h
    exact (by decide +kernel : ∀ n ∈ List.range' 65 26 ++ List.range' 97 26, Char.ofNat n ∈ AL) n h'
  have b1 : ∀ c ∈ AN ++ s!! "+-.", (c.toNat ∈ List.range' 65 26 ∨ c.toNat ∈ List.range' 97 26) ∨
      c.toNat ∈ List.range' 48 10 ∨ c ∈ s!! "+-." := by decide +kernel
  have b2 : ∀ n, n ∈ List.range' 48 10 → Char.ofNat n ∈ AN ++ s!! "+-." := by decide +kernel
  have b3 : ∀ c ∈ s!! "+-.", c ∈ AN ++ s!! "+-." := by decide +kernel
  have b4 : ∀ c ∈ AL, c ∈ AN ++ s!! "+-." := by decide +kernel
  constructor
  · rintro ⟨u, v, rfl, ⟨c, hc, rfl⟩, h⟩
    refine ⟨c, v, rfl, a1 c hc, ?_⟩
    intro d hd
    exact b1 d ((lang_star_cls _ _).1 h d hd)
  · rintro ⟨c, r, rfl, hc, h⟩
    refine ⟨[c], r, rfl, ⟨c, ?_, rfl⟩, (lang_star_cls _ _).2 ?_⟩
    · have := a2 _ hc; rwa [Char.ofNat_toNat] at this
    · intro d hd
      rcases h d hd with h | h | h
      · have := a2 _ h; rw [Char.ofNat_toNat] at this; exact b4 d this
      · have := b2 _ h; rwa [Char.ofNat_toNat] at this
      · exact b3 d h

theorem lang_octet (s : Str) : lang dec_octet s ↔ DecOctet s := by
  have one : ∀ a ∈ D, ∃ n, n < 256 ∧ [a] = Nat.toDigits 10 n := by decide +kernel
  have two : ∀ a ∈ s!! "123456789", ∀ b ∈ D, ∃ n, n < 256 ∧ [a, b] = Nat.toDigits 10 n := by decide +kernel
  have three : ∀ a ∈ D, ∀ b ∈ D, ∃ n, n < 256 ∧ ['1', a, b] = Nat.toDigits 10 n := by decide +kernel
  have four : ∀ a ∈ s!! "01234", ∀ b ∈ D, ∃ n, n < 256 ∧ ['2', a, b] = Nat.toDigits 10 n := by decide +kernel
  have five : ∀ a ∈ s!! "012345", ∃ n, n < 256 ∧ ['2', '5', a] = Nat.toDigits 10 n := by decide +kernel
  constructor
  · rintro (⟨a, ha, rfl⟩ | ⟨u, v, rfl, ⟨a, ha, rfl⟩, ⟨b, hb, rfl⟩⟩ | h | h | h)
    · exact one a ha
    · exact two a ha b hb
    · obtain ⟨t, rfl, u, v, rfl, ⟨a, ha, rfl⟩, u', v', rfl, ⟨b, hb, rfl⟩, rfl⟩ := (lang_after _ _ _).1 h
      exact three a ha b hb
    · obtain ⟨t, rfl, u, v, rfl, ⟨a, ha, rfl⟩, ⟨b, hb, rfl⟩⟩ := (lang_after _ _ _).1 h
      exact four a ha b hb
    · obtain ⟨u, v, rfl, h1, ⟨b, hb, rfl⟩⟩ := h
      rw [lang_lit] at h1; subst h1
      exact five b hb
  · rintro ⟨n, hn, rfl⟩
    rw [← accepts_lang]
    revert n
    decide +kernel

theorem lang_ipv4 (s : Str) : lang IPv4address s ↔ IPv4 s := by
  constructor
  · rintro ⟨u, v, rfl, ⟨u1, v1, rfl, h1, u2, v2, rfl, h2, u3, v3, rfl, h3, rfl⟩, h4⟩
    obtain ⟨a, rfl, ha⟩ := (lang_before _ _ _).1 h1
    obtain ⟨b, rfl, hb⟩ := (lang_before _ _ _).1 h2
    obtain ⟨c, rfl, hc⟩ := (lang_before _ _ _).1 h3
    exact ⟨a, b, c, v, (lang_octet _).1 ha, (lang_octet _).1 hb, (lang_octet _).1 hc, (lang_octet _).1 h4, by simp⟩
  · rintro ⟨a, b, c, d, ha, hb, hc, hd, rfl⟩
    have f : ∀ {x}, DecOctet x → lang (cat dec_octet (cls ['.'])) (x ++ ['.']) :=
      fun {x} h => (lang_before _ _ _).2 ⟨x, rfl, (lang_octet _).2 h⟩
    exact ⟨a ++ ['.'] ++ (b ++ ['.'] ++ (c ++ ['.'])), d, by simp,
      ⟨_, _, rfl, f ha, _, c ++ ['.'], rfl, f hb, _, [], by simp, f hc, rfl⟩, (lang_octet _).2 hd⟩

/-! The pattern with the user information and the address in brackets left open. -/
def hostG (i : Rx) : Rx := opt (alt (cat (cls ['[']) (cat i (cls [']']))) (alt IPv4address reg_name))
def authorityG (u i : Rx) : Rx := cat (opt (cat u (cls ['@']))) (cat (hostG i) (opt (cat (cls [':']) port)))
def partG (u i r : Rx) : Rx :=
  opt (alt (cat (lit (s!! "//")) (cat (authorityG u i) path_abempty)) (alt path_absolute r))
def uriG (u i : Rx) : Rx := cat scheme (cat (cls [':']) (cat (partG u i path_rootless) queryFragment))
def refG (u i : Rx) : Rx := alt (uriG u i) (cat (partG u i path_noscheme) queryFragment)

theorem lang_host (i : Rx) (s : Str) : lang (hostG i) s ↔ Host (lang i) s := by
  rw [hostG, lang_opt]
  have key : lang (cat (cls ['[']) (cat i (cls [']']))) s ↔ ∃ a, lang i a ∧ s = '[' :: (a ++ [']']) := by
    rw [lang_after]
    simp only [lang_before]
    constructor
    · rintro ⟨t, rfl, a, rfl, h⟩; exact ⟨a, h, rfl⟩
    · rintro ⟨a, h, rfl⟩; exact ⟨_, rfl, a, rfl, h⟩
  have e : lang (alt (cat (cls ['[']) (cat i (cls [']']))) (alt IPv4address reg_name)) s ↔
      lang (cat (cls ['[']) (cat i (cls [']']))) s ∨ lang IPv4address s ∨ lang reg_name s := Iff.rfl
  rw [e, key, lang_ipv4, lang_reg_name, Host]
  constructor
  · rintro (rfl | h)
    · exact Or.inr (Or.inr .nil)
    · exact h
  · exact Or.inr

theorem lang_authority {u : Rx} {ex : Str} (i : Rx)
    (hu : ∀ x, lang u x ↔ Pcts (unreserved ++ subDelims ++ s!! ":" ++ ex) x) (s : Str) :
    lang (authorityG u i) s ↔ Authority ex (lang i) s := by
  have hd : ∀ x, lang port x ↔ ∀ c ∈ x, c ∈ digits := fun x => lang_star_cls _ _
  constructor
  · rintro ⟨u, v, rfl, h1, h, p, rfl, h2, h3⟩
    refine ⟨u, h, p, rfl, ?_, (lang_host i h).1 h2, ?_⟩
    · rcases (lang_opt _ _).1 h1 with h1 | h1
      · exact Or.inl h1
      · obtain ⟨x, e, hx⟩ := (lang_before _ _ _).1 h1
        exact Or.inr ⟨x, e, (hu x).1 hx⟩
    · rcases (lang_opt _ _).1 h3 with h1 | h1
      · exact Or.inl h1
      · obtain ⟨x, e, hx⟩ := (lang_after _ _ _).1 h1
        exact Or.inr ⟨x, e, (hd x).1 hx⟩
  · rintro ⟨u, h, p, rfl, h1, h2, h3⟩
    refine ⟨u, _, rfl, (lang_opt _ _).2 ?_, h, p, rfl, (lang_host i h).2 h2, (lang_opt _ _).2 ?_⟩
    · rcases h1 with h1 | ⟨x, e, hx⟩
      · exact Or.inl h1
      · exact Or.inr ((lang_before _ _ _).2 ⟨x, e, (hu x).2 hx⟩)
    · rcases h3 with h1 | ⟨x, e, hx⟩
      · exact Or.inl h1
      · exact Or.inr ((lang_after _ _ _).2 ⟨x, e, (hd x).2 hx⟩)

theorem lang_net {u : Rx} {ex : Str} (i : Rx)
    (hu : ∀ x, lang u x ↔ Pcts (unreserved ++ subDelims ++ s!! ":" ++ ex) x) (s : Str) :
    lang (cat (lit (s!! "//")) (cat (authorityG u i) path_abempty)) s ↔
    ∃ a p, s = '/' :: '/' :: (a ++ p) ∧ Authority ex (lang i) a ∧ PathAbempty p := by
  constructor
  · rintro ⟨u, v, rfl, h1, a, p, rfl, h2, h3⟩
    rw [lang_lit] at h1; subst h1
    exact ⟨a, p, rfl, (lang_authority i hu a).1 h2, (lang_abempty p).1 h3⟩
  · rintro ⟨a, p, rfl, h2, h3⟩
    exact ⟨s!! "//", a ++ p, rfl, (lang_lit _ _).2 rfl, a, p, rfl, (lang_authority i hu a).2 h2, (lang_abempty p).2 h3⟩

theorem lang_part {u : Rx} {ex : Str} (i : Rx)
    (hu : ∀ x, lang u x ↔ Pcts (unreserved ++ subDelims ++ s!! ":" ++ ex) x)
    {r : Rx} {P : Str → Prop} (h : ∀ s, lang r s ↔ P s) (s : Str) :
    lang (partG u i r) s ↔ Part ex (lang i) P s := by
  rw [partG, lang_opt]
  have e : lang (alt (cat (lit (s!! "//")) (cat (authorityG u i) path_abempty)) (alt path_absolute r)) s ↔
      lang (cat (lit (s!! "//")) (cat (authorityG u i) path_abempty)) s ∨ lang path_absolute s ∨ lang r s := Iff.rfl
  rw [e, lang_net i hu, lang_absolute, h, Part]
  constructor
  · rintro (h | h | h | h)
    · exact .inr (.inr (.inr h))
    · exact .inl h
    · exact .inr (.inl h)
    · exact .inr (.inr (.inl h))
  · rintro (h | h | h | h)
    · exact .inr (.inl h)
    · exact .inr (.inr (.inl h))
    · exact .inr (.inr (.inr h))
    · exact .inl h

theorem lang_ending (s : Str) : lang queryFragment s ↔ Ending s := by
  have e : lang queryFragment s ↔ ∃ q f, s = q ++ f ∧ lang (opt (cat (cls ['?']) fragment)) q ∧
      lang (opt (cat (cls ['#']) fragment)) f := Iff.rfl
  rw [e]
  simp only [lang_opt, lang_after, lang_fragment, Ending]

theorem lang_uriG {u : Rx} {ex : Str} (i : Rx)
    (hu : ∀ x, lang u x ↔ Pcts (unreserved ++ subDelims ++ s!! ":" ++ ex) x) (s : Str) :
    lang (uriG u i) s ↔ UriOf ex (lang i) s := by
  constructor
  · rintro ⟨sch, v, rfl, h1, h⟩
    obtain ⟨t, rfl, hp, e, rfl, h2, h3⟩ := (lang_after _ _ _).1 h
    exact ⟨sch, hp, e, rfl, (lang_scheme _).1 h1, (lang_part i hu lang_rootless _).1 h2, (lang_ending _).1 h3⟩
  · rintro ⟨sch, hp, e, rfl, h1, h2, h3⟩
    exact ⟨sch, _, rfl, (lang_scheme _).2 h1, (lang_after _ _ _).2 ⟨_, rfl, hp, e, rfl,
      (lang_part i hu lang_rootless _).2 h2, (lang_ending _).2 h3⟩⟩

theorem lang_refG {u : Rx} {ex : Str} (i : Rx)
    (hu : ∀ x, lang u x ↔ Pcts (unreserved ++ subDelims ++ s!! ":" ++ ex) x) (s : Str) :
    lang (refG u i) s ↔ RefOf ex (lang i) s := by
  have e : lang (refG u i) s ↔ lang (uriG u i) s ∨
      ∃ h e, s = h ++ e ∧ lang (partG u i path_noscheme) h ∧ lang queryFragment e := Iff.rfl
  rw [e, lang_uriG i hu]
  simp only [lang_part i hu lang_noscheme, lang_ending, RefOf]

theorem lang_uri (s : Str) : lang URI s ↔ UriOf (s!! "@") (lang ipInner) s := lang_uriG ipInner lang_userinfo s
theorem lang_ref (s : Str) : lang URI_reference s ↔ RefOf (s!! "@") (lang ipInner) s := lang_refG ipInner lang_userinfo s

/-! Every character a pattern can take is one of `ok`. -/
def within (ok : Str) : Rx → Bool
  | .never => true
  | .eps => true
  | .cls l => l.all ok.contains
  | .cat a b => within ok a && within ok b
  | .alt a b => within ok a && within ok b
  | .star a => within ok a

theorem lang_within {ok : Str} {r : Rx} (hr : within ok r = true) {s : Str} (h : lang r s) : ∀ c ∈ s, c ∈ ok := by
  induction r generalizing s with
  | never => exact h.elim
  | eps => have : s = [] := h; subst this; simp
  | cls l =>
    obtain ⟨c, hc, rfl⟩ := h
    have := List.all_eq_true.1 hr c hc
    rw [List.contains_iff_mem] at this
    intro d hd; simp at hd; subst hd; exact this
  | cat a b iha ihb =>
    obtain ⟨u, v, rfl, h1, h2⟩ := h
    rw [within, Bool.and_eq_true] at hr
    intro c hc
    rcases List.mem_append.1 hc with hc | hc
    · exact iha hr.1 h1 c hc
    · exact ihb hr.2 h2 c hc
  | alt a b iha ihb =>
    rw [within, Bool.and_eq_true] at hr
    rcases h with h | h
    · exact iha hr.1 h
    · exact ihb hr.2 h
  | star a ih =>
    obtain ⟨ws, rfl, h⟩ := h
    intro c hc
    obtain ⟨w, hw, hc⟩ := List.mem_flatten.1 hc
    exact ih hr (h w hw) c hc

def allowed : Str := unreserved ++ subDelims ++ s!! ":/?#[]@" ++ s!! "%"
theorem ref_within : within allowed URI_reference = true := by decide +kernel
theorem ref_no_newline {s : Str} (h : lang URI_reference s) : startsWithNewline s = false := by
  cases s with
  | nil => rfl
  | cons c t =>
    have h1 := lang_within ref_within h c (by simp)
    have h2 : '\n' ∉ allowed := by decide +kernel
    unfold startsWithNewline
    split
    · rename_i e; simp at e; exact absurd (e.1 ▸ h1) h2
    · rfl

/-! IPv6 addresses. -/
theorem lang_upto_cls (n : Nat) (l s : Str) : lang (upto n (cls l)) s ↔ s.length ≤ n ∧ ∀ c ∈ s, c ∈ l := by
  induction n generalizing s with
  | zero => simp [upto, lang]; rintro rfl; simp
  | succ n ih =>
    cases s with
    | nil => simp [upto, lang]
    | cons c s =>
      constructor
      · rintro (h | ⟨u, v, e, ⟨d, hd, rfl⟩, h⟩)
        · simp [lang] at h
        · simp at e; obtain ⟨rfl, rfl⟩ := e
          have := (ih s).1 h
          refine ⟨by simp; exact this.1, ?_⟩
          intro x hx
          rcases List.mem_cons.1 hx with rfl | hx
          · exact hd
          · exact this.2 x hx
      · rintro ⟨h1, h2⟩
        exact Or.inr ⟨[c], s, rfl, ⟨c, h2 c (by simp), rfl⟩,
          (ih s).2 ⟨by simpa using h1, fun x hx => h2 x (List.mem_cons_of_mem _ hx)⟩⟩

theorem lang_h16 {s : Str} (h : H16 s) : lang h16 s := by
  obtain ⟨h1, h2, h3⟩ := h
  cases s with
  | nil => simp at h1
  | cons c s =>
    exact ⟨[c], s, rfl, ⟨c, h3 c (by simp), rfl⟩,
      (lang_upto_cls _ _ _).2 ⟨by simpa using h2, fun x hx => h3 x (List.mem_cons_of_mem _ hx)⟩⟩

theorem lang_h16c {s : Str} (h : H16 s) : lang h16c (s ++ [':']) := (lang_before _ _ _).2 ⟨s, rfl, lang_h16 h⟩

theorem colons_cons (x : Str) (l : List Str) (h : l ≠ []) : colons (x :: l) = x ++ ':' :: colons l := by
  cases l with
  | nil => exact absurd rfl h
  | cons y r => rfl

theorem groups_times (gs : List Str) (h : ∀ g ∈ gs, H16 g) (t : List Str) (ht : t ≠ []) (r : Rx)
    (hr : lang r (colons t)) : lang (cat (times gs.length h16c) r) (colons (gs ++ t)) := by
  induction gs with
  | nil => exact ⟨[], _, rfl, rfl, hr⟩
  | cons g gs ih =>
    obtain ⟨u, v, e, h1, h2⟩ := ih (fun x hx => h x (List.mem_cons_of_mem _ hx))
    have : colons (g :: gs ++ t) = g ++ ':' :: colons (gs ++ t) :=
      colons_cons g (gs ++ t) (by intro e; exact ht (List.append_eq_nil_iff.1 e).2)
    rw [this, e]
    exact ⟨g ++ [':'] ++ u, v, by simp, ⟨_, u, rfl, lang_h16c (h g (by simp)), h1⟩, h2⟩

theorem lang_groups {n : Nat} {s : Str} (h : Groups (n + 2) s) : lang (cat (times n h16c) ls32) s := by
  rcases h with ⟨gs, hl, hg, rfl⟩ | ⟨gs, v, hl, hg, hv, rfl⟩
  · have e : gs = gs.take n ++ gs.drop n := (List.take_append_drop n gs).symm
    have hd : (gs.drop n).length = 2 := by simp [hl]
    have ht : (gs.take n).length = n := by simp [hl]
    match hx : gs.drop n, hd with
    | [a, b], _ =>
      rw [hx] at e
      have ha : H16 a := hg a (by rw [e]; simp)
      have hb : H16 b := hg b (by rw [e]; simp)
      have := groups_times (gs.take n) (fun g hg' => hg g (List.mem_of_mem_take hg')) [a, b] (by simp) ls32
        (Or.inl ⟨a ++ [':'], b, by simp [colons], lang_h16c ha, lang_h16 hb⟩)
      rw [ht, ← e] at this
      exact this
  · have := groups_times gs hg [v] (by simp) ls32 (Or.inr ((lang_ipv4 v).2 hv))
    have hn : gs.length = n := by omega
    rw [hn] at this; exact this

theorem lang_group1 {s : Str} (h : Groups 1 s) : lang h16 s := by
  rcases h with ⟨gs, hl, hg, rfl⟩ | ⟨gs, v, hl, _⟩
  · match gs, hl with
    | [g], _ => exact lang_h16 (hg g (by simp))
  · omega

theorem groups0 {s : Str} (h : Groups 0 s) : s = [] := by
  rcases h with ⟨gs, hl, hg, rfl⟩ | ⟨gs, v, hl, _⟩
  · match gs, hl with
    | [], _ => rfl
  · omega

theorem lead_upto (k : Nat) (l : List Str) (h : ∀ g ∈ l, H16 g) (hl : l.length ≤ 2) :
    lang (upto (k + 1) lead) (colons l) := by
  have base : lang (upto k lead) [] := by cases k <;> simp [upto, lang]
  match l, hl with
  | [], _ => exact Or.inl rfl
  | [a], _ =>
    exact Or.inr ⟨a, [], by simp [colons], ⟨[], a, rfl, (lang_opt _ _).2 (Or.inl rfl), lang_h16 (h a (by simp))⟩, base⟩
  | [a, b], _ =>
    exact Or.inr ⟨a ++ ':' :: b, [], by simp [colons], ⟨a ++ [':'], b, by simp,
      (lang_opt _ _).2 (Or.inr (lang_h16c (h a (by simp)))), lang_h16 (h b (by simp))⟩, base⟩

theorem lead_opt (l : List Str) (h : ∀ g ∈ l, H16 g) (hl : l.length ≤ 2) : lang (opt lead) (colons l) := by
  rcases lead_upto 0 l h hl with h | ⟨u, v, e, h1, h2⟩
  · exact (lang_opt _ _).2 (Or.inl h)
  · have : v = [] := h2
    rw [e, this]; simp; exact (lang_opt _ _).2 (Or.inr h1)

theorem lang_ipv6_full {s : Str} (h : Groups 8 s) : lang IPv6address s := Or.inl (lang_groups (n := 6) h)

theorem lang_ipv6_short {l : List Str} {n : Nat} {r : Str} (h : ∀ g ∈ l, H16 g) (hg : Groups n r)
    (hn : l.length + n ≤ 7) (h2 : l.length ≤ 2) (h6 : l = [] → n ≠ 6) :
    lang IPv6address (colons l ++ (s!! "::" ++ r)) := by
  have mk : ∀ {a b : Rx} {x y : Str}, lang a x → lang b y →
      lang (cat a (cat (lit (s!! "::")) b)) (x ++ (s!! "::" ++ y)) :=
    fun {a b x y} h1 h2 => ⟨x, _, rfl, h1, s!! "::", y, rfl, (lang_lit _ _).2 rfl, h2⟩
  have hl : ∀ k, lang (upto (k + 1) lead) (colons l) := fun k => lead_upto k l h h2
  unfold IPv6address
  match n, hg with
  | 0, hg =>
    rw [groups0 hg]
    exact .inr (.inr (.inr (.inr (.inr (.inr (.inr (.inr ⟨_, _, rfl, hl 5, (lang_lit _ _).2 (by simp)⟩)))))))
  | 1, hg => exact .inr (.inr (.inr (.inr (.inr (.inr (.inr (.inl (mk (hl 4) (lang_group1 hg)))))))))
  | 2, hg =>
    refine .inr (.inr (.inr (.inr (.inr (.inr (.inl (mk (hl 3) ?_)))))))
    obtain ⟨u, v, rfl, h1, h2⟩ := lang_groups (n := 0) hg
    have : u = [] := h1
    subst this; exact h2
  | 3, hg =>
    refine .inr (.inr (.inr (.inr (.inr (.inl (mk (hl 2) ?_))))))
    obtain ⟨u, v, rfl, ⟨a, b, rfl, h1, h3⟩, h2⟩ := lang_groups (n := 1) hg
    have : b = [] := h3
    subst this; simp only [List.append_nil]; exact ⟨a, v, rfl, h1, h2⟩
  | 4, hg => exact .inr (.inr (.inr (.inr (.inl (mk (hl 1) (lang_groups (n := 2) hg))))))
  | 5, hg => exact .inr (.inr (.inr (.inl (mk (lead_opt l h h2) (lang_groups (n := 3) hg)))))
  | 6, hg =>
    match l, h, h6 with
    | [], _, h6 => exact absurd rfl (h6 rfl)
    | [a], h, _ => exact .inr (.inr (.inl (mk (lang_h16 (h a (by simp))) (lang_groups (n := 4) hg))))
    | a :: b :: t, _, _ => simp at hn
  | 7, hg =>
    have : l = [] := by cases l with
      | nil => rfl
      | cons a t => simp at hn
    subst this
    exact .inr (.inl ⟨s!! "::", r, rfl, (lang_lit _ _).2 rfl, lang_groups (n := 5) hg⟩)
  | n + 8, _ => omega

theorem lang_ipvfuture (s : Str) : lang Syntax.IPvFuture s ↔ SyntaxSpec.IPvFuture s := by
  have hc1 : ∀ c ∈ AN ++ s!! "-._~!$&'()*+,;=:", c ∈ unreserved ++ subDelims ++ s!! ":" := by decide +kernel
  have hc2 : ∀ c ∈ unreserved ++ subDelims ++ s!! ":", c ∈ AN ++ s!! "-._~!$&'()*+,;=:" := by decide +kernel
  have pl : ∀ (l s : Str), lang (plus (cls l)) s ↔ s ≠ [] ∧ ∀ c ∈ s, c ∈ l := by
    intro l s
    constructor
    · rintro ⟨u, v, rfl, ⟨c, hc, rfl⟩, h⟩
      refine ⟨by simp, ?_⟩
      intro x hx
      rcases List.mem_append.1 hx with hx | hx
      · simp at hx; exact hx ▸ hc
      · exact (lang_star_cls _ _).1 h x hx
    · rintro ⟨hn, h⟩
      cases s with
      | nil => exact absurd rfl hn
      | cons c s => exact ⟨[c], s, rfl, ⟨c, h c (by simp), rfl⟩,
          (lang_star_cls _ _).2 (fun x hx => h x (List.mem_cons_of_mem _ hx))⟩
  rw [Syntax.IPvFuture, lang_after]
  constructor
  · rintro ⟨t, rfl, v, w, rfl, h1, h2⟩
    obtain ⟨x, rfl, h3⟩ := (lang_after _ _ _).1 h2
    have h1 := (pl _ _).1 h1
    have h3 := (pl _ _).1 h3
    exact ⟨v, x, rfl, h1.1, h3.1, h1.2, fun c hc => hc1 c (h3.2 c hc)⟩
  · rintro ⟨v, x, rfl, h1, h2, h3, h4⟩
    exact ⟨_, rfl, v, _, rfl, (pl _ _).2 ⟨h1, h3⟩, (lang_after _ _ _).2 ⟨x, rfl, (pl _ _).2 ⟨h2, fun c hc => hc2 c (h4 c hc)⟩⟩⟩

/-! Monotonicity of the grammar in its parameters. -/
theorem pcts_mono {a b : Str} {s : Str} (h : Pcts a s) (hs : ∀ c ∈ s, c ∈ a → c ∈ b) : Pcts b s := by
  induction h with
  | nil => exact .nil
  | char c s hc _ ih => exact .char c s (hs c (by simp) hc) (ih (fun x hx => hs x (List.mem_cons_of_mem _ hx)))
  | triplet x y s hx hy _ ih => exact .triplet x y s hx hy (ih (fun z hz => hs z (by simp [hz])))

theorem part_mono {e e' : Str} {A A' P : Str → Prop} {s : Str} (h : Part e A P s)
    (he : ∀ c ∈ e, c ∈ e' ∨ (c = '@' ∧ s.count '@' ≤ 1)) (hA : ∀ a, (∃ x y, s = x ++ ('[' :: (a ++ y))) → A a → A' a) :
    Part e' A' P s := by
  rcases h with ⟨a, p, rfl, ⟨u, h, q, rfl, h1, h2, h3⟩, hp⟩ | h
  · refine Or.inl ⟨_, p, rfl, ⟨u, h, q, rfl, ?_, ?_, h3⟩, hp⟩
    · rcases h1 with h1 | ⟨x, rfl, hx⟩
      · exact Or.inl h1
      · refine Or.inr ⟨x, rfl, pcts_mono hx ?_⟩
        intro c hc hm
        rcases List.mem_append.1 hm with hm | hm
        · exact List.mem_append.2 (Or.inl hm)
        · rcases he c hm with h' | ⟨rfl, h'⟩
          · exact List.mem_append.2 (Or.inr h')
          · have h0 : 0 < x.count '@' := List.count_pos_iff.2 hc
            simp [List.count_append] at h'
            omega
    · rcases h2 with ⟨a, ha, rfl⟩ | h2
      · exact Or.inl ⟨a, hA a ⟨'/' :: '/' :: u, ']' :: (q ++ p), by simp⟩ ha, rfl⟩
      · exact Or.inr h2
  · exact Or.inr h

theorem uri_mono {e e' : Str} {A A' : Str → Prop} {s : Str} (h : UriOf e A s)
    (he : ∀ c ∈ e, c ∈ e' ∨ (c = '@' ∧ s.count '@' ≤ 1)) (hA : ∀ a, (∃ x y, s = x ++ ('[' :: (a ++ y))) → A a → A' a) :
    UriOf e' A' s := by
  obtain ⟨sch, p, t, rfl, h1, h2, h3⟩ := h
  refine ⟨sch, p, t, rfl, h1, part_mono h2 ?_ ?_, h3⟩
  · intro c hc
    rcases he c hc with h | ⟨h, h'⟩
    · exact Or.inl h
    · refine Or.inr ⟨h, ?_⟩
      simp [List.count_append] at h'
      omega
  · rintro a ⟨x, y, rfl⟩
    exact hA a ⟨sch ++ ':' :: x, y ++ t, by simp⟩

theorem ref_mono {e e' : Str} {A A' : Str → Prop} {s : Str} (h : RefOf e A s)
    (he : ∀ c ∈ e, c ∈ e' ∨ (c = '@' ∧ s.count '@' ≤ 1)) (hA : ∀ a, (∃ x y, s = x ++ ('[' :: (a ++ y))) → A a → A' a) :
    RefOf e' A' s := by
  rcases h with h | ⟨p, t, rfl, h2, h3⟩
  · exact Or.inl (uri_mono h he hA)
  · refine Or.inr ⟨p, t, rfl, part_mono h2 ?_ ?_, h3⟩
    · intro c hc
      rcases he c hc with h | ⟨h, h'⟩
      · exact Or.inl h
      · refine Or.inr ⟨h, ?_⟩
        simp [List.count_append] at h'
        omega
    · rintro a ⟨x, y, rfl⟩
      exact hA a ⟨x, y ++ t, by simp⟩

end Verif.Iri.Syntax
