import Verif.Iri.SyntaxLemmas
/-
C101: the syntax checks accept the strings of the RFC 3986 grammar.
-/
namespace Verif.Iri.Syntax
open Verif Rx SyntaxSpec

/-- Without an address in brackets the check is the RFC's grammar but for one thing: the user information may contain
"@" (the RFC wants it encoded).  For all strings without "[". -/
theorem C101_without_brackets_partial (s : Str) (hb : '[' ∉ s) :
    (matchesUriSyntax s = true ↔ UriOf (s!! "@") RfcAddr s) ∧
    (matchesUriRefSyntax s = true ↔ RefOf (s!! "@") RfcAddr s) := by
  have no : ∀ {A A' : Str → Prop} a, (∃ x y, s = x ++ ('[' :: (a ++ y))) → A a → A' a := by
    rintro A A' a ⟨x, y, rfl⟩; simp at hb
  have hx : ∀ c ∈ s!! "@", c ∈ s!! "@" ∨ (c = '@' ∧ s.count '@' ≤ 1) := fun c hc => Or.inl hc
  constructor
  · rw [matchesUriSyntax, accepts_lang, lang_uri]
    exact ⟨fun h => uri_mono h hx no, fun h => uri_mono h hx no⟩
  · rw [matchesUriRefSyntax, Bool.and_eq_true, accepts_lang]
    constructor
    · intro h; exact ref_mono ((lang_ref s).1 h.2) hx no
    · intro h
      have := (lang_ref s).2 (ref_mono h hx no)
      exact ⟨by simp [ref_no_newline this], this⟩

/-- A string without "[" and with at most one "@" is accepted exactly when the RFC's grammar has it. -/
theorem C101_exact_partial (s : Str) (hb : '[' ∉ s) (ha : s.count '@' ≤ 1) :
    (matchesUriSyntax s = true ↔ RfcUri s) ∧ (matchesUriRefSyntax s = true ↔ RfcUriReference s) := by
  have h := C101_without_brackets_partial s hb
  rw [h.1, h.2]
  have h1 : ∀ c ∈ s!! "@", c ∈ ([] : Str) ∨ (c = '@' ∧ s.count '@' ≤ 1) := by
    intro c hc; simp at hc; exact Or.inr ⟨hc, ha⟩
  have h2 : ∀ c ∈ ([] : Str), c ∈ s!! "@" ∨ (c = '@' ∧ s.count '@' ≤ 1) := by simp
  exact ⟨⟨fun h => uri_mono h h1 (fun _ _ x => x), fun h => uri_mono h h2 (fun _ _ x => x)⟩,
    ⟨fun h => ref_mono h h1 (fun _ _ x => x), fun h => ref_mono h h2 (fun _ _ x => x)⟩⟩

example : '[' ∉ s!! "http://u:p@example.org:80/a%20b;c?q=/?#f" ∧
    (s!! "http://u:p@example.org:80/a%20b;c?q=/?#f").count '@' ≤ 1 ∧
    matchesUriSyntax (s!! "http://u:p@example.org:80/a%20b;c?q=/?#f") = true ∧
    matchesUriSyntax (s!! "a%2g:b") = false ∧ matchesUriSyntax (s!! "/a/b") = false ∧
    matchesUriRefSyntax (s!! "/a/b") = true ∧ matchesUriRefSyntax (s!! "a b") = false ∧
    matchesUriRefSyntax (s!! "1:b") = false ∧ matchesUriRefSyntax [] = true := by decide +kernel

/-- The addresses in brackets that the pattern gets right: eight groups, or at most two groups before the "::" (and
none before it only if not exactly six follow), or an address of a future version. -/
def EasyAddr (s : Str) : Prop :=
  Groups 8 s ∨
  (∃ l n r, s = colons l ++ (s!! "::" ++ r) ∧ (∀ g ∈ l, H16 g) ∧ Groups n r ∧ l.length + n ≤ 7 ∧
    l.length ≤ 2 ∧ (l = [] → n ≠ 6)) ∨
  SyntaxSpec.IPvFuture s

/-- They are addresses of the RFC. -/
theorem C101_easy_is_rfc (s : Str) (h : EasyAddr s) : RfcAddr s := by
  rcases h with h | ⟨l, n, r, e, h1, h2, h3, _⟩ | h
  · exact Or.inl (Or.inl h)
  · exact Or.inl (Or.inr ⟨l, n, r, e, h1, h2, h3⟩)
  · exact Or.inr h

/-- Every URI and every URI reference of the RFC with such an address, or with none, is accepted. -/
theorem C101_accepts_partial (s : Str) :
    (UriOf [] EasyAddr s → matchesUriSyntax s = true) ∧ (RefOf [] EasyAddr s → matchesUriRefSyntax s = true) := by
  have hA : ∀ a, (∃ x y, s = x ++ ('[' :: (a ++ y))) → EasyAddr a → lang ipInner a := by
    rintro a _ (h | ⟨l, n, r, rfl, h1, h2, h3, h4, h5⟩ | h)
    · exact Or.inl (lang_ipv6_full h)
    · exact Or.inl (lang_ipv6_short h1 h2 h3 h4 h5)
    · exact Or.inr ((lang_ipvfuture a).2 h)
  have he : ∀ c ∈ ([] : Str), c ∈ s!! "@" ∨ (c = '@' ∧ s.count '@' ≤ 1) := by simp
  constructor
  · intro h
    rw [matchesUriSyntax, accepts_lang, lang_uri]
    exact uri_mono h he hA
  · intro h
    have hl := (lang_ref s).2 (ref_mono h he hA)
    rw [matchesUriRefSyntax, Bool.and_eq_true, accepts_lang]
    exact ⟨by simp [ref_no_newline hl], hl⟩

example : matchesUriSyntax (s!! "http://[fe80:1::a:192.168.0.255]:80/") = true ∧
    matchesUriSyntax (s!! "http://[1:2:3:4:5:6:7:8]") = true ∧ matchesUriSyntax (s!! "http://[::]") = true ∧
    matchesUriSyntax (s!! "http://[1:2:3:4:5:6:7:8:9]") = false ∧ matchesUriSyntax (s!! "http://[::1.2.3.256]") = false ∧
    matchesUriSyntax (s!! "http://[v1.a]") = true := by decide +kernel

/-- Whatever is accepted, brackets or not, is made of the characters the RFC allows in a URI. -/
theorem C101_alphabet (s : Str) (h : matchesUriRefSyntax s = true ∨ matchesUriSyntax s = true) :
    ∀ c ∈ s, c ∈ unreserved ++ subDelims ++ s!! ":/?#[]@" ++ s!! "%" := by
  have hl : lang URI_reference s := by
    rcases h with h | h
    · rw [matchesUriRefSyntax, Bool.and_eq_true, accepts_lang] at h; exact h.2
    · rw [matchesUriSyntax, accepts_lang] at h; exact Or.inl h
  exact lang_within ref_within hl

/-- A URI is a URI reference: what the first check accepts the second accepts. -/
theorem C101_uri_is_reference (s : Str) (h : matchesUriSyntax s = true) : matchesUriRefSyntax s = true := by
  rw [matchesUriSyntax, accepts_lang] at h
  have hl : lang URI_reference s := Or.inl h
  rw [matchesUriRefSyntax, Bool.and_eq_true, accepts_lang]
  exact ⟨by simp [ref_no_newline hl], hl⟩

/-! What is wrong with the pattern. -/

/-- The RFC's user information. -/
def rfcUser : Rx := star (alt (cls (unreserved ++ subDelims ++ s!! ":" ++ [])) pct)
theorem lang_rfcUser (x : Str) : lang rfcUser x ↔ Pcts (unreserved ++ subDelims ++ s!! ":" ++ []) x :=
  lang_pcts (fun _ h => h) (fun _ h => h) x

/-- "http://a@b@c/" is accepted and is not a URI. -/
theorem C101_refuted_userinfo : matchesUriSyntax (s!! "http://a@b@c/") = true ∧ ¬ RfcUri (s!! "http://a@b@c/") := by
  refine ⟨by decide +kernel, fun h => ?_⟩
  have h2 : UriOf [] (lang never) (s!! "http://a@b@c/") := by
    refine uri_mono h (by simp) ?_
    rintro a ⟨x, y, e⟩ _
    have : '[' ∈ s!! "http://a@b@c/" := by rw [e]; simp
    exact absurd this (by decide +kernel)
  rw [← lang_uriG never lang_rfcUser, ← accepts_lang] at h2
  exact absurd h2 (by decide +kernel)

/-- Valid addresses are rejected: a group of one digit between two others before the "::", and six groups after a
leading "::" (the `?` that should make the group before it optional makes its repetition reluctant instead). -/
theorem C101_refuted_rejects :
    (RfcUri (s!! "http://[fe80:0:0::1]/") ∧ matchesUriSyntax (s!! "http://[fe80:0:0::1]/") = false) ∧
    (RfcUri (s!! "http://[::1:2:3:4:5:6]/") ∧ matchesUriSyntax (s!! "http://[::1:2:3:4:5:6]/") = false) := by
  have sch : Verif.Iri.Spec.IsScheme (s!! "http") := ⟨'h', s!! "ttp", rfl, by decide, by decide⟩
  have mk : ∀ a, RfcAddr a → RfcUri (s!! "http" ++ ':' :: (('/' :: '/' :: (([] ++ (('[' :: (a ++ [']'])) ++ [])) ++ s!! "/")) ++ [])) := by
    intro a ha
    refine ⟨_, _, [], rfl, sch, Or.inl ⟨_, _, rfl, ⟨[], _, [], rfl, Or.inl rfl, Or.inl ⟨a, ha, rfl⟩, Or.inl rfl⟩,
      .seg [] [] .nil .nil⟩, ⟨[], [], rfl, Or.inl rfl, Or.inl rfl⟩⟩
  have hx : ∀ g ∈ [s!! "fe80", s!! "0", s!! "1", s!! "2", s!! "3", s!! "4", s!! "5", s!! "6"], H16 g := by
    unfold H16; decide +kernel
  refine ⟨⟨?_, by decide +kernel⟩, ⟨?_, by decide +kernel⟩⟩
  · refine mk (s!! "fe80:0:0::1") (Or.inl (Or.inr ⟨[s!! "fe80", s!! "0", s!! "0"], 1, s!! "1", rfl, ?_, ?_, by decide⟩))
    · intro g hg; exact hx g (by revert g; decide +kernel)
    · exact Or.inl ⟨[s!! "1"], rfl, fun g hg => hx g (by revert g; decide +kernel), rfl⟩
  · refine mk (s!! "::1:2:3:4:5:6") (Or.inl (Or.inr ⟨[], 6, s!! "1:2:3:4:5:6", rfl, by simp, ?_, by decide⟩))
    exact Or.inl ⟨[s!! "1", s!! "2", s!! "3", s!! "4", s!! "5", s!! "6"], rfl,
      fun g hg => hx g (by revert g; decide +kernel), rfl⟩

/-- Runs of at most four hexadecimal digits between colons and dots: every IPv6 address is one. -/
def runs : Rx := cat (opt h16) (star (cat (cls (s!! ":.")) (opt h16)))

theorem runs_sep {x y : Str} {c : Char} (hc : c ∈ s!! ":.") (hx : lang runs x) (hy : lang runs y) :
    lang runs (x ++ c :: y) := by
  obtain ⟨p, q, rfl, h1, ws, rfl, hw⟩ := hx
  obtain ⟨p', q', rfl, h1', ws', rfl, hw'⟩ := hy
  refine ⟨p, ws.flatten ++ c :: (p' ++ ws'.flatten), by simp, h1, ws ++ (c :: p') :: ws', by simp, ?_⟩
  intro w h
  rcases List.mem_append.1 h with h | h
  · exact hw w h
  · rcases List.mem_cons.1 h with rfl | h
    · exact ⟨[c], p', rfl, ⟨c, hc, rfl⟩, h1'⟩
    · exact hw' w h

theorem runs_nil : lang runs [] := ⟨[], [], rfl, (lang_opt _ _).2 (Or.inl rfl), lang_star_nil _⟩
theorem runs_h16 {g : Str} (h : H16 g) : lang runs g :=
  ⟨g, [], by simp, (lang_opt _ _).2 (Or.inr (lang_h16 h)), lang_star_nil _⟩
theorem runs_octet {g : Str} (h : DecOctet g) : lang runs g := by
  obtain ⟨n, hn, rfl⟩ := h
  refine runs_h16 ?_
  revert n
  unfold H16
  decide +kernel
theorem runs_colons (gs : List Str) (h : ∀ g ∈ gs, lang runs g) : lang runs (colons gs) := by
  induction gs with
  | nil => exact runs_nil
  | cons g gs ih =>
    have hr := ih (fun x hx => h x (List.mem_cons_of_mem _ hx))
    cases gs with
    | nil => exact h g (by simp)
    | cons y r => exact runs_sep (by decide) (h g (by simp)) hr
theorem runs_groups {n : Nat} {s : Str} (h : Groups n s) : lang runs s := by
  rcases h with ⟨gs, _, hg, rfl⟩ | ⟨gs, v, _, hg, ⟨a, b, c, d, ha, hb, hc, hd, rfl⟩, rfl⟩
  · exact runs_colons gs (fun g h => runs_h16 (hg g h))
  · refine runs_colons _ ?_
    intro g h
    rcases List.mem_append.1 h with h | h
    · exact runs_h16 (hg g h)
    · simp at h; subst h
      have dot : '.' ∈ s!! ":." := by decide
      exact runs_sep dot (runs_octet ha) (runs_sep dot (runs_octet hb) (runs_sep dot (runs_octet hc) (runs_octet hd)))
theorem runs_ipv6 {s : Str} (h : IPv6 s) : lang runs s := by
  rcases h with h | ⟨l, n, r, rfl, hl, hr, _⟩
  · exact runs_groups h
  · exact runs_sep (c := ':') (by decide) (runs_colons l (fun g h => runs_h16 (hl g h)))
      (runs_sep (x := []) (c := ':') (by decide) runs_nil (runs_groups hr))

/-- An address with a group of eight digits is accepted and is not one of the RFC. -/
theorem C101_refuted_group : matchesUriSyntax (s!! "http://[1:22223333:4::]/") = true ∧
    ¬ RfcUri (s!! "http://[1:22223333:4::]/") := by
  refine ⟨by decide +kernel, fun h => ?_⟩
  have h2 : UriOf [] (lang (alt runs Syntax.IPvFuture)) (s!! "http://[1:22223333:4::]/") := by
    refine uri_mono h (by simp) ?_
    rintro a _ (ha | ha)
    · exact Or.inl (runs_ipv6 ha)
    · exact Or.inr ((lang_ipvfuture a).2 ha)
  rw [← lang_uriG _ lang_rfcUser, ← accepts_lang] at h2
  exact absurd h2 (by decide +kernel)

end Verif.Iri.Syntax
