import Verif.Iri.Abs
/-
Properties C01, C02, C03, C04, C07, C10 (lib/lib/iri.py).
-/
namespace Verif.Iri
open Spec

/-! ## C01: splitting and recombining loses nothing -/

/-- C01. For every string without a newline `split_uri_ref` succeeds and recombining its components
(RFC 3986 5.3) gives the string back. -/
theorem C01_split_unsplit (s : Str) (h : '\n' ∉ s) :
    ∃ t, splitUriRef s = .ok t ∧ unsplitUriRef t = s := by
  cases hs : splitUriRef s with
  | error e => exact absurd (splitUriRef_error hs).2 h
  | ok t =>
    refine ⟨t, rfl, ?_⟩
    rcases (split_wf hs).2.1 with h1 | h1
    · exact h1
    · exact absurd (by rw [← h1]; simp) h

example : '\n' ∉ s!! "http://u@h:80/p/../q?a=b&c#f" := by decide
example : splitUriRef (s!! "a://b?c#d") = .ok ⟨some (s!! "a"), some (s!! "b"), [], some (s!! "c"), some (s!! "d")⟩ := by
  decide

/-- C01, for all strings: the only loss is a single newline at the very end of a fragment; the only
failure is a newline elsewhere in a fragment. -/
theorem C01_split_unsplit_all (s : Str) :
    (∃ t, splitUriRef s = .ok t ∧ (unsplitUriRef t = s ∨ unsplitUriRef t ++ ['\n'] = s)) ∨
    (splitUriRef s = .error .attributeError ∧ '#' ∈ s ∧ '\n' ∈ s) := by
  cases hs : splitUriRef s with
  | error e =>
    right
    refine ⟨?_, splitUriRef_error hs⟩
    unfold splitUriRef at hs
    simp only at hs
    split at hs
    · simp at hs
    · simp at hs; rw [← hs]
  | ok t => exact Or.inl ⟨t, rfl, (split_wf hs).2.1⟩

/-- The exception is real: a newline ending a fragment is dropped, one inside a fragment makes
`split_uri_ref` raise. -/
theorem C01_newline_refuted :
    (splitUriRef (s!! "a#b\n")).map unsplitUriRef = .ok (s!! "a#b") ∧
    splitUriRef (s!! "a#b\nc") = .error .attributeError := by decide

/-! ## C02: components survive recombination and splitting -/

/-- C02. Splitting the recomposition of well-formed components gives the components back. -/
theorem C02_unsplit_split (r : UriRef) (wf : WellFormed r)
    (hn : ∀ f, r.fragment = some f → '\n' ∉ f) :
    splitUriRef (unsplitUriRef r) = .ok r := split_unsplit wf hn

/-- C02. What `split_uri_ref` returns is the one and only RFC 3986 parse of the string. -/
theorem C02_split_is_the_parse (s : Str) (hn : '\n' ∉ s) (r : UriRef) :
    splitUriRef s = .ok r ↔ IsParse s r := by
  constructor
  · intro h
    obtain ⟨h1, h2, _⟩ := split_wf h
    refine ⟨?_, h1⟩
    rw [recompose_eq]
    rcases h2 with h2 | h2
    · exact h2
    · exact absurd (by rw [← h2]; simp) hn
  · intro h; exact parse_split h hn

/-- `unsplit_uri_ref` is the RFC 3986 5.3 recomposition. -/
theorem C02_unsplit_is_recompose (r : UriRef) : unsplitUriRef r = recompose r := (recompose_eq r).symm

/-- A well-formed tuple with an empty (not missing) query and a missing authority. -/
example : WellFormed ⟨some (s!! "urn"), none, s!! "a:b//c", some [], none⟩ :=
  ((C02_split_is_the_parse (s!! "urn:a:b//c?") (by decide) _).1 (by decide)).2

/-- The hypotheses matter: a path starting with "//" without authority does not survive. -/
theorem C02_needs_wellformed :
    splitUriRef (unsplitUriRef ⟨none, none, s!! "//a", none, none⟩) ≠ .ok ⟨none, none, s!! "//a", none, none⟩ := by
  decide

/-! ## C03: reference resolution -/

/-- C03 (partial). `absolutize(ref, base)` is the RFC 3986 5.2.2 resolution whenever
* the base has a grammatical scheme and is hierarchical (an authority, or a path starting with "/"),
* the reference is not of the form "?" / "?#frag" (empty path and *empty* query),
* if the reference has a scheme, its path has no dot segments.
What is missing: the three `C03_refuted_*` theorems show that each of these conditions is needed. -/
theorem C03_absolutize_rfc3986_partial (ref base : Str) (R B : UriRef)
    (hR : IsParse ref R) (hB : IsParse base B) (nR : '\n' ∉ ref) (nB : '\n' ∉ base)
    (hs : ∃ s, B.scheme = some s ∧ IsScheme s)
    (hh : B.authority ≠ none ∨ ∃ p, B.path = '/' :: p)
    (hq : ¬ (R.authority = none ∧ R.path = [] ∧ R.query = some []))
    (hdot : R.scheme ≠ none → NoDotSegments R.path) :
    absolutize ref base = .ok (recompose (transform R B)) :=
  absolutize_core ref base R B hR hB nR nB hs hq hdot hh

/-- The hypotheses hold for the running example of RFC 3986 5.4 and "../../../g". -/
example : ∃ R B, IsParse (s!! "../../../g?y#s") R ∧ IsParse (s!! "http://a/b/c/d;p?q") B ∧
    (∃ s, B.scheme = some s ∧ IsScheme s) ∧ B.authority ≠ none ∧
    ¬ (R.authority = none ∧ R.path = [] ∧ R.query = some []) ∧
    (R.scheme ≠ none → NoDotSegments R.path) ∧
    absolutize (s!! "../../../g?y#s") (s!! "http://a/b/c/d;p?q") = .ok (s!! "http://a/g?y#s") := by
  refine ⟨_, _, (C02_split_is_the_parse _ (by decide) _).1 (by decide : splitUriRef _ = .ok
      ⟨none, none, s!! "../../../g", some (s!! "y"), some (s!! "s")⟩),
    (C02_split_is_the_parse _ (by decide) _).1 (by decide : splitUriRef _ = .ok
      ⟨some (s!! "http"), some (s!! "a"), s!! "/b/c/d;p", some (s!! "q"), none⟩), ?_, by decide, by decide,
      fun h => absurd rfl h, by decide⟩
  exact ⟨_, rfl, 'h', s!! "ttp", rfl, by decide, by decide⟩

/-- C03 refuted (1): an empty query in the reference does not replace the base query. -/
theorem C03_refuted_empty_query :
    ∃ R B, IsParse (s!! "?") R ∧ IsParse (s!! "http://a/b?q") B ∧
      recompose (transform R B) = s!! "http://a/b?" ∧
      absolutize (s!! "?") (s!! "http://a/b?q") = .ok (s!! "http://a/b?q") := by
  refine ⟨_, _, (C02_split_is_the_parse _ (by decide) _).1 (by decide : splitUriRef _ = .ok
      ⟨none, none, [], some [], none⟩),
    (C02_split_is_the_parse _ (by decide) _).1 (by decide : splitUriRef _ = .ok
      ⟨some (s!! "http"), some (s!! "a"), s!! "/b", some (s!! "q"), none⟩), ?_, by decide⟩
  decide

/-- C03 refuted (2): dot segments in a reference with a scheme are not removed. -/
theorem C03_refuted_absolute_dots :
    ∃ R B, IsParse (s!! "http://a/b/../c") R ∧ IsParse (s!! "http://a/") B ∧
      recompose (transform R B) = s!! "http://a/c" ∧
      absolutize (s!! "http://a/b/../c") (s!! "http://a/") = .ok (s!! "http://a/b/../c") := by
  refine ⟨_, _, (C02_split_is_the_parse _ (by decide) _).1 (by decide : splitUriRef _ = .ok
      ⟨some (s!! "http"), some (s!! "a"), s!! "/b/../c", none, none⟩),
    (C02_split_is_the_parse _ (by decide) _).1 (by decide : splitUriRef _ = .ok
      ⟨some (s!! "http"), some (s!! "a"), s!! "/", none, none⟩), ?_, by decide⟩
  simp only [transform, Option.isSome_some, if_true]
  rw [← rds_rfc]
  decide

/-- C03 refuted (3): with a non-hierarchical base the merged path has no leading slash and
`remove_dot_segments` departs from RFC 3986 5.2.4. -/
theorem C03_refuted_rootless_base :
    ∃ R B, IsParse (s!! "x/../c") R ∧ IsParse (s!! "urn:a") B ∧
      recompose (transform R B) = s!! "urn:/c" ∧
      absolutize (s!! "x/../c") (s!! "urn:a") = .ok (s!! "urn:c") := by
  refine ⟨_, _, (C02_split_is_the_parse _ (by decide) _).1 (by decide : splitUriRef _ = .ok
      ⟨none, none, s!! "x/../c", none, none⟩),
    (C02_split_is_the_parse _ (by decide) _).1 (by decide : splitUriRef _ = .ok
      ⟨some (s!! "urn"), none, s!! "a", none, none⟩), ?_, by decide⟩
  have : Spec.removeDotSegments (s!! "x/../c") = s!! "/c" := by
    unfold Spec.removeDotSegments
    rw [rdsLoop]; simp [firstSegment]
    rw [rdsLoop]; simp [dropLastSegment]
    rw [rdsLoop]; simp [firstSegment]
    rw [rdsLoop]; simp
  simp [transform, Spec.merge, recompose, this]

/-- `absolutize` refuses a base without a scheme, for every relative reference. -/
theorem C03_relative_base_rejected (ref base : Str) (hr : ∀ s, ¬ (IsScheme s ∧ ∃ t, ref = s ++ ':' :: t))
    (hb : ∀ s, ¬ (IsScheme s ∧ ∃ t, base = s ++ ':' :: t)) :
    absolutize ref base = .error .relativeBaseUri := by
  have h : ∀ x : Str, (∀ s, ¬ (IsScheme s ∧ ∃ t, x = s ++ ':' :: t)) → isAbsolute x = false := by
    intro x hx
    unfold isAbsolute
    cases hg : getScheme x with
    | none => rfl
    | some s => exact absurd (getScheme_some.1 hg) (hx s)
  simp only [absolutize, h ref hr, h base hb, Bool.false_eq_true, if_false, Bool.not_false, or_true, if_true]
  rfl

example : absolutize (s!! "b") (s!! "/a") = .error .relativeBaseUri := by decide

/-! ## C04: remove_dot_segments -/

/-- C04. On every absolute path the result is that of the RFC 3986 5.2.4 loop. -/
theorem C04_remove_dot_segments_rfc (p : Str) :
    removeDotSegments ('/' :: p) = Spec.removeDotSegments ('/' :: p) := rds_rfc p

/-- C04. The result is an absolute path without dot segments. -/
theorem C04_no_dot_segments (p : Str) : NoDotSegments (removeDotSegments ('/' :: p)) ∧
    ∃ q, removeDotSegments ('/' :: p) = '/' :: q := by
  obtain ⟨q, h1, h2⟩ := rds_segments p
  refine ⟨?_, q, h1⟩
  rw [h1, noDots_iff]
  intro s hs
  simp only [Py.split, if_true] at hs
  rcases List.mem_cons.1 hs with rfl | hs
  · decide
  · rw [h2] at hs
    exact run_nodots _ [] (by simp) s (by simpa using hs)

/-- C04. Idempotence. -/
theorem C04_idempotent (p : Str) :
    removeDotSegments (removeDotSegments ('/' :: p)) = removeDotSegments ('/' :: p) := rds_idem p

/-- C04. A path without dot segments, absolute or not, is unchanged. -/
theorem C04_identity_on_normal (p : Str) (h : NoDotSegments p) : removeDotSegments p = p :=
  rds_id_rel (noDots_iff.1 h)

example : removeDotSegments (s!! "/a/b/c/./../../g") = s!! "/a/g" := by decide
example : NoDotSegments (s!! "/a//b.c/...") := noDots_iff.2 (by decide)

/-- The restriction to absolute paths is needed: on relative paths the function neither agrees with the
RFC loop nor is idempotent. -/
theorem C04_relative_refuted :
    removeDotSegments (s!! "a/../../b") = s!! "../b" ∧ removeDotSegments (s!! "../b") = s!! "b" := by decide

/-! ## C07: fragments -/

/-- C07. `split_fragment` cuts at the last '#', losing only that character. -/
theorem C07_split_fragment (uri : Str) :
    ('#' ∉ uri ∧ splitFragment uri = (uri, [])) ∨
    (∃ u f, uri = u ++ '#' :: f ∧ '#' ∉ f ∧ splitFragment uri = (u, f)) := by
  unfold splitFragment
  cases h : Py.rfind '#' uri with
  | none => exact Or.inl ⟨Py.rfind_none.1 h, rfl⟩
  | some i => exact Or.inr ⟨_, _, (Py.rfind_some h).1, (Py.rfind_some h).2, rfl⟩

/-- C07. `strip_fragment` on a reference with at most one '#' is the reference without its fragment
component. -/
theorem C07_strip_fragment (r : UriRef) (wf : WellFormed r) (h : ∀ f, r.fragment = some f → '#' ∉ f) :
    stripFragment (unsplitUriRef r) = unsplitUriRef { r with fragment := none } := by
  have htw := takeWhile_hash r wf
  have hnotin : '#' ∉ unsplitUriRef { r with fragment := none } := by
    rw [← htw]; intro hc; have := mem_takeWhile hc; simp at this
  have hsplit : unsplitUriRef r = unsplitUriRef { r with fragment := none } ++ pre (s!! "#") r.fragment := by
    rw [unsplit_eq, unsplit_eq]; simp [pre]
  unfold stripFragment
  rcases C07_split_fragment (unsplitUriRef r) with ⟨h1, h2⟩ | ⟨u, f, h1, h2, h3⟩
  · rw [h2]
    cases hf : r.fragment with
    | none => rw [hsplit, hf]; simp [pre]
    | some f => exfalso; apply h1; rw [hsplit, hf]; simp [pre]
  · rw [h3]
    cases hf : r.fragment with
    | none => exfalso; apply hnotin; rw [hf] at hsplit; simp [pre] at hsplit; rw [← hsplit, h1]; simp
    | some g =>
      rw [hsplit, hf] at h1
      simp only [pre, List.cons_append, List.nil_append] at h1
      -- both sides split at the only '#'
      have e1 := takeWhile_append_stop (p := fun c => decide (c ≠ '#')) (b := '#' :: g)
        (a := unsplitUriRef { r with fragment := none })
        (by intro x hx; simp; intro e; exact hnotin (e ▸ hx)) (by simp)
      have hu : '#' ∉ u := by
        intro hc
        -- count the '#'s
        have := congrArg (List.count '#') h1
        simp only [List.count_append, List.count_cons_self] at this
        have c1 : List.count '#' (unsplitUriRef { r with fragment := none }) = 0 := List.count_eq_zero.2 hnotin
        have c2 : List.count '#' g = 0 := List.count_eq_zero.2 (h g hf)
        have c3 : 0 < List.count '#' u := List.count_pos_iff.2 hc
        omega
      have e2 := takeWhile_append_stop (p := fun c => decide (c ≠ '#')) (b := '#' :: f) (a := u)
        (by intro x hx; simp; intro e; exact hu (e ▸ hx)) (by simp)
      rw [h1, e2] at e1
      simpa using e1

example : splitFragment (s!! "a#b#c") = (s!! "a#b", s!! "c") := by decide

/-! ## C10: absolute references -/

/-- C10. `get_scheme` returns exactly a grammatical scheme that is followed by ':'. -/
theorem C10_get_scheme (u s : Str) :
    getScheme u = some s ↔ IsScheme s ∧ ∃ rest, u = s ++ ':' :: rest := getScheme_some

/-- C10. `is_absolute` is true exactly when there is a grammatical scheme followed by ':'. -/
theorem C10_is_absolute (u : Str) :
    isAbsolute u = true ↔ ∃ s rest, IsScheme s ∧ u = s ++ ':' :: rest := by
  unfold isAbsolute
  rw [Option.isSome_iff_exists]
  constructor
  · rintro ⟨s, h⟩; obtain ⟨h1, r, h2⟩ := getScheme_some.1 h; exact ⟨s, r, h1, h2⟩
  · rintro ⟨s, r, h1, h2⟩; exact ⟨s, getScheme_some.2 ⟨h1, r, h2⟩⟩

/-- C10. For an absolute reference `get_scheme` agrees with `split_uri_ref`. -/
theorem C10_scheme_agrees (u s : Str) (t : UriRef) (h : getScheme u = some s) (ht : splitUriRef u = .ok t) :
    t.scheme = some s := by
  obtain ⟨h1, rest, h2⟩ := getScheme_some.1 h
  obtain ⟨s1, _, _, _, g1, _⟩ := splitUriRef_ok ht
  obtain ⟨d1, d2⟩ := isScheme_noDelim h1
  rw [h2, matchScheme_of d1 d2] at g1
  simp at g1; exact g1.1.symm

example : getScheme (s!! "x-1+a.b:c") = some (s!! "x-1+a.b") := by decide
example : getScheme (s!! "1a:c") = none ∧ (splitUriRef (s!! "1a:c")).map (·.scheme) = .ok (some (s!! "1a")) := by
  decide

end Verif.Iri
