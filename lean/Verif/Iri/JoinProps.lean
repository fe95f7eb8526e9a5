import Verif.Iri.RelProps
import Verif.Iri.Props
/-
C103: `basejoin` and `join` (lib/lib/iri.py:1708-1762).
-/
namespace Verif.Iri
open Spec

/-! ### Specification -/

/-- A name to be joined: not empty, no delimiters, no dot segment. -/
def JoinName (n : Str) : Prop := n ≠ [] ∧ (∀ c ∈ n, c ∉ s!! ":/?#\n") ∧ n ≠ s!! "." ∧ n ≠ s!! ".."

/-- A segment of the base; it may contain colons. -/
def BaseSegment (n : Str) : Prop := n ≠ [] ∧ (∀ c ∈ n, c ∉ s!! "/?#\n") ∧ n ≠ s!! "." ∧ n ≠ s!! ".."

/-- Nothing, or scheme and authority. -/
def JoinRoot (root : Str) : Prop :=
  root = [] ∨ ∃ s a, root = s ++ (s!! "://" ++ a) ∧ IsScheme s ∧ a ≠ [] ∧ ∀ c ∈ a, c ∉ s!! "/?#\n"

/-- A slash before each name. -/
def slashed : List Str → Str
  | [] => []
  | n :: ns => '/' :: (n ++ slashed ns)

/-! ### Lemmas -/

theorem slashed_eq (ns : List Str) : slashed ns = cat ns := by
  induction ns with
  | nil => rfl
  | cons n ns ih => rw [cat_cons, slashed, ih]

theorem isAbsolute_of_none {t : Str} {T : UriRef} (hT : IsParse t T) (nT : '\n' ∉ t) (h : T.scheme = none) :
    isAbsolute t = false := by
  cases ha : isAbsolute t with
  | false => rfl
  | true =>
    have hx := scheme_of_getScheme hT nT ha
    rw [h] at hx
    simp at hx

theorem recompose_scheme (s : Str) (r : UriRef) (h : r.scheme = none) :
    recompose { r with scheme := some s } = s ++ ':' :: recompose r := by
  rw [recompose_eq, recompose_eq, unsplit_eq, unsplit_eq]
  simp [h, post]

theorem transform_scheme (R B : UriRef) (s : Str) (hR : R.scheme = none) (hB : B.scheme = none) :
    transform R { B with scheme := some s } = { transform R B with scheme := some s } ∧
      (transform R B).scheme = none := by
  unfold transform Spec.merge
  simp only [hR, hB, Option.isSome_none, Bool.false_eq_true, if_false]
  constructor
  · split
    · rfl
    · split
      · rfl
      · split <;> rfl
  · split
    · rfl
    · split
      · rfl
      · split <;> rfl

theorem isScheme_basejoin : IsScheme (s!! "basejoin") := ⟨'b', s!! "asejoin", rfl, by decide, by decide⟩

/-! ### C103 -/

/-- C103. A reference with a scheme of its own is the result, whatever the base. -/
theorem C103_own_scheme (base ref s t : Str) (hs : IsScheme s) (h : ref = s ++ ':' :: t) :
    basejoin base ref = .ok ref := by
  have ha : isAbsolute ref = true := by
    unfold isAbsolute
    rw [getScheme_some.2 ⟨hs, t, h⟩]; rfl
  have hr : ∀ b, absolutize ref b = .ok ref := by
    intro b
    unfold absolutize
    rw [if_pos ha]; rfl
  unfold basejoin
  split
  · exact hr base
  · simp only [hr]; rfl

/-- C103 (partial). With an absolute hierarchical base, `basejoin(base, ref)` is the RFC 3986 resolution, under the
conditions of C03. -/
theorem C103_absolute_partial (ref base : Str) (R B : UriRef)
    (hR : IsParse ref R) (hB : IsParse base B) (nR : '\n' ∉ ref) (nB : '\n' ∉ base)
    (hs : ∃ s, B.scheme = some s ∧ IsScheme s)
    (hh : B.authority ≠ none ∨ ∃ p, B.path = '/' :: p)
    (hq : ¬ (R.authority = none ∧ R.path = [] ∧ R.query = some []))
    (hdot : R.scheme ≠ none → NoDotSegments R.path) :
    basejoin base ref = .ok (recompose (transform R B)) := by
  have ha : isAbsolute base = true := by
    obtain ⟨s, h1, h2⟩ := hs
    unfold isAbsolute
    rw [getScheme_of_parse hB h1 h2]; rfl
  unfold basejoin
  rw [if_pos ha]
  exact C03_absolutize_rfc3986_partial ref base R B hR hB nR nB hs hh hq hdot

/-- C103 (partial). With a base that has no scheme but is hierarchical, and a reference without scheme, the result is
the RFC 3986 resolution as well, and has no scheme either. -/
theorem C103_relative_partial (ref base : Str) (R B : UriRef)
    (hR : IsParse ref R) (hB : IsParse base B) (nR : '\n' ∉ ref) (nB : '\n' ∉ base)
    (hs : B.scheme = none) (hr : R.scheme = none)
    (hh : B.authority ≠ none ∨ ∃ p, B.path = '/' :: p)
    (hq : ¬ (R.authority = none ∧ R.path = [] ∧ R.query = some [])) :
    basejoin base ref = .ok (recompose (transform R B)) ∧ (transform R B).scheme = none := by
  have ha := isAbsolute_of_none hB nB hs
  have hb := isAbsolute_of_none hR nR hr
  obtain ⟨t1, t2⟩ := transform_scheme R B (s!! "basejoin") hr hs
  have hB' : IsParse (s!! "basejoin:" ++ base) { B with scheme := some (s!! "basejoin") } := by
    refine ⟨?_, ?_⟩
    · rw [recompose_scheme _ _ hs, hB.1]; rfl
    · obtain ⟨_, w2, w3, w4, w5, w6, _⟩ := hB.2
      refine ⟨?_, w2, w3, w4, w5, w6, ?_⟩
      · intro s e; simp at e; subst e; decide
      · intro e; simp at e
  have hc := C03_absolutize_rfc3986_partial ref (s!! "basejoin:" ++ base) R _ hR hB' nR (by simpa using nB)
    ⟨_, rfl, isScheme_basejoin⟩ hh hq (fun h => absurd hr h)
  refine ⟨?_, t2⟩
  unfold basejoin
  rw [if_neg (by rw [ha]; decide), hc, hb, t1, recompose_scheme _ _ t2]
  rfl

example : basejoin (s!! "/a/b/c") (s!! "../d?e") = .ok (s!! "/a/d?e") ∧
    basejoin (s!! "http://h/a/b") (s!! "c") = .ok (s!! "http://h/a/c") ∧
    basejoin (s!! "/a") (s!! "x:y") = .ok (s!! "x:y") := by decide +kernel

theorem rstrip_base {x : Str} {k : Nat} (h : ∀ c, x.getLast? = some c → c ≠ '/') :
    ((x ++ List.replicate k '/').reverse.dropWhile (· = '/')).reverse = x := by
  have h1 : ∀ (k : Nat) (y : Str), (List.replicate k '/' ++ y).dropWhile (· = '/') = y.dropWhile (· = '/') := by
    intro k y
    induction k with
    | zero => rfl
    | succ k ih => rw [List.replicate_succ, List.cons_append, List.dropWhile_cons]; simpa using ih
  rw [List.reverse_append, List.reverse_replicate, h1]
  cases hx : x.reverse with
  | nil => have : x = [] := by simpa using hx
           subst this; rfl
  | cons c r =>
    have hc : c ≠ '/' := by
      apply h
      rw [List.getLast?_eq_head?_reverse, hx]; rfl
    rw [List.dropWhile_cons]
    simp only [hc, decide_false, Bool.false_eq_true, if_false]
    rw [← hx, List.reverse_reverse]

theorem last_append {x y : Str} (h : y ≠ []) : (x ++ y).getLast? = y.getLast? := by
  rw [List.getLast?_append, List.getLast?_eq_some_getLast h]; rfl

theorem last_root {root : Str} (hr : JoinRoot root) (ns : List Str) (h : ∀ n ∈ ns, BaseSegment n) :
    ∀ c, (root ++ cat ns).getLast? = some c → c ≠ '/' := by
  intro c hc
  rcases List.eq_nil_or_concat ns with rfl | ⟨ms, n, rfl⟩
  · rcases hr with rfl | ⟨s, a, rfl, _, h0, ha⟩
    · simp [cat] at hc
    · rw [cat_nil, List.append_nil, ← List.append_assoc, last_append h0] at hc
      have := ha c (List.mem_of_getLast? hc)
      rintro rfl; exact this (by decide)
  · have hn := h n (by simp)
    have e : root ++ cat (ms.concat n) = (root ++ cat ms ++ ['/']) ++ n := by simp [cat]
    rw [e, last_append hn.1] at hc
    have := hn.2.1 c (List.mem_of_getLast? hc)
    rintro rfl; exact this (by decide)

theorem name_parse {n : Str} (h : JoinName n) : IsParse n ⟨none, none, n, none, none⟩ ∧ '\n' ∉ n := by
  have hx : ∀ c ∈ s!! ":/?#\n", c ∉ n := fun c hc hn => h.2.1 c hn hc
  refine ⟨⟨by simp [recompose], ?_, ?_, ?_, ?_, ?_, ?_, ?_⟩, hx _ (by decide)⟩
  · simp
  · simp
  · intro c hc hm
    exact h.2.1 c hc (by simp at hm ⊢; rcases hm with h | h <;> simp [h])
  · simp
  · simp
  · rintro _ p rfl; exact hx '/' (by decide) (by simp)
  · rintro _ _ ⟨a, b, e, _⟩
    have e : n = a ++ ':' :: b := e
    exact hx ':' (by decide) (by rw [e]; simp)

theorem cat_mem {c : Char} {ns : List Str} (h : c ∈ cat ns) : c = '/' ∨ ∃ n ∈ ns, c ∈ n := by
  simp only [cat, List.mem_flatMap] at h
  obtain ⟨n, hn, hc⟩ := h
  rcases List.mem_cons.1 hc with h | h
  · exact Or.inl h
  · exact Or.inr ⟨n, hn, h⟩

theorem cat_slash_noauth {ns : List Str} (h : ∀ n ∈ ns, BaseSegment n) : ∀ p, cat ns ++ s!! "/" ≠ '/' :: '/' :: p := by
  intro p e
  cases ns with
  | nil => simp [cat] at e
  | cons n ns =>
    have hn := h n (by simp)
    rw [cat_cons] at e
    cases n with
    | nil => exact hn.1 rfl
    | cons c n => simp at e; exact hn.2.1 c (by simp) (by rw [e.1]; decide)

/-- One step of `join`. -/
theorem join_step {root : Str} (hr : JoinRoot root) {ns : List Str} (h : ∀ n ∈ ns, BaseSegment n) {n : Str}
    (hn : JoinName n) : basejoin (root ++ cat ns ++ s!! "/") n = .ok (root ++ cat (ns ++ [n])) := by
  obtain ⟨hp, np⟩ := name_parse hn
  have hpath : ∀ c ∈ cat ns ++ s!! "/", c ∉ s!! "?#\n" := by
    intro c hc hm
    rcases List.mem_append.1 hc with hc | hc
    · rcases cat_mem hc with rfl | ⟨x, hx, hc⟩
      · revert hm; decide
      · exact (h x hx).2.1 c hc (by simp at hm ⊢; rcases hm with h | h | h <;> simp [h])
    · simp at hc; subst hc; revert hm; decide
  have hq : ¬ ((⟨none, none, n, none, none⟩ : UriRef).authority = none ∧ n = [] ∧ (none : Option Str) = some []) := by simp
  have hrds : ∀ (a : Option Str), Spec.removeDotSegments (Spec.merge ⟨none, a, cat ns ++ s!! "/", none, none⟩ n) =
      cat (ns ++ [n]) := by
    intro a
    have e1 : Spec.merge ⟨none, a, cat ns ++ s!! "/", none, none⟩ n = cat (ns ++ [n]) := by
      simp [Spec.merge, cat]
    rw [e1]
    have hall : ∀ x ∈ ns ++ [n], '/' ∉ x ∧ x ≠ s!! "." ∧ x ≠ s!! ".." := by
      intro x hx
      rcases List.mem_append.1 hx with hx | hx
      · exact ⟨fun hc => (h x hx).2.1 _ hc (by decide), (h x hx).2.2⟩
      · simp at hx; subst hx
        exact ⟨fun hc => hn.2.1 _ hc (by decide), hn.2.2⟩
    have hne : ns ++ [n] ≠ [] := by simp
    rw [← slash_join hne, ← rds_rfc, rds_id]
    rw [Py.split_join hne (fun x hx => (hall x hx).1)]
    exact fun x hx => (hall x hx).2
  have hh : ∃ p, cat ns ++ s!! "/" = '/' :: p := by
    cases ns with
    | nil => exact ⟨[], rfl⟩
    | cons m ms => exact ⟨_, by rw [cat_cons]; rfl⟩
  have hhead : n.head? ≠ some '/' := by
    cases n with
    | nil => simp
    | cons c r => simp; rintro rfl; exact hn.2.1 '/' List.mem_cons_self (by decide)
  rcases hr with rfl | ⟨s, a, rfl, hs, h0, ha⟩
  · have hB : IsParse (cat ns ++ s!! "/") ⟨none, none, cat ns ++ s!! "/", none, none⟩ := by
      refine ⟨by simp [recompose], ?_, ?_, ?_, ?_, ?_, ?_, ?_⟩
      · simp
      · simp
      · intro c hc hm; exact hpath c hc (by simp at hm ⊢; rcases hm with h | h <;> simp [h])
      · simp
      · simp
      · intro _; exact cat_slash_noauth h
      · rintro _ _ ⟨x, b, e, hx, hc⟩
        obtain ⟨p, e2⟩ := hh
        have e : cat ns ++ s!! "/" = x ++ ':' :: b := e
        rw [e2] at e
        cases x with
        | nil => exact hx rfl
        | cons y x => simp at e; exact hc y (by simp) (by rw [← e.1]; decide)
    have := (C103_relative_partial n _ _ _ hp hB np (fun hc => hpath _ hc (by decide)) rfl rfl (Or.inr hh) hq).1
    rw [List.nil_append, this]
    have e := hrds none
    simp only [transform, Option.isSome_none, Bool.false_eq_true, if_false, hn.1, hhead, e]
    simp [recompose]
  · have hB : IsParse (s ++ (s!! "://" ++ a) ++ cat ns ++ s!! "/") ⟨some s, some a, cat ns ++ s!! "/", none, none⟩ := by
      refine ⟨by simp [recompose], ?_, ?_, ?_, ?_, ?_, ?_, ?_⟩
      · intro x e; simp at e; subst e; exact isScheme_noDelim hs
      · intro x e; simp at e; subst e
        intro c hc hm; exact ha c hc (by simp at hm ⊢; rcases hm with h | h | h <;> simp [h])
      · intro c hc hm; exact hpath c hc (by simp at hm ⊢; rcases hm with h | h <;> simp [h])
      · simp
      · intro _; exact Or.inr hh
      · simp
      · simp
    have nB : '\n' ∉ s ++ (s!! "://" ++ a) ++ cat ns ++ s!! "/" := by
      intro hc
      rw [List.append_assoc, List.append_assoc] at hc
      rcases List.mem_append.1 hc with hc | hc
      · obtain ⟨c, r, rfl, hc1, hc2⟩ := hs
        rcases List.mem_cons.1 hc with rfl | hc
        · revert hc1; decide
        · have := hc2 _ hc; revert this; decide
      · rcases List.mem_append.1 hc with hc | hc
        · rcases List.mem_append.1 hc with hc | hc
          · revert hc; decide
          · exact ha _ hc (by decide)
        · exact hpath _ hc (by decide)
    have := C103_absolute_partial n _ _ _ hp hB np nB ⟨s, rfl, hs⟩ (Or.inr hh) hq (by simp)
    rw [this]
    have e : Spec.removeDotSegments (Spec.merge ⟨some s, some a, cat ns ++ s!! "/", none, none⟩ n) = cat (ns ++ [n]) :=
      hrds (some a)
    simp only [transform, Option.isSome_none, Bool.false_eq_true, if_false, hn.1, hhead, e]
    simp [recompose]

/-- C103. `join(base, n1, …, nk)` for plain names is the base without its slashes at the end, followed by the names with a
slash before each. -/
theorem C103_join (root : Str) (segs : List Str) (k : Nat) (names : List Str) (hr : JoinRoot root)
    (hb : ∀ n ∈ segs, BaseSegment n) (hn : ∀ n ∈ names, JoinName n) (h0 : names ≠ []) :
    joinUris (root ++ slashed segs ++ List.replicate k '/') names = .ok (root ++ slashed (segs ++ names)) := by
  rw [slashed_eq, slashed_eq]
  induction names generalizing segs k with
  | nil => exact absurd rfl h0
  | cons n ns ih =>
    have hj := hn n (by simp)
    have hstep := join_step hr hb hj
    unfold joinUris
    rw [List.foldlM_cons, rstrip_base (last_root hr segs hb), hstep]
    have hb' : ∀ m ∈ segs ++ [n], BaseSegment m := by
      intro m hm
      rcases List.mem_append.1 hm with hm | hm
      · exact hb m hm
      · simp at hm; subst hm
        exact ⟨hj.1, fun c hc hx => hj.2.1 c hc (by simp at hx ⊢; rcases hx with h | h | h | h <;> simp [h]), hj.2.2⟩
    cases ns with
    | nil => rfl
    | cons m ms =>
      have := ih (segs ++ [n]) 0 hb' (fun x hx => hn x (by simp [hx])) (by simp)
      simp only [List.replicate_zero, List.append_nil, List.append_assoc, List.cons_append, List.nil_append] at this
      exact this

example : joinUris (s!! "http://h/a//") [s!! "b", s!! "c"] = .ok (s!! "http://h/a/b/c") := by decide +kernel
example : JoinRoot (s!! "http://h") ∧ BaseSegment (s!! "a:1") ∧ JoinName (s!! "b") :=
  ⟨Or.inr ⟨s!! "http", s!! "h", rfl, ⟨'h', s!! "ttp", rfl, by decide, by decide⟩, by decide, by decide⟩,
    ⟨by decide, by decide, by decide, by decide⟩, ⟨by decide, by decide, by decide, by decide⟩⟩

/-- C103 refuted, "if neither argument has a scheme component, the result won't have one": "./a:b" against "x". -/
theorem C103_refuted_scheme : isAbsolute (s!! "x") = false ∧ isAbsolute (s!! "./a:b") = false ∧
    basejoin (s!! "x") (s!! "./a:b") = .ok (s!! "a:b") ∧ isAbsolute (s!! "a:b") = true := by decide +kernel

/-- C103 refuted for an empty authority: the slashes that `join` strips from "file:///" are those of the authority. -/
theorem C103_refuted_file : joinUris (s!! "file:///") [s!! "etc"] = .ok (s!! "file:/etc") := by decide +kernel

/-- C103 refuted for a base with a query: the slash is put after the query, so the last segment of the base is
replaced instead of extended. -/
theorem C103_refuted_query : joinUris (s!! "http://h/a?q") [s!! "b"] = .ok (s!! "http://h/b") := by decide +kernel

end Verif.Iri
