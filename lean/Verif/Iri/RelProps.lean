import Verif.Iri.Relativize
import Verif.Iri.Props
/-
Property C06 (lib/lib/iri.py `relativize`).
-/
namespace Verif.Iri
open Spec

/-- `p` is `q`, or the leading whole segments of `q`. -/
def Spec.SegPrefix (p q : Str) : Prop := q = p ∨ ∃ r, q = p ++ '/' :: r

theorem segPrefix_of_prefix {a b : Str} (h : Py.split '/' a <+: Py.split '/' b) : SegPrefix a b := by
  obtain ⟨r, hr⟩ := h
  have e := Py.join_split '/' b
  rw [← hr] at e
  cases r with
  | nil => left; rw [List.append_nil, Py.join_split] at e; exact e.symm
  | cons x r =>
    right
    refine ⟨Py.join (s!! "/") (x :: r), ?_⟩
    have : '/' :: b = '/' :: (a ++ '/' :: Py.join (s!! "/") (x :: r)) := by
      rw [← e, slash_join (by simp), cat_append, ← slash_join (Py.split_ne_nil '/' a), Py.join_split,
        ← slash_join (l := x :: r) (by simp)]
      simp
    simpa using this

theorem getScheme_of_parse {t : Str} {T : UriRef} (hT : IsParse t T) {s : Str} (h : T.scheme = some s)
    (hs : IsScheme s) : getScheme t = some s :=
  getScheme_some.2 ⟨hs, pre (s!! "//") T.authority ++ (T.path ++ (pre (s!! "?") T.query ++ pre (s!! "#") T.fragment)), by
    rw [← hT.1, recompose_eq, unsplit_eq, h]; simp [post]⟩

theorem scheme_of_getScheme {t : Str} {T : UriRef} (hT : IsParse t T) (nT : '\n' ∉ t) (h : isAbsolute t = true) :
    ∃ s, T.scheme = some s ∧ IsScheme s := by
  unfold isAbsolute at h
  cases hg : getScheme t with
  | none => rw [hg] at h; cases h
  | some s =>
    obtain ⟨h1, rest, h2⟩ := getScheme_some.1 hg
    refine ⟨s, ?_, h1⟩
    obtain ⟨n1, n2⟩ := isScheme_noDelim h1
    have := parse_split hT nT
    unfold splitUriRef at this
    rw [h2, matchScheme_of n1 n2] at this
    simp only at this
    split at this
    · simp at this; rw [← this]
    · simp at this

/-- What `relativize` computes on absolute URIs whose paths start with a slash and have no dot segments. -/
theorem relativize_eq {t b : Str} {T B : UriRef} (hT : IsParse t T) (hB : IsParse b B)
    (nT : '\n' ∉ t) (nB : '\n' ∉ b) (aT : isAbsolute t = true) (aB : isAbsolute b = true)
    {tp ap : Str} (pT : T.path = '/' :: tp) (pB : B.path = '/' :: ap)
    (dT : NoDotSegments tp) (dB : NoDotSegments ap) (sub : Bool) :
    relativize t b sub = .ok (if T.scheme ≠ B.scheme ∨ T.authority ≠ B.authority then none else
      (relativePath T.path B.path sub).map (fun p => unsplitUriRef ⟨none, none, p, T.query, T.fragment⟩)) := by
  have key : ∀ {u : Str} {U : UriRef} {up : Str}, IsParse u U → '\n' ∉ u → U.path = '/' :: up → NoDotSegments up →
      normalizePathSegmentsInUri u = .ok u := by
    intro u U up hU nU pU dU
    unfold normalizePathSegmentsInUri
    rw [parse_split hU nU]
    have : normalizePathSegments U.path = U.path := by
      rw [pU]; unfold normalizePathSegments; rw [if_pos (by rfl), rds_id (noDots_iff.1 dU)]
    simp only [Except.map, this]
    rw [← hU.1, recompose_eq]
  have ab : ∀ {u : Str}, isAbsolute u = true → absolutize u u = .ok u := by
    intro u hu; unfold absolutize; rw [if_pos hu]; rfl
  unfold relativize
  rw [aT, aB, key hT nT pT dT, key hB nB pB dB]
  simp only [Bool.not_true, Bool.or_self, Bool.false_eq_true, if_false, bind, Except.bind, ab aT, ab aB,
    parse_split hT nT, parse_split hB nB]
  split
  · rfl
  · cases relativePath T.path B.path sub <;> rfl

theorem noDots_slash {p : Str} : NoDotSegments ('/' :: p) ↔ NoDotSegments p := by
  rw [noDots_iff, noDots_iff]
  have : Py.split '/' ('/' :: p) = [] :: Py.split '/' p := split_append_sep [] p
  rw [this]
  simp

theorem segPrefix_slash {a b : Str} : SegPrefix ('/' :: a) ('/' :: b) ↔ SegPrefix a b := by
  simp [SegPrefix]

theorem not_schemeLike_of_split {s : Str} {R : UriRef} (h : splitUriRef s = .ok R) (hs : R.scheme = none)
    (ha : R.authority = none) : (¬ SchemeLike s) ∧ ∀ p, s ≠ '/' :: '/' :: p := by
  unfold splitUriRef at h
  simp only at h
  split at h
  · simp at h
    rw [← h] at hs ha
    simp only at hs ha
    have h1 : ¬ SchemeLike s := by
      rintro ⟨x, y, rfl, hx, hc⟩
      rw [matchScheme_of hx hc] at hs; cases hs
    rw [matchScheme_of_not h1] at ha
    refine ⟨h1, ?_⟩
    rintro p rfl
    simp [matchAuthority] at ha
  · simp at h

theorem mem_join {c : Char} {sep : Str} : ∀ {l : List Str}, c ∈ Py.join sep l → c ∈ sep ∨ ∃ s, s ∈ l ∧ c ∈ s
  | [], h => by simp [Py.join] at h
  | [x], h => Or.inr ⟨x, by simp, by simpa [Py.join] using h⟩
  | x :: y :: l, h => by
    simp only [Py.join, List.mem_append] at h
    rcases h with (h | h) | h
    · exact Or.inr ⟨x, by simp, h⟩
    · exact Or.inl h
    · rcases mem_join h with h | ⟨s, h1, h2⟩
      · exact Or.inl h
      · exact Or.inr ⟨s, by simp [h1], h2⟩

/-- What `relativePath_spec` says about a relative path. -/
def RelShape (tp ap p : Str) : Prop :=
    p = '/' :: tp ∨
    ∃ (i k : Nat) (dot : Bool), (Py.split '/' tp).take i = (Py.split '/' ap).take i ∧ i < (Py.split '/' tp).length ∧
      i + 1 + k = (Py.split '/' ap).length ∧
      p = Py.join (s!! "/") (List.replicate k (s!! "..") ++ ((if dot then [s!! "."] else []) ++ (Py.split '/' tp).drop i)) ∧
      (p.head? = some '/' → i = 0 ∧ p = tp)

theorem relPath_chars {T : UriRef} {tp ap p : Str} (pT : T.path = '/' :: tp) (shape : RelShape tp ap p) :
    ∀ c ∈ p, c ∈ T.path ∨ c = '.' ∨ c = '/' := by
  rcases shape with rfl | ⟨i, k, dot, -, -, -, rfl, -⟩
  · intro c hc; rw [pT]; exact Or.inl hc
  · intro c hc
    rcases mem_join hc with hc | ⟨s, hs, hc⟩
    · simp at hc; exact Or.inr (Or.inr hc)
    · rw [List.mem_append, List.mem_append] at hs
      rcases hs with hs | hs | hs
      · rw [List.eq_of_mem_replicate hs] at hc; simp at hc; exact Or.inr (Or.inl hc)
      · cases dot
        · simp at hs
        · simp at hs; subst hs; simp at hc; exact Or.inr (Or.inl hc)
      · left; rw [pT]
        right
        exact mem_of_mem_split (List.drop_subset _ _ hs) hc

/-- C06 (partial). Whatever relative reference `relativize(target, base)` returns, resolving it against the
base gives the target back, provided the two paths are normalised and start with "/" (the target's with only one), neither is a
leading part (in whole segments) of the other, and the returned string really is a reference with a non-empty path
(not one that reads as a scheme, as an authority, or as an empty path).
What is missing: `C06_refuted_*` show that the code returns a wrong reference in each of the excluded cases. -/
theorem C06_relativize_inverse_partial (t b r : Str) (T B R : UriRef) (sub : Bool)
    (hT : IsParse t T) (hB : IsParse b B) (hR : IsParse r R)
    (nT : '\n' ∉ t) (nB : '\n' ∉ b)
    (pT : T.path.head? = some '/') (pB : B.path.head? = some '/')
    (p2 : ∀ x, T.path ≠ '/' :: '/' :: x)
    (dT : NoDotSegments T.path) (dB : NoDotSegments B.path)
    (s1 : ¬ SegPrefix T.path B.path) (s2 : ¬ SegPrefix B.path T.path)
    (hr : relativize t b sub = .ok (some r))
    (rS : R.scheme = none) (rA : R.authority = none) (rP : R.path ≠ []) :
    absolutize r b = .ok t := by
  obtain ⟨tp, pT⟩ : ∃ tp, T.path = '/' :: tp := by
    cases h : T.path with
    | nil => rw [h] at pT; cases pT
    | cons c x => rw [h] at pT; simp at pT; exact ⟨x, by rw [pT]⟩
  obtain ⟨ap, pB⟩ : ∃ tp, B.path = '/' :: tp := by
    cases h : B.path with
    | nil => rw [h] at pB; cases pB
    | cons c x => rw [h] at pB; simp at pB; exact ⟨x, by rw [pB]⟩
  rw [pT, noDots_slash] at dT
  rw [pB, noDots_slash] at dB
  rw [pT, pB, segPrefix_slash] at s1 s2
  -- both URIs are absolute, otherwise the result is `None`
  have habs : isAbsolute t = true ∧ isAbsolute b = true := by
    unfold relativize at hr
    cases h1 : isAbsolute t <;> cases h2 : isAbsolute b <;> simp [h1, h2] at hr ⊢
    all_goals cases hr
  obtain ⟨aT, aB⟩ := habs
  rw [relativize_eq hT hB nT nB aT aB pT pB dT dB] at hr
  simp only [Except.ok.injEq] at hr
  split at hr
  · cases hr
  rename_i hsame
  have e1 : T.scheme = B.scheme := Classical.byContradiction (fun h => hsame (Or.inl h))
  have e2 : T.authority = B.authority := Classical.byContradiction (fun h => hsame (Or.inr h))
  rw [Option.map_eq_some_iff] at hr
  obtain ⟨p, hp, hpr⟩ := hr
  have nq : ∀ q, T.query = some q → '\n' ∉ q := by
    intro q hq hn; apply nT; rw [← hT.1, recompose_eq, unsplit_eq, hq]; simp [pre, hn]
  have nf : ∀ q, T.fragment = some q → '\n' ∉ q := by
    intro q hq hn; apply nT; rw [← hT.1, recompose_eq, unsplit_eq, hq]; simp [pre, hn]
  have np : '\n' ∉ T.path := by
    intro hn; apply nT; rw [← hT.1, recompose_eq, unsplit_eq]; simp [hn]
  rw [pT, pB] at hp
  have shape := relativePath_spec hp (fun h => s2 (segPrefix_of_prefix h)) (fun h => s1 (segPrefix_of_prefix h))
  have pch := relPath_chars pT shape
  have nr : '\n' ∉ r := by
    rw [← hpr, unsplit_eq]
    simp only [post, pre, List.nil_append, List.mem_append, not_or]
    refine ⟨fun h => ?_, ?_, ?_⟩
    · rcases pch _ h with h | h | h
      · exact np h
      · revert h; decide
      · revert h; decide
    · cases hq : T.query with
      | none => simp
      | some q => simp [nq q hq]
    · cases hq : T.fragment with
      | none => simp
      | some q => simp [nf q hq]
  have sR := parse_split hR nr
  obtain ⟨ns, na⟩ := not_schemeLike_of_split sR rS rA
  have wf : WellFormed ⟨none, none, p, T.query, T.fragment⟩ := by
    refine ⟨by simp, by simp, ?_, fun q hq => hT.2.query_ok q hq, by simp, ?_, ?_⟩
    · intro c hc
      rcases pch c hc with h | h | h
      · exact hT.2.path_ok c h
      · subst h; decide
      · subst h; decide
    · rintro - x hx
      simp only at hx
      apply na (x ++ (pre (s!! "?") T.query ++ pre (s!! "#") T.fragment))
      rw [← hpr, unsplit_eq]; simp [post, pre, hx]
    · rintro - - ⟨x, y, hx, h1, h2⟩
      simp only at hx
      apply ns
      refine ⟨x, y ++ (pre (s!! "?") T.query ++ pre (s!! "#") T.fragment), ?_, h1, h2⟩
      rw [← hpr, unsplit_eq]; simp [post, pre, hx]
  have hR' : IsParse r ⟨none, none, p, T.query, T.fragment⟩ := ⟨by rw [recompose_eq]; exact hpr, wf⟩
  have hRe := parse_unique hR hR' nr
  subst hRe
  simp only at rP
  rw [absolutize_core r b _ B hR hB nr nB (scheme_of_getScheme hB nB aB) (by simp [rP]) (by simp)
    (Or.inr ⟨ap, pB⟩)]
  rw [← hT.1]
  congr 2
  unfold transform
  simp only [Option.isSome_none, Bool.false_eq_true, if_false, if_neg rP]
  have final : ∀ q : Str, q = T.path →
      (⟨B.scheme, B.authority, q, T.query, T.fragment⟩ : UriRef) = T := by
    rintro q rfl; rw [← e1, ← e2]
  split
  · rename_i hh
    apply final
    rcases shape with rfl | ⟨i, k, dot, -, -, -, -, h⟩
    · rw [← rds_rfc, rds_id (noDots_iff.1 dT), pT]
    · exfalso
      obtain ⟨-, h⟩ := h hh
      subst h
      cases p with
      | nil => simp at hh
      | cons c x => simp at hh; subst hh; exact p2 x pT
  · rename_i hh
    apply final
    rw [← merge_eq, merge_segs pB, ← rds_rfc, rds_abs]
    rcases shape with rfl | ⟨i, k, dot, h1, h2, h3, h4, -⟩
    · simp at hh
    · have hsp : Py.split '/' p = List.replicate k (s!! "..") ++ ((if dot then [s!! "."] else []) ++ (Py.split '/' tp).drop i) := by
        rw [h4]
        apply Py.split_join
        · simp; omega
        · intro s hs
          rw [List.mem_append, List.mem_append] at hs
          rcases hs with hs | hs | hs
          · rw [List.eq_of_mem_replicate hs]; decide
          · cases dot
            · simp at hs
            · simp at hs; subst hs; decide
          · exact Py.not_mem_of_mem_split (List.drop_subset _ _ hs)
      have hne : (Py.split '/' ap).dropLast ++ Py.split '/' p ≠ [] := by simp [Py.split_ne_nil]
      rw [Py.split_join hne, hsp, rel_run (noDots_iff.1 dB) (noDots_iff.1 dT) h1 h2 h3, ← slash_join (Py.split_ne_nil _ _),
        Py.join_split, pT]
      intro s hs
      rw [List.mem_append] at hs
      rcases hs with hs | hs
      · exact Py.not_mem_of_mem_split (List.dropLast_subset _ hs)
      · exact Py.not_mem_of_mem_split hs

theorem relativePath_total (tp ap : Str) : ∃ p, relativePath ('/' :: tp) ('/' :: ap) false = some p := by
  unfold relativePath
  simp only [List.head?_cons, reduceCtorEq, if_false, not_true_eq_false, and_self, and_false, if_true,
    List.tail_cons, decide_true]
  unfold relSegments
  simp only [Bool.false_eq_true, if_false]
  repeat' split
  all_goals exact ⟨_, rfl⟩

theorem head_slash {p : Str} (h : p.head? = some '/') : ∃ tp, p = '/' :: tp := by
  cases p with
  | nil => cases h
  | cons c x => simp at h; exact ⟨x, by rw [h]⟩

/-- C06 (partial), in terms of the inputs alone. Two absolute URIs with the same scheme and authority: if
their paths are normalised and start with "/", the target's path has no colon and does not begin
with "//", neither path is a leading part of the other in whole segments, and the target is not a directory containing
the base, then `relativize` finds a reference and resolving it gives the target back. -/
theorem C06_relativize_finds_partial (t b : Str) (T B : UriRef)
    (hT : IsParse t T) (hB : IsParse b B) (nT : '\n' ∉ t) (nB : '\n' ∉ b)
    (sB : ∃ s, B.scheme = some s ∧ IsScheme s)
    (e1 : T.scheme = B.scheme) (e2 : T.authority = B.authority)
    (pT : T.path.head? = some '/') (pB : B.path.head? = some '/')
    (p2 : ∀ x, T.path ≠ '/' :: '/' :: x) (pc : ':' ∉ T.path)
    (dT : NoDotSegments T.path) (dB : NoDotSegments B.path)
    (s1 : ¬ SegPrefix T.path B.path) (s2 : ¬ SegPrefix B.path T.path)
    (s3 : T.path.getLast? = some '/' → ¬ T.path <+: B.path) :
    ∃ r, relativize t b = .ok (some r) ∧ absolutize r b = .ok t := by
  obtain ⟨tp, hpT⟩ := head_slash pT
  obtain ⟨ap, hpB⟩ := head_slash pB
  obtain ⟨p, hp⟩ := relativePath_total tp ap
  obtain ⟨s, hs1, hs2⟩ := sB
  have aT : isAbsolute t = true := by simp [isAbsolute, getScheme_of_parse hT (e1.trans hs1) hs2]
  have aB : isAbsolute b = true := by simp [isAbsolute, getScheme_of_parse hB hs1 hs2]
  have dT' := dT
  have dB' := dB
  rw [hpT, noDots_slash] at dT'
  rw [hpB, noDots_slash] at dB'
  have s1' := s1
  have s2' := s2
  rw [hpT, hpB, segPrefix_slash] at s1' s2'
  have shape : RelShape tp ap p :=
    relativePath_spec hp (fun h => s2' (segPrefix_of_prefix h)) (fun h => s1' (segPrefix_of_prefix h))
  have hr : relativize t b false = .ok (some (unsplitUriRef ⟨none, none, p, T.query, T.fragment⟩)) := by
    rw [relativize_eq hT hB nT nB aT aB hpT hpB dT' dB', if_neg (by simp [e1, e2]), hpT, hpB, hp]; rfl
  have pch := relPath_chars hpT shape
  have hne : p ≠ [] := by
    rcases shape with rfl | ⟨i, k, dot, h1, h2, h3, h4, -⟩
    · simp
    · rintro rfl
      have hlist : Py.split '/' [] = List.replicate k (s!! "..") ++ ((if dot then [s!! "."] else []) ++ (Py.split '/' tp).drop i) := by
        refine (congrArg (Py.split '/') h4).trans (Py.split_join ?_ ?_)
        · simp; omega
        · intro s hs
          rw [List.mem_append, List.mem_append] at hs
          rcases hs with hs | hs | hs
          · rw [List.eq_of_mem_replicate hs]; decide
          · cases dot
            · simp at hs
            · simp at hs; subst hs; decide
          · exact Py.not_mem_of_mem_split (List.drop_subset _ _ hs)
      cases k with
      | succ k => simp [Py.split, List.replicate_succ] at hlist
      | zero =>
        cases dot with
        | true => simp [Py.split] at hlist
        | false =>
          simp [Py.split] at hlist
          have htp : Py.split '/' tp = (Py.split '/' tp).take i ++ [[]] := by
            rw [hlist, List.take_append_drop]
          have hT1 : T.path = cat ((Py.split '/' tp).take i) ++ ['/'] := by
            rw [hpT, ← Py.join_split '/' tp, slash_join (Py.split_ne_nil _ _)]
            conv => lhs; rw [htp]
            rw [cat_append, Py.join_split]; simp [cat]
          refine s3 (by rw [hT1]; simp) ?_
          have hap : Py.split '/' ap = (Py.split '/' ap).take i ++ (Py.split '/' ap).drop i := by
            rw [List.take_append_drop]
          have hd : (Py.split '/' ap).drop i ≠ [] := by simp; omega
          have hB1 : B.path = cat ((Py.split '/' ap).take i) ++ cat ((Py.split '/' ap).drop i) := by
            rw [hpB, ← Py.join_split '/' ap, slash_join (Py.split_ne_nil _ _)]
            conv => lhs; rw [hap]
            rw [cat_append]
            rw [Py.join_split]
          rw [hT1, hB1, h1]
          cases hx : (Py.split '/' ap).drop i with
          | nil => exact absurd hx hd
          | cons x xs => exact ⟨x ++ cat xs, by simp [cat]⟩
  have wf : WellFormed ⟨none, none, p, T.query, T.fragment⟩ := by
    refine ⟨by simp, by simp, ?_, fun q hq => hT.2.query_ok q hq, by simp, ?_, ?_⟩
    · intro c hc
      rcases pch c hc with h | h | h
      · exact hT.2.path_ok c h
      · subst h; decide
      · subst h; decide
    · rintro - x hx
      simp only at hx
      rcases shape with h | ⟨i, k, dot, -, -, -, -, h⟩
      · rw [hx] at h; simp at h; exact p2 x (by rw [hpT, ← h])
      · obtain ⟨-, h⟩ := h (by rw [hx]; rfl)
        rw [hx] at h
        exact p2 ('/' :: x) (by rw [hpT, ← h])
    · rintro - - ⟨x, y, hx, h1, h2⟩
      simp only at hx
      rcases pch ':' (by rw [hx]; simp) with h | h | h
      · exact pc h
      · revert h; decide
      · revert h; decide
  exact ⟨_, hr, C06_relativize_inverse_partial t b _ T B ⟨none, none, p, T.query, T.fragment⟩ false hT hB
    ⟨by rw [recompose_eq], wf⟩ nT nB pT pB p2 dT dB s1 s2 hr rfl rfl hne⟩

theorem parse_of {s : Str} {r : UriRef} (hn : '\n' ∉ s) (h : splitUriRef s = .ok r) : IsParse s r :=
  (C02_split_is_the_parse s hn r).1 h

/-- The hypotheses hold for a target in a neighbouring directory with a query and a fragment. -/
example : ∃ T B, IsParse (s!! "http://h/a/b/c?q#f") T ∧ IsParse (s!! "http://h/a/d/e/f") B ∧
    (∃ s, B.scheme = some s ∧ IsScheme s) ∧ T.scheme = B.scheme ∧ T.authority = B.authority ∧
    T.path = s!! "/a/b/c" ∧ B.path = s!! "/a/d/e/f" ∧ ':' ∉ T.path ∧
    NoDotSegments T.path ∧ NoDotSegments B.path ∧ ¬ SegPrefix T.path B.path ∧ ¬ SegPrefix B.path T.path ∧
    relativize (s!! "http://h/a/b/c?q#f") (s!! "http://h/a/d/e/f") = .ok (some (s!! "../../b/c?q#f")) := by
  refine ⟨_, _, parse_of (by decide) (by decide : splitUriRef _ = .ok
      ⟨some (s!! "http"), some (s!! "h"), s!! "/a/b/c", some (s!! "q"), some (s!! "f")⟩),
    parse_of (by decide) (by decide : splitUriRef _ = .ok
      ⟨some (s!! "http"), some (s!! "h"), s!! "/a/d/e/f", none, none⟩),
    ⟨_, rfl, 'h', s!! "ttp", rfl, by decide, by decide⟩, rfl, rfl, rfl, rfl, by decide,
    noDots_iff.2 (by decide), noDots_iff.2 (by decide), by simp [SegPrefix], by simp [SegPrefix], by decide⟩

/-- C06. Different scheme or authority: no relative reference is claimed. -/
theorem C06_other_authority (t b : Str) (T B : UriRef) (sub : Bool)
    (hT : IsParse t T) (hB : IsParse b B) (nT : '\n' ∉ t) (nB : '\n' ∉ b)
    (pT : T.path.head? = some '/') (pB : B.path.head? = some '/')
    (dT : NoDotSegments T.path) (dB : NoDotSegments B.path)
    (h : T.scheme ≠ B.scheme ∨ T.authority ≠ B.authority) : relativize t b sub = .ok none := by
  obtain ⟨tp, hpT⟩ := head_slash pT
  obtain ⟨ap, hpB⟩ := head_slash pB
  rw [hpT, noDots_slash] at dT
  rw [hpB, noDots_slash] at dB
  by_cases ha : isAbsolute t = true ∧ isAbsolute b = true
  · rw [relativize_eq hT hB nT nB ha.1 ha.2 hpT hpB dT dB, if_pos h]
  · unfold relativize
    cases h1 : isAbsolute t <;> cases h2 : isAbsolute b <;> simp [h1, h2] at ha ⊢ <;> rfl

/-- C06 refuted: the returned reference does not resolve to the target when
(1) the base is the target plus a query, (2) the target is a directory above the base, (3) the target is
the directory of the base, (4) the base is a leading part of the target, (5) the first differing segment has a colon,
(6) the target path begins with two slashes. -/
theorem C06_refuted :
    (relativize (s!! "http://a/b") (s!! "http://a/b?q") = .ok (some []) ∧
      absolutize [] (s!! "http://a/b?q") = .ok (s!! "http://a/b?q")) ∧
    (relativize (s!! "http://a/b") (s!! "http://a/b/c/d") = .ok (some (s!! "../")) ∧
      absolutize (s!! "../") (s!! "http://a/b/c/d") = .ok (s!! "http://a/b/")) ∧
    (relativize (s!! "http://a/b/") (s!! "http://a/b/c") = .ok (some []) ∧
      absolutize [] (s!! "http://a/b/c") = .ok (s!! "http://a/b/c")) ∧
    (relativize (s!! "http://a/b/c") (s!! "http://a/b") = .ok (some (s!! "c")) ∧
      absolutize (s!! "c") (s!! "http://a/b") = .ok (s!! "http://a/c")) ∧
    (relativize (s!! "http://a/x:y") (s!! "http://a/z") = .ok (some (s!! "x:y")) ∧
      absolutize (s!! "x:y") (s!! "http://a/z") = .ok (s!! "x:y")) ∧
    (relativize (s!! "http://a//x") (s!! "http://a/z") = .ok (some (s!! "/x")) ∧
      absolutize (s!! "/x") (s!! "http://a/z") = .ok (s!! "http://a/x")) := by decide

end Verif.Iri
