import Verif.Iri.Rds
/- Lemmas about `absolutize`, `get_scheme`. -/
namespace Verif.Iri
open Spec

theorem isAlpha_iff (c : Char) : isAlpha c = true ↔
    (c.toNat ∈ List.range' 65 26 ∨ c.toNat ∈ List.range' 97 26) := by
  simp only [isAlpha, Bool.or_eq_true, Bool.and_eq_true, decide_eq_true_eq, List.mem_range'_1,
    Char.le_def, UInt32.le_iff_toNat_le, Char.toNat]
  have : ('a' : Char).val.toNat = 97 := rfl
  have : ('z' : Char).val.toNat = 122 := rfl
  have : ('A' : Char).val.toNat = 65 := rfl
  have : ('Z' : Char).val.toNat = 90 := rfl
  omega

theorem isDigit_iff (c : Char) : isDigit c = true ↔ c.toNat ∈ List.range' 48 10 := by
  simp only [isDigit, Bool.and_eq_true, decide_eq_true_eq, List.mem_range'_1,
    Char.le_def, UInt32.le_iff_toNat_le, Char.toNat]
  have : ('0' : Char).val.toNat = 48 := rfl
  have : ('9' : Char).val.toNat = 57 := rfl
  omega

theorem isSchemeChar_iff (d : Char) : isSchemeChar d = true ↔
    ((d.toNat ∈ List.range' 65 26 ∨ d.toNat ∈ List.range' 97 26) ∨
      d.toNat ∈ List.range' 48 10 ∨ d ∈ s!! "+-.") := by
  simp only [isSchemeChar, Bool.or_eq_true, isAlpha_iff, isDigit_iff, decide_eq_true_eq,
    List.mem_cons, List.not_mem_nil, or_false]
  constructor
  · rintro (((((h | h) | h) | h) | h) | h) <;> simp [h]
  · rintro ((h | h) | h | h | h | h) <;> simp [h]

theorem getScheme_some {s sch : Str} : getScheme s = some sch ↔
    IsScheme sch ∧ ∃ rest, s = sch ++ ':' :: rest := by
  constructor
  · intro h
    unfold getScheme at h
    split at h
    · simp at h
    · rename_i c rest
      split at h
      · rename_i hc
        split at h
        · rename_i t ht
          simp at h
          subst h
          refine ⟨⟨c, _, rfl, (isAlpha_iff c).1 hc, fun d hd => (isSchemeChar_iff d).1 (mem_takeWhile hd)⟩, t, ?_⟩
          rw [← ht]; simp
        · simp at h
      · simp at h
  · rintro ⟨⟨c, r, rfl, h1, h2⟩, rest, rfl⟩
    have hr : ∀ x ∈ r, isSchemeChar x = true := fun x hx => (isSchemeChar_iff x).2 (h2 x hx)
    have hs : ∀ x, (':' :: rest).head? = some x → isSchemeChar x = false := by
      intro x hx; simp at hx; subst hx; decide
    unfold getScheme
    simp only [List.cons_append, (isAlpha_iff c).2 h1, if_true,
      takeWhile_append_stop hr hs, dropWhile_append_stop hr hs]

theorem isScheme_noDelim {sch : Str} (h : IsScheme sch) : sch ≠ [] ∧ ∀ c ∈ sch, c ∉ s!! ":/?#" := by
  obtain ⟨c, r, rfl, h1, h2⟩ := h
  refine ⟨by simp, ?_⟩
  have key : ∀ d : Char, isSchemeChar d = true → d ∉ s!! ":/?#" := by
    intro d hd hm
    simp only [List.mem_cons, List.not_mem_nil, or_false] at hm
    rcases hm with rfl | rfl | rfl | rfl <;> revert hd <;> decide
  intro d hd
  rcases List.mem_cons.1 hd with rfl | hd
  · exact key _ ((isSchemeChar_iff _).2 (Or.inl h1))
  · exact key _ ((isSchemeChar_iff _).2 (h2 d hd))

theorem parse_split {s : Str} {r : UriRef} (h : IsParse s r) (hn : '\n' ∉ s) :
    splitUriRef s = .ok r := by
  obtain ⟨h1, h2⟩ := h
  rw [← h1, recompose_eq]
  apply split_unsplit h2
  intro f hf hc
  apply hn
  rw [← h1, recompose_eq, unsplit_eq, hf]
  simp [pre, hc]

theorem parse_unique {s : Str} {r r' : UriRef} (h : IsParse s r) (h' : IsParse s r') (hn : '\n' ∉ s) :
    r = r' := by
  have := parse_split h hn
  rw [parse_split h' hn] at this
  simpa using this.symm

theorem rds_id_rel {p : Str} (hp : ∀ s ∈ Py.split '/' p, s ≠ s!! "." ∧ s ≠ s!! "..") :
    removeDotSegments p = p := by
  match p, hp with
  | '/' :: q, hp =>
    apply rds_id
    intro s hs
    exact hp s (by simp [Py.split, hs])
  | [], _ => decide
  | c :: q, hp =>
    by_cases hc : c = '/'
    · subst hc
      apply rds_id
      intro s hs
      exact hp s (by simp [Py.split, hs])
    · have hstart : ∀ d : Str, '/' ∉ d → (∃ r, c :: q = d ++ r ∧ (r = [] ∨ r.head? = some '/')) →
          d ∈ Py.split '/' (c :: q) := by
        rintro d hd ⟨r, hr, hr2⟩
        apply segmentOf_iff.1
        exact ⟨[], r, by simpa using hr, hd, Or.inl rfl, hr2⟩
      have n1 : ¬ (c :: q = s!! "." ∨ c :: q = s!! "..") := by
        rintro (h | h)
        · exact (hp _ (hstart (s!! ".") (by decide) ⟨[], by simpa using h, by simp⟩)).1 rfl
        · exact (hp _ (hstart (s!! "..") (by decide) ⟨[], by simpa using h, by simp⟩)).2 rfl
      have n2 : stripDotPrefix (c :: q) = c :: q := by
        unfold stripDotPrefix
        split
        · rename_i rest he
          exact absurd rfl (hp _ (hstart (s!! ".") (by decide) ⟨'/' :: rest, by simpa using he, by simp⟩)).1
        · rename_i rest he
          exact absurd rfl (hp _ (hstart (s!! "..") (by decide) ⟨'/' :: rest, by simpa using he, by simp⟩)).2
        · rfl
      have n3 : trimTrailingSlashDot (c :: q) = c :: q := by
        unfold trimTrailingSlashDot
        split
        · rename_i h
          exfalso
          have : s!! "." ∈ Py.split '/' (c :: q) := by
            apply segmentOf_iff.1
            refine ⟨(c :: q).take ((c :: q).length - 2) ++ ['/'], [], ?_, by decide, by simp, by simp⟩
            conv => lhs; rw [← List.take_append_drop ((c :: q).length - 2) (c :: q), h]
            simp
          exact (hp _ this).1 rfl
        · rfl
      have n4 : ∀ (segs ks : List Str), (∀ s ∈ segs, s ≠ s!! "." ∧ s ≠ s!! "..") →
          keepSegments false segs ks = segs.reverse ++ ks := by
        intro segs
        induction segs with
        | nil => intro ks _; simp [keepSegments]
        | cons seg segs ih =>
          intro ks h
          obtain ⟨h1, h2⟩ := h seg (by simp)
          unfold keepSegments
          rw [if_neg h2, if_pos h1, ih _ (fun s hs => h s (by simp [hs]))]
          simp
      unfold removeDotSegments
      simp only [n1, if_false, n2]
      have : ¬ (c :: q).head? = some '/' := by simpa using hc
      simp only [this, if_false, decide_false, n3, n4 _ _ hp, List.append_nil, List.reverse_reverse,
        List.nil_append]
      exact Py.join_split '/' (c :: q)

theorem spec_rds_id_rel {p : Str} (hp : ∀ s ∈ Py.split '/' p, s ≠ s!! "." ∧ s ≠ s!! "..") :
    Spec.removeDotSegments p = p := by
  by_cases hs : ∃ q, p = '/' :: q
  · obtain ⟨q, rfl⟩ := hs
    rw [← rds_rfc]
    apply rds_id
    intro s hs
    exact hp s (by simp [Py.split, hs])
  · cases p with
    | nil => simp [Spec.removeDotSegments, rdsLoop_nil]
    | cons c q =>
      have hc : c ≠ '/' := fun e => hs ⟨q, by rw [e]⟩
      have hne := Py.split_ne_nil '/' (c :: q)
      cases hsp : Py.split '/' (c :: q) with
      | nil => exact absurd hsp hne
      | cons seg segs =>
        have hj := Py.join_split '/' (c :: q)
        rw [hsp] at hj hp
        have hns : ∀ s ∈ seg :: segs, '/' ∉ s := by rw [← hsp]; exact fun s h => Py.not_mem_of_mem_split h
        have hcat : c :: q = seg ++ cat segs := by
          have := slash_join (l := seg :: segs) (by simp)
          rw [hj, cat_cons] at this
          simpa using this
        obtain ⟨hd1, hd2⟩ := hp seg (by simp)
        cases seg with
        | nil =>
          simp at hcat
          rcases cat_head segs with h | h
          · rw [h] at hcat; simp at hcat
          · rw [← hcat] at h; simp at h; exact absurd h hc
        | cons x xs =>
          simp at hcat
          obtain ⟨hx, hq⟩ := hcat
          subst hx
          have hw : ∀ y ∈ c :: xs, decide (y ≠ '/') = true := by
            intro y hy; simp; intro e; exact hns (c :: xs) (by simp) (e ▸ hy)
          have hw2 : ∀ y, (cat segs).head? = some y → decide (y ≠ '/') = false := by
            intro y hy
            rcases cat_head segs with hr | hr
            · simp [hr] at hy
            · rw [hr] at hy; simp at hy; simp [← hy]
          have htw : (c :: q).takeWhile (· ≠ '/') = c :: xs := by
            have := takeWhile_append_stop hw hw2
            rw [List.cons_append, ← hq] at this
            exact this
          have npre : ∀ d : Str, '/' ∉ d → c :: xs ≠ d → ¬ (d ++ ['/']).isPrefixOf (c :: q) = true := by
            intro d hd hne h
            obtain ⟨t, ht⟩ := List.isPrefixOf_iff_prefix.1 h
            have h1 : ∀ y ∈ d, decide (y ≠ '/') = true := by
              intro y hy; simp; intro e; exact hd (e ▸ hy)
            have := takeWhile_append_stop (b := '/' :: t) h1 (by simp)
            rw [← ht] at htw
            simp only [List.append_assoc, List.singleton_append] at htw
            exact hne (by rw [← htw]; exact this)
          have neq : ∀ d : Str, '/' ∉ d → c :: xs ≠ d → c :: q ≠ d := by
            intro d hd hne h
            have : (c :: q).takeWhile (· ≠ '/') = d := by
              rw [h]
              have h1 : ∀ y ∈ d, decide (y ≠ '/') = true := by
                intro y hy; simp; intro e; exact hd (e ▸ hy)
              have := takeWhile_append_stop (b := []) h1 (by simp)
              simpa using this
            exact hne (by rw [← htw, this])
          have hslash : ∀ d : Str, ¬ ('/' :: d).isPrefixOf (c :: q) = true := by
            intro d h
            simp [List.isPrefixOf] at h
            exact hc h.1.symm
          have hslash2 : ∀ d : Str, c :: q ≠ '/' :: d := by
            intro d h; simp at h; exact hc h.1
          unfold Spec.removeDotSegments
          rw [rdsLoop]
          have f1 := npre (s!! "..") (by decide) hd2
          have f2 := npre (s!! ".") (by decide) hd1
          have f3 := hslash (s!! "./")
          have f4 := hslash2 (s!! ".")
          have f5 := hslash (s!! "../")
          have f6 := hslash2 (s!! "..")
          have f7 : ¬ (c :: q = s!! "." ∨ c :: q = s!! "..") := by
            rintro (h | h)
            · exact neq _ (by decide) hd1 h
            · exact neq _ (by decide) hd2 h
          have hf : firstSegment (c :: q) = c :: xs := by
            rw [← htw]; simp [firstSegment, hc]
          simp only [List.cons_append, List.nil_append] at f1 f2
          simp only [f1, f2, f3, f4, f5, f6, f7, if_false, reduceCtorEq, hf, List.nil_append]
          have hdrop : (c :: q).drop (c :: xs).length = cat segs := by
            rw [hq]; simp
          rw [hdrop]
          -- continue with the remaining segments
          have key : ∀ (segs : List Str) (out : Str), (∀ s ∈ segs, s ≠ s!! "." ∧ s ≠ s!! "..") →
              (∀ s ∈ segs, '/' ∉ s) → rdsLoop (cat segs) out = out ++ cat segs := by
            intro segs
            induction segs with
            | nil => intro out _ _; simp [cat_nil, rdsLoop_nil]
            | cons s ss ih =>
              intro out h1 h2
              rw [rdsLoop_step s ss out (h2 s (by simp)), if_neg (h1 s (by simp)).2,
                if_neg (h1 s (by simp)).1, ih _ (fun t ht => h1 t (by simp [ht]))
                (fun t ht => h2 t (by simp [ht])), cat_cons]
              simp
          rw [key segs _ (fun t ht => hp t (by simp [ht])) (fun t ht => hns t (by simp [ht])), hq]
          simp

theorem merge_eq (b : UriRef) (rp : Str) : mergePath b rp = Spec.merge b rp := by
  unfold Spec.merge mergePath
  by_cases h : b.authority ≠ none ∧ b.path = []
  · rw [if_pos h, if_pos ⟨by simpa [Option.isSome_iff_ne_none] using h.1, h.2⟩]
  · rw [if_neg h, if_neg (by simpa [Option.isSome_iff_ne_none] using h)]
    cases hr : Py.rfind '/' b.path with
    | none =>
      have := Py.rfind_none.1 hr
      have h1 : ∀ x ∈ b.path.reverse, decide (x ≠ '/') = true := by
        intro x hx; simp at hx ⊢; intro e; exact this (e ▸ hx)
      have := dropWhile_append_stop (b := []) h1 (by simp)
      simp only [List.append_nil] at this
      simp only [this, List.reverse_nil, List.nil_append]
    | some i =>
      obtain ⟨h1, h2⟩ := Py.rfind_some hr
      have h3 : ∀ x ∈ (b.path.drop (i + 1)).reverse, decide (x ≠ '/') = true := by
        intro x hx; simp only [List.mem_reverse] at hx; simp; intro e; exact h2 (e ▸ hx)
      have e1 : b.path.reverse = (b.path.drop (i + 1)).reverse ++ ('/' :: (b.path.take i).reverse) := by
        conv => lhs; rw [h1]
        simp
      have h4 : (b.path.reverse.dropWhile (· ≠ '/')) = '/' :: (b.path.take i).reverse := by
        rw [e1]; exact dropWhile_append_stop h3 (by simp)
      rw [h4]
      simp only [List.reverse_cons, List.reverse_reverse]
      have hlt : i < b.path.length := by
        have := congrArg List.length h1
        simp at this
        omega
      have : b.path[i]? = some '/' := by
        conv => lhs; rw [h1]
        rw [List.getElem?_append_right (by simp; omega)]
        simp [Nat.min_eq_left (Nat.le_of_lt hlt)]
      simp [List.take_add_one, this]

theorem takeWhile_hash (b : UriRef) (hb : WellFormed b) :
    (unsplitUriRef b).takeWhile (· ≠ '#') = unsplitUriRef { b with fragment := none } := by
  rw [unsplit_eq, unsplit_eq]
  simp only [pre, List.append_nil]
  have hno : ∀ c ∈ post (s!! ":") b.scheme ++ (pre (s!! "//") b.authority ++ (b.path ++ pre (s!! "?") b.query)),
      decide (c ≠ '#') = true := by
    intro c hc
    simp only [ne_eq, decide_eq_true_eq]
    intro e
    subst e
    simp only [List.mem_append] at hc
    rcases hc with h | h | h | h
    · cases hs : b.scheme with
      | none => simp [hs, post] at h
      | some s =>
        simp [hs, post] at h
        have := (hb.scheme_ok s hs).2 '#' h
        simp at this
    · cases hs : b.authority with
      | none => simp [hs, pre] at h
      | some s =>
        simp [hs, pre] at h
        have := hb.authority_ok s hs '#' h
        simp at this
    · have := hb.path_ok '#' h
      simp at this
    · cases hs : b.query with
      | none => simp [hs, pre] at h
      | some s =>
        simp [hs, pre] at h
        exact hb.query_ok s hs h
  have hst : ∀ x, (pre (s!! "#") b.fragment).head? = some x → decide (x ≠ '#') = false := by
    intro x hx
    cases hf : b.fragment with
    | none => simp [hf, pre] at hx
    | some f => simp [hf, pre] at hx; simp [← hx]
  have := takeWhile_append_stop hno hst
  simp only [List.append_assoc] at this
  exact this

theorem noDots_iff {p : Str} : NoDotSegments p ↔ ∀ s ∈ Py.split '/' p, s ≠ s!! "." ∧ s ≠ s!! ".." := by
  simp only [NoDotSegments, segmentOf_iff]

theorem absolutize_core (ref base : Str) (R B : UriRef)
    (hR : IsParse ref R) (hB : IsParse base B) (nR : '\n' ∉ ref) (nB : '\n' ∉ base)
    (hs : ∃ s, B.scheme = some s ∧ IsScheme s)
    (hq : ¬ (R.authority = none ∧ R.path = [] ∧ R.query = some []))
    (hdot : R.scheme ≠ none → NoDotSegments R.path)
    (hh : B.authority ≠ none ∨ ∃ p, B.path = '/' :: p) :
    absolutize ref base = .ok (recompose (transform R B)) := by
  have sR := parse_split hR nR
  have sB := parse_split hB nB
  have hbase : isAbsolute base = true := by
    obtain ⟨s, h1, h2⟩ := hs
    have : getScheme base = some s := getScheme_some.2 ⟨h2, by
      refine ⟨pre (s!! "//") B.authority ++ (B.path ++ (pre (s!! "?") B.query ++ pre (s!! "#") B.fragment)), ?_⟩
      rw [← hB.1, recompose_eq, unsplit_eq, h1]; simp [post]⟩
    simp [isAbsolute, this]
  have hbne : base ≠ [] := by rintro rfl; revert hbase; decide
  unfold absolutize
  by_cases habs : isAbsolute ref = true
  · -- a grammatical scheme: the reference is returned unchanged
    simp only [habs, if_true]
    obtain ⟨sch, hsch⟩ := Option.isSome_iff_exists.1 habs
    obtain ⟨h1, rest, h2⟩ := getScheme_some.1 hsch
    have hRs : R.scheme = some sch := by
      obtain ⟨s1, _, _, _, g1, _⟩ := splitUriRef_ok sR
      obtain ⟨d1, d2⟩ := isScheme_noDelim h1
      rw [h2, matchScheme_of d1 d2] at g1
      simp at g1; exact g1.1.symm
    have hid := spec_rds_id_rel (noDots_iff.1 (hdot (by simp [hRs])))
    have : transform R B = R := by
      unfold transform
      simp only [hRs, Option.isSome_some, if_true]
      rw [hid]; rcases R with ⟨a, b, c, d, e⟩; simp at hRs; simp [hRs]
    rw [this, hR.1]; rfl
  · have hb1 : ¬ (base = [] ∨ (!isAbsolute base) = true) := by simp [hbne, hbase]
    simp only [habs, hb1, Bool.false_eq_true, if_false]
    simp only [ne_eq, not_true_eq_false, false_and, if_false]
    by_cases hsame : ref = [] ∨ ref.head? = some '#'
    · simp only [hsame, if_true]
      have hRe : R = ⟨none, none, [], none, ref.tail?⟩ := by
        apply parse_unique hR _ nR
        refine ⟨?_, ⟨by simp, by simp, by simp, by simp, by simp, by simp, ?_⟩⟩
        · cases ref with
          | nil => simp [recompose]
          | cons c t => simp at hsame; simp [recompose, hsame]
        · rintro _ _ ⟨a, b, e, _⟩; simp at e
      have ht : transform R B = { B with fragment := ref.tail? } := by
        rw [hRe]; simp [transform]
      rw [ht, recompose_eq]
      have hb := takeWhile_hash B hB.2
      rw [← recompose_eq, hB.1] at hb
      rw [hb, unsplit_eq, unsplit_eq]
      cases ref with
      | nil => simp [pre, pure, Except.pure]
      | cons c t => simp at hsame; simp [pre, pure, Except.pure, hsame]
    · simp only [hsame, if_false]
      simp only [sR, sB, bind, Except.bind, pure, Except.pure]
      have hwf := hR.2
      cases hrs : R.scheme with
      | some rs =>
        have hid := noDots_iff.1 (hdot (by simp [hrs]))
        simp only [transform, hrs, Option.isSome_some, if_true, recompose_eq,
          spec_rds_id_rel hid, rds_id_rel hid]
      | none =>
        simp only
        cases hra : R.authority with
        | some ra =>
          simp only [transform, hrs, hra, Option.isSome_some, Option.isSome_none, if_true,
            recompose_eq, Bool.false_eq_true, if_false]
          have : removeDotSegments R.path = Spec.removeDotSegments R.path := by
            rcases hwf.path_abempty (by simp [hra]) with h | ⟨p, h⟩
            · rw [h]; simp [Spec.removeDotSegments, rdsLoop_nil]; decide
            · rw [h]; exact rds_rfc p
          rw [this]
        | none =>
          simp only
          by_cases hp : R.path = []
          · simp only [hp, if_true, transform, hrs, hra, Option.isSome_none, Bool.false_eq_true,
              if_false, recompose_eq]
            cases hrq : R.query with
            | none => simp
            | some q =>
              have : q ≠ [] := by rintro rfl; exact hq ⟨hra, hp, hrq⟩
              simp [this]
          · simp only [hp, if_false]
            by_cases hp2 : R.path.head? = some '/'
            · simp only [hp2, if_true, transform, hrs, hra, Option.isSome_none, Bool.false_eq_true,
                if_false, recompose_eq, hp]
              obtain ⟨p, h⟩ : ∃ p, R.path = '/' :: p := by
                cases h : R.path with
                | nil => exact absurd h hp
                | cons c t => rw [h] at hp2; simp at hp2; exact ⟨t, by rw [hp2]⟩
              rw [h, rds_rfc]
            · simp only [hp2, if_false, transform, hrs, hra, Option.isSome_none, Bool.false_eq_true,
                recompose_eq, hp]
              obtain ⟨p, h⟩ : ∃ p, Spec.merge B R.path = '/' :: p := by
                unfold Spec.merge
                by_cases hc : B.authority.isSome = true ∧ B.path = []
                · exact ⟨R.path, by rw [if_pos hc]⟩
                · rw [if_neg hc]
                  obtain ⟨q, hq⟩ : ∃ q, B.path = '/' :: q := by
                    rcases hh with h | h
                    · rcases hB.2.path_abempty h with h2 | h2
                      · exact absurd ⟨by simpa [Option.isSome_iff_ne_none] using h, h2⟩ hc
                      · exact h2
                    · exact h
                  rw [hq]
                  have : ∀ l : Str, ∃ t, ((l ++ ['/']).dropWhile (· ≠ '/')) = t ++ ['/'] := by
                    intro l
                    induction l with
                    | nil => exact ⟨[], by decide⟩
                    | cons x xs ih =>
                      by_cases hx : x = '/'
                      · exact ⟨x :: xs, by simp [hx]⟩
                      · obtain ⟨t, ht⟩ := ih
                        exact ⟨t, by simp [hx]; simpa using ht⟩
                  obtain ⟨t, ht⟩ := this q.reverse
                  refine ⟨t.reverse ++ R.path, ?_⟩
                  rw [List.reverse_cons, ht]; simp
              rw [merge_eq, h, rds_rfc]

end Verif.Iri
