import Verif.Iri.Resolver.Model
import Verif.Iri.Props
import Verif.Iri.PercentProps
import Verif.Iri.RelProps
/-
Relative references against a file URI give file URIs without dot segments.
-/
namespace Verif.Iri.Resolver
open Verif.Iri Verif.Iri.Spec

theorem mem_run : ∀ (segs ks : List Str) (s : Str), s ∈ run segs ks → s ∈ segs ∨ s ∈ ks ∨ s = []
  | [], ks, s, h => .inr (.inl h)
  | seg :: segs, ks, s, h => by
    unfold run at h
    split at h
    · split at h
      · rcases List.mem_cons.1 h with h | h
        · exact .inr (.inr h)
        · exact .inr (.inl (List.mem_of_mem_tail h))
      · rcases mem_run segs _ s h with h | h | h
        · exact .inl (.tail _ h)
        · exact .inr (.inl (List.mem_of_mem_tail h))
        · exact .inr (.inr h)
    · split at h
      · split at h
        · rcases List.mem_cons.1 h with h | h
          · exact .inr (.inr h)
          · exact .inr (.inl h)
        · rcases mem_run segs _ s h with h | h | h
          · exact .inl (.tail _ h)
          · exact .inr (.inl h)
          · exact .inr (.inr h)
      · rcases mem_run segs _ s h with h | h | h
        · exact .inl (.tail _ h)
        · rcases List.mem_cons.1 h with h | h
          · exact .inl (by rw [h]; exact .head _)
          · exact .inr (.inl h)
        · exact .inr (.inr h)

theorem mem_split_mem {c : Char} : ∀ {s : Str} {p : Str}, p ∈ Py.split c s → ∀ x ∈ p, x ∈ s
  | [], p, h, x, hx => by simp [Py.split] at h; subst h; cases hx
  | y :: s, p, h, x, hx => by
    unfold Py.split at h
    split at h
    · rcases List.mem_cons.1 h with h | h
      · subst h; cases hx
      · exact .tail _ (mem_split_mem h x hx)
    · split at h
      · rename_i e; exact absurd e (Py.split_ne_nil _ _)
      · rename_i q qs e
        rcases List.mem_cons.1 h with h | h
        · subst h
          rcases List.mem_cons.1 hx with h | h
          · rw [h]; exact .head _
          · exact .tail _ (mem_split_mem (p := q) (by rw [e]; exact .head _) x h)
        · exact .tail _ (mem_split_mem (p := p) (by rw [e]; exact .tail _ h) x hx)

theorem mem_rds {p : Str} {c : Char} (h : c ∈ removeDotSegments ('/' :: p)) : c = '/' ∨ c ∈ p := by
  rw [rds_abs] at h
  unfold cat at h
  obtain ⟨s, hs, hc⟩ := List.mem_flatMap.1 h
  rcases List.mem_cons.1 hc with h | h
  · exact .inl h
  · rcases mem_run _ _ s (List.mem_reverse.1 hs) with h' | h' | h'
    · exact .inr (mem_split_mem h' c h)
    · cases h'
    · subst h'; cases h

theorem merge_slash {B : UriRef} {bp : Str} (hB : B.path = '/' :: bp) (rp : Str) :
    ∃ m, mergePath B rp = '/' :: m ∧ ∀ c ∈ m, c ∈ bp ∨ c ∈ rp := by
  unfold mergePath
  rw [if_neg (by simp [hB]), hB]
  cases hf : Py.rfind '/' ('/' :: bp) with
  | none => exact absurd (Py.rfind_none.1 hf) (by simp)
  | some j =>
    refine ⟨bp.take j ++ rp, by simp, fun c hc => ?_⟩
    rcases List.mem_append.1 hc with h | h
    · exact .inl (List.mem_of_mem_take h)
    · exact .inr h

/-- What the URI is like. -/
structure Good (T : UriRef) : Prop where
  wf : WellFormed T
  scheme : T.scheme = some (s!! "file")
  auth : T.authority ≠ none
  nodots : NoDotSegments T.path
  nopct : '%' ∉ T.path
  nonl : ∀ f, T.fragment = some f → '\n' ∉ f

theorem recompose_mem {s : Str} {R : UriRef} (h : IsParse s R) {c : Char} : c ∈ R.path ∨ (∃ f, R.fragment = some f ∧ c ∈ f) → c ∈ s := by
  rw [← h.1, recompose_eq, unsplit_eq]
  rintro (h | ⟨f, e, h⟩)
  · simp [h]
  · rw [e]; simp [pre, h]

theorem nodots_nil : NoDotSegments [] := noDots_iff.2 (by decide)

theorem good_of {T : UriRef} (sch : T.scheme = some (s!! "file")) (a : Str) (hau : T.authority = some a) (hac : ∀ c ∈ a, c ∉ s!! "/?#")
    (hp : ∀ c ∈ T.path, c ∉ s!! "?#") (hq : ∀ q, T.query = some q → '#' ∉ q) (hs : T.path = [] ∨ ∃ p, T.path = '/' :: p)
    (hd : NoDotSegments T.path) (hn : '%' ∉ T.path) (hf : ∀ f, T.fragment = some f → '\n' ∉ f) : Good T := by
  refine ⟨⟨fun s e => ?_, fun a' e => ?_, hp, hq, fun _ => hs, fun h => ?_, fun h => ?_⟩, sch, by rw [hau]; exact nofun, hd, hn, hf⟩
  · rw [sch] at e; cases e; decide
  · rw [hau] at e; cases e; exact hac
  · rw [hau] at h; cases h
  · rw [sch] at h; cases h

/-- A relative reference against a file URI. -/
theorem absolutize_good {ref base : Str} {R B : UriRef} (hR : IsParse ref R) (hB : IsParse base B) (nR : '\n' ∉ ref) (nB : '\n' ∉ base)
    (hrel : R.scheme = none) (sB : B.scheme = some (s!! "file")) (aB : B.authority = some []) (pB : ∃ p, B.path = '/' :: p)
    (dB : NoDotSegments B.path) (pr : '%' ∉ ref) (pb : '%' ∉ base) (limit : List Str) (uri : Str)
    (h : absolutize ref base limit = .ok uri) : ∃ T, uri = unsplitUriRef T ∧ Good T := by
  obtain ⟨bp, pB⟩ := pB
  have spR := parse_split hR nR
  have spB := parse_split hB nB
  have hra : isAbsolute ref = false := by
    unfold isAbsolute
    cases hg : getScheme ref with
    | none => rfl
    | some s => rw [C10_scheme_agrees ref s R hg spR] at hrel; cases hrel
  have fR : ∀ f, R.fragment = some f → '\n' ∉ f := fun f e hc => nR (recompose_mem hR (.inr ⟨f, e, hc⟩))
  have pctR : '%' ∉ R.path := fun hc => pr (recompose_mem hR (.inl hc))
  have pctB : '%' ∉ B.path := fun hc => pb (recompose_mem hB (.inl hc))
  have hBp : ∀ c ∈ B.path, c ∉ s!! "?#" := hB.2.path_ok
  have hRp : ∀ c ∈ R.path, c ∉ s!! "?#" := hR.2.path_ok
  have hq : ∀ q, R.query = some q → '#' ∉ q := hR.2.query_ok
  have hrds : ∀ p, (∀ c ∈ p, c ∉ s!! "?#") → '%' ∉ p →
      (∀ c ∈ removeDotSegments ('/' :: p), c ∉ s!! "?#") ∧ '%' ∉ removeDotSegments ('/' :: p) := by
    intro p h1 h2
    refine ⟨fun c hc => ?_, fun hc => ?_⟩
    · rcases mem_rds hc with rfl | h
      · decide
      · exact h1 c h
    · rcases mem_rds hc with h | h
      · revert h; decide
      · exact h2 h
  unfold absolutize at h
  rw [hra] at h
  simp only [Bool.false_eq_true, if_false] at h
  split at h
  · cases h
  · split at h
    · cases h
    · split at h
      · rename_i hsame
        cases h
        refine ⟨{ B with fragment := ref.tail? }, ?_, ?_⟩
        · have hb := takeWhile_hash B hB.2
          rw [← recompose_eq, hB.1] at hb
          rw [hb, unsplit_eq, unsplit_eq]
          cases ref with
          | nil => simp [pre]
          | cons c t => simp at hsame; simp [pre, hsame]
        · refine good_of (T := { B with fragment := ref.tail? }) sB [] aB nofun hBp hB.2.query_ok (.inr ⟨bp, pB⟩) dB pctB (fun f e hc => ?_)
          cases ref with
          | nil => cases e
          | cons c t => cases e; exact nR (.tail _ hc)
      · rw [spR] at h
        simp only [bind, Except.bind, hrel, spB] at h
        split at h
        · rename_i ra hra'
          cases h
          have hrp := hR.2.path_abempty (by rw [hra']; exact nofun)
          rcases hrp with e | ⟨rp, e⟩
          · refine ⟨_, rfl, good_of (T := ⟨B.scheme, some ra, removeDotSegments R.path, R.query, R.fragment⟩) sB ra rfl (hR.2.authority_ok ra hra') ?_ hq ?_ ?_ ?_ fR⟩
            all_goals dsimp only; rw [e]
            · intro c hc; cases hc
            · exact .inl (by decide)
            · exact nodots_nil
            · exact nofun
          · rw [e] at hRp pctR
            obtain ⟨g1, g2⟩ := hrds rp (fun c hc => hRp c (.tail _ hc)) (fun hc => pctR (.tail _ hc))
            obtain ⟨d1, d2⟩ := C04_no_dot_segments rp
            refine ⟨_, rfl, good_of (T := ⟨B.scheme, some ra, removeDotSegments R.path, R.query, R.fragment⟩) sB ra rfl (hR.2.authority_ok ra hra') ?_ hq ?_ ?_ ?_ fR⟩
            all_goals dsimp only; rw [e]
            · exact g1
            · exact .inr d2
            · exact d1
            · exact g2
        · split at h
          · cases h
            refine ⟨_, rfl, good_of (T := ⟨B.scheme, B.authority, B.path, _, R.fragment⟩) sB [] aB nofun hBp ?_ (.inr ⟨bp, pB⟩) dB pctB fR⟩
            intro q e
            dsimp only at e
            cases hrq : R.query with
            | none => rw [hrq] at e; exact hB.2.query_ok q e
            | some q' =>
              rw [hrq] at e
              dsimp only at e
              split at e
              · exact hB.2.query_ok q e
              · cases e; exact hq _ hrq
          · split at h
            · rename_i hh
              cases h
              obtain ⟨rp, e⟩ := head_slash hh
              rw [e] at hRp pctR
              obtain ⟨g1, g2⟩ := hrds rp (fun c hc => hRp c (.tail _ hc)) (fun hc => pctR (.tail _ hc))
              obtain ⟨d1, d2⟩ := C04_no_dot_segments rp
              refine ⟨_, rfl, good_of (T := ⟨B.scheme, B.authority, removeDotSegments R.path, R.query, R.fragment⟩) sB [] aB nofun ?_ hq ?_ ?_ ?_ fR⟩
              all_goals dsimp only; rw [e]
              · exact g1
              · exact .inr d2
              · exact d1
              · exact g2
            · cases h
              obtain ⟨m, e, hm⟩ := merge_slash pB R.path
              rw [pB] at hBp pctB
              obtain ⟨g1, g2⟩ := hrds m (fun c hc => (hm c hc).elim (fun h => hBp c (.tail _ h)) (hRp c))
                (fun hc => (hm _ hc).elim (fun h => pctB (.tail _ h)) pctR)
              obtain ⟨d1, d2⟩ := C04_no_dot_segments m
              refine ⟨_, rfl, good_of (T := ⟨B.scheme, B.authority, removeDotSegments (mergePath B R.path), R.query, R.fragment⟩) sB [] aB nofun ?_ hq ?_ ?_ ?_ fR⟩
              all_goals dsimp only; rw [e]
              · exact g1
              · exact .inr d2
              · exact d1
              · exact g2

theorem decode_plain : ∀ {p : Str}, '%' ∉ p → percentDecode none p = p
  | [], _ => rfl
  | c :: p, h => by
    rw [percentDecode_cons (by rintro rfl; exact h (.head _)), decode_plain (fun hc => h (.tail _ hc))]

theorem escape_plain : ∀ {p : Str}, '%' ∉ p → escapeSlash p = p
  | [], _ => rfl
  | c :: p, h => by
    have hc : c ≠ '%' := by rintro rfl; exact h (.head _)
    rw [escapeSlash.eq_def]
    split
    · rename_i e; cases e; exact absurd rfl hc
    · rename_i e; cases e; exact absurd rfl hc
    · rename_i e; cases e; rw [escape_plain (fun hc => h (.tail _ hc))]
    · rename_i e; cases e

theorem good_path {T : UriRef} (g : Good T) {p : Str} (h : uriToOsPath (unsplitUriRef T) = .ok p) : p = T.path := by
  unfold uriToOsPath at h
  rw [split_unsplit g.wf g.nonl] at h
  dsimp only at h
  split at h
  · cases h
  · split at h
    · cases h
    · cases h
      rw [escape_plain g.nopct, decode_plain g.nopct]

/-- A prefix without the delimiters of what follows is a prefix of the path. -/
theorem prefix_path : ∀ {d p r : Str}, (∀ c ∈ d, c ∉ s!! "?#") → (∀ c, r.head? = some c → c ∈ s!! "?#") → d <+: p ++ r → d <+: p
  | [], p, r, _, _, _ => List.nil_prefix
  | c :: d, [], r, h1, h2, h => by
    obtain ⟨t, e⟩ := h
    rw [List.nil_append] at e
    have := h2 c (by rw [← e]; rfl)
    exact absurd this (h1 c (.head _))
  | c :: d, x :: p, r, h1, h2, h => by
    rw [List.cons_append, List.cons_prefix_cons] at h
    rw [List.cons_prefix_cons]
    exact ⟨h.1, prefix_path (fun c hc => h1 c (.tail _ hc)) h2 h.2⟩

theorem good_prefix {T : UriRef} (g : Good T) {d : Str} (hd : ∀ c ∈ d, c ∉ s!! "?#") (h : (s!! "file://" ++ '/' :: d) <+: unsplitUriRef T) :
    ('/' :: d) <+: T.path := by
  rw [unsplit_eq, g.scheme] at h
  have hau := g.auth
  cases ha : T.authority with
  | none => exact absurd ha hau
  | some a =>
    rw [ha] at h
    change _ <+: s!! "file" ++ s!! ":" ++ (s!! "//" ++ a ++ (T.path ++ (pre (s!! "?") T.query ++ pre (s!! "#") T.fragment))) at h
    have h' : ('/' :: d) <+: a ++ (T.path ++ (pre (s!! "?") T.query ++ pre (s!! "#") T.fragment)) := by
      have : s!! "file" ++ s!! ":" ++ (s!! "//" ++ a ++ (T.path ++ (pre (s!! "?") T.query ++ pre (s!! "#") T.fragment))) =
          s!! "file://" ++ (a ++ (T.path ++ (pre (s!! "?") T.query ++ pre (s!! "#") T.fragment))) := by simp
      rw [this] at h
      exact (List.prefix_append_right_inj _).1 h
    cases a with
    | cons c a =>
      rw [List.cons_append, List.cons_prefix_cons] at h'
      exact absurd (show c ∈ s!! "/?#" by rw [← h'.1]; decide) (g.wf.authority_ok _ ha c (.head _))
    | nil =>
      refine prefix_path (r := pre (s!! "?") T.query ++ pre (s!! "#") T.fragment) ?_ ?_ h'
      · intro c hc
        rcases List.mem_cons.1 hc with rfl | hc
        · decide
        · exact hd c hc
      · intro c hc
        rcases head_opt hc with rfl | ⟨_, hc⟩
        · decide
        · cases hf : T.fragment with
          | none => rw [hf] at hc; cases hc
          | some f => rw [hf] at hc; simp [pre] at hc; rw [← hc]; decide

end Verif.Iri.Resolver
