import Verif.Iri.Lemmas
/- Lemmas about `remove_dot_segments`. -/
namespace Verif.Iri
open Spec

/-- Each segment with its leading slash. -/
def cat (segs : List Str) : Str := segs.flatMap ('/' :: ·)

theorem cat_cons (s : Str) (l : List Str) : cat (s :: l) = '/' :: (s ++ cat l) := by simp [cat]
theorem cat_nil : cat [] = [] := rfl
theorem cat_append (a b : List Str) : cat (a ++ b) = cat a ++ cat b := by simp [cat]

theorem slash_join {l : List Str} (h : l ≠ []) : '/' :: Py.join (s!! "/") l = cat l := by
  induction l with
  | nil => exact absurd rfl h
  | cons p ps ih =>
    cases ps with
    | nil => simp [Py.join, cat]
    | cons q qs =>
      rw [cat_cons, ← ih (by simp)]
      simp [Py.join]

/-- Segment-wise effect of dot-segment removal on the reversed list of kept segments. -/
def run : List Str → List Str → List Str
  | [], ks => ks
  | seg :: segs, ks =>
    if seg = s!! ".." then (if segs = [] then [] :: ks.tail else run segs ks.tail)
    else if seg = s!! "." then (if segs = [] then [] :: ks else run segs ks)
    else run segs (seg :: ks)

theorem run_ne_nil : ∀ (segs ks), segs ≠ [] → run segs ks ≠ [] := by
  intro segs
  induction segs with
  | nil => intro ks h; exact absurd rfl h
  | cons seg segs ih =>
    intro ks _
    unfold run
    by_cases hs : segs = []
    · subst hs; simp only [run, if_true]; split
      · simp
      · split <;> simp
    · simp only [hs, if_false]; split
      · exact ih _ hs
      · split <;> exact ih _ hs

/-- A trailing "." becomes an empty segment. -/
def fixLast : List Str → List Str
  | [] => []
  | [x] => [if x = s!! "." then [] else x]
  | x :: y :: ys => x :: fixLast (y :: ys)

theorem fixLast_ne_nil {l : List Str} (h : l ≠ []) : fixLast l ≠ [] := by
  match l, h with
  | [x], _ => simp [fixLast]
  | x :: y :: ys, _ => simp [fixLast]

theorem keep_fixLast : ∀ (segs ks), keepSegments true (fixLast segs) ks = run segs ks := by
  intro segs
  induction segs with
  | nil => intro ks; simp [fixLast, keepSegments, run]
  | cons x xs ih =>
    intro ks
    cases xs with
    | nil =>
      by_cases h1 : x = s!! "."
      · subst h1; simp [fixLast, keepSegments, run]
      · by_cases h2 : x = s!! ".."
        · subst h2; cases ks <;> simp [fixLast, keepSegments, run]
        · simp [fixLast, keepSegments, run, h1, h2]
    | cons y ys =>
      have hne : fixLast (y :: ys) ≠ [] := fixLast_ne_nil (by simp)
      unfold fixLast keepSegments run
      by_cases h2 : x = s!! ".."
      · subst h2
        cases ks <;> simp [hne, ih]
      · by_cases h1 : x = s!! "."
        · subst h1; simp [ih]
        · simp only [h1, h2, if_false, ne_eq, not_false_eq_true, if_true]; exact ih _

theorem split_append_sep (a b : Str) : Py.split '/' (a ++ '/' :: b) = Py.split '/' a ++ Py.split '/' b := by
  induction a with
  | nil => simp [Py.split]
  | cons x xs ih =>
    by_cases h : x = '/'
    · simp [Py.split, h, ih]
    · simp only [List.cons_append, Py.split, h, if_false, ih]
      cases hs : Py.split '/' xs with
      | nil => exact absurd hs (Py.split_ne_nil _ _)
      | cons p ps => simp

theorem fixLast_concat (l : List Str) (x : Str) : fixLast (l ++ [x]) = l ++ [if x = s!! "." then [] else x] := by
  induction l with
  | nil => simp [fixLast]
  | cons y ys ih =>
    cases ys with
    | nil => simp [fixLast]
    | cons z zs => simp only [List.cons_append, fixLast] at ih ⊢; rw [ih]

theorem split_trim (p : Str) : Py.split '/' (trimTrailingSlashDot p) = fixLast (Py.split '/' p) ∨
    (Py.split '/' p = [s!! "."] ∧ trimTrailingSlashDot p = p) := by
  unfold trimTrailingSlashDot
  split
  · rename_i h
    left
    have hp : p = p.take (p.length - 2) ++ s!! "/." := by
      conv => lhs; rw [← List.take_append_drop (p.length - 2) p, h]
    generalize p.take (p.length - 2) = q at hp
    subst hp
    have e1 : (q ++ s!! "/.").dropLast = q ++ ['/'] := by
      simp
    rw [e1, split_append_sep, split_append_sep]
    have : Py.split '/' (s!! ".") = [s!! "."] := by decide
    rw [this, fixLast_concat]
    simp [Py.split]
  · rename_i h
    rcases List.eq_nil_or_concat (Py.split '/' p) with h0 | ⟨init, last, h0⟩
    · exact absurd h0 (Py.split_ne_nil _ _)
    · by_cases hl : last = s!! "."
      · cases init with
        | nil => right; simp [h0, hl]
        | cons a as =>
          exfalso; apply h
          have hj := Py.join_split '/' p
          rw [h0, hl] at hj
          have : ∀ (l : List Str), l ≠ [] → Py.join ['/'] (l ++ [s!! "."]) = Py.join ['/'] l ++ s!! "/." := by
            intro l hl
            induction l with
            | nil => exact absurd rfl hl
            | cons x xs ih =>
              cases xs with
              | nil => simp [Py.join]
              | cons y ys => have := ih (by simp); simp [Py.join] at this ⊢; rw [this]
          simp only [List.concat_eq_append] at hj
          rw [this _ (by simp)] at hj
          rw [← hj]
          simp
      · left
        rw [h0]
        simp only [List.concat_eq_append, fixLast_concat, if_neg hl]

/-- `remove_dot_segments` on an absolute path, segment-wise. -/
theorem rds_abs (p : Str) : removeDotSegments ('/' :: p) = cat (run (Py.split '/' p) []).reverse := by
  unfold removeDotSegments
  have h1 : ¬ ('/' :: p = s!! "." ∨ '/' :: p = s!! "..") := by simp
  simp only [h1, if_false]
  have h2 : stripDotPrefix ('/' :: p) = '/' :: p := by simp [stripDotPrefix]
  simp only [h2, List.head?_cons, List.tail_cons, if_true, decide_true]
  have hne : run (Py.split '/' p) [] ≠ [] := run_ne_nil _ _ (Py.split_ne_nil _ _)
  rcases split_trim p with h | ⟨h, h'⟩
  · rw [h, keep_fixLast, ← slash_join (by simpa using hne)]; rfl
  · rw [h', h]; decide

theorem dropLastSegment_cat (ks : List Str) (h : ∀ k ∈ ks, '/' ∉ k) :
    dropLastSegment (cat ks.reverse) = cat ks.tail.reverse := by
  cases ks with
  | nil => simp [cat, dropLastSegment]
  | cons k ks =>
    simp only [List.reverse_cons, cat_append, List.tail_cons, dropLastSegment]
    have : (cat [k]).reverse = k.reverse ++ ['/'] := by simp [cat]
    rw [List.reverse_append, this, List.append_assoc]
    have hs : ∀ x ∈ k.reverse, decide (x ≠ '/') = true := by
      intro x hx; simp at hx ⊢; intro e; exact h k (by simp) (e ▸ hx)
    rw [dropWhile_append_stop hs (by simp)]
    simp

theorem isPrefixOf_slash {seg rest : Str} {d : Str} (hs : '/' ∉ seg)
    (hr : rest = [] ∨ rest.head? = some '/') (hd : '/' ∉ d) :
    (('/' :: (d ++ ['/'])).isPrefixOf ('/' :: (seg ++ rest)) = true) ↔ (seg = d ∧ rest ≠ []) := by
  rw [List.isPrefixOf_iff_prefix]
  constructor
  · rintro ⟨t, ht⟩
    simp only [List.cons_append, List.cons.injEq, true_and, List.append_assoc, List.nil_append] at ht
    have h1 : ∀ x ∈ d, decide (x ≠ '/') = true := by
      intro x hx; simp; intro e; exact hd (e ▸ hx)
    have h2 : ∀ x ∈ seg, decide (x ≠ '/') = true := by
      intro x hx; simp; intro e; exact hs (e ▸ hx)
    have h3 : ∀ x, rest.head? = some x → decide (x ≠ '/') = false := by
      intro x hx
      rcases hr with hr | hr
      · simp [hr] at hx
      · rw [hr] at hx; simp at hx; simp [← hx]
    have e1 := takeWhile_append_stop h2 h3
    have e2 := takeWhile_append_stop (b := '/' :: t) h1 (by simp)
    rw [← ht, e2] at e1
    subst e1
    refine ⟨rfl, ?_⟩
    simp at ht
    rw [← ht]; simp
  · rintro ⟨rfl, h⟩
    cases rest with
    | nil => exact absurd rfl h
    | cons c r =>
      simp at hr
      exact ⟨r, by simp [hr]⟩

theorem rdsLoop_nil (out : Str) : rdsLoop [] out = out := by
  rw [rdsLoop]; simp

theorem rdsLoop_slash (out : Str) : rdsLoop (s!! "/") out = out ++ s!! "/" := by
  rw [rdsLoop]
  have h1 : ((s!! "../").isPrefixOf (s!! "/")) = false := by decide
  have h2 : ((s!! "./").isPrefixOf (s!! "/")) = false := by decide
  have h3 : ((s!! "/./").isPrefixOf (s!! "/")) = false := by decide
  have h4 : ((s!! "/../").isPrefixOf (s!! "/")) = false := by decide
  simp [h1, h2, h3, h4, firstSegment, rdsLoop_nil]

theorem cat_head (l : List Str) : cat l = [] ∨ (cat l).head? = some '/' := by
  cases l <;> simp [cat]

theorem cat_eq_nil {l : List Str} : cat l = [] ↔ l = [] := by
  cases l <;> simp [cat]

theorem rdsLoop_step (seg : Str) (segs : List Str) (out : Str) (hs : '/' ∉ seg) :
    rdsLoop (cat (seg :: segs)) out =
      if seg = s!! ".." then
        (if segs = [] then dropLastSegment out ++ s!! "/" else rdsLoop (cat segs) (dropLastSegment out))
      else if seg = s!! "." then (if segs = [] then out ++ s!! "/" else rdsLoop (cat segs) out)
      else rdsLoop (cat segs) (out ++ '/' :: seg) := by
  rw [cat_cons, rdsLoop]
  have a1 : ((s!! "../").isPrefixOf ('/' :: (seg ++ cat segs))) = false := by simp [List.isPrefixOf]
  have a2 : ((s!! "./").isPrefixOf ('/' :: (seg ++ cat segs))) = false := by simp [List.isPrefixOf]
  have b1 : (s!! "/./").isPrefixOf ('/' :: (seg ++ cat segs)) = true ↔ (seg = s!! "." ∧ segs ≠ []) := by
    have := isPrefixOf_slash (d := s!! ".") hs (cat_head segs) (by decide)
    simpa [cat_eq_nil] using this
  have b2 : (s!! "/../").isPrefixOf ('/' :: (seg ++ cat segs)) = true ↔ (seg = s!! ".." ∧ segs ≠ []) := by
    have := isPrefixOf_slash (d := s!! "..") hs (cat_head segs) (by decide)
    simpa [cat_eq_nil] using this
  have hend : ∀ d : Str, '/' ∉ d → ('/' :: (seg ++ cat segs) = '/' :: d ↔ seg = d ∧ segs = []) := by
    intro d hd
    constructor
    · intro h
      simp at h
      cases segs with
      | nil => simp [cat_nil] at h; exact ⟨h, rfl⟩
      | cons x xs => exfalso; apply hd; rw [← h, cat_cons]; simp
    · rintro ⟨rfl, rfl⟩; simp [cat_nil]
  have c1 := hend (s!! ".") (by decide)
  have c2 := hend (s!! "..") (by decide)
  have d1 : ¬ ('/' :: (seg ++ cat segs) = s!! "." ∨ '/' :: (seg ++ cat segs) = s!! "..") := by simp
  have n0 : ¬ ('/' :: (seg ++ cat segs) = []) := by simp
  have hf : firstSegment ('/' :: (seg ++ cat segs)) = '/' :: seg := by
    unfold firstSegment
    have h2 : ∀ x ∈ seg, decide (x ≠ '/') = true := by
      intro x hx; simp; intro e; exact hs (e ▸ hx)
    have h3 : ∀ x, (cat segs).head? = some x → decide (x ≠ '/') = false := by
      intro x hx
      rcases cat_head segs with hr | hr
      · simp [hr] at hx
      · rw [hr] at hx; simp at hx; simp [← hx]
    exact congrArg ('/' :: ·) (takeWhile_append_stop h2 h3)
  simp only [n0, a1, a2, d1, if_false, hf, Bool.false_eq_true]
  by_cases e2 : seg = s!! ".."
  · have e1 : ¬ seg = s!! "." := by rw [e2]; decide
    simp only [e1, b1, c1, b2, c2, false_and, if_false]
    simp only [e2, true_and, if_true]
    by_cases hsg : segs = []
    · simp [hsg, rdsLoop_slash]
    · cases segs with
      | nil => exact absurd rfl hsg
      | cons x xs => simp [cat_cons]
  · by_cases e1 : seg = s!! "."
    · simp only [b1, c1, b2, c2, e2, false_and, if_false]
      simp only [e1, true_and, if_true]
      by_cases hsg : segs = []
      · simp [hsg, rdsLoop_slash]
      · cases segs with
        | nil => exact absurd rfl hsg
        | cons x xs => simp [cat_cons]
    · simp only [b1, c1, b2, c2, e1, e2, false_and, if_false]
      simp

theorem rdsLoop_run : ∀ (segs ks : List Str), segs ≠ [] → (∀ s ∈ segs, '/' ∉ s) → (∀ k ∈ ks, '/' ∉ k) →
    rdsLoop (cat segs) (cat ks.reverse) = cat (run segs ks).reverse := by
  intro segs
  induction segs with
  | nil => intro ks h; exact absurd rfl h
  | cons seg segs ih =>
    intro ks _ h1 h2
    rw [rdsLoop_step seg segs _ (h1 seg (by simp)), dropLastSegment_cat ks h2]
    have ht : ∀ k ∈ ks.tail, '/' ∉ k := fun k hk => h2 k (List.mem_of_mem_tail hk)
    unfold run
    by_cases hsg : segs = []
    · subst hsg
      simp only [if_true, run]
      split
      · simp [cat]
      · split
        · simp [cat]
        · rw [cat_nil, rdsLoop_nil]; simp [cat]
    · simp only [hsg, if_false]
      have h1' : ∀ s ∈ segs, '/' ∉ s := fun s hs => h1 s (by simp [hs])
      split
      · exact ih _ hsg h1' ht
      · split
        · exact ih _ hsg h1' h2
        · have := ih (seg :: ks) hsg h1' (by
            intro k hk; rcases List.mem_cons.1 hk with h | h
            · subst h; exact h1 _ (by simp)
            · exact h2 k h)
          rw [← this]; simp [cat]

theorem rds_rfc (p : Str) : removeDotSegments ('/' :: p) = Spec.removeDotSegments ('/' :: p) := by
  rw [rds_abs]
  have hne := Py.split_ne_nil '/' p
  have hc : '/' :: p = cat (Py.split '/' p) := by rw [← slash_join hne, Py.join_split]
  unfold Spec.removeDotSegments
  rw [hc, ← rdsLoop_run _ [] hne (fun s hs => Py.not_mem_of_mem_split hs) (by simp)]
  simp [cat]

theorem run_nodots : ∀ (segs ks : List Str), (∀ k ∈ ks, k ≠ s!! "." ∧ k ≠ s!! "..") →
    ∀ k ∈ run segs ks, k ≠ s!! "." ∧ k ≠ s!! ".." := by
  intro segs
  induction segs with
  | nil => intro ks h; simpa [run] using h
  | cons seg segs ih =>
    intro ks h
    have ht : ∀ k ∈ ks.tail, k ≠ s!! "." ∧ k ≠ s!! ".." := fun k hk => h k (List.mem_of_mem_tail hk)
    unfold run
    split
    · split
      · intro k hk; rcases List.mem_cons.1 hk with e | e
        · subst e; decide
        · exact ht k e
      · exact ih _ ht
    · split
      · split
        · intro k hk; rcases List.mem_cons.1 hk with e | e
          · subst e; decide
          · exact h k e
        · exact ih _ h
      · rename_i e2 e1
        apply ih
        intro k hk; rcases List.mem_cons.1 hk with e | e
        · subst e; exact ⟨e1, e2⟩
        · exact h k e

theorem run_noslash : ∀ (segs ks : List Str), (∀ s ∈ segs, '/' ∉ s) → (∀ k ∈ ks, '/' ∉ k) →
    ∀ k ∈ run segs ks, '/' ∉ k := by
  intro segs
  induction segs with
  | nil => intro ks _ h; simpa [run] using h
  | cons seg segs ih =>
    intro ks h0 h
    have ht : ∀ k ∈ ks.tail, '/' ∉ k := fun k hk => h k (List.mem_of_mem_tail hk)
    have h0' : ∀ s ∈ segs, '/' ∉ s := fun s hs => h0 s (by simp [hs])
    unfold run
    split
    · split
      · intro k hk; rcases List.mem_cons.1 hk with e | e
        · subst e; simp
        · exact ht k e
      · exact ih _ h0' ht
    · split
      · split
        · intro k hk; rcases List.mem_cons.1 hk with e | e
          · subst e; simp
          · exact h k e
        · exact ih _ h0' h
      · apply ih _ h0'
        intro k hk; rcases List.mem_cons.1 hk with e | e
        · subst e; exact h0 _ (by simp)
        · exact h k e

theorem run_id : ∀ (segs ks : List Str), (∀ s ∈ segs, s ≠ s!! "." ∧ s ≠ s!! "..") →
    run segs ks = segs.reverse ++ ks := by
  intro segs
  induction segs with
  | nil => intro ks _; simp [run]
  | cons seg segs ih =>
    intro ks h
    obtain ⟨h1, h2⟩ := h seg (by simp)
    unfold run
    rw [if_neg h2, if_neg h1, ih _ (fun s hs => h s (by simp [hs]))]
    simp

theorem rds_id {p : Str} (h : ∀ s ∈ Py.split '/' p, s ≠ s!! "." ∧ s ≠ s!! "..") :
    removeDotSegments ('/' :: p) = '/' :: p := by
  rw [rds_abs, run_id _ _ h]
  simp only [List.append_nil, List.reverse_reverse]
  rw [← slash_join (Py.split_ne_nil _ _), Py.join_split]

/-- The result of dot-segment removal on an absolute path: an absolute path and its segments. -/
theorem rds_segments (p : Str) : ∃ q, removeDotSegments ('/' :: p) = '/' :: q ∧
    Py.split '/' q = (run (Py.split '/' p) []).reverse := by
  have hne : (run (Py.split '/' p) []).reverse ≠ [] := by
    simpa using run_ne_nil _ [] (Py.split_ne_nil '/' p)
  refine ⟨Py.join (s!! "/") (run (Py.split '/' p) []).reverse, ?_, ?_⟩
  · rw [rds_abs, ← slash_join hne]
  · apply Py.split_join hne
    intro k hk
    exact run_noslash _ [] (fun s hs => Py.not_mem_of_mem_split hs) (by simp) k (by simpa using hk)

theorem rds_idem (p : Str) : removeDotSegments (removeDotSegments ('/' :: p)) = removeDotSegments ('/' :: p) := by
  obtain ⟨q, h1, h2⟩ := rds_segments p
  rw [h1, rds_id]
  rw [h2]
  intro s hs
  exact run_nodots _ [] (by simp) s (by simpa using hs)

/-- `SegmentOf` is membership in the slash-split. -/
theorem segmentOf_iff {p x : Str} : SegmentOf p x ↔ x ∈ Py.split '/' p := by
  constructor
  · rintro ⟨a, b, h, hx, ha, hb⟩
    have key : x ∈ Py.split '/' (x ++ b) := by
      rcases hb with hb | hb
      · simp [hb, Py.split_of_not_mem hx]
      · cases b with
        | nil => simp at hb
        | cons c b => simp at hb; rw [hb, Py.split_append_cons hx]; simp
    rcases ha with ha | ha
    · rw [h, ha]; simpa using key
    · obtain ⟨a', rfl⟩ : ∃ a', a = a' ++ ['/'] := by
        rcases List.eq_nil_or_concat a with h0 | ⟨l, c, h0⟩
        · simp [h0] at ha
        · rw [h0] at ha; simp at ha; exact ⟨l, by simp [h0, ha]⟩
      rw [h, List.append_assoc, List.append_assoc, List.singleton_append, split_append_sep]
      exact List.mem_append_right _ key
  · intro h
    have hns := Py.not_mem_of_mem_split h
    obtain ⟨l1, l2, hl⟩ := List.append_of_mem h
    have hj := Py.join_split '/' p
    rw [hl] at hj
    refine ⟨(if l1 = [] then [] else Py.join ['/'] l1 ++ ['/']),
            (if l2 = [] then [] else '/' :: Py.join ['/'] l2), ?_, hns, ?_, ?_⟩
    · rw [← hj]
      have j1 : ∀ (l m : List Str), l ≠ [] → m ≠ [] →
          Py.join ['/'] (l ++ m) = Py.join ['/'] l ++ '/' :: Py.join ['/'] m := by
        intro l m hl hm
        induction l with
        | nil => exact absurd rfl hl
        | cons y ys ih =>
          cases ys with
          | nil =>
            cases m with
            | nil => exact absurd rfl hm
            | cons z zs => simp [Py.join]
          | cons z zs => have := ih (by simp); simp [Py.join] at this ⊢; rw [this]
      cases l1 with
      | nil =>
        cases l2 with
        | nil => simp [Py.join]
        | cons z zs => simp [Py.join]
      | cons y ys =>
        rw [j1 _ _ (by simp) (by simp)]
        cases l2 with
        | nil => simp [Py.join]
        | cons z zs => simp [Py.join]
    · cases l1 <;> simp
    · cases l2 <;> simp

end Verif.Iri
