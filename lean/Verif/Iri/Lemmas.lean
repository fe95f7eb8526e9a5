import Verif.Iri.Spec
namespace Verif.Iri
open Spec

theorem takeWhile_append_stop {α} {p : α → Bool} {a b : List α} (ha : ∀ x ∈ a, p x = true)
    (hb : ∀ x, b.head? = some x → p x = false) : (a ++ b).takeWhile p = a := by
  induction a with
  | nil =>
    cases b with
    | nil => rfl
    | cons x xs => simp [hb x rfl]
  | cons y ys ih =>
    simp [ha y (by simp), ih (fun x hx => ha x (by simp [hx]))]

theorem dropWhile_append_stop {α} {p : α → Bool} {a b : List α} (ha : ∀ x ∈ a, p x = true)
    (hb : ∀ x, b.head? = some x → p x = false) : (a ++ b).dropWhile p = b := by
  induction a with
  | nil =>
    cases b with
    | nil => rfl
    | cons x xs => simp [hb x rfl]
  | cons y ys ih =>
    simp [ha y (by simp), ih (fun x hx => ha x (by simp [hx]))]

theorem mem_takeWhile {α} {p : α → Bool} {l : List α} {x : α} (h : x ∈ l.takeWhile p) : p x = true := by
  induction l with
  | nil => simp at h
  | cons y ys ih =>
    unfold List.takeWhile at h
    split at h
    · rcases List.mem_cons.1 h with h | h
      · subst h; assumption
      · exact ih h
    · simp at h

theorem head_dropWhile {α} {p : α → Bool} {l : List α} {x : α} (h : (l.dropWhile p).head? = some x) :
    p x = false := by
  induction l with
  | nil => simp at h
  | cons y ys ih =>
    unfold List.dropWhile at h
    split at h
    · exact ih h
    · simp at h; subst h; simp_all

theorem notIn_true {l : List Char} {c : Char} : notIn l c = true ↔ c ∉ l := by simp [notIn]
theorem notIn_false {l : List Char} {c : Char} : notIn l c = false ↔ c ∈ l := by simp [notIn]

/-! ### recomposition -/

theorem recompose_eq (r : UriRef) : recompose r = unsplitUriRef r := by
  unfold recompose unsplitUriRef
  rcases r with ⟨_ | s, _ | a, p, _ | q, _ | f⟩ <;> simp

/-! ### each matcher -/

theorem matchScheme_some {s t r} (h : matchScheme s = (some t, r)) :
    s = t ++ ':' :: r ∧ t ≠ [] ∧ ∀ c ∈ t, c ∉ s!! ":/?#" := by
  unfold matchScheme at h
  split at h
  · rename_i rest hd
    split at h
    · simp at h
    · rename_i hne
      simp at h
      obtain ⟨h1, h2⟩ := h
      subst h1 h2
      refine ⟨?_, hne, fun c hc => notIn_true.1 (mem_takeWhile hc)⟩
      conv => lhs; rw [← List.takeWhile_append_dropWhile (l := s) (p := notIn (s!! ":/?#"))]
      rw [hd]
  · simp at h

theorem matchScheme_none {s r} (h : matchScheme s = (none, r)) :
    r = s ∧ ¬ SchemeLike s := by
  have key : ∀ a b : Str, s = a ++ ':' :: b → a ≠ [] → (∀ c ∈ a, c ∉ s!! ":/?#") →
      matchScheme s = (some a, b) := by
    intro a b hs ha hc
    have h1 : ∀ x ∈ a, notIn (s!! ":/?#") x = true := fun x hx => notIn_true.2 (hc x hx)
    have h2 : ∀ x, (':' :: b).head? = some x → notIn (s!! ":/?#") x = false := by
      intro x hx; simp at hx; simp [← hx, notIn]
    unfold matchScheme
    rw [hs]
    simp only [takeWhile_append_stop h1 h2, dropWhile_append_stop h1 h2]
    simp [ha]
  refine ⟨?_, ?_⟩
  · unfold matchScheme at h
    split at h
    · split at h <;> simp at h; simp [h]
    · simp at h; simp [h]
  · rintro ⟨a, b, hs, ha, hc⟩
    rw [key a b hs ha hc] at h
    simp at h

theorem matchScheme_of {a b : Str} (ha : a ≠ []) (hc : ∀ c ∈ a, c ∉ s!! ":/?#") :
    matchScheme (a ++ ':' :: b) = (some a, b) := by
  cases h : matchScheme (a ++ ':' :: b) with
  | mk o r =>
    cases o with
    | none => exact absurd ⟨a, b, rfl, ha, hc⟩ (matchScheme_none h).2
    | some t =>
      obtain ⟨h1, h2, h3⟩ := matchScheme_some h
      -- both `a` and `t` are the run before the first ':'
      have e : ∀ (a t b r : Str), a ++ ':' :: b = t ++ ':' :: r → (∀ c ∈ a, c ∉ s!! ":/?#") →
          (∀ c ∈ t, c ∉ s!! ":/?#") → t = a ∧ r = b := by
        intro a
        induction a with
        | nil =>
          intro t b r h _ ht
          cases t with
          | nil => simp at h; simp [h]
          | cons y ys => simp at h; have := ht y (by simp); simp [← h.1] at this
        | cons x xs ih =>
          intro t b r h hx ht
          cases t with
          | nil => simp at h; have := hx x (by simp); simp [h.1] at this
          | cons y ys =>
            simp at h
            obtain ⟨e1, e2⟩ := ih ys b r (by simpa using h.2) (fun c hc => hx c (by simp [hc]))
              (fun c hc => ht c (by simp [hc]))
            simp [e1, e2, h.1]
      obtain ⟨e1, e2⟩ := e a t b r h1 hc h3
      simp [e1, e2]

theorem matchScheme_of_not {s : Str} (h : ¬ SchemeLike s) : matchScheme s = (none, s) := by
  cases hm : matchScheme s with
  | mk o r =>
    cases o with
    | none => simp [(matchScheme_none hm).1]
    | some t =>
      obtain ⟨h1, h2, h3⟩ := matchScheme_some hm
      exact absurd ⟨t, r, h1, h2, h3⟩ h

theorem matchAuthority_some {s a r} (h : matchAuthority s = (some a, r)) :
    s = s!! "//" ++ a ++ r ∧ (∀ c ∈ a, c ∉ s!! "/?#") ∧
    ∀ x, r.head? = some x → x ∈ s!! "/?#" := by
  unfold matchAuthority at h
  split at h
  · simp at h
    obtain ⟨h1, h2⟩ := h
    subst h1 h2
    exact ⟨by simp, fun c hc => notIn_true.1 (mem_takeWhile hc),
      fun x hx => notIn_false.1 (head_dropWhile hx)⟩
  · simp at h

theorem matchAuthority_none {s r} (h : matchAuthority s = (none, r)) :
    r = s ∧ ∀ p, s ≠ '/' :: '/' :: p := by
  unfold matchAuthority at h
  split at h
  · simp at h
  · rename_i hn
    simp at h
    exact ⟨h.symm, fun p hp => hn p hp⟩

theorem matchQuery_some {s q r} (h : matchQuery s = (some q, r)) :
    s = '?' :: q ++ r ∧ '#' ∉ q ∧ ∀ x, r.head? = some x → x = '#' := by
  unfold matchQuery at h
  split at h
  · simp only [Prod.mk.injEq, Option.some.injEq] at h
    obtain ⟨h1, h2⟩ := h
    subst h1 h2
    refine ⟨by simp, ?_, ?_⟩
    · intro hc; have := notIn_true.1 (mem_takeWhile hc); simp at this
    · intro x hx; have := notIn_false.1 (head_dropWhile hx); simpa using this
  · simp at h

theorem matchQuery_none {s r} (h : matchQuery s = (none, r)) :
    r = s ∧ ∀ p, s ≠ '?' :: p := by
  unfold matchQuery at h
  split at h
  · simp at h
  · rename_i hn
    simp at h
    exact ⟨h.symm, fun p hp => hn p hp⟩

/-- What a fragment group can return: the text after '#' up to an optional final newline. -/
theorem matchFragment_some {s f} (h : matchFragment s = some (some f)) :
    (s = '#' :: f ∨ s = '#' :: f ++ ['\n']) ∧ '\n' ∉ f := by
  unfold matchFragment at h
  split at h
  · rename_i rest
    split at h
    · simp at h; subst h; exact ⟨Or.inl rfl, by assumption⟩
    · split at h
      · rename_i h1 h2
        simp at h; subst h
        refine ⟨Or.inr ?_, h2.2⟩
        have hd : rest.dropLast ++ ['\n'] = rest := by
          cases hr : rest with
          | nil => simp [hr] at h1
          | cons x xs =>
            have hx : (x :: xs).getLast? = some '\n' := by rw [← hr]; exact h2.1
            rw [List.getLast?_eq_some_getLast (by simp)] at hx
            simp only [Option.some.injEq] at hx
            rw [← hx]; exact List.dropLast_concat_getLast (by simp)
        simp [hd]
      · simp at h
  · simp at h

theorem matchFragment_none {s} (h : matchFragment s = some none) : ∀ p, s ≠ '#' :: p := by
  unfold matchFragment at h
  split at h
  · split at h
    · simp at h
    · split at h <;> simp at h
  · rename_i hn; exact fun p hp => hn p hp

theorem matchFragment_fail {s} (h : matchFragment s = none) : ∃ f, s = '#' :: f ∧ '\n' ∈ f := by
  unfold matchFragment at h
  split at h
  · rename_i rest
    refine ⟨rest, rfl, ?_⟩
    split at h
    · simp at h
    · rename_i hn; simpa using hn
  · simp at h

/-- The decomposition of `splitUriRef` into its steps. -/
theorem splitUriRef_ok {s t} (h : splitUriRef s = .ok t) :
    ∃ s1 s2 s3 s4, matchScheme s = (t.scheme, s1) ∧ matchAuthority s1 = (t.authority, s2) ∧
      t.path = s2.takeWhile (notIn (s!! "?#")) ∧
      s3 = s2.dropWhile (notIn (s!! "?#")) ∧
      matchQuery s3 = (t.query, s4) ∧ matchFragment s4 = some t.fragment := by
  unfold splitUriRef at h
  simp only at h
  split at h
  · rename_i frag hf
    simp only [Except.ok.injEq] at h
    subst h
    exact ⟨_, _, _, _, rfl, rfl, rfl, rfl, rfl, hf⟩
  · simp at h

theorem matchScheme_suffix (s : Str) : (matchScheme s).2 <:+ s := by
  unfold matchScheme; split
  · rename_i rest hd
    split
    · exact List.suffix_refl _
    · exact List.IsSuffix.trans ⟨[':'], by simpa using hd.symm⟩ (List.dropWhile_suffix (notIn (s!! ":/?#")))
  · exact List.suffix_refl _

theorem matchAuthority_suffix (x : Str) : (matchAuthority x).2 <:+ x := by
  unfold matchAuthority; split
  · exact List.IsSuffix.trans (List.dropWhile_suffix _) ⟨['/', '/'], rfl⟩
  · exact List.suffix_refl _

theorem matchQuery_suffix (x : Str) : (matchQuery x).2 <:+ x := by
  unfold matchQuery; split
  · exact List.IsSuffix.trans (List.dropWhile_suffix _) ⟨['?'], rfl⟩
  · exact List.suffix_refl _

theorem splitUriRef_error {s e} (h : splitUriRef s = .error e) : '#' ∈ s ∧ '\n' ∈ s := by
  unfold splitUriRef at h
  simp only at h
  split at h
  · simp at h
  · rename_i hf
    obtain ⟨f, h1, h2⟩ := matchFragment_fail hf
    have hall := ((matchQuery_suffix _).trans ((List.dropWhile_suffix (notIn (s!! "?#"))).trans
      ((matchAuthority_suffix _).trans (matchScheme_suffix s))))
    rw [h1] at hall
    exact ⟨hall.subset (by simp), hall.subset (by simp [h2])⟩

/-- `o` with a prefix, if present. -/
def pre (c : Str) : Option Str → Str
  | some q => c ++ q
  | none => []

/-- `o` with a suffix, if present. -/
def post (c : Str) : Option Str → Str
  | some q => q ++ c
  | none => []

theorem head_opt {x : Char} {q : Option Str} {c : Char} {t : Str}
    (h : (pre [c] q ++ t).head? = some x) :
    x = c ∨ (q = none ∧ t.head? = some x) := by
  cases q with
  | none => right; simpa [pre] using h
  | some q => left; simp [pre] at h; exact h.symm

theorem unsplit_eq (r : UriRef) : unsplitUriRef r = post (s!! ":") r.scheme ++
    (pre (s!! "//") r.authority ++ (r.path ++ (pre (s!! "?") r.query ++ pre (s!! "#") r.fragment))) := by
  rcases r with ⟨_ | s, _ | a, p, _ | q, _ | f⟩ <;> simp [unsplitUriRef, pre, post]

theorem split_wf {s t} (h : splitUriRef s = .ok t) :
    WellFormed t ∧ (unsplitUriRef t = s ∨ unsplitUriRef t ++ ['\n'] = s) ∧
    (∀ f, t.fragment = some f → '\n' ∉ f) := by
  obtain ⟨s1, s2, s3, s4, h1, h2, h3, h4, h5, h6⟩ := splitUriRef_ok h
  rw [unsplit_eq]
  rcases t with ⟨sch, au, path, q, fr⟩
  simp only at *
  -- facts about the pieces
  have hp : path ++ s3 = s2 := by rw [h3, h4]; exact List.takeWhile_append_dropWhile
  have hpc : ∀ c ∈ path, c ∉ s!! "?#" := by
    intro c hc; rw [h3] at hc; exact notIn_true.1 (mem_takeWhile hc)
  have hs3 : ∀ x, s3.head? = some x → x = '?' ∨ x = '#' := by
    intro x hx; rw [h4] at hx; have := notIn_false.1 (head_dropWhile hx); simpa using this
  have hq : pre (s!! "?") q ++ s4 = s3 ∧ (∀ q', q = some q' → '#' ∉ q') := by
    cases q with
    | none => have := (matchQuery_none h5).1; simp [this, pre]
    | some q => obtain ⟨e1, e2, _⟩ := matchQuery_some h5; simp [e1, e2, pre]
  have hs4 : ∀ x, s4.head? = some x → x = '#' := by
    intro x hx
    cases q with
    | none =>
      obtain ⟨e1, e2⟩ := matchQuery_none h5
      rw [e1] at hx
      rcases hs3 x hx with h | h
      · cases s3 with
        | nil => simp at hx
        | cons y ys => simp at hx; subst hx; exact absurd (by rw [h]) (e2 ys)
      · exact h
    | some q => exact (matchQuery_some h5).2.2 x hx
  have hf : (pre (s!! "#") fr = s4 ∨ pre (s!! "#") fr ++ ['\n'] = s4) ∧
      (∀ f, fr = some f → '\n' ∉ f) := by
    cases fr with
    | none =>
      have := matchFragment_none h6
      cases s4 with
      | nil => simp [pre]
      | cons y ys => have e := hs4 y rfl; subst e; exact absurd rfl (this ys)
    | some f =>
      obtain ⟨e1, e2⟩ := matchFragment_some h6
      refine ⟨e1.imp Eq.symm Eq.symm, ?_⟩
      intro f' hf'; simp at hf'; subst hf'; exact e2
  have ha : pre (s!! "//") au ++ s2 = s1 := by
    cases au with
    | none => simp [(matchAuthority_none h2).1, pre]
    | some a => simp [(matchAuthority_some h2).1, pre]
  have hs : post (s!! ":") sch ++ s1 = s := by
    cases sch with
    | none => simp [(matchScheme_none h1).1, post]
    | some a => simp [(matchScheme_some h1).1, post]
  refine ⟨⟨?_, ?_, hpc, hq.2, ?_, ?_, ?_⟩, ?_, hf.2⟩
  · intro x hx; simp at hx; subst hx; exact (matchScheme_some h1).2
  · intro x hx; simp at hx; subst hx; exact (matchAuthority_some h2).2.1
  · intro hx
    cases au with
    | none => exact absurd rfl hx
    | some a =>
      have := (matchAuthority_some h2).2.2
      cases path with
      | nil => simp
      | cons y ys =>
        right
        have h7 := this y (by rw [← hp]; rfl)
        have h8 := hpc y (by simp)
        simp at h7 h8
        simp [h8] at h7
        exact ⟨ys, by rw [h7]⟩
  · intro hx p hp2
    simp at hx; subst hx
    obtain ⟨e1, e2⟩ := matchAuthority_none h2
    simp at hp2
    apply e2 (p ++ s3)
    rw [← e1, ← hp, hp2]; simp
  · intro hx hx2
    simp at hx hx2; subst hx hx2
    rintro ⟨a, b, e1, e2, e3⟩
    apply (matchScheme_none h1).2
    refine ⟨a, b ++ s3, ?_, e2, e3⟩
    rw [← (matchScheme_none h1).1, ← (matchAuthority_none h2).1, ← hp]
    simp only at e1
    rw [e1]; simp
  · rcases hf.1 with hf | hf
    · left; rw [hf, hq.1, hp, ha, hs]
    · right; simp only [List.append_assoc]; rw [hf, hq.1, hp, ha, hs]

theorem split_unsplit {r : UriRef} (wf : WellFormed r) (hn : ∀ f, r.fragment = some f → '\n' ∉ f) :
    splitUriRef (unsplitUriRef r) = .ok r := by
  rw [unsplit_eq]
  rcases r with ⟨sch, au, path, q, fr⟩
  obtain ⟨w1, w2, w3, w4, w5, w6, w7⟩ := wf
  simp only at w1 w2 w3 w4 w5 w6 w7 hn ⊢
  -- tails
  obtain ⟨s4, e4⟩ : ∃ s4, s4 = pre (s!! "#") fr := ⟨_, rfl⟩
  obtain ⟨s3, e3⟩ : ∃ s3, s3 = pre (s!! "?") q ++ s4 := ⟨_, rfl⟩
  obtain ⟨s2, e2⟩ : ∃ s2, s2 = path ++ s3 := ⟨_, rfl⟩
  obtain ⟨s1, e1⟩ : ∃ s1, s1 = pre (s!! "//") au ++ s2 := ⟨_, rfl⟩
  rw [← e4, ← e3, ← e2, ← e1]
  have hs4 : ∀ x, s4.head? = some x → x = '#' := by
    intro x hx; rw [e4] at hx
    cases fr <;> simp [pre] at hx; exact hx.symm
  have hs3 : ∀ x, s3.head? = some x → x = '?' ∨ x = '#' := by
    intro x hx; rw [e3] at hx; rcases head_opt hx with h | ⟨_, h⟩
    · exact Or.inl h
    · exact Or.inr (hs4 x h)
  have hp1 : ∀ x ∈ path, (notIn (s!! "?#") x) = true := by
    intro x hx; exact notIn_true.2 (w3 x hx)
  have hp2 : ∀ x, s3.head? = some x → (notIn (s!! "?#") x) = false := by
    intro x hx; have := hs3 x hx; exact notIn_false.2 (by simpa using this)
  have hq : matchQuery s3 = (q, s4) := by
    cases q with
    | none =>
      simp only [pre, List.nil_append] at e3
      unfold matchQuery
      split
      · have : s4.head? = some '?' := by rw [← e3]; rfl
        exact absurd (hs4 _ this) (by decide)
      · rw [e3]
    | some q =>
      have h1 : ∀ x ∈ q, notIn (s!! "#") x = true := by
        intro x hx; apply notIn_true.2; simp; intro e; exact w4 q rfl (e ▸ hx)
      have h2 : ∀ x, s4.head? = some x → notIn (s!! "#") x = false := by
        intro x hx; simp [hs4 x hx, notIn]
      simp only [pre, List.cons_append, List.nil_append] at e3
      rw [e3]
      unfold matchQuery
      simp only [takeWhile_append_stop h1 h2, dropWhile_append_stop h1 h2]
  have hf : matchFragment s4 = some fr := by
    cases fr with
    | none => simp [e4, pre, matchFragment]
    | some f => simp [e4, pre, matchFragment, hn f rfl]
  have ha : matchAuthority s1 = (au, s2) := by
    cases au with
    | none =>
      simp only [pre, List.nil_append] at e1
      subst e1
      unfold matchAuthority
      split
      · rename_i rest
        exfalso
        match path, w6 rfl, e2 with
        | '/' :: '/' :: p, w6, _ => exact w6 p rfl
        | [], _, e2 =>
          have := hs3 '/' (by simp at e2; rw [← e2]; rfl); simp at this
        | [c], _, e2 =>
          simp at e2
          have := hs3 '/' (by rw [← e2.2]; rfl); simp at this
        | c :: d :: p, w6, e2 =>
          simp at e2
          exact w6 p (by rw [← e2.1, ← e2.2.1])
      · rfl
    | some a =>
      have h1 : ∀ x ∈ a, (notIn (s!! "/?#") x) = true := by
        intro x hx; exact notIn_true.2 (w2 a rfl x hx)
      have h2 : ∀ x, s2.head? = some x → (notIn (s!! "/?#") x) = false := by
        intro x hx
        rcases w5 (by simp) with h | ⟨p, h⟩
        · rw [e2, h, List.nil_append] at hx
          have := hs3 x hx; rcases this with h | h <;> simp [h, notIn]
        · rw [e2, h] at hx
          simp at hx
          simp [← hx, notIn]
      simp only [pre, List.cons_append, List.nil_append] at e1
      rw [e1]
      unfold matchAuthority
      simp only [takeWhile_append_stop h1 h2, dropWhile_append_stop h1 h2]
  have hs : matchScheme (post (s!! ":") sch ++ s1) = (sch, s1) := by
    cases sch with
    | none =>
      simp only [post, List.nil_append]
      apply matchScheme_of_not
      rintro ⟨a, b, f1, f2, f3⟩
      cases au with
      | some x =>
        simp only [pre, List.cons_append, List.nil_append] at e1
        rw [e1] at f1
        cases a with
        | nil => exact f2 rfl
        | cons y ys =>
          simp at f1
          have := f3 y (by simp)
          simp [← f1.1] at this
      | none =>
        simp only [pre, List.nil_append] at e1
        rw [e1, e2] at f1
        -- the colon lies inside the path
        apply w7 rfl rfl
        have : ∀ (a path : Str), path ++ s3 = a ++ ':' :: b → (∀ c ∈ a, c ∉ s!! ":/?#") →
            ∃ b', path = a ++ ':' :: b' := by
          intro a
          clear f1 f2 f3
          induction a with
          | nil =>
            intro path he _
            cases path with
            | nil => have := hs3 ':' (by simp at he; rw [he]; rfl); simp at this
            | cons c p => simp at he; exact ⟨p, by simp [he.1]⟩
          | cons y ys ih =>
            intro path he hc
            cases path with
            | nil =>
              have h1 := hs3 y (by simp at he; rw [he]; rfl)
              have h2 := hc y (by simp)
              rcases h1 with h | h <;> simp [h] at h2
            | cons c p =>
              simp at he
              obtain ⟨b', hb⟩ := ih p he.2 (fun c hcc => hc c (by simp [hcc]))
              exact ⟨b', by simp [he.1, hb]⟩
        obtain ⟨b', hb⟩ := this a path f1 f3
        exact ⟨a, b', hb, f2, f3⟩
    | some s =>
      have := matchScheme_of (b := s1) (w1 s rfl).1 (w1 s rfl).2
      simpa [post] using this
  unfold splitUriRef
  simp only [hs, ha]
  have g1 : s2.takeWhile (notIn (s!! "?#")) = path := by
    rw [e2]; exact takeWhile_append_stop hp1 hp2
  have g2 : s2.dropWhile (notIn (s!! "?#")) = s3 := by
    rw [e2]; exact dropWhile_append_stop hp1 hp2
  simp only [g1, g2, hq, hf]

end Verif.Iri
