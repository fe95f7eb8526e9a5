import Verif.Xslt.ExsltStrSpec

namespace Verif.Xslt.ExsltStr
open Verif Verif.Py Spec

/-! ## Splitting -/

theorem startsWith_iff (s w : Str) : startsWith s w = true ↔ ∃ r, s = w ++ r := by
  induction s generalizing w with
  | nil => cases w <;> simp [startsWith]
  | cons x s ih => cases w with
    | nil => simp [startsWith]
    | cons y w =>
      simp only [startsWith, Bool.and_eq_true, decide_eq_true_eq, ih, List.cons_append, List.cons.injEq]
      constructor
      · rintro ⟨rfl, r, rfl⟩; exact ⟨r, rfl, rfl⟩
      · rintro ⟨r, rfl, rfl⟩; exact ⟨rfl, r, rfl⟩

theorem splitFrom_skip (sep : Str) (a s : Str) : splitFrom sep a.length (a ++ s) = splitFrom sep 0 s := by
  induction a with
  | nil => rfl
  | cons c a ih => simp only [List.length_cons, List.cons_append, splitFrom]; exact ih

theorem isAt_cons {w s : Str} {c : Char} {k : Nat} : IsAt w (c :: s) (k + 1) ↔ IsAt w s k := by
  constructor
  · rintro ⟨a, b, h, hk⟩
    cases a with
    | nil => simp at hk
    | cons x a =>
      simp only [List.cons_append, List.cons.injEq] at h
      exact ⟨a, b, h.2, by simpa using hk⟩
  · rintro ⟨a, b, rfl, hk⟩
    exact ⟨c :: a, b, by simp, by simp [hk]⟩

theorem isAt_zero {w s : Str} : IsAt w s 0 ↔ ∃ r, s = w ++ r := by
  constructor
  · rintro ⟨a, b, h, hk⟩
    cases a with
    | nil => exact ⟨b, by simpa using h⟩
    | cons x a => simp at hk
  · rintro ⟨r, rfl⟩; exact ⟨[], r, by simp, rfl⟩

theorem splits_onFirst {sep s : Str} {ts : List Str} {c : Char}
    (hno : ¬ IsAt sep (c :: s) 0) (h : Splits sep s ts) : Splits sep (c :: s) (onFirst c ts) := by
  cases h with
  | last h =>
    refine Splits.last ?_
    intro k hk
    cases k with
    | zero => exact hno hk
    | succ k => exact h k (isAt_cons.mp hk)
  | @cut t r ts h hr =>
    have := Splits.cut (sep := sep) (t := c :: t) (r := r) (ts := ts) (by
      intro k hk
      cases k with
      | zero => exact absurd (by simpa using hk) hno
      | succ k =>
        have := h k (isAt_cons.mp (by simpa using hk))
        simpa using this) hr
    simpa [onFirst] using this

theorem splits_splitOn {sep : Str} (hsep : sep ≠ []) : ∀ (n : Nat) (s : Str), s.length ≤ n →
    Splits sep s (splitOn sep s) := by
  intro n
  induction n with
  | zero =>
    intro s hs
    have : s = [] := List.length_eq_zero_iff.mp (Nat.le_zero.mp hs)
    subst this
    refine Splits.last ?_
    rintro k ⟨a, b, h, -⟩
    have := congrArg List.length h
    cases sep with
    | nil => exact hsep rfl
    | cons => simp at this
  | succ n ih =>
    intro s hs
    cases s with
    | nil => exact Splits.last (by
        rintro k ⟨a, b, h, -⟩
        have := congrArg List.length h
        cases sep with
        | nil => exact hsep rfl
        | cons => simp at this)
    | cons c s =>
      unfold splitOn
      rw [splitFrom]
      split
      · rename_i hst
        obtain ⟨r, hr⟩ := (startsWith_iff _ _).mp hst
        cases sep with
        | nil => exact absurd rfl hsep
        | cons x sep =>
          simp only [List.cons_append, List.cons.injEq] at hr
          obtain ⟨rfl, rfl⟩ := hr
          simp only [List.length_cons, Nat.add_sub_cancel, splitFrom_skip]
          have := Splits.cut (sep := c :: sep) (t := []) (r := r) (ts := splitOn (c :: sep) r)
            (fun k _ => Nat.zero_le _) (ih r (by simp at hs; omega))
          simpa [splitOn] using this
      · rename_i hst
        refine splits_onFirst ?_ (ih s (by simpa using hs))
        intro h0
        exact hst ((startsWith_iff _ _).mpr (isAt_zero.mp h0))

theorem splits_of_splitOn {sep : Str} (hsep : sep ≠ []) (s : Str) : Splits sep s (splitOn sep s) :=
  splits_splitOn hsep s.length s (Nat.le_refl _)

/-! ## Classes of characters -/

theorem inClass_escape (ds : Str) (c : Char) : inClass (reEscape ds) c = true ↔ c ∈ ds := by
  induction ds with
  | nil => simp [reEscape, inClass]
  | cons d ds ih =>
    rw [reEscape]
    split
    · rename_i hd
      have hnb : d ≠ '\\' := by rintro rfl; exact absurd hd (by decide)
      have hdash : ∀ y rest, reEscape ds ≠ '-' :: y :: rest := by
        intro y rest h
        cases ds with
        | nil => simp [reEscape] at h
        | cons e ds =>
          rw [reEscape] at h
          split at h
          · rename_i he
            simp only [List.cons.injEq] at h
            rw [h.1] at he
            exact absurd he (by decide)
          · simp at h
      rw [inClass.eq_def]
      split
      · rename_i heq; simp only [List.cons.injEq] at heq; exact absurd heq.1 hnb
      · rename_i heq; simp only [List.cons.injEq] at heq; exact absurd heq.2 (hdash _ _)
      · rename_i heq; simp only [List.cons.injEq] at heq
        obtain ⟨rfl, rfl⟩ := heq
        simp [ih]
      · rename_i heq; simp at heq
    · rw [inClass]; simp [ih]

theorem tokens_reSplit (ds s : Str) : Tokens ds s (reSplit (reEscape ds) s) := by
  induction s with
  | nil => exact Tokens.last (by simp)
  | cons c s ih =>
    rw [reSplit]
    split
    · rename_i hc
      exact Tokens.cut (t := []) (by simp) ((inClass_escape ds c).mp hc) ih
    · rename_i hc
      have hc' : c ∉ ds := fun h => hc ((inClass_escape ds c).mpr h)
      generalize reSplit (reEscape ds) s = ts at ih
      cases ih with
      | last h =>
        refine Tokens.last ?_
        intro x hx
        rcases List.mem_cons.mp hx with rfl | hx
        · exact hc'
        · exact h x hx
      | @cut t r d ts h hd hr =>
        exact Tokens.cut (t := c :: t) (by
          intro x hx
          rcases List.mem_cons.mp hx with rfl | hx
          · exact hc'
          · exact h x hx) hd hr

/-! ## The tree writer -/

theorem flat_append {M : Type} (a b : List (Ev M)) : flat (a ++ b) = flat a ++ flat b := by
  induction a with
  | nil => rfl
  | cons x a ih => cases x <;> simp [flat, ih]

/-- Complete nodes that other than text nodes can follow. -/
def Closed {M : Type} (l : List (Ev M)) : Prop := Normal l ∧ ∀ s a, l ≠ a ++ [.text s]

theorem normal_snoc_text {M : Type} : ∀ (l : List (Ev M)) (s : Str), Normal l → (∀ t a, l ≠ a ++ [.text t]) → s ≠ [] →
    Normal (l ++ [.text s])
  | [], s, _, _, hs => hs
  | [.text t], s, _, h, _ => absurd rfl (h t [])
  | .text _ :: .text _ :: _, _, h, _, _ => absurd h (by simp [Normal])
  | .text t :: .node m :: l, s, h, h', hs => by
      refine ⟨h.1, ?_⟩
      exact normal_snoc_text l s h.2 (fun t' a e => h' t' (.text t :: .node m :: a) (by simp [e])) hs
  | .node m :: l, s, h, h', hs => by
      have h0 : Normal l := by simpa [Normal] using h
      have := normal_snoc_text l s h0 (fun t' a e => h' t' (.node m :: a) (by simp [e])) hs
      simpa [Normal] using this

theorem normal_snoc_node {M : Type} : ∀ (l : List (Ev M)) (m : M), Normal l → Normal (l ++ [.node m])
  | [], m, _ => by simp [Normal]
  | [.text t], m, h => by simpa [Normal] using h
  | .text _ :: .text _ :: _, _, h => absurd h (by simp [Normal])
  | .text t :: .node m' :: l, m, h => ⟨h.1, normal_snoc_node l m h.2⟩
  | .node m' :: l, m, h => by
      have h0 : Normal l := by simpa [Normal] using h
      have := normal_snoc_node l m h0
      simpa [Normal] using this

/-- The invariant of a tree writer that has got some content. -/
structure Holds {M : Type} (w : Writer M) (f : Flat M) : Prop where
  normal : Normal w.done
  closed : ∀ s a, w.done ≠ a ++ [.text s]
  content : flat w.done ++ w.buffer.map .inl = f

theorem complete_holds {M : Type} {w : Writer M} {f : Flat M} (h : Holds w f) :
    Normal w.complete.done ∧ flat w.complete.done = f ∧ w.complete.buffer = [] := by
  unfold Writer.complete
  split
  · rename_i hb
    exact ⟨h.normal, by have := h.content; simpa [hb] using this, hb⟩
  · rename_i hb
    refine ⟨normal_snoc_text _ _ h.normal h.closed hb, ?_, rfl⟩
    simp only [flat_append, flat]
    simpa using h.content

theorem write_holds {M : Type} {w : Writer M} {f : Flat M} (h : Holds w f) (e : Ev M) :
    Holds (w.write e) (f ++ flat [e]) := by
  cases e with
  | text s =>
    rw [Writer.write]
    split
    · rename_i hs; subst hs; simpa [flat] using h
    · refine ⟨h.normal, h.closed, ?_⟩
      simp [flat, ← h.content]
  | node m =>
    obtain ⟨h1, h2, h3⟩ := complete_holds h
    rw [Writer.write]
    refine ⟨normal_snoc_node _ _ h1, ?_, ?_⟩
    · intro s a e
      have := List.append_inj' e rfl
      simp at this
    · simp [flat_append, flat, h2, h3]

theorem foldl_holds {M : Type} (evs : List (Ev M)) {w : Writer M} {f : Flat M} (h : Holds w f) :
    Holds (evs.foldl Writer.write w) (f ++ flat evs) := by
  induction evs generalizing w f with
  | nil => simpa [flat] using h
  | cons e evs ih =>
    have := ih (write_holds h e)
    rw [List.append_assoc, ← flat_append] at this
    exact this

theorem children_normal {M : Type} (evs : List (Ev M)) :
    Normal (children evs) ∧ flat (children evs) = flat evs := by
  have h : Holds (M := M) { done := [], buffer := [] } [] := ⟨trivial, by simp, rfl⟩
  obtain ⟨h1, h2, -⟩ := complete_holds (foldl_holds evs h)
  exact ⟨h1, by simpa [children] using h2⟩

/-! ## Dividing a string -/

/-- The pieces of segments with occurrences of the search string with the index `i` between them. -/
def glue (i : Nat) (f : Str → List Piece) : List Str → List Piece
  | [] => []
  | [t] => f t
  | t :: t' :: ts => f t ++ .hit i :: glue i f (t' :: ts)

/-- The pieces of a string for some search strings, in the order in which they are searched for. -/
def marks : List (Nat × Str) → Str → List Piece
  | [], s => s.map .kept
  | (i, w) :: l, s => glue i (marks l) (splitOn w s)

theorem splits_ne_nil {sep s : Str} {ts : List Str} (h : Splits sep s ts) : ts ≠ [] := by
  cases h <;> simp

theorem glue_cons {i : Nat} {f : Str → List Piece} {t : Str} {ts : List Str} (h : ts ≠ []) :
    glue i f (t :: ts) = f t ++ .hit i :: glue i f ts := by
  cases ts with
  | nil => exact absurd rfl h
  | cons => rfl

theorem source_append (search : List Str) (a b : List Piece) :
    source search (a ++ b) = source search a ++ source search b := by simp [source]

theorem source_cons (search : List Str) (p : Piece) (b : List Piece) :
    source search (p :: b) = p.source search ++ source search b := by simp [source]

/-- The list of search strings that are searched for. -/
structure Listed (search : List Str) (l : List (Nat × Str)) : Prop where
  mem : ∀ p ∈ l, search[p.1]? = some p.2 ∧ p.2 ≠ []
  order : l.Pairwise (fun p q => Before search p.1 q.1)

theorem Listed.tail {search : List Str} {p : Nat × Str} {l : List (Nat × Str)} (h : Listed search (p :: l)) :
    Listed search l :=
  ⟨fun q hq => h.mem q (List.mem_cons_of_mem _ hq), (List.pairwise_cons.mp h.order).2⟩

theorem source_kept (search : List Str) (s : Str) : source search (s.map .kept) = s := by
  induction s with
  | nil => rfl
  | cons c s ih => simp [source_cons, Piece.source, ih]

theorem source_glue {search : List Str} {i : Nat} {w s : Str} {ts : List Str} {f : Str → List Piece}
    (hi : search[i]? = some w) (hf : ∀ t, source search (f t) = t) (h : Splits w s ts) :
    source search (glue i f ts) = s := by
  induction h with
  | last _ => exact hf _
  | @cut t r ts _ hr ih =>
    rw [glue_cons (splits_ne_nil hr), source_append, source_cons, hf, ih]
    simp [Piece.source, List.getD, hi]

theorem source_marks {search : List Str} {l : List (Nat × Str)} (h : Listed search l) (s : Str) :
    source search (marks l s) = s := by
  induction l generalizing s with
  | nil => exact source_kept search s
  | cons p l ih =>
    obtain ⟨i, w⟩ := p
    obtain ⟨hi, hw⟩ := h.mem (i, w) List.mem_cons_self
    exact source_glue hi (ih h.tail) (splits_of_splitOn hw s)

theorem hit_glue {i : Nat} {f : Str → List Piece} {ts : List Str} {j : Nat} (h : Piece.hit j ∈ glue i f ts) :
    j = i ∨ ∃ t, Piece.hit j ∈ f t := by
  induction ts with
  | nil => simp [glue] at h
  | cons t ts ih =>
    cases ts with
    | nil => exact Or.inr ⟨t, h⟩
    | cons t' ts =>
      rw [glue] at h
      rcases List.mem_append.mp h with h | h
      · exact Or.inr ⟨t, h⟩
      · rcases List.mem_cons.mp h with h | h
        · left; simpa using h
        · exact ih h

theorem hit_marks {l : List (Nat × Str)} {s : Str} {j : Nat} (h : Piece.hit j ∈ marks l s) : ∃ w, (j, w) ∈ l := by
  induction l generalizing s with
  | nil => simp [marks] at h
  | cons p l ih =>
    obtain ⟨i, w⟩ := p
    rcases hit_glue h with rfl | ⟨t, h⟩
    · exact ⟨w, List.mem_cons_self⟩
    · obtain ⟨w', h'⟩ := ih h
      exact ⟨w', List.mem_cons_of_mem _ h'⟩

theorem Spec.HitAt.left {search : List Str} {a : List Piece} {k i : Nat} (h : HitAt search a k i) (b : List Piece) :
    HitAt search (a ++ b) k i := by
  obtain ⟨x, y, rfl, hk⟩ := h
  exact ⟨x, y ++ b, by simp, hk⟩

theorem Spec.HitAt.right {search : List Str} {b : List Piece} {k i : Nat} (h : HitAt search b k i) (a : List Piece) :
    HitAt search (a ++ b) ((source search a).length + k) i := by
  obtain ⟨x, y, rfl, hk⟩ := h
  exact ⟨a ++ x, y, by simp, by simp [source_append, hk]⟩

/-- An occurrence that ends before the end of `t` is one in `t`. -/
theorem isAt_of_append {w t r : Str} {k : Nat} (h : IsAt w (t ++ r) k) (hk : k + w.length ≤ t.length) : IsAt w t k := by
  obtain ⟨a, b, h, rfl⟩ := h
  rw [List.append_assoc] at h
  have h1 : a ++ w = t.take (a.length + w.length) := by
    have := congrArg (List.take (a.length + w.length)) h
    rw [List.take_append_of_le_length hk, ← List.append_assoc] at this
    rw [this, List.take_append_of_le_length (by simp)]
    rw [List.take_of_length_le (by simp)]
  refine ⟨a, t.drop (a.length + w.length), ?_, rfl⟩
  rw [h1, List.take_append_drop]

/-- An occurrence that begins behind `t` is one in the rest. -/
theorem isAt_of_append_right {w t r : Str} {k : Nat} (h : IsAt w (t ++ r) (t.length + k)) : IsAt w r k := by
  induction t with
  | nil => simpa using h
  | cons c t ih =>
    apply ih
    have : (c :: t).length + k = (t.length + k) + 1 := by simp; omega
    rw [this] at h
    exact isAt_cons.mp h

/-- What an occurrence of a search string that is not replaced overlaps. -/
def Greedy (search : List Str) (s : Str) (ps : List Piece) (j : Nat) (w : Str) : Prop :=
  ∀ k, IsAt w s k → ∃ k' i w', HitAt search ps k' i ∧ search[i]? = some w' ∧
      k' < k + w.length ∧ k < k' + w'.length ∧ (Before search i j ∨ (i = j ∧ k' ≤ k))

theorem greedy_glue {search : List Str} {i : Nat} {w s : Str} {ts : List Str} {f : Str → List Piece}
    {j : Nat} {v : Str}
    (hi : search[i]? = some w) (hw : w ≠ []) (hv : v ≠ []) (hf : ∀ t, source search (f t) = t)
    (hj : (j = i ∧ v = w) ∨ (Before search i j ∧ ∀ t, Greedy search t (f t) j v))
    (h : Splits w s ts) : Greedy search s (glue i f ts) j v := by
  have hvl : 0 < v.length := List.length_pos_iff.mpr hv
  have hwl : 0 < w.length := List.length_pos_iff.mpr hw
  induction h with
  | last hno =>
    rcases hj with ⟨rfl, rfl⟩ | ⟨-, hj⟩
    · intro k hk; exact absurd hk (hno k)
    · exact hj _
  | @cut t r ts hfirst hr ih =>
    rw [glue_cons (splits_ne_nil hr)]
    intro k hk
    by_cases h1 : t.length + w.length ≤ k
    · obtain ⟨d, rfl⟩ : ∃ d, k = (t ++ w).length + d := ⟨k - (t.length + w.length), by simp; omega⟩
      obtain ⟨k', i', w', hh, hi', h2, h3, h4⟩ := ih d (isAt_of_append_right hk)
      refine ⟨(t ++ w).length + k', i', w', ?_, hi', by omega, by omega, ?_⟩
      · have := hh.right (f t ++ [.hit i])
        simp only [source_append, hf, List.append_assoc, List.singleton_append] at this
        simpa [source, Piece.source, List.getD, hi, Nat.add_assoc] using this
      · rcases h4 with h4 | ⟨h4, h5⟩
        · exact Or.inl h4
        · exact Or.inr ⟨h4, by omega⟩
    · by_cases h2 : k + v.length ≤ t.length
      · have hk' : IsAt v t k := by
          rw [List.append_assoc] at hk
          exact isAt_of_append hk h2
        rcases hj with ⟨rfl, rfl⟩ | ⟨-, hj⟩
        · have := hfirst k hk; omega
        · obtain ⟨k', i', w', hh, rest⟩ := hj t k hk'
          exact ⟨k', i', w', hh.left _, rest⟩
      · refine ⟨t.length, i, w, ⟨f t, _, rfl, by rw [hf]⟩, hi, by omega, by omega, ?_⟩
        rcases hj with ⟨rfl, rfl⟩ | ⟨hj, -⟩
        · exact Or.inr ⟨rfl, hfirst k hk⟩
        · exact Or.inl hj

theorem greedy_marks {search : List Str} {l : List (Nat × Str)} (h : Listed search l) {j : Nat} {v : Str}
    (hj : (j, v) ∈ l) (s : Str) : Greedy search s (marks l s) j v := by
  induction l generalizing s with
  | nil => simp at hj
  | cons p l ih =>
    obtain ⟨i, w⟩ := p
    obtain ⟨hi, hw⟩ := h.mem (i, w) List.mem_cons_self
    refine greedy_glue hi hw (h.mem (j, v) hj).2 (source_marks h.tail) ?_ (splits_of_splitOn hw s)
    rcases List.mem_cons.mp hj with hj | hj
    · simp only [Prod.mk.injEq] at hj; exact Or.inl hj
    · exact Or.inr ⟨(List.pairwise_cons.mp h.order).1 _ hj, ih h.tail hj⟩

theorem marks_nil (l : List (Nat × Str)) : marks l [] = [] := by
  induction l with
  | nil => rfl
  | cons p l ih => simp [marks, splitOn, splitFrom, glue, ih]

/-! ## What is written -/

theorem replaced_hit {M : Type} (node : Nat → Flat M) (gap : Flat M) (i : Nat) (b : List Piece) :
    ∀ a : List Piece, replaced node gap (a ++ .hit i :: b) = replaced node gap a ++ node i ++ replaced node gap b
  | [] => by simp [replaced]
  | [.kept c] => by simp [replaced]
  | .kept c :: .kept d :: a => by
      have := replaced_hit node gap i b (.kept d :: a)
      simp only [List.cons_append] at this
      simp [replaced, this]
  | .kept c :: .hit j :: a => by
      have := replaced_hit node gap i b a
      simp [replaced, this]
  | .hit j :: a => by
      have := replaced_hit node gap i b a
      simp [replaced, this]

theorem replaced_kept {M : Type} (node : Nat → Flat M) : ∀ s : Str,
    replaced node [] (s.map .kept) = s.map .inl
  | [] => rfl
  | [c] => rfl
  | c :: d :: s => by
      have := replaced_kept node (d :: s)
      simp only [List.map_cons] at this
      simp [replaced, this]

/-- A rule with its index. -/
abbrev IRule (M : Type) := Nat × Rule M

/-- The rules that search for something. -/
def active {M : Type} : List (IRule M) → List (Nat × Str)
  | [] => []
  | r :: rs => if r.2.1 = [] then active rs else (r.1, r.2.1) :: active rs

/-- What the first rule with an empty search string writes. -/
def gapOf {M : Type} : List (IRule M) → Flat M
  | [] => []
  | r :: rs => if r.2.1 = [] then flat (copied r.2.2.1) else gapOf rs

theorem replaceBy_empties {M : Type} (rs : List (Rule M)) (h : ∀ r ∈ rs, r.1 = []) (c : Char) :
    flat (replaceBy rs [c]) = [.inl c] := by
  induction rs with
  | nil => rfl
  | cons r rs ih =>
    obtain ⟨search, rep, key⟩ := r
    have : search = [] := h _ List.mem_cons_self
    subst this
    have := ih (fun r hr => h r (List.mem_cons_of_mem _ hr))
    simpa [replaceBy, overSegments] using this

theorem overSegments_chars {M : Type} (node : Nat → Flat M) (each : Str → List (Ev M)) (between : List (Ev M))
    (heach : ∀ c, flat (each [c]) = [.inl c]) : ∀ s : Str,
    flat (overSegments each between (s.map ([·]))) = replaced node (flat between) (s.map .kept)
  | [] => rfl
  | [c] => by simp [overSegments, replaced, heach]
  | c :: d :: s => by
      have := overSegments_chars node each between heach (d :: s)
      simp only [List.map_cons] at this
      simp [overSegments, replaced, flat_append, heach, this]

theorem overSegments_glue {M : Type} (node : Nat → Flat M) (gap : Flat M) (each : Str → List (Ev M))
    (between : List (Ev M)) (f : Str → List Piece) (i : Nat) (hnil : f [] = []) (hnode : flat between = node i)
    (heach : ∀ t, flat (each t) = replaced node gap (f t)) : ∀ ts : List Str,
    flat (overSegments each between ts) = replaced node gap (glue i f ts)
  | [] => rfl
  | [t] => by
      rw [overSegments, glue]
      split
      · exact heach t
      · rename_i h
        have : t = [] := by simpa using h
        subst this
        simp [hnil, flat, replaced]
  | t :: t' :: ts => by
      have ih := overSegments_glue node gap each between f i hnil hnode heach (t' :: ts)
      rw [overSegments, glue, replaced_hit, flat_append, flat_append, ih, hnode]
      congr 2
      split
      · exact heach t
      · rename_i h
        have : t = [] := by simpa using h
        subst this
        simp [hnil, flat, replaced]

theorem active_nil {M : Type} : ∀ (rs : List (IRule M)), (∀ r ∈ rs, r.2.1 = []) → active rs = []
  | [], _ => rfl
  | r :: rs, h => by
      rw [active, if_pos (h r List.mem_cons_self)]
      exact active_nil rs (fun r hr => h r (List.mem_cons_of_mem _ hr))

/-- What is written for rules that are sorted. -/
theorem replaceBy_eq {M : Type} (node : Nat → Flat M) (rs : List (IRule M))
    (hn : ∀ r ∈ rs, flat (copied r.2.2.1) = node r.1)
    (hs : rs.Pairwise (fun r r' => r.2.1 = [] → r'.2.1 = [])) (s : Str) :
    flat (replaceBy (rs.map (·.2)) s) = replaced node (gapOf rs) (marks (active rs) s) := by
  induction rs generalizing s with
  | nil => simp [replaceBy, active, gapOf, marks, flat, replaced_kept]
  | cons r rs ih =>
    obtain ⟨i, search, rep, key⟩ := r
    have hn' := fun r hr => hn r (List.mem_cons_of_mem _ hr)
    obtain ⟨h1, h2⟩ := List.pairwise_cons.mp hs
    by_cases he : search = []
    · subst he
      have hall : ∀ r ∈ rs, r.2.1 = [] := fun r hr => h1 r hr rfl
      have hact : active ((i, [], rep, key) :: rs) = [] := by
        simp [active, active_nil rs hall]
      rw [hact]
      simp only [List.map_cons, replaceBy, gapOf, marks]
      refine overSegments_chars node _ _ ?_ s
      intro c
      refine replaceBy_empties _ ?_ c
      intro r hr
      obtain ⟨r', hr', rfl⟩ := List.mem_map.mp hr
      exact hall r' hr'
    · have hact : active ((i, search, rep, key) :: rs) = (i, search) :: active rs := by simp [active, he]
      have hgap : gapOf ((i, search, rep, key) :: rs) = gapOf rs := by simp [gapOf, he]
      rw [hact, hgap]
      simp only [List.map_cons, replaceBy, marks]
      rw [if_pos he]
      exact overSegments_glue node (gapOf rs) _ _ _ i (marks_nil _) (hn _ List.mem_cons_self) (ih hn' h2) _

/-! ## Sorting -/

/-- Insert a rule with its index. -/
def insertIRule {M : Type} (r : IRule M) : List (IRule M) → List (IRule M)
  | [] => [r]
  | r' :: rs => if r'.2.2.2 > r.2.2.2 then r' :: insertIRule r rs else r :: r' :: rs

/-- Sort rules with their indices. -/
def sortIRules {M : Type} : List (IRule M) → List (IRule M)
  | [] => []
  | r :: rs => insertIRule r (sortIRules rs)

theorem insertIRule_map {M : Type} (r : IRule M) (rs : List (IRule M)) :
    (insertIRule r rs).map (·.2) = insertRule r.2 (rs.map (·.2)) := by
  induction rs with
  | nil => rfl
  | cons r' rs ih =>
    simp only [insertIRule, List.map_cons, insertRule]
    split
    · simp [ih]
    · simp

theorem sortIRules_map {M : Type} (rs : List (IRule M)) :
    (sortIRules rs).map (·.2) = sortRules (rs.map (·.2)) := by
  induction rs with
  | nil => rfl
  | cons r rs ih => simp only [sortIRules, insertIRule_map, ih, List.map_cons, sortRules]

theorem mem_insertIRule {M : Type} {r x : IRule M} {rs : List (IRule M)} :
    x ∈ insertIRule r rs ↔ x = r ∨ x ∈ rs := by
  induction rs with
  | nil => simp [insertIRule]
  | cons r' rs ih =>
    rw [insertIRule]
    split
    · simp only [List.mem_cons, ih]
      constructor
      · rintro (h | h | h)
        · exact Or.inr (Or.inl h)
        · exact Or.inl h
        · exact Or.inr (Or.inr h)
      · rintro (h | h | h)
        · exact Or.inr (Or.inl h)
        · exact Or.inl h
        · exact Or.inr (Or.inr h)
    · simp

theorem mem_sortIRules {M : Type} {x : IRule M} {rs : List (IRule M)} : x ∈ sortIRules rs ↔ x ∈ rs := by
  induction rs with
  | nil => rfl
  | cons r rs ih => simp [sortIRules, mem_insertIRule, ih]

/-- The order of rules. -/
def Earlier {M : Type} (r r' : IRule M) : Prop := r'.2.2.2 < r.2.2.2 ∨ (r'.2.2.2 = r.2.2.2 ∧ r.1 < r'.1)

theorem insertIRule_pairwise {M : Type} {r : IRule M} {rs : List (IRule M)} (h : rs.Pairwise Earlier)
    (hr : ∀ x ∈ rs, r.1 < x.1) : (insertIRule r rs).Pairwise Earlier := by
  induction rs with
  | nil => simp [insertIRule]
  | cons r' rs ih =>
    obtain ⟨h1, h2⟩ := List.pairwise_cons.mp h
    rw [insertIRule]
    split
    · rename_i hgt
      refine List.pairwise_cons.mpr ⟨?_, ih h2 (fun x hx => hr x (List.mem_cons_of_mem _ hx))⟩
      intro x hx
      rcases mem_insertIRule.mp hx with rfl | hx
      · exact Or.inl hgt
      · exact h1 x hx
    · rename_i hgt
      refine List.pairwise_cons.mpr ⟨?_, h⟩
      have h0 : Earlier r r' := by
        rcases Nat.lt_or_ge r'.2.2.2 r.2.2.2 with h | h
        · exact Or.inl h
        · exact Or.inr ⟨by omega, hr r' List.mem_cons_self⟩
      intro x hx
      rcases List.mem_cons.mp hx with rfl | hx
      · exact h0
      · rcases h0 with h0 | ⟨h0, -⟩ <;> rcases h1 x hx with h1 | ⟨h1, -⟩
        · exact Or.inl (by omega)
        · exact Or.inl (by omega)
        · exact Or.inl (by omega)
        · exact Or.inr ⟨by omega, hr x (List.mem_cons_of_mem _ hx)⟩

theorem sortIRules_pairwise {M : Type} {rs : List (IRule M)} (h : rs.Pairwise (fun a b => a.1 < b.1)) :
    (sortIRules rs).Pairwise Earlier := by
  induction rs with
  | nil => exact List.Pairwise.nil
  | cons r rs ih =>
    obtain ⟨h1, h2⟩ := List.pairwise_cons.mp h
    exact insertIRule_pairwise (ih h2) (fun x hx => h1 x (mem_sortIRules.mp hx))

/-- The rules with their indices, which begin with `n`. -/
def indexed {M : Type} (n : Nat) : List Str → List (Repl M) → List (IRule M)
  | [], _ => []
  | s :: search, [] => (n, s, none, s.length) :: indexed (n + 1) search []
  | s :: search, r :: replace => (n, s, some r, s.length) :: indexed (n + 1) search replace

theorem indexed_map {M : Type} (n : Nat) : ∀ (search : List Str) (rs : List (Repl M)),
    (indexed n search rs).map (·.2) = pairUp search rs := by
  intro search
  induction search generalizing n with
  | nil => intro rs; cases rs <;> rfl
  | cons s search ih => intro rs; cases rs <;> simp [indexed, pairUp, ih]

theorem mem_indexed {M : Type} {x : IRule M} (search : List Str) : ∀ (n : Nat) (rs : List (Repl M)),
    x ∈ indexed n search rs ↔ ∃ k w, search[k]? = some w ∧ x = (n + k, w, rs[k]?, w.length) := by
  induction search with
  | nil => intro n rs; cases rs <;> simp [indexed]
  | cons s search ih =>
    intro n rs
    have key : ∀ (o : Option (Repl M)) (rest : List (Repl M)), rs[0]? = o → (∀ k, rs[k+1]? = rest[k]?) →
        (x ∈ (n, s, o, s.length) :: indexed (n + 1) search rest ↔
          ∃ k w, (s :: search)[k]? = some w ∧ x = (n + k, w, rs[k]?, w.length)) := by
      intro o rest h0 hs
      rw [List.mem_cons, ih]
      constructor
      · rintro (rfl | ⟨k, w, hk, rfl⟩)
        · exact ⟨0, s, rfl, by simp [h0]⟩
        · exact ⟨k + 1, w, by simpa using hk, by rw [hs]; congr 1; omega⟩
      · rintro ⟨k, w, hk, rfl⟩
        cases k with
        | zero =>
          have : s = w := by simpa using hk
          subst this
          left; simp [h0]
        | succ k =>
          right
          exact ⟨k, w, by simpa using hk, by rw [hs]; congr 1; omega⟩
    cases rs with
    | nil => exact key none [] rfl (fun k => by simp)
    | cons r rs => exact key (some r) rs rfl (fun k => by simp)

theorem indexed_pairwise {M : Type} (search : List Str) : ∀ (n : Nat) (rs : List (Repl M)),
    (indexed n search rs).Pairwise (fun a b => a.1 < b.1) := by
  induction search with
  | nil => intro n rs; cases rs <;> exact List.Pairwise.nil
  | cons s search ih =>
    intro n rs
    cases rs <;>
    · refine List.pairwise_cons.mpr ⟨?_, ih _ _⟩
      intro x hx
      obtain ⟨k, w, -, rfl⟩ := (mem_indexed search _ _).mp hx
      show n < n + 1 + k
      omega

theorem mem_active {M : Type} {rs : List (IRule M)} {p : Nat × Str} :
    p ∈ active rs ↔ ∃ r ∈ rs, r.2.1 ≠ [] ∧ p = (r.1, r.2.1) := by
  induction rs with
  | nil => simp [active]
  | cons r rs ih =>
    rw [active]
    split
    · rename_i h
      rw [ih]
      constructor
      · rintro ⟨r', h1, h2⟩; exact ⟨r', List.mem_cons_of_mem _ h1, h2⟩
      · rintro ⟨r', h1, h2, h3⟩
        rcases List.mem_cons.mp h1 with rfl | h1
        · exact absurd h h2
        · exact ⟨r', h1, h2, h3⟩
    · rename_i h
      rw [List.mem_cons, ih]
      constructor
      · rintro (rfl | ⟨r', h1, h2⟩)
        · exact ⟨r, List.mem_cons_self, h, rfl⟩
        · exact ⟨r', List.mem_cons_of_mem _ h1, h2⟩
      · rintro ⟨r', h1, h2, h3⟩
        rcases List.mem_cons.mp h1 with rfl | h1
        · exact Or.inl h3
        · exact Or.inr ⟨r', h1, h2, h3⟩

theorem active_pairwise {M : Type} {rs : List (IRule M)} {R : Nat → Nat → Prop}
    (h : rs.Pairwise (fun a b => R a.1 b.1)) : (active rs).Pairwise (fun p q => R p.1 q.1) := by
  induction rs with
  | nil => exact List.Pairwise.nil
  | cons r rs ih =>
    obtain ⟨h1, h2⟩ := List.pairwise_cons.mp h
    rw [active]
    split
    · exact ih h2
    · refine List.pairwise_cons.mpr ⟨?_, ih h2⟩
      intro q hq
      obtain ⟨r', hr', -, rfl⟩ := mem_active.mp hq
      exact h1 r' hr'

theorem overwrite_get {M : Type} : ∀ (l : List (Repl M)) (i : Nat),
    (overwrite l)[i]? = (l[i]?).map (fun r => if r.outside then Repl.text [] else r)
  | [], i => by simp [overwrite]
  | r :: l, 0 => by simp [overwrite]
  | r :: l, i + 1 => by simp [overwrite, overwrite_get l i]

theorem copied_replaces {M : Type} (repl : Arg (Repl M)) (i : Nat) :
    flat (copied ((replaces repl)[i]?)) = node repl i := by
  cases repl with
  | other s =>
    cases i with
    | zero => simp [replaces, node, copied, Repl.text, flat]
    | succ i => simp [replaces, node, copied, flat]
  | nodes l =>
    simp only [replaces, node, overwrite_get]
    cases l[i]? with
    | none => rfl
    | some r =>
      simp only [Option.map_some, copied]
      split
      · simp [Repl.text, flat]
      · rfl

theorem gapOf_spec {M : Type} (rs : List (IRule M)) :
    ((∀ r ∈ rs, r.2.1 ≠ []) ∧ gapOf rs = []) ∨
    ∃ a r b, rs = a ++ r :: b ∧ (∀ r ∈ a, r.2.1 ≠ []) ∧ r.2.1 = [] ∧ gapOf rs = flat (copied r.2.2.1) := by
  induction rs with
  | nil => exact Or.inl ⟨by simp, rfl⟩
  | cons r rs ih =>
    rw [gapOf]
    split
    · rename_i h
      exact Or.inr ⟨[], r, rs, rfl, by simp, h, rfl⟩
    · rename_i h
      rcases ih with ⟨h1, h2⟩ | ⟨a, r', b, rfl, h1, h2, h3⟩
      · exact Or.inl ⟨by simpa [h] using h1, h2⟩
      · exact Or.inr ⟨r :: a, r', b, rfl, by simpa [h] using h1, h2, h3⟩

theorem searches_eq (a : Arg Str) : searches a = strings a := by cases a <;> rfl

theorem replaced_replace {M : Type} (string : Str) (search : Arg Str) (repl : Arg (Repl M)) :
    Replaced string search repl (replace string search repl).1 := by
  unfold replace Replaced
  simp only [searches_eq]
  generalize strings search = ss
  generalize hrs : sortIRules (indexed 0 ss (replaces repl)) = rs
  have hmap : sortRules (pairUp ss (replaces repl)) = rs.map (·.2) := by
    rw [← hrs, sortIRules_map, indexed_map]
  have hmem : ∀ r, r ∈ rs ↔ ∃ k w, ss[k]? = some w ∧ r = (k, w, (replaces repl)[k]?, w.length) := by
    intro r
    rw [← hrs, mem_sortIRules, mem_indexed]
    simp
  have hpw : rs.Pairwise Earlier := by
    rw [← hrs]; exact sortIRules_pairwise (indexed_pairwise _ _ _)
  have hbef : rs.Pairwise (fun a b => Before ss a.1 b.1) := by
    refine hpw.imp_of_mem ?_
    intro a b ha hb h
    obtain ⟨k, w, hk, rfl⟩ := (hmem a).mp ha
    obtain ⟨k', w', hk', rfl⟩ := (hmem b).mp hb
    simpa [Earlier, Before, List.getD, hk, hk'] using h
  have hemp : rs.Pairwise (fun r r' => r.2.1 = [] → r'.2.1 = []) := by
    refine hpw.imp_of_mem ?_
    intro a b ha hb h h0
    obtain ⟨k, w, hk, rfl⟩ := (hmem a).mp ha
    obtain ⟨k', w', hk', rfl⟩ := (hmem b).mp hb
    simp only at h0
    subst h0
    rcases h with h | ⟨h, -⟩
    · simp at h
    · exact List.length_eq_zero_iff.mp (by simpa using h)
  have hlisted : Listed ss (active rs) := by
    refine ⟨?_, active_pairwise hbef⟩
    intro p hp
    obtain ⟨r, hr, h1, rfl⟩ := mem_active.mp hp
    obtain ⟨k, w, hk, rfl⟩ := (hmem r).mp hr
    exact ⟨hk, h1⟩
  refine ⟨marks (active rs) string, gapOf rs, ⟨source_marks hlisted string, ?_, ?_⟩, ?_, ?_, ?_⟩
  · intro i hi
    obtain ⟨w, hw⟩ := hit_marks hi
    exact ⟨w, hlisted.mem _ hw⟩
  · intro j w k hj hw hk
    have : (j, w) ∈ active rs := mem_active.mpr ⟨_, (hmem _).mpr ⟨j, w, hj, rfl⟩, hw, rfl⟩
    exact greedy_marks hlisted this string k hk
  · rcases gapOf_spec rs with ⟨h1, h2⟩ | ⟨a, r, b, heq, h1, h2, h3⟩
    · refine Or.inl ⟨?_, h2⟩
      intro w hw
      obtain ⟨k, hk⟩ := List.mem_iff_getElem?.mp hw
      exact h1 _ ((hmem _).mpr ⟨k, w, hk, rfl⟩)
    · have hr : r ∈ rs := by rw [heq]; simp
      obtain ⟨k, w, hk, rfl⟩ := (hmem r).mp hr
      simp only at h2
      subst h2
      refine Or.inr ⟨k, hk, ?_, ?_⟩
      · intro j hj hj'
        have hjm : ((j, [], (replaces repl)[j]?, ([] : Str).length) : IRule M) ∈ rs := (hmem _).mpr ⟨j, [], hj', rfl⟩
        rw [heq] at hjm hbef
        rcases List.mem_append.mp hjm with hjm | hjm
        · exact h1 _ hjm rfl
        · rcases List.mem_cons.mp hjm with hjm | hjm
          · simp only [Prod.mk.injEq] at hjm; omega
          · have := (List.pairwise_cons.mp (List.pairwise_append.mp hbef).2.1).1 _ hjm
            simp only [Before, List.getD, hk, hj'] at this
            simp at this
            omega
      · rw [h3]; exact copied_replaces repl k
  · exact (children_normal _).1
  · rw [(children_normal _).2, hmap]
    refine replaceBy_eq (node repl) rs ?_ hemp string
    intro r hr
    obtain ⟨k, w, hk, rfl⟩ := (hmem r).mp hr
    exact copied_replaces repl k

end Verif.Xslt.ExsltStr
