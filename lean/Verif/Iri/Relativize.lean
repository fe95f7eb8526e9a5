import Verif.Iri.PercentLemmas3
/- Lemmas about `relativize`. -/
namespace Verif.Iri
open Spec

theorem run_append {a b ks : List Str} (ha : ∀ s ∈ a, s ≠ s!! "." ∧ s ≠ s!! "..") :
    run (a ++ b) ks = run b (a.reverse ++ ks) := by
  induction a generalizing ks with
  | nil => rfl
  | cons x a ih =>
    obtain ⟨h1, h2⟩ := ha x (by simp)
    rw [List.cons_append, run, if_neg h2, if_neg h1, ih (fun s hs => ha s (by simp [hs]))]
    simp

theorem run_replicate {b : List Str} (hb : b ≠ []) (k : Nat) (ks : List Str) :
    run (List.replicate k (s!! "..") ++ b) ks = run b (ks.drop k) := by
  induction k generalizing ks with
  | zero => rfl
  | succ k ih =>
    rw [List.replicate_succ, List.cons_append, run, if_pos rfl, if_neg (by simp [hb]), ih]
    simp

theorem run_dot {b ks : List Str} (hb : b ≠ []) : run (s!! "." :: b) ks = run b ks := by
  rw [run, if_neg (by decide), if_pos rfl, if_neg hb]

theorem commonSegs_spec (ts as : List Str) : ts.take (commonSegs ts as) = as.take (commonSegs ts as) ∧
    commonSegs ts as ≤ ts.length ∧ commonSegs ts as ≤ as.length := by
  induction ts generalizing as with
  | nil => simp [commonSegs]
  | cons t ts ih =>
    cases as with
    | nil => simp [commonSegs]
    | cons a as =>
      unfold commonSegs
      split
      · rename_i h
        obtain ⟨h1, h2, h3⟩ := ih as
        simp [h.1, h1, h2, h3]
      · simp

/-- The relative segment list. -/
theorem rel_run {ts as : List Str} (hd : ∀ s ∈ as, s ≠ s!! "." ∧ s ≠ s!! "..")
    (ht : ∀ s ∈ ts, s ≠ s!! "." ∧ s ≠ s!! "..") {i k : Nat} (hi : ts.take i = as.take i)
    (h1 : i < ts.length) (h2 : i + 1 + k = as.length) (dot : Bool) :
    (run (as.dropLast ++ (List.replicate k (s!! "..") ++ ((if dot then [s!! "."] else []) ++ ts.drop i))) []).reverse
      = ts := by
  have hne : ts.drop i ≠ [] := by simp; omega
  have hne2 : (if dot then [s!! "."] else []) ++ ts.drop i ≠ [] := by simp [hne]
  rw [run_append (fun s hs => hd s (List.dropLast_subset _ hs)), run_replicate hne2]
  have hdot : ∀ ks, run ((if dot then [s!! "."] else []) ++ ts.drop i) ks = run (ts.drop i) ks := by
    intro ks
    cases dot with
    | false => rfl
    | true => exact run_dot hne
  rw [hdot, run_id _ _ (fun s hs => ht s (List.drop_subset _ _ hs))]
  rw [List.reverse_append, List.reverse_reverse]
  have : (List.drop k (as.dropLast.reverse ++ [])).reverse = ts.take i := by
    rw [List.append_nil, List.drop_reverse, List.reverse_reverse, hi, List.length_dropLast,
      List.dropLast_eq_take, List.take_take]
    congr 1; omega
  rw [this, List.take_append_drop]

theorem split_join_replicate {k : Nat} {q : Str} :
    (List.replicate k (s!! "../")).flatten ++ q = Py.join (s!! "/") (List.replicate k (s!! "..") ++ Py.split '/' q) := by
  induction k with
  | zero => simp [Py.join_split]
  | succ k ih =>
    rw [List.replicate_succ, List.replicate_succ, List.flatten_cons, List.append_assoc, ih, List.cons_append (a := s!! "..")]
    cases h : List.replicate k (s!! "..") ++ Py.split '/' q with
    | nil =>
      have := Py.split_ne_nil '/' q
      simp at h; exact absurd h.2 this
    | cons x xs => simp [Py.join]

/-- Merging with the base path. -/
theorem merge_segs {B : UriRef} {ap : Str} (hB : B.path = '/' :: ap) (p : Str) :
    mergePath B p = '/' :: Py.join (s!! "/") ((Py.split '/' ap).dropLast ++ Py.split '/' p) := by
  unfold mergePath
  rw [if_neg (by simp [hB]), hB]
  rcases List.eq_nil_or_concat (Py.split '/' ap) with h0 | ⟨init, last, h0⟩
  · exact absurd h0 (Py.split_ne_nil _ _)
  · rw [List.concat_eq_append] at h0
    have hl : '/' ∉ last := Py.not_mem_of_mem_split (s := ap) (by rw [h0]; simp)
    have hap : '/' :: ap = cat init ++ '/' :: last := by
      rw [← Py.join_split '/' ap, h0, slash_join (by simp), cat_append]; simp [cat]
    have hr : Py.rfind '/' ('/' :: ap) = some (cat init).length := by
      cases hf : Py.rfind '/' ('/' :: ap) with
      | none => exact absurd (Py.rfind_none.1 hf) (by simp)
      | some j =>
        obtain ⟨e1, e2⟩ := Py.rfind_some hf
        rw [hap] at e1
        -- the part after the last slash is unique
        have e2' := e2
        rw [hap] at e2'
        have hj : j < (cat init ++ '/' :: last).length := by
          have := congrArg List.length e1
          simp at this ⊢; omega
        congr 1
        rcases Nat.lt_trichotomy j (cat init).length with h | h | h
        · exfalso; apply e2'
          rw [List.drop_append_of_le_length (by omega)]; simp
        · exact h
        · exfalso
          have : (cat init ++ '/' :: last)[j]? = some '/' := by
            conv => lhs; rw [e1]
            rw [List.getElem?_append_right (by simp; omega)]
            simp only [List.length_take]
            rw [show j - min j (cat init ++ '/' :: last).length = 0 by omega]; rfl
          rw [List.getElem?_append_right (by omega)] at this
          rw [show j - (cat init).length = (j - (cat init).length - 1) + 1 by omega, List.getElem?_cons_succ] at this
          exact hl (List.mem_of_getElem? this)
    rw [hr]
    simp only
    have ht : ('/' :: ap).take ((cat init).length + 1) = cat init ++ ['/'] := by
      rw [hap, List.take_append, List.take_of_length_le (by omega)]
      simp
    rw [ht, h0, List.dropLast_concat]
    rw [slash_join (by simp [Py.split_ne_nil]), cat_append, ← slash_join (l := Py.split '/' p) (Py.split_ne_nil _ _),
      Py.join_split]
    simp

theorem relSegments_sub {ts as : List Str} {lead : Bool} {tp p : Str} {sub : Bool}
    (h : relSegments ts as lead tp sub = some p) : relSegments ts as lead tp false = some p := by
  cases sub with
  | false => exact h
  | true =>
    unfold relSegments at h ⊢
    split at h
    · rename_i h1
      rw [if_pos h1]
      split at h
      · rename_i h2; rw [if_pos h2]; exact h
      · simp at h
    · rename_i h1
      rw [if_neg h1]
      split at h
      · simp at h
      · rename_i h2; rw [if_neg h2]; exact h

/-- The three shapes of the computed relative path. -/
theorem relativePath_spec {tp ap p : Str} {sub : Bool} (h : relativePath ('/' :: tp) ('/' :: ap) sub = some p)
    (hnp : ¬ Py.split '/' ap <+: Py.split '/' tp) (hnq : ¬ Py.split '/' tp <+: Py.split '/' ap) :
    p = '/' :: tp ∨
    ∃ (i k : Nat) (dot : Bool), (Py.split '/' tp).take i = (Py.split '/' ap).take i ∧ i < (Py.split '/' tp).length ∧
      i + 1 + k = (Py.split '/' ap).length ∧
      p = Py.join (s!! "/") (List.replicate k (s!! "..") ++ ((if dot then [s!! "."] else []) ++ (Py.split '/' tp).drop i)) ∧
      (p.head? = some '/' → i = 0 ∧ p = tp) := by
  obtain ⟨c1, c2, c3⟩ := commonSegs_spec (Py.split '/' tp) (Py.split '/' ap)
  have c4 : commonSegs (Py.split '/' tp) (Py.split '/' ap) < (Py.split '/' tp).length := by
    rcases Nat.lt_or_ge (commonSegs (Py.split '/' tp) (Py.split '/' ap)) (Py.split '/' tp).length with h | h
    · exact h
    · exfalso; apply hnq
      rw [List.take_of_length_le h] at c1
      rw [c1]; exact List.take_prefix _ _
  have c5 : commonSegs (Py.split '/' tp) (Py.split '/' ap) < (Py.split '/' ap).length := by
    rcases Nat.lt_or_ge (commonSegs (Py.split '/' tp) (Py.split '/' ap)) (Py.split '/' ap).length with h | h
    · exact h
    · exfalso; apply hnp
      rw [List.take_of_length_le (l := Py.split '/' ap) h] at c1
      rw [← c1]; exact List.take_prefix _ _
  unfold relativePath at h
  simp only [List.head?_cons, reduceCtorEq, if_false, not_true_eq_false, and_self, and_false, if_true,
    List.tail_cons, decide_true, and_true, Bool.false_eq_true] at h
  have h := relSegments_sub h
  unfold relSegments at h
  simp only [and_true, Bool.false_eq_true, if_false] at h
  generalize hts : Py.split '/' tp = ts at *
  generalize has : Py.split '/' ap = as at *
  generalize hi : commonSegs ts as = i at *
  have hslash : ∀ s ∈ ts, '/' ∉ s := by rw [← hts]; intro s hs; exact Py.not_mem_of_mem_split hs
  have hdrop : ts.drop i ≠ [] := by simp; omega
  split at h
  · rename_i h0
    subst h0
    split at h
    · rename_i h1
      simp only [Option.some.injEq] at h
      subst h
      refine Or.inr ⟨0, 0, false, by simp, c4, by omega, ?_, fun _ => ⟨rfl, rfl⟩⟩
      rw [← hts]; simp [Py.join_split]
    · simp only [Option.some.injEq] at h
      exact Or.inl h.symm
  · rename_i h0
    right
    have hnohead : ∀ l : List Str, l ≠ [] → (∀ s ∈ l, '/' ∉ s) →
        (Py.join (s!! "/") l).head? = some '/' → ∃ r, l = [] :: r ∧ r ≠ [] := by
      intro l hl hs hh
      match l, hl with
      | [x], _ =>
        simp only [Py.join] at hh
        cases x with
        | nil => simp at hh
        | cons c x => simp at hh; subst hh; exact absurd (List.mem_cons_self ..) (hs ('/' :: x) (by simp))
      | x :: y :: r, _ =>
        cases x with
        | nil => exact ⟨y :: r, rfl, by simp⟩
        | cons c x => simp [Py.join] at hh; subst hh; exact absurd (List.mem_cons_self ..) (hs ('/' :: x) (by simp))
    split at h
    · simp only [Option.some.injEq] at h
      rename_i h1
      have hsj : Py.split '/' (Py.join (s!! "/") (ts.drop i)) = ts.drop i :=
        Py.split_join hdrop (fun s hs => hslash s (List.drop_subset _ _ hs))
      refine ⟨i, as.length - i - 1, false, c1, c4, by omega, ?_, ?_⟩
      · rw [← h, split_join_replicate, hsj]; rfl
      · intro hh
        rw [← h] at hh
        rw [show as.length - i - 1 = (as.length - i - 2) + 1 by omega, List.replicate_succ, List.flatten_cons] at hh
        simp at hh
    · rename_i h1
      split at h
      · simp only [Option.some.injEq] at h
        refine ⟨i, 0, true, c1, c4, by omega, ?_, ?_⟩
        · rw [← h]
          simp only [List.replicate_zero, List.nil_append, if_true, List.cons_append]
          cases hd : ts.drop i with
          | nil => exact absurd hd hdrop
          | cons x xs => simp [Py.join]
        · intro hh; rw [← h] at hh; simp at hh
      · rename_i h2
        simp only [Option.some.injEq] at h
        refine ⟨i, 0, false, c1, c4, by omega, ?_, ?_⟩
        · rw [← h]; rfl
        · intro hh
          exfalso
          rw [← h] at hh
          obtain ⟨r, hr, hrn⟩ := hnohead _ hdrop (fun s hs => hslash s (List.drop_subset _ _ hs)) hh
          apply h2
          have : (ts.drop i)[0]? = some [] := by rw [hr]; rfl
          rw [List.getElem?_drop, Nat.add_zero] at this
          refine ⟨?_, this⟩
          have hl := congrArg List.length hr
          rw [List.length_drop, List.length_cons] at hl
          have : r.length ≠ 0 := by simpa using hrn
          omega

end Verif.Iri
