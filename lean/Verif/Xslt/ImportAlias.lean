import Verif.Xslt.ImportLemmas

/-
Lemmas about `xsl:namespace-alias`.
-/
namespace Verif.Xslt
open Verif Verif.Template Spec

/-- How many aliases for the namespace. -/
def cnt (g : List Alias) (n : Option Str) : Nat := (g.filter (·.sheetNs = n)).length

theorem cnt_cons (a : Alias) (g : List Alias) (n : Option Str) :
    cnt (a :: g) n = (if a.sheetNs = n then 1 else 0) + cnt g n := by
  unfold cnt
  by_cases h : a.sheetNs = n <;> simp [h]; omega

abbrev AlTab := Option Str → Option (Option Str)

def firstAlias (g : List Alias) (n : Option Str) : Option (Option Str) :=
  (g.find? (·.sheetNs = n)).map (·.resultNs)

theorem aliasGroup_some : ∀ {g : List Alias} {al al' : AlTab} {mapped}, aliasGroup g al mapped = some al' →
    ∀ n, al' n = (al n).or (firstAlias g n)
  | [], al, al', mapped, h, n => by cases h; simp [firstAlias]
  | a :: g, al, al', mapped, h, n => by
    simp only [aliasGroup] at h
    cases e : al a.sheetNs with
    | none =>
      rw [e] at h
      rw [aliasGroup_some h n]
      by_cases hn : n = a.sheetNs
      · subst hn; simp [e, firstAlias]
      · simp [hn, firstAlias, Ne.symm hn]
    | some r =>
      simp only [e] at h
      split at h
      · exact nomatch h
      · rw [aliasGroup_some h n]
        by_cases hn : n = a.sheetNs
        · subst hn; simp [e]
        · simp [firstAlias, Ne.symm hn]

theorem aliasGroup_none : ∀ {g : List Alias} {al : AlTab} {mapped : Option Str → Bool},
    (∀ n, mapped n = true → al n ≠ none) →
    (aliasGroup g al mapped = none ↔ ∃ n, (mapped n = true ∧ 1 ≤ cnt g n) ∨ (al n = none ∧ 2 ≤ cnt g n))
  | [], al, mapped, hm => by simp [aliasGroup, cnt]
  | a :: g, al, mapped, hm => by
    simp only [aliasGroup]
    cases e : al a.sheetNs with
    | none =>
      simp only
      rw [aliasGroup_none (by
        intro n hn
        by_cases h : n = a.sheetNs
        · simp [h]
        · simp only [h, if_false]
          exact hm n (by simpa [h] using hn))]
      constructor
      · rintro ⟨n, h⟩
        refine ⟨n, ?_⟩
        rw [cnt_cons]
        by_cases hn : n = a.sheetNs
        · subst hn
          simp at h
          simp [e]; omega
        · simp only [hn, decide_false, Bool.false_or, if_false] at h
          rw [if_neg (Ne.symm hn)]
          simpa using h
      · rintro ⟨n, h⟩
        refine ⟨n, ?_⟩
        rw [cnt_cons] at h
        by_cases hn : n = a.sheetNs
        · subst hn
          have : mapped a.sheetNs ≠ true := fun h => hm _ h e
          simp [e, this] at h
          simp; omega
        · simp only [hn, decide_false, Bool.false_or, if_false]
          rw [if_neg (Ne.symm hn)] at h
          simpa using h
    | some r =>
      simp only
      split
      · rename_i hma
        simp only [true_iff]
        exact ⟨a.sheetNs, .inl ⟨hma, by rw [cnt_cons]; simp⟩⟩
      · rename_i hma
        rw [aliasGroup_none hm]
        constructor
        · rintro ⟨n, h⟩
          refine ⟨n, ?_⟩
          rw [cnt_cons]
          rcases h with ⟨h1, h2⟩ | ⟨h1, h2⟩
          · exact .inl ⟨h1, by omega⟩
          · exact .inr ⟨h1, by omega⟩
        · rintro ⟨n, h⟩
          refine ⟨n, ?_⟩
          rw [cnt_cons] at h
          by_cases hn : a.sheetNs = n
          · subst hn
            rcases h with ⟨h1, _⟩ | ⟨h1, _⟩
            · exact absurd h1 hma
            · rw [e] at h1; exact nomatch h1
          · rw [if_neg hn] at h
            simpa using h

/-- The fold over the groups. -/
def aliasFold (gs : List (List Alias)) (r : Option AlTab) : Option AlTab :=
  gs.foldl (fun r g => r.bind fun al => aliasGroup g al fun _ => false) r

theorem aliasFold_none (gs : List (List Alias)) : aliasFold gs none = none := by
  induction gs with
  | nil => rfl
  | cons g gs ih => exact ih

theorem aliasFold_some : ∀ {gs : List (List Alias)} {al al' : AlTab}, aliasFold gs (some al) = some al' →
    ∀ n, al' n = (al n).or (firstAlias gs.flatten n)
  | [], al, al', h, n => by cases h; simp [firstAlias]
  | g :: gs, al, al', h, n => by
    have h' : aliasFold gs (aliasGroup g al fun _ => false) = some al' := h
    cases e : aliasGroup g al fun _ => false with
    | none => rw [e, aliasFold_none] at h'; exact nomatch h'
    | some al1 =>
      rw [e] at h'
      rw [aliasFold_some h' n, aliasGroup_some e n]
      simp only [firstAlias, List.flatten_cons, List.find?_append, Option.or_assoc]
      congr 1
      cases g.find? (·.sheetNs = n) <;> simp

theorem firstAlias_none {g : List Alias} {n} : firstAlias g n = none ↔ cnt g n = 0 := by
  simp [firstAlias, cnt]

theorem aliasFold_raise : ∀ {gs : List (List Alias)} {al : AlTab}, aliasFold gs (some al) = none ↔
    ∃ pre g post n, gs = pre ++ g :: post ∧ al n = none ∧ 2 ≤ cnt g n ∧ ∀ h ∈ pre, cnt h n = 0
  | [], al => by simp [aliasFold]
  | g :: gs, al => by
    have hu : aliasFold (g :: gs) (some al) = aliasFold gs (aliasGroup g al fun _ => false) := rfl
    rw [hu]
    cases e : aliasGroup g al fun _ => false with
    | none =>
      simp only [aliasFold_none, true_iff]
      obtain ⟨n, h⟩ := (aliasGroup_none (by simp)).1 e
      simp only [Bool.false_eq_true, false_and, false_or] at h
      exact ⟨[], g, gs, n, rfl, h.1, h.2, by simp⟩
    | some al1 =>
      have hal := aliasGroup_some e
      rw [aliasFold_raise]
      constructor
      · rintro ⟨pre, g', post, n, rfl, h1, h2, h3⟩
        rw [hal n, Option.or_eq_none_iff] at h1
        refine ⟨g :: pre, g', post, n, rfl, h1.1, h2, ?_⟩
        intro h hin
        rcases List.mem_cons.1 hin with rfl | hin
        · exact firstAlias_none.1 h1.2
        · exact h3 h hin
      · rintro ⟨pre, g', post, n, h0, h1, h2, h3⟩
        cases pre with
        | nil =>
          cases h0
          rw [(aliasGroup_none (by simp)).2 ⟨n, .inr ⟨h1, h2⟩⟩] at e
          exact nomatch e
        | cons p pre =>
          cases h0
          refine ⟨pre, g', post, n, rfl, ?_, h2, fun h hin => h3 h (by simp [hin])⟩
          rw [hal n, h1, Option.or_eq_none_iff]
          exact ⟨rfl, firstAlias_none.2 (h3 _ (by simp))⟩

/-! Groups -/

theorem groupRuns_flatten {α : Type} (key : α → Nat) : ∀ l : List α,
    (groupRuns key l).flatten = l ∧ ∀ g ∈ groupRuns key l, g ≠ []
  | [] => by simp [groupRuns]
  | x :: xs => by
    obtain ⟨h1, h2⟩ := groupRuns_flatten key xs
    simp only [groupRuns]
    split
    · rename_i y ys gs e
      rw [e] at h1 h2
      split
      · refine ⟨by simpa using h1, fun g hg => ?_⟩
        rcases List.mem_cons.1 hg with rfl | hg
        · nofun
        · exact h2 g (by simp [hg])
      · refine ⟨by simpa using h1, fun g hg => ?_⟩
        rcases List.mem_cons.1 hg with rfl | hg
        · nofun
        · exact h2 g hg
    · rename_i hne
      cases e : groupRuns key xs with
      | nil => rw [e] at h1; simp at h1; simp [← h1]
      | cons g gs =>
        cases g with
        | nil => exact absurd rfl (h2 [] (by simp [e]))
        | cons y ys => exact absurd e (hne _ _ _)

/-- In a sorted list each group has all elements with its key. -/
theorem groupRuns_sorted {α : Type} (key : α → Nat) : ∀ {l : List α}, l.Pairwise (fun a b => key b ≤ key a) →
    (∀ g ∈ groupRuns key l, ∀ x ∈ g, ∀ y ∈ g, key x = key y) ∧
    (groupRuns key l).Pairwise fun g h => ∀ x ∈ g, ∀ y ∈ h, key y < key x
  | [], _ => by simp [groupRuns]
  | x :: xs, hs => by
    obtain ⟨hx, hs'⟩ := List.pairwise_cons.1 hs
    obtain ⟨h1, h2⟩ := groupRuns_sorted key hs'
    obtain ⟨f1, f2⟩ := groupRuns_flatten key xs
    simp only [groupRuns]
    split
    · rename_i y ys gs e
      rw [e] at h1 h2 f1
      obtain ⟨p1, p2⟩ := List.pairwise_cons.1 h2
      have hall := h1 (y :: ys) (by simp)
      split
      · rename_i hk
        refine ⟨fun g hg => ?_, List.pairwise_cons.2 ⟨fun h hh a ha b hb => ?_, p2⟩⟩
        · rcases List.mem_cons.1 hg with rfl | hg
          · have key1 : ∀ a ∈ x :: y :: ys, key a = key y := by
              intro a ha
              rcases List.mem_cons.1 ha with rfl | ha
              · exact hk
              · exact hall a ha y (by simp)
            intro a ha b hb
            rw [key1 a ha, key1 b hb]
          · exact h1 g (by simp [hg])
        · rcases List.mem_cons.1 ha with rfl | ha
          · rw [hk]; exact p1 h hh y (by simp) b hb
          · exact p1 h hh a ha b hb
      · rename_i hk
        refine ⟨fun g hg => ?_, List.pairwise_cons.2 ⟨fun h hh a ha b hb => ?_, h2⟩⟩
        · rcases List.mem_cons.1 hg with rfl | hg
          · intro a ha b hb
            simp only [List.mem_singleton] at ha hb
            rw [ha, hb]
          · exact h1 g hg
        · simp only [List.mem_singleton] at ha
          subst ha
          have hb' : b ∈ xs := by
            rw [← f1]
            exact List.mem_flatten.2 ⟨h, hh, hb⟩
          have hy : y ∈ xs := by
            rw [← f1]
            exact List.mem_flatten.2 ⟨y :: ys, by simp, by simp⟩
          have l1 := hx y hy
          have l3 : key b ≤ key y := by
            rcases List.mem_cons.1 hh with rfl | hh
            · rw [hall b hb y (by simp)]; exact Nat.le_refl _
            · exact Nat.le_of_lt (p1 h hh y (by simp) b hb)
          omega
    · simp

/-- How many aliases for the namespace with the precedence. -/
def cntAt (l : List Alias) (n : Option Str) (p : Nat) : Nat := (l.filter fun a => a.sheetNs = n ∧ a.prec = p).length

theorem cntAt_append (a b : List Alias) (n p) : cntAt (a ++ b) n p = cntAt a n p + cntAt b n p := by
  simp [cntAt]

theorem cntAt_reverse (l : List Alias) (n p) : cntAt l.reverse n p = cntAt l n p := by
  simp [cntAt]

theorem cntAt_other {g : List Alias} {n p} (h : ∀ a ∈ g, a.prec ≠ p) : cntAt g n p = 0 := by
  simp only [cntAt, List.length_eq_zero_iff, List.filter_eq_nil_iff]
  intro a ha
  simp [h a ha]

theorem cntAt_same {g : List Alias} {n p} (h : ∀ a ∈ g, a.prec = p) : cntAt g n p = cnt g n := by
  unfold cntAt cnt
  congr 1
  apply List.filter_congr
  intro a ha
  simp [h a ha]

theorem cnt_pos {g : List Alias} {n} : cnt g n ≠ 0 ↔ ∃ a ∈ g, a.sheetNs = n := by
  simp [cnt, List.filter_eq_nil_iff]

theorem cntAt_pos {g : List Alias} {n p} : cntAt g n p ≠ 0 ↔ ∃ a ∈ g, a.sheetNs = n ∧ a.prec = p := by
  simp [cntAt, List.filter_eq_nil_iff]

theorem aliases_raise {l : List Alias} (hs : l.Pairwise (·.prec ≤ ·.prec)) :
    aliases l = none ↔ ∃ n p, 2 ≤ cntAt l n p ∧ ∀ a ∈ l, a.sheetNs = n → a.prec ≤ p := by
  have hs' : l.reverse.Pairwise (fun a b => b.prec ≤ a.prec) := List.pairwise_reverse.2 hs
  obtain ⟨f1, f2⟩ := groupRuns_flatten (fun a : Alias => a.prec) l.reverse
  obtain ⟨g1, g2⟩ := groupRuns_sorted (fun a : Alias => a.prec) hs'
  have hu : aliases l = aliasFold (groupRuns (·.prec) l.reverse) (some fun _ => none) := rfl
  rw [hu, aliasFold_raise]
  generalize groupRuns (fun x : Alias => x.prec) l.reverse = gs at f1 f2 g1 g2
  have mem : ∀ a, a ∈ l ↔ ∃ g ∈ gs, a ∈ g := by
    intro a
    rw [← List.mem_reverse, ← f1, List.mem_flatten]
  constructor
  · rintro ⟨pre, g, post, n, rfl, -, h2, h3⟩
    obtain ⟨p1, p2, p3⟩ := List.pairwise_append.1 g2
    obtain ⟨p4, p5⟩ := List.pairwise_cons.1 p2
    obtain ⟨a, ha, hn⟩ := cnt_pos.1 (by omega : cnt g n ≠ 0)
    have hg : ∀ b ∈ g, b.prec = a.prec := fun b hb => g1 g (by simp) b hb a ha
    refine ⟨n, a.prec, ?_, fun b hb hbn => ?_⟩
    · rw [← cntAt_reverse, ← f1]
      simp only [List.flatten_append, List.flatten_cons, cntAt_append, cntAt_same hg]
      omega
    · obtain ⟨h, hh, hb⟩ := (mem b).1 hb
      rcases List.mem_append.1 hh with hh | hh
      · exact absurd (h3 h hh) (cnt_pos.2 ⟨b, hb, hbn⟩)
      · rcases List.mem_cons.1 hh with rfl | hh
        · rw [hg b hb]; exact Nat.le_refl _
        · exact Nat.le_of_lt (p4 h hh a ha b hb)
  · rintro ⟨n, p, h1, h2⟩
    obtain ⟨a, ha, hn, rfl⟩ := cntAt_pos.1 (by omega : cntAt l n p ≠ 0)
    obtain ⟨g, hg, hag⟩ := (mem a).1 ha
    obtain ⟨pre, post, rfl⟩ := List.append_of_mem hg
    obtain ⟨p1, p2, p3⟩ := List.pairwise_append.1 g2
    obtain ⟨p4, p5⟩ := List.pairwise_cons.1 p2
    have hgg : ∀ b ∈ g, b.prec = a.prec := fun b hb => g1 g (by simp) b hb a hag
    refine ⟨pre, g, post, n, rfl, rfl, ?_, fun h hh => ?_⟩
    · rw [← cntAt_reverse, ← f1] at h1
      simp only [List.flatten_append, List.flatten_cons, cntAt_append, cntAt_same hgg] at h1
      rw [cntAt_other (g := pre.flatten), cntAt_other (g := post.flatten)] at h1
      · omega
      · intro b hb
        obtain ⟨h, hh, hb⟩ := List.mem_flatten.1 hb
        have := p4 h hh a hag b hb
        omega
      · intro b hb
        obtain ⟨h, hh, hb⟩ := List.mem_flatten.1 hb
        have := p3 h hh g (by simp) b hb a hag
        omega
    · rcases Nat.eq_zero_or_pos (cnt h n) with e | e
      · exact e
      · obtain ⟨b, hb, hbn⟩ := cnt_pos.1 (by omega : cnt h n ≠ 0)
        have l1 := p3 h hh g (by simp) b hb a hag
        have l2 := h2 b ((mem b).2 ⟨h, by simp [hh], hb⟩) hbn
        omega

theorem aliases_ok {l : List Alias} {al} (h : aliases l = some al) (n : Option Str) : al n = firstAlias l.reverse n := by
  have h' : aliasFold (groupRuns (·.prec) l.reverse) (some fun _ => none) = some al := h
  rw [aliasFold_some h' n, (groupRuns_flatten _ _).1]
  rfl

end Verif.Xslt
