import Verif.XPath.Strings
import Verif.XPath.StringsSpec

namespace Verif.XPath
open Verif

/-! ### find -/

theorem find_spec (t s : Str) :
    match Py.find t s with
    | none => ¬ Spec.Contains s t
    | some i => (∃ b, s = s.take i ++ t ++ b) ∧ i ≤ s.length ∧
        ∀ j < i, ¬ ∃ b, s.drop j = t ++ b := by
  induction s with
  | nil =>
    unfold Py.find
    split
    · rename_i h; split at h
      · simp at h
      · rintro ⟨a, b, hab⟩
        have : t = [] := by
          have := congrArg List.length hab; simp at this
          exact List.eq_nil_of_length_eq_zero (by omega)
        contradiction
    · rename_i i h; split at h
      · rename_i ht; simp at h; subst h; subst ht; simp
      · simp at h
  | cons x xs ih =>
    unfold Py.find
    by_cases hsw : Py.startsWith (x :: xs) t = true
    · rw [if_pos hsw]
      obtain ⟨b, hb⟩ := Py.startsWith_iff.1 hsw
      simp
      exact ⟨b, hb⟩
    · rw [if_neg hsw]
      have hns : ¬ ∃ b, x :: xs = t ++ b := fun h => hsw (Py.startsWith_iff.2 h)
      cases hf : Py.find t xs with
      | none =>
        rw [hf] at ih
        simp only [Option.map_none]
        rintro ⟨a, b, hab⟩
        cases a with
        | nil => exact hns ⟨b, by simpa using hab⟩
        | cons y ys =>
          simp at hab
          exact ih ⟨ys, b, by simpa using hab.2⟩
      | some i =>
        rw [hf] at ih
        obtain ⟨⟨b, hb⟩, hi, hmin⟩ := ih
        simp only [Option.map_some]
        refine ⟨⟨b, ?_⟩, by simp; omega, ?_⟩
        · simp only [List.take_succ_cons, List.cons_append]
          rw [← hb]
        · intro j hj
          cases j with
          | zero => simpa using hns
          | succ j => simpa using hmin j (by omega)

/-! ### keep / slice -/

theorem keep_congr {P Q : Nat → Prop} [DecidablePred P] [DecidablePred Q] (s : Str) (p : Nat)
    (h : ∀ i, p ≤ i → i < p + s.length → (P i ↔ Q i)) : Spec.keep P p s = Spec.keep Q p s := by
  induction s generalizing p with
  | nil => rfl
  | cons c cs ih =>
    have h0 := h p (Nat.le_refl _) (by simp)
    have ih' := ih (p + 1) (fun i h1 h2 => h i (by omega) (by simp at *; omega))
    unfold Spec.keep
    by_cases hp : P p
    · rw [if_pos hp, if_pos (h0.1 hp), ih']
    · rw [if_neg hp, if_neg (fun hq => hp (h0.2 hq)), ih']

/-- A slice keeps the positions of an interval. -/
theorem slice_eq_keep (s : Str) (i j p : Nat) :
    slice s i j = Spec.keep (fun k => p + i ≤ k ∧ k < p + j) p s := by
  induction s generalizing i j p with
  | nil => simp [slice, Spec.keep]
  | cons c cs ih =>
    unfold Spec.keep
    cases i with
    | zero =>
      cases j with
      | zero =>
        rw [if_neg (by omega)]
        have := ih 0 0 (p + 1)
        simp [slice] at this ⊢
        rw [← this]
        apply keep_congr; intros; omega
      | succ j =>
        rw [if_pos (by omega)]
        have := ih 0 j (p + 1)
        simp [slice] at this ⊢
        rw [this]
        apply keep_congr; intros; omega
    | succ i =>
      rw [if_neg (by omega)]
      have hs : slice (c :: cs) (i + 1) j = slice cs i (j - 1) := by
        simp only [slice, List.drop_succ_cons]; congr 1; omega
      rw [hs, ih i (j - 1) (p + 1)]
      apply keep_congr; intros; omega

theorem drop_eq_keep (s : Str) (i p : Nat) :
    s.drop i = Spec.keep (fun k => p + i ≤ k) p s := by
  have h : s.drop i = slice s i (i + s.length) := by
    unfold slice; rw [List.take_of_length_le]; simp
  rw [h, slice_eq_keep s i _ p]
  apply keep_congr; intros; omega

theorem nil_eq_keep {P : Nat → Prop} [DecidablePred P] (s : Str) (p : Nat) (h : ∀ k, p ≤ k → ¬ P k) :
    Spec.keep P p s = [] := by
  induction s generalizing p with
  | nil => rfl
  | cons c cs ih =>
    unfold Spec.keep
    rw [if_neg (h p (Nat.le_refl _)), ih (p + 1) (fun k hk => h k (by omega))]

/-! ### rounding -/

theorem isRound_unique {q : Rat} {m n : Int} (hm : Spec.IsRound q m) (hn : Spec.IsRound q n) : m = n := by
  obtain ⟨h1, h2⟩ := hm
  obtain ⟨h3, h4⟩ := hn
  have a : (m : Rat) < ((n + 1 : Int) : Rat) := by simp; grind
  have b : (n : Rat) < ((m + 1 : Int) : Rat) := by simp; grind
  have a' := Rat.intCast_lt_intCast.1 a
  have b' := Rat.intCast_lt_intCast.1 b
  omega

theorem isRound_floor (q : Rat) : Spec.IsRound q (q + 1 / 2).floor := by
  have h1 := Rat.floor_le (q + 1 / 2)
  have h2 := Rat.lt_floor_add_one (q + 1 / 2)
  simp at h2
  constructor
  · grind
  · exact h1

/-- A negative number exactly half way between two integers: the only numbers that Python's and
XPath's rounding treat differently. -/
def NegTie (q : Rat) : Prop := q < 0 ∧ ∃ n : Int, q = n + 1 / 2

theorem pyRound_isRound {q : Rat} (h : ¬ NegTie q) : Spec.IsRound q (pyRound q) := by
  unfold pyRound
  split
  · rename_i hq
    have h1 := Rat.floor_le (-q + 1 / 2)
    have h2 := Rat.lt_floor_add_one (-q + 1 / 2)
    have h3 : ((-q + 1 / 2).floor : Rat) ≠ -q + 1 / 2 := by
      intro heq
      apply h
      refine ⟨hq, -(-q + 1 / 2).floor, ?_⟩
      rw [Rat.intCast_neg, heq]; grind
    simp at h2
    constructor
    · rw [Rat.intCast_neg]; grind
    · rw [Rat.intCast_neg]; grind
  · exact isRound_floor q

theorem pyRound_tie {q : Rat} (hq : NegTie q) : (pyRound q : Rat) = q - 1 / 2 := by
  obtain ⟨h0, n, hn⟩ := hq
  unfold pyRound
  rw [if_pos h0]
  have : -q + 1 / 2 = ((-n : Int) : Rat) := by rw [Rat.intCast_neg]; grind
  rw [this, Rat.floor_intCast, Int.neg_neg]; grind

theorem pyRound_le_of_isRound {q : Rat} {n : Int} (h : Spec.IsRound q n) : pyRound q ≤ n := by
  by_cases ht : NegTie q
  · have h1 := pyRound_tie ht
    obtain ⟨h2, _⟩ := h
    apply Rat.intCast_le_intCast.1
    grind
  · exact Int.le_of_eq (isRound_unique (pyRound_isRound ht) h)

theorem pyRound_tie_nonpos {q : Rat} (hq : NegTie q) {n : Int} (h : Spec.IsRound q n) : n ≤ 0 := by
  obtain ⟨h0, m, hm⟩ := hq
  have : (n : Rat) < ((1 : Int) : Rat) := by
    have := h.2
    have e : ((1 : Int) : Rat) = 1 := rfl
    rw [e]; grind
  have := Rat.intCast_lt_intCast.1 this
  omega

/-! ### white space splitting -/

theorem join_cons {α} (sep w : List α) (l : List (List α)) (hl : l ≠ []) :
    Py.join sep (w :: l) = w ++ sep ++ Py.join sep l := by
  cases l with
  | nil => contradiction
  | cons v l => rfl

theorem spaced_eq_join (l : List Str) : Py.join [' '] l = Spec.spaced l := by
  induction l with
  | nil => rfl
  | cons w l ih =>
    cases l with
    | nil => rfl
    | cons v l => simp only [Py.join, Spec.spaced, ih]; simp

theorem splitWsAux_spec (s cur : Str) (hcur : ∀ c ∈ cur, isPySpace c = false) :
    ∃ l, splitWsAux cur s = l ∧
      Spec.Separated (fun c => isPySpace c = true) (cur ++ s) l ∧ (cur ≠ [] → l ≠ []) := by
  induction s generalizing cur with
  | nil =>
    unfold splitWsAux
    cases cur with
    | nil => exact ⟨[], rfl, .empty (by simp), by simp⟩
    | cons c cs =>
      refine ⟨[c :: cs], rfl, ?_, by simp⟩
      have := Spec.Separated.one (ws := fun c => isPySpace c = true) (a := []) (w := c :: cs) (b := [])
        (by simp) (by simp) (by simpa using hcur) (by simp)
      simpa using this
  | cons c cs ih =>
    unfold splitWsAux
    by_cases hc : isPySpace c = true
    · rw [if_pos hc]
      obtain ⟨l, hl, hsep, -⟩ := ih [] (by simp)
      simp only [List.nil_append] at hsep
      cases cur with
      | nil =>
        refine ⟨l, by simpa using hl, ?_, by simp⟩
        simp only [List.nil_append]
        cases hsep with
        | empty h => exact .empty (by simpa using ⟨hc, h⟩)
        | @one a w b h1 h2 h3 h4 =>
          have := Spec.Separated.one (ws := fun c => isPySpace c = true) (a := c :: a) (w := w) (b := b)
            (by simpa using ⟨hc, h1⟩) h2 h3 h4
          simpa using this
        | @more a w g s l h1 h2 h3 h4 h5 h6 h7 =>
          have := Spec.Separated.more (ws := fun c => isPySpace c = true) (a := c :: a) (w := w) (g := g)
            (by simpa using ⟨hc, h1⟩) h2 h3 h4 h5 h6 h7
          simpa using this
      | cons d ds =>
        refine ⟨(d :: ds) :: l, by simp [hl], ?_, by simp⟩
        by_cases hne : l = []
        · subst hne
          have hall : ∀ x ∈ cs, isPySpace x = true := by
            cases hsep with
            | empty h => exact h
          have := Spec.Separated.one (ws := fun c => isPySpace c = true) (a := []) (w := d :: ds) (b := c :: cs)
            (by simp) (by simp) (by simpa using hcur) (by simpa using ⟨hc, hall⟩)
          simpa using this
        · have := Spec.Separated.more (ws := fun c => isPySpace c = true) (a := []) (w := d :: ds) (g := [c])
            (by simp) (by simp) (by simpa using hcur) (by simp) (by simpa using hc) hne hsep
          simpa using this
    · rw [if_neg hc]
      obtain ⟨l, hl, hsep, hne⟩ := ih (cur ++ [c]) (by
        intro x hx; simp at hx
        rcases hx with hx | hx
        · exact hcur x hx
        · subst hx; simpa using hc)
      exact ⟨l, hl, by simpa using hsep, fun _ => hne (by simp)⟩

theorem separated_words {ws : Char → Prop} {s : Str} {l : List Str} (h : Spec.Separated ws s l) :
    ∀ w ∈ l, w ≠ [] ∧ ∀ c ∈ w, ¬ ws c := by
  induction h with
  | empty => simp
  | one h1 h2 h3 h4 => simpa using ⟨h2, h3⟩
  | more h1 h2 h3 h4 h5 h6 h7 ih =>
    intro w hw
    simp only [List.mem_cons] at hw
    rcases hw with hw | hw
    · subst hw; exact ⟨h2, h3⟩
    · exact ih w hw

theorem separated_filter {ws : Char → Prop} [DecidablePred ws] {s : Str} {l : List Str}
    (h : Spec.Separated ws s l) : s.filter (fun c => ¬ ws c) = l.flatten := by
  have ff : ∀ a : Str, (∀ c ∈ a, ws c) → a.filter (fun c => ¬ ws c) = [] := by
    intro a ha; rw [List.filter_eq_nil_iff]; simpa using ha
  have ft : ∀ a : Str, (∀ c ∈ a, ¬ ws c) → a.filter (fun c => ¬ ws c) = a := by
    intro a ha; rw [List.filter_eq_self]; simpa using ha
  induction h with
  | empty h => simpa using ff _ h
  | one h1 h2 h3 h4 =>
    rw [List.filter_append, List.filter_append, ff _ h1, ft _ h3, ff _ h4]; simp
  | more h1 h2 h3 h4 h5 h6 h7 ih =>
    rw [List.filter_append, List.filter_append, List.filter_append, ff _ h1, ft _ h3, ff _ h5, ih]; simp

/-- A list of words joined by single spaces is separated into these words. -/
theorem separated_spaced {ws : Char → Prop} (hsp : ws ' ') (l : List Str)
    (hl : ∀ w ∈ l, w ≠ [] ∧ ∀ c ∈ w, ¬ ws c) : Spec.Separated ws (Spec.spaced l) l := by
  induction l with
  | nil => exact .empty (by simp [Spec.spaced])
  | cons w l ih =>
    have hw := hl w (by simp)
    cases l with
    | nil =>
      have := Spec.Separated.one (ws := ws) (a := []) (w := w) (b := []) (by simp) hw.1 hw.2 (by simp)
      simpa [Spec.spaced] using this
    | cons v l =>
      have := Spec.Separated.more (ws := ws) (a := []) (w := w) (g := [' ']) (by simp) hw.1 hw.2 (by simp)
        (by simpa using hsp) (by simp) (ih (fun x hx => hl x (by simp [hx])))
      simpa [Spec.spaced] using this

/-- The words of a string are determined by the string. -/
theorem splitWsAux_append_ws (a s : Str) (ha : ∀ c ∈ a, isPySpace c = true) :
    splitWsAux [] (a ++ s) = splitWsAux [] s := by
  induction a with
  | nil => rfl
  | cons c cs ih =>
    simp only [List.cons_append]
    rw [splitWsAux, if_pos (ha c (by simp))]
    simpa using ih (fun x hx => ha x (by simp [hx]))

theorem splitWsAux_append_word (cur w s : Str) (hw : ∀ c ∈ w, ¬ isPySpace c = true) :
    splitWsAux cur (w ++ s) = splitWsAux (cur ++ w) s := by
  induction w generalizing cur with
  | nil => simp
  | cons c cs ih =>
    simp only [List.cons_append]
    rw [splitWsAux, if_neg (hw c (by simp)), ih _ (fun x hx => hw x (by simp [hx]))]
    simp

theorem splitWs_of_separated {s : Str} {l : List Str}
    (h : Spec.Separated (fun c => isPySpace c = true) s l) : splitWs s = l := by
  have hws : ∀ b : Str, (∀ c ∈ b, isPySpace c = true) → splitWsAux [] b = [] := by
    intro b hb
    have := splitWsAux_append_ws b [] hb
    simpa [splitWsAux] using this
  have hnd : ∀ (w b : Str), w ≠ [] → b ≠ [] → (∀ c ∈ b, isPySpace c = true) → ∀ s,
      splitWsAux w (b ++ s) = w :: splitWsAux [] s := by
    intro w b hw hb hbs s
    cases b with
    | nil => contradiction
    | cons c cs =>
      simp only [List.cons_append]
      rw [splitWsAux, if_pos (hbs c (by simp)), splitWsAux_append_ws cs s (fun x hx => hbs x (by simp [hx]))]
      simp [hw]
  induction h with
  | empty h => exact hws _ h
  | @one a w b h1 h2 h3 h4 =>
    unfold splitWs
    rw [List.append_assoc, splitWsAux_append_ws _ _ h1, splitWsAux_append_word _ _ _ h3]
    cases b with
    | nil => simp [splitWsAux, h2]
    | cons c cs =>
      have := hnd w (c :: cs) h2 (by simp) h4 []
      simpa [splitWsAux] using this
  | @more a w g s l h1 h2 h3 h4 h5 h6 h7 ih =>
    unfold splitWs at ih ⊢
    rw [List.append_assoc, List.append_assoc, splitWsAux_append_ws _ _ h1, splitWsAux_append_word _ _ _ h3]
    simp only [List.nil_append]
    rw [hnd w g h2 h4 h5 s, ih]

/-! ### translate -/

theorem lookup_append {α β} [BEq α] [LawfulBEq α] (m : List (α × β)) (a : α) (b : β) (c : α) :
    (m ++ [(a, b)]).lookup c = match m.lookup c with
      | some d => some d
      | none => if c == a then some b else none := by
  induction m with
  | nil => simp [List.lookup]; split <;> simp_all
  | cons p m ih =>
    obtain ⟨x, y⟩ := p
    simp only [List.cons_append, List.lookup]
    split <;> simp_all

theorem transMap_lookup (fs ts : Str) (m : List (Char × Str)) (c : Char) :
    (transMap m fs ts).lookup c = match m.lookup c with
      | some d => some d
      | none => match fs.idxOf? c with
        | none => none
        | some i => some (ts[i]?).toList := by
  induction fs generalizing m ts with
  | nil => simp [transMap]; cases m.lookup c <;> rfl
  | cons f fs ih =>
    rw [transMap.eq_def]; dsimp only; rw [ih]
    have hidx : (f :: fs).idxOf? c = if f == c then some 0 else (fs.idxOf? c).map (· + 1) := by
      simp [List.idxOf?, List.findIdx?_cons]
    rw [hidx]
    have htl : ∀ i, ts.tail[i]? = ts[i + 1]? := by intro i; cases ts <;> simp
    by_cases hm : m.lookup f = none
    · rw [if_pos hm, lookup_append]
      cases hc : m.lookup c with
      | some d => simp
      | none =>
        simp only
        by_cases hcf : c = f
        · subst hcf; cases ts <;> simp
        · have h1 : (c == f) = false := by simpa using hcf
          have h2 : (f == c) = false := by simpa using fun h => hcf h.symm
          rw [h1, h2]
          cases hi : fs.idxOf? c with
          | none => simp
          | some i => simp
    · rw [if_neg hm]
      cases hc : m.lookup c with
      | some d => simp
      | none =>
        simp only
        have hcf : c ≠ f := by intro h; subst h; exact hm hc
        have h2 : (f == c) = false := by simpa using fun h => hcf h.symm
        rw [h2]
        cases hi : fs.idxOf? c with
        | none => simp
        | some i => simp

theorem join_nil_eq_flatten {α} (l : List (List α)) : Py.join [] l = l.flatten := by
  induction l with
  | nil => rfl
  | cons w l ih =>
    cases l with
    | nil => simp [Py.join]
    | cons v l => simp only [Py.join, ih]; simp

end Verif.XPath
