import Verif.Eval.Det
import Verif.Eval.Good

/-
What an iterator will produce, as a list: the meaning given to the states of the evaluator.
-/
namespace Verif.Eval
open Verif Verif.XPath Verif.Dom Verif.Dom.Spec Verif.Eval.Spec

variable {d : Doc} {r : Nat}

open Classical in
/-- The candidates of a step. -/
noncomputable def cand (d : Doc) (ax : LAxis) (t : NodeTest) (n : Nat) : List Nat :=
  if h : ∃ l, Candidates d ax t n l then h.choose else []

theorem cand_eq (w : DocWF d r) {ax : LAxis} {t : NodeTest} {n : Nat} {l : List Nat}
    (hl : Candidates d ax t n l) : cand d ax t n = l := by
  unfold cand
  have hx : ∃ l, Candidates d ax t n l := ⟨l, hl⟩
  rw [dif_pos hx]
  exact candidates_det w hx.choose_spec hl

/-- What a generator keeps of the nodes `l`, the first of which is at position `p`, if the context
size is `z`. -/
noncomputable def genKeep (d : Doc) (s : Sel) (p z : Nat) (l : List Nat) : List Nat :=
  keep (fun n q => ∃ m e k v, s.test = some (m, e, k) ∧ MeansAs d m e n q z v ∧ k v q = true) p l

/-- What a predicate keeps of the nodes `l`. -/
noncomputable def selKeep (d : Doc) (s : Sel) (l : List Nat) : List Nat :=
  match s with
  | .pos k => (l.drop (k - 1)).take 1
  | .never => []
  | .slice _ e => keep (fun n q => ∃ v, MeansAs d .num e n q l.length v ∧ beyond q v = true) 1 l
  | s => genKeep d s 1 l.length l

noncomputable def selsKeep (d : Doc) : List Sel → List Nat → List Nat
  | [], l => l
  | s :: ss, l => selsKeep d ss (selKeep d s l)

/-- What a step produces for a context node. -/
noncomputable def stepDen (d : Doc) (s : CStep) (n : Nat) : List Nat :=
  if s.axis.reverse then (selsKeep d s.sels (cand d s.axis s.test n)).reverse
  else selsKeep d s.sels (cand d s.axis s.test n)

/-- What an iterator will produce if `context.size` is `z`. -/
noncomputable def den (d : Doc) (z : Nat) : Iter → List Nat
  | .list l => l
  | .filter p t it => (den d z it).filter (passes d p t)
  | .pos k it => ((den d z it).drop (k - 1)).take 1
  | .gen s none it => genKeep d s 1 (if s.sized then (den d z it).length else z) (den d z it)
  | .gen s (some p) it => genKeep d s p z (den d z it)
  | .step s ctxs => (den d z ctxs).flatMap (stepDen d s)
  | .stepCur s ctxs cur => den d z cur ++ (den d z ctxs).flatMap (stepDen d s)

/-! Independence of the context size -/

mutual
theorem lastFree_means : ∀ (e : Expr), LastFree e → ∀ {n p s s' : Nat} {v : EVal},
    Means d e n p s v → Means d e n p s' v
  | .lit true str, _, n, p, s, s', v, h1 => by simp only [Means] at h1 ⊢; exact h1
  | .lit false str, _, n, p, s, s', v, h1 => by simp only [Means] at h1 ⊢; exact h1
  | .var x, _, n, p, s, s', v, h1 => by simp only [Means] at h1 ⊢; exact h1
  | .position, _, n, p, s, s', v, h1 => by simp only [Means] at h1 ⊢; exact h1
  | .last, hf, n, p, s, s', v, h1 => by simp [LastFree] at hf
  | .fn ty f args, hf, n, p, s, s', v, h1 => by
    simp only [Means, LastFree] at h1 hf ⊢
    obtain ⟨vs, a1, f1⟩ := h1
    exact ⟨vs, lastFree_args args hf a1, f1⟩
  | .and l r, hf, n, p, s, s', v, h1 => by
    simp only [Means, LastFree] at h1 hf ⊢
    obtain ⟨a, a1, h1⟩ := h1
    refine ⟨a, lastFree_means l hf.1 a1, ?_⟩
    rcases h1 with h1 | ⟨t, b, b1, c1⟩
    · exact .inl h1
    · exact .inr ⟨t, b, lastFree_means r hf.2 b1, c1⟩
  | .or l r, hf, n, p, s, s', v, h1 => by
    simp only [Means, LastFree] at h1 hf ⊢
    obtain ⟨a, a1, h1⟩ := h1
    refine ⟨a, lastFree_means l hf.1 a1, ?_⟩
    rcases h1 with h1 | ⟨t, b, b1, c1⟩
    · exact .inl h1
    · exact .inr ⟨t, b, lastFree_means r hf.2 b1, c1⟩
  | .cmp op l r, hf, n, p, s, s', v, h1 => by
    simp only [Means, LastFree] at h1 hf ⊢
    obtain ⟨a, b, a1, b1, h1⟩ := h1
    exact ⟨a, b, lastFree_means l hf.1 a1, lastFree_means r hf.2 b1, h1⟩
  | .path ab steps, hf, n, p, s, s', v, h1 => by simp only [Means] at h1 ⊢; exact h1
  | .union es, hf, n, p, s, s', v, h1 => by
    simp only [Means, LastFree] at h1 hf ⊢
    obtain ⟨l, rfl, h2, h3⟩ := h1
    exact ⟨l, rfl, h2, fun x => (h3 x).trans ⟨lastFree_inSome es hf, lastFree_inSome es hf⟩⟩
  | .filter e preds, hf, n, p, s, s', v, h1 => by
    simp only [Means, LastFree] at h1 hf ⊢
    obtain ⟨l, a1, h1⟩ := h1
    exact ⟨l, lastFree_means e hf a1, h1⟩
  | .pathFrom e steps, hf, n, p, s, s', v, h1 => by
    simp only [Means, LastFree] at h1 hf ⊢
    obtain ⟨l0, l, a1, h1⟩ := h1
    exact ⟨l0, l, lastFree_means e hf a1, h1⟩
theorem lastFree_args : ∀ (as : List Arg), LastFreeArgs as → ∀ {n p s s' : Nat} {v : List EVal},
    ArgsMean d as n p s v → ArgsMean d as n p s' v
  | [], _, n, p, s, s', v, h1 => by simp only [ArgsMean] at h1 ⊢; exact h1
  | a :: as, hf, n, p, s, s', v, h1 => by
    simp only [ArgsMean, LastFreeArgs] at h1 hf ⊢
    obtain ⟨x, xs, a1, b1, h1⟩ := h1
    exact ⟨x, xs, lastFree_arg a hf.1 a1, lastFree_args as hf.2 b1, h1⟩
theorem lastFree_arg : ∀ (a : Arg), LastFreeArg a → ∀ {n p s s' : Nat} {v : EVal},
    ArgMeans d a n p s v → ArgMeans d a n p s' v
  | .mk m e, hf, n, p, s, s', v, h1 => by
    simp only [ArgMeans, LastFreeArg] at h1 hf ⊢
    obtain ⟨x, a1, h1⟩ := h1
    exact ⟨x, lastFree_means e hf a1, h1⟩
theorem lastFree_inSome : ∀ (es : List Expr), LastFreeAll es → ∀ {n p s s' x : Nat},
    InSome d es n p s x → InSome d es n p s' x
  | [], _, n, p, s, s', x, h1 => by simp [InSome] at h1
  | e :: es, hf, n, p, s, s', x, h1 => by
    simp only [InSome, LastFreeAll] at h1 hf ⊢
    rcases h1 with ⟨l, a1, h1⟩ | h1
    · exact .inl ⟨l, lastFree_means e hf.1 a1, h1⟩
    · exact .inr (lastFree_inSome es hf.2 h1)
end

theorem lastFree_as {m : Mode} {e : Expr} (hf : LastFree e) {n p s : Nat} (s' : Nat) {v : EVal}
    (h1 : MeansAs d m e n p s v) : MeansAs d m e n p s' v := by
  obtain ⟨x, a1, h1⟩ := h1
  exact ⟨x, lastFree_means e hf a1, h1⟩

/-- The expression of a generator. -/
def Sel.free : Sel → Prop
  | .number _ e | .boolean e | .generic e => LastFree e
  | .pos _ | .never => True
  | .slice _ e => LastFree e

theorem genKeep_size {s : Sel} (hf : s.free) {p z z' : Nat} {l : List Nat} :
    genKeep d s p z l = genKeep d s p z' l := by
  unfold genKeep
  refine keep_congr fun n q _ _ _ => ?_
  have key : ∀ m e k, s.test = some (m, e, k) → LastFree e := by
    intro m e k ht
    cases s <;> simp [Sel.test] at ht <;> (obtain ⟨_, rfl, _⟩ := ht; exact hf)
  constructor
  · rintro ⟨m, e, k, v, ht, hm, hk⟩; exact ⟨m, e, k, v, ht, lastFree_as (key _ _ _ ht) _ hm, hk⟩
  · rintro ⟨m, e, k, v, ht, hm, hk⟩; exact ⟨m, e, k, v, ht, lastFree_as (key _ _ _ ht) _ hm, hk⟩

/-- Iterators that do not depend on `context.size`, now and later. -/
def Stable : Iter → Prop
  | .list _ => True
  | .filter _ _ it => Stable it
  | .pos _ it => Stable it
  | .gen s _ it => s.free ∧ Stable it
  | .step s ctxs => (s.axis.reverse = true ∨ ∀ x ∈ s.sels, x.free) ∧ Stable ctxs
  | .stepCur s ctxs cur => (s.axis.reverse = true ∨ ∀ x ∈ s.sels, x.free) ∧ Stable ctxs ∧ Stable cur

theorem den_stable {it : Iter} (hs : Stable it) (z z' : Nat) : den d z it = den d z' it := by
  induction it with
  | list l => rfl
  | filter p t it ih => simp only [den]; rw [ih hs]
  | pos k it ih => simp only [den]; rw [ih hs]
  | gen s p it ih =>
    cases p with
    | none =>
      simp only [den]; rw [ih hs.2]
      exact genKeep_size hs.1
    | some p =>
      simp only [den]; rw [ih hs.2]
      exact genKeep_size hs.1
  | step s ctxs ih => simp only [den]; rw [ih hs.2]
  | stepCur s ctxs cur ih1 ih2 => simp only [den]; rw [ih1 hs.2.1, ih2 hs.2.2]

/-! Well-formed iterators -/

/-- The predicates that are evaluated rightly. -/
def GoodSel (d : Doc) (r : Nat) : Sel → Prop
  | .pos k => 1 ≤ k
  | .never => True
  | .slice gt e => gt = true ∧ IsNumeric e
  | .number sized e => Good d r .num e ∧ (sized = true ∨ LastFree e)
  | .boolean e => Good d r .bool e ∧ LastFree e
  | .generic e => Good d r .any e ∧ LastFree e

/-- The states that evaluation of good expressions goes through. -/
def GoodIter (d : Doc) (r : Nat) : Iter → Prop
  | .list l => ∀ x ∈ l, InDoc d r x
  | .filter _ _ it => GoodIter d r it
  | .pos k it => 1 ≤ k ∧ GoodIter d r it
  | .gen s p it => GoodSel d r s ∧ GoodIter d r it ∧
      (p ≠ none → s.free ∨ ∃ l, it = .list l)
  | .step s ctxs => (∀ x ∈ s.sels, GoodSel d r x) ∧ GoodIter d r ctxs ∧ Stable ctxs
  | .stepCur s ctxs cur => (∀ x ∈ s.sels, GoodSel d r x) ∧ GoodIter d r ctxs ∧ Stable ctxs ∧
      GoodIter d r cur

theorem genKeep_cons {s : Sel} {p z n : Nat} {l : List Nat} {m : Mode} {e : Expr} {k : EVal → Nat → Bool}
    (w : DocWF d r) (ht : s.test = some (m, e, k)) {v : EVal} (hv : MeansAs d m e n p z v) :
    genKeep d s p z (n :: l) =
      if k v p = true then n :: genKeep d s (p + 1) z l else genKeep d s (p + 1) z l := by
  unfold genKeep
  rw [keep]
  have : (∃ m e k v, s.test = some (m, e, k) ∧ MeansAs d m e n p z v ∧ k v p = true) ↔ k v p = true := by
    constructor
    · rintro ⟨m', e', k', v', ht', hm, hk⟩
      rw [ht] at ht'; cases ht'
      rw [means_as_det w hv hm]; exact hk
    · intro hk; exact ⟨m, e, k, v, ht, hv, hk⟩
  by_cases hk : k v p = true
  · rw [if_pos (this.2 hk), if_pos hk]
  · rw [if_neg (fun h => hk (this.1 h)), if_neg hk]

/-! Slices -/

/-- The nodes left by the loop of `_slice`. -/
def sliceRest (v : EVal) : Nat → List Nat → List Nat
  | _, [] => []
  | p, _ :: l => if beyond p v then l else sliceRest v (p + 1) l

theorem beyond_mono {p q : Nat} {v : EVal} (hpq : p ≤ q) (hb : beyond p v = true) : beyond q v = true := by
  cases v with
  | nodes l => simp [beyond] at hb
  | sc s =>
    cases s with
    | num x =>
      simp only [beyond] at hb ⊢
      have hpq' : (p : Rat) ≤ (q : Rat) := by exact_mod_cast hpq
      cases hx : x.val with
      | nan => simp [hx, Dbl.lt] at hb
      | ninf => simp [Dbl.lt]
      | pinf => simp [hx, Dbl.lt] at hb
      | nzero =>
        simp only [hx, Dbl.lt, Dbl.toRat?, decide_eq_true_eq] at hb ⊢
        exact Std.lt_of_lt_of_le hb hpq'
      | fin y =>
        simp only [hx, Dbl.lt, Dbl.toRat?, decide_eq_true_eq] at hb ⊢
        exact Std.lt_of_lt_of_le hb hpq'
    | str s => simp [beyond] at hb
    | bool b => simp [beyond] at hb

theorem keep_all {T : Nat → Nat → Prop} {p : Nat} {l : List Nat} (hT : ∀ n q, p ≤ q → T n q) :
    keep T p l = l := by
  induction l generalizing p with
  | nil => rfl
  | cons n l ih =>
    unfold keep
    rw [if_pos (hT n p (Nat.le_refl _)), ih (fun n q hq => hT n q (by omega))]

theorem keep_beyond {v : EVal} {p : Nat} {l : List Nat} (hb : beyond p v = false) :
    keep (fun _ q => beyond q v = true) p l = sliceRest v (p + 1) l := by
  induction l generalizing p with
  | nil => rfl
  | cons n l ih =>
    unfold keep sliceRest
    rw [if_neg (by simp [hb])]
    by_cases hb2 : beyond (p + 1) v = true
    · rw [if_pos hb2]
      exact keep_all fun n q hq => beyond_mono hq hb2
    · rw [if_neg hb2]; exact ih (by simpa using hb2)

end Verif.Eval
