import Verif.Path.Spec
import Verif.XPath.FmtLemmas
import Verif.Eval.PropsLemmas
import Verif.Eval.Term
/-
Lemmas for C93.
-/
namespace Verif.Path
open Verif Verif.XPath Verif.Dom Verif.Dom.Spec Verif.Eval Verif.Eval.Spec Verif.Parse Verif.Parse.Spec Verif.Path.Spec

/-! ### Counting -/

theorem countBack_eq {h : Heap} (w : WF h) {p : Nat} (same : Nat → Bool) (fuel : Nat) :
    ∀ (before after : List Nat) (k : Nat), h.kids p = before ++ after → after ≠ [] → before.length ≤ fuel →
      countBack h same fuel before.getLast? k = .ok (k + (before.filter same).length) := by
  induction fuel with
  | zero =>
    intro before after k hl _ hf
    have : before = [] := List.length_eq_zero_iff.mp (by omega)
    subst this
    simp [countBack]
  | succ fuel ih =>
    intro before after k hl ha hf
    rcases List.eq_nil_or_concat before with rfl | ⟨b, x, rfl⟩
    · simp [countBack]
    · rw [List.concat_eq_append] at *
      have hl' : h.kids p = b ++ x :: after := by rw [hl]; simp
      rw [List.getLast?_append]
      simp only [List.getLast?_singleton, Option.some_or, countBack, precedingSibling_eq w hl']
      rw [ih b (x :: after) _ hl' (by simp) (by simp at hf; omega)]
      congr 1
      rw [List.filter_append]
      by_cases hs : same x = true <;> simp [hs]
      omega

theorem kids_length {h : Heap} (w : WF h) (p : Nat) : (h.kids p).length ≤ h.size :=
  nodup_length_le (w.nodup p) fun _ hx => (w.bounded _ _ (w.kids_parent _ _ hx)).1

theorem count_eq {h : Heap} (w : WF h) {p n : Nat} {before after : List Nat} (same : Nat → Bool)
    (hl : h.kids p = before ++ n :: after) : count h same n = .ok (1 + (before.filter same).length) := by
  rw [count, precedingSibling_eq w hl]
  have := kids_length w p
  rw [hl] at this
  simp at this
  exact countBack_eq w same _ before (n :: after) 1 hl (by simp) (by omega)

/-! ### Numbers -/

theorem number_decimal (R : Rounding) (k : Nat) (hk : k ≤ 2 ^ 53) :
    numberOfString R (decimal k) = .ok (.obj (.fin (k : Nat))) := by
  obtain ⟨t, h1, h2⟩ := C29_round_trip R (k : Int) (isDouble_int _ (by omega) (by omega))
  have : stringOfNumber (.obj (.fin ((k : Int) : Rat))) = .ok (decimalInt k) := by
    simp [stringOfNumber, Rat.floor_intCast]
  rw [this] at h1
  cases h1
  have hd : decimalInt (k : Int) = decimal k := by
    rw [decimalInt, if_neg (by omega)]; rfl
  rw [hd] at h2
  rw [h2, Rat.intCast_natCast]

theorem decimal_digits (k : Nat) : decimal k ≠ [] ∧ ∀ c ∈ decimal k, Parse.Spec.Digit c := by
  obtain ⟨h1, h2, _, _⟩ := decimal_spec k
  refine ⟨h2, fun c hc => ?_⟩
  obtain ⟨a, b⟩ := h1 c hc
  constructor
  · show '0'.val.toNat ≤ c.val.toNat; exact a
  · show c.val.toNat ≤ '9'.val.toNat; exact b

/-! ### Selection -/

theorem keep_at {T : Nat → Nat → Prop} {k : Nat} (hT : ∀ x p, T x p ↔ p = k) (l : List Nat) (p : Nat) (hp : p ≤ k) :
    keep T p l = l[k - p]?.toList := by
  induction l generalizing p with
  | nil => simp [keep]
  | cons a l ih =>
    simp only [keep, hT]
    by_cases he : p = k
    · subst he
      rw [if_pos rfl]
      have : keep T (p + 1) l = [] := keep_none fun n q hq h => by have := (hT n q).1 h; omega
      simp [this]
    · rw [if_neg he, ih (p + 1) (by omega)]
      have : k - p = (k - (p + 1)) + 1 := by omega
      rw [this, List.getElem?_cons_succ]

theorem kept_number {d : Doc} (k : Nat) (h1 : 1 ≤ k) (hk : k ≤ 2 ^ 53) (l : List Nat) :
    kept d [.lit true (decimal k)] l = l[k - 1]?.toList := by
  simp only [kept]
  refine keep_at (fun x p => ?_) l 1 h1
  simp only [numeric_lit (number_decimal d.R k hk)]
  constructor
  · rintro ⟨v, rfl, hv⟩
    have hv : (Dbl.fin ((k : Nat) : Rat)).toRat? = some (p : Rat) := hv
    have := Rat.natCast_inj.1 (Option.some.inj hv)
    omega
  · rintro rfl; exact ⟨_, rfl, rfl⟩

theorem candidates_child {d : Doc} {r : Nat} (w : DocWF d r) {a : Nat} (ha : Root d.h r a) (t : NodeTest) :
    Candidates d (.tree .child) t a ((d.h.kids a).filter (passes d .element t)) := by
  obtain ⟨fuel, hf⟩ := collect_of_yields (yields_child (d.h.kids a))
  refine candidates_of w ha (fuel := fuel) ?_
  show collect childStep fuel (childIter d.h a) = _
  rw [childIter_eq w.wf, hf]

theorem candidates_attr {d : Doc} {r : Nat} (w : DocWF d r) {a : Nat} (ha : Root d.h r a) (hk : d.h.kind a = .element)
    (t : NodeTest) : Candidates d .attr t a ((d.attrs a).filter (passes d .attr t)) := by
  refine candidates_of w ha (fuel := 0) ?_
  simp [axisNodes, hk]

/-- What a step selects from `a`. -/
theorem selects_iff {d : Doc} {r : Nat} (w : DocWF d r) {ax : LAxis} {t : NodeTest} {ps : List Expr} {a : Nat} {l : List Nat}
    (h : Candidates d ax t a l) (k : List Nat) : StepSelects d (.mk ax t ps) a k ↔ k = kept d ps l := by
  simp only [StepSelects]
  constructor
  · rintro ⟨l', h', rfl⟩; rw [candidates_det w h h']
  · rintro rfl; exact ⟨l, h, rfl⟩

theorem reaches_snoc {d : Doc} (ss : List LStep) (s : LStep) (n x : Nat) :
    Reaches d (ss ++ [s]) n x ↔ ∃ y, Reaches d ss n y ∧ ∃ k, StepSelects d s y k ∧ x ∈ k := by
  induction ss generalizing n with
  | nil =>
    simp only [List.nil_append, Reaches]
    constructor
    · rintro ⟨k, y, h1, h2, rfl⟩; exact ⟨n, rfl, k, h1, h2⟩
    · rintro ⟨y, rfl, k, h1, h2⟩; exact ⟨k, x, h1, h2, rfl⟩
  | cons c ss ih =>
    simp only [List.cons_append, Reaches, ih]
    constructor
    · rintro ⟨k, y, h1, h2, z, h3, h4⟩; exact ⟨z, ⟨k, y, h1, h2, h3⟩, h4⟩
    · rintro ⟨z, ⟨k, y, h1, h2, h3⟩, h4⟩; exact ⟨k, y, h1, h2, z, h3, h4⟩

theorem resolveSteps_snoc {R : Rounding} {env : Env} {ss : List AStep} {s : AStep} {ls : List LStep} {l : LStep}
    (h1 : resolveSteps R env ss = some ls) (h2 : resolveStep R env s = some l) :
    resolveSteps R env (ss ++ [s]) = some (ls ++ [l]) := by
  induction ss generalizing ls with
  | nil =>
    simp only [resolveSteps] at h1
    cases h1
    simp [resolveSteps, h2]
  | cons a ss ih =>
    rw [resolveSteps] at h1
    cases ha : resolveStep R env a with
    | none => rw [ha] at h1; cases h1
    | some x =>
      cases hs : resolveSteps R env ss with
      | none => rw [ha, hs] at h1; cases h1
      | some xs =>
        rw [ha, hs] at h1
        cases h1
        rw [List.cons_append, resolveSteps, ha, ih hs]
        rfl

end Verif.Path
