import Verif.Eval.Den
import Verif.XPath.CompareProps

/-
The method chosen for a predicate keeps the nodes that the predicate is true of.
-/
namespace Verif.Eval
open Verif Verif.XPath Verif.Dom Verif.Dom.Spec Verif.Eval.Spec

variable {d : Doc} {r : Nat}

theorem toBool_iff (v : EVal) : toBool v = true ↔ Truthy v := by
  cases v with
  | sc s => exact truth_iff s
  | nodes l => cases l <;> simp [toBool, Truthy]

theorem compare_num (op : Op) (a b : XNum) :
    compareVals d op (.sc (.num a)) (.sc (.num b)) = .ok (.sc (.bool (cmpFloat op a.val b.val))) := by
  cases op <;> simp [compareVals, cmpVal, XPath.compare, cmpScalar, cmpNum, toNumber, liftErr]

theorem eq_fin_iff (a : Dbl) (q : Rat) : a.eq (.fin q) = true ↔ a.toRat? = some q := by
  cases a <;> simp [Dbl.eq, Dbl.toRat?]

theorem fin_eq_iff (a : Dbl) (q : Rat) : (Dbl.fin q).eq a = true ↔ a.toRat? = some q := by
  cases a <;> simp [Dbl.eq, Dbl.toRat?, eq_comm]

theorem isPosition_iff (x : XNum) (p : Nat) :
    isPosition (.sc (.num x)) p = true ↔ x.val.toRat? = some (p : Rat) := eq_fin_iff _ _

theorem compareVals_bool {op : Op} {a b v : EVal} (h : compareVals d op a b = .ok v) :
    ∃ x, v = .sc (.bool x) := by
  unfold compareVals at h
  split at h
  · cases h; exact ⟨_, rfl⟩
  · cases h
  · cases h

/-- Values have the declared type. -/
theorem means_ty {m : Mode} {e : Expr} (hg : Good d r m e) {n p s : Nat} {v : EVal}
    (hv : Means d e n p s v) : HasTy e.ty v := by
  cases e with
  | lit number str =>
    cases number
    · simp only [Means] at hv; exact ⟨str, hv⟩
    · simp only [Means] at hv; obtain ⟨x, rfl, _⟩ := hv; exact ⟨x, rfl⟩
  | var x => trivial
  | position => simp only [Means] at hv; exact ⟨_, hv⟩
  | last => simp only [Means] at hv; exact ⟨_, hv⟩
  | fn ty f args =>
    simp only [Means] at hv; obtain ⟨vs, _, hf⟩ := hv
    simp only [Good] at hg
    exact (hg.2 _ _ hf).1
  | and l r =>
    simp only [Means] at hv; obtain ⟨a, _, hv⟩ := hv
    rcases hv with ⟨_, rfl⟩ | ⟨_, b, _, x, rfl, _⟩
    · exact ⟨_, rfl⟩
    · exact ⟨_, rfl⟩
  | or l r =>
    simp only [Means] at hv; obtain ⟨a, _, hv⟩ := hv
    rcases hv with ⟨_, rfl⟩ | ⟨_, b, _, x, rfl, _⟩
    · exact ⟨_, rfl⟩
    · exact ⟨_, rfl⟩
  | cmp op l r =>
    simp only [Means] at hv; obtain ⟨a, b, _, _, hv⟩ := hv
    exact compareVals_bool hv
  | path ab steps => simp only [Means] at hv; obtain ⟨l, rfl, _⟩ := hv; exact ⟨_, rfl⟩
  | union es => simp only [Means] at hv; obtain ⟨l, rfl, _⟩ := hv; exact ⟨_, rfl⟩
  | filter e preds => simp only [Means] at hv; obtain ⟨l, _, rfl⟩ := hv; exact ⟨_, rfl⟩
  | pathFrom e steps => simp only [Means] at hv; obtain ⟨_, l, _, rfl, _⟩ := hv; exact ⟨_, rfl⟩

/-- The number a numeric expression stands for. -/
theorem numeric_value {e : Expr} (hn : IsNumeric e) : ∃ x : XNum, ∀ n p s v, Means d e n p s v ↔ v = .sc (.num x) := by
  cases e with
  | lit number str =>
    have hn : number = true := hn
    subst hn
    simp only [Means]
    cases hs : numberOfString d.R str with
    | ok x =>
      refine ⟨x, fun n p s v => ?_⟩
      constructor
      · rintro ⟨y, rfl, h1 | ⟨⟨_, h1⟩, _⟩⟩
        · cases h1; rfl
        · cases h1
      · rintro rfl; exact ⟨x, rfl, .inl rfl⟩
    | error e =>
      refine ⟨.sNaN, fun n p s v => ?_⟩
      constructor
      · rintro ⟨y, rfl, h1 | ⟨_, rfl⟩⟩
        · cases h1
        · rfl
      · rintro rfl; exact ⟨_, rfl, .inr ⟨⟨e, rfl⟩, rfl⟩⟩
  | var v =>
    cases v with
    | nodes l => exact hn.elim
    | sc s =>
      cases s with
      | num x => exact ⟨x, fun n p s v => by simp only [Means]⟩
      | str s => exact hn.elim
      | bool s => exact hn.elim
  | _ => exact hn.elim

theorem numeric_lit {str : Str} {x : XNum} (hx : numberOfString d.R str = .ok x) (n p s : Nat) (v : EVal) :
    Means d (.lit true str) n p s v ↔ v = .sc (.num x) := by
  simp only [Means]
  constructor
  · rintro ⟨y, rfl, h1 | ⟨⟨_, h1⟩, _⟩⟩
    · rw [hx] at h1; cases h1; rfl
    · rw [hx] at h1; cases h1
  · rintro rfl; exact ⟨x, rfl, .inl hx⟩

theorem means_as_num {m : Mode} {e : Expr} (hg : Good d r m e) (ht : e.ty = .num) {n p s : Nat} {v : EVal} :
    MeansAs d .num e n p s v ↔ Means d e n p s v := by
  constructor
  · rintro ⟨w, hw, hc⟩
    have h1 := means_ty hg hw
    rw [ht] at h1
    obtain ⟨y, rfl⟩ := h1
    obtain ⟨x, rfl, h2 | ⟨⟨_, h2⟩, _⟩⟩ := hc
    · simp only [toNum, toNumber, Except.ok.injEq] at h2
      subst h2; exact hw
    · simp [toNum, toNumber] at h2
  · intro hv
    have h1 := means_ty hg hv
    rw [ht] at h1
    obtain ⟨y, rfl⟩ := h1
    exact ⟨_, hv, y, rfl, .inl rfl⟩

/-- The nodes for which the predicate is true. -/
noncomputable def predKeep (d : Doc) (e : Expr) (l : List Nat) : List Nat :=
  keep (fun n p => ∃ v, Means d e n p l.length v ∧ PredTrue v p) 1 l

theorem kept_cons (e : Expr) (es : List Expr) (l : List Nat) :
    kept d (e :: es) l = kept d es (predKeep d e l) := by simp only [kept, predKeep]

theorem keep_none {T : Nat → Nat → Prop} {p : Nat} {l : List Nat} (hT : ∀ n q, p ≤ q → ¬ T n q) :
    keep T p l = [] := by
  induction l generalizing p with
  | nil => rfl
  | cons n l ih =>
    unfold keep
    rw [if_neg (hT n p (Nat.le_refl _)), ih (fun n q hq => hT n q (by omega))]

theorem keep_at {k p : Nat} {l : List Nat} (hk : p ≤ k) :
    keep (fun _ q => q = k) p l = (l.drop (k - p)).take 1 := by
  induction l generalizing p with
  | nil => simp [keep]
  | cons n l ih =>
    unfold keep
    by_cases hp : p = k
    · subst hp
      rw [if_pos rfl, keep_none (fun n q hq h => by omega)]
      simp
    · rw [if_neg hp, ih (by omega)]
      have : k - p = (k - (p + 1)) + 1 := by omega
      rw [this, List.drop_succ_cons]

theorem litSel_keep {str : Str} {s : Sel} (hs : litSel d str = .ok s) {T : Nat → Nat → Prop}
    (hT : ∀ x, numberOfString d.R str = .ok x → ∀ n q, T n q ↔ x.val.toRat? = some (q : Rat)) (l : List Nat) :
    GoodSel d r s ∧ s.free ∧ selKeep d s l = keep T 1 l := by
  unfold litSel at hs
  cases hn : numberOfString d.R str with
  | error e => simp [hn] at hs
  | ok x =>
    simp only [hn] at hs
    have hT := hT x hn
    cases hr : x.val.toRat? with
    | none => simp only [hr] at hs; split at hs <;> cases hs
    | some q =>
      simp only [hr] at hs
      split at hs
      · rename_i hq
        split at hs
        · cases hs
          have hpos : 1 ≤ q.floor := by
            have h1 : (1 : Rat) ≤ (q.floor : Rat) := by rw [hq.1]; exact hq.2
            exact_mod_cast h1
          refine ⟨by simp only [GoodSel]; omega, trivial, ?_⟩
          have : keep T 1 l = keep (fun _ p => p = q.floor.toNat) 1 l := by
            refine keep_congr fun n p _ _ _ => ?_
            rw [hT, hr, Option.some.injEq]
            constructor
            · intro h1
              have h2 : ((q.floor : Int) : Rat) = ((p : Int) : Rat) := by rw [hq.1, h1]; norm_cast
              have h3 : q.floor = (p : Int) := by exact_mod_cast h2
              omega
            · intro h1
              have h3 : q.floor = (p : Int) := by omega
              rw [← hq.1, h3]; norm_cast
          rw [this, keep_at (by omega)]
          rfl
        · cases hs
      · rename_i hq
        cases hs
        refine ⟨trivial, trivial, ?_⟩
        rw [keep_none]
        · rfl
        · intro n p hp h1
          rw [hT, hr, Option.some.injEq] at h1
          subst h1
          apply hq
          refine ⟨?_, by exact_mod_cast hp⟩
          have : ((p : Rat)).floor = (p : Int) := by
            have : (p : Rat) = ((p : Int) : Rat) := by norm_cast
            rw [this, Rat.floor_intCast]
          rw [this]; norm_cast

/-- A predicate without special treatment. -/
theorem byType_keep {e : Expr} (hg : Good d r (predMode e) e) (hf : LastFree e) (l : List Nat) :
    GoodSel d r (byType e) ∧ (byType e).free ∧ selKeep d (byType e) l = predKeep d e l := by
  have boolean : (e.ty ≠ .num ∧ e.ty ≠ .obj) → Good d r .bool e →
      GoodSel d r (.boolean e) ∧ (Sel.boolean e).free ∧ selKeep d (.boolean e) l = predKeep d e l := by
    intro ht hg
    refine ⟨⟨hg, hf⟩, hf, ?_⟩
    simp only [selKeep, genKeep, predKeep]
    refine keep_congr fun n q _ _ _ => ?_
    have ptrue : ∀ v, Means d e n q l.length v → (PredTrue v q ↔ Truthy v) := by
      intro v hv
      have h1 := means_ty hg hv
      cases v with
      | nodes l => rfl
      | sc s =>
        cases s with
        | num x =>
          exfalso
          cases hty : e.ty <;> simp_all [HasTy]
        | str s => rfl
        | bool s => rfl
    constructor
    · rintro ⟨m, e', k, v, ht', ⟨w', hw, hc⟩, hk⟩
      simp only [Sel.test, Option.some.injEq, Prod.mk.injEq] at ht'
      obtain ⟨rfl, rfl, rfl⟩ := ht'
      obtain ⟨b, rfl, hb⟩ := hc
      refine ⟨w', hw, (ptrue _ hw).2 ?_⟩
      simpa [toBool, toBoolean, hb] using hk
    · rintro ⟨v, hv, hp⟩
      rw [ptrue _ hv] at hp
      exact ⟨_, _, _, .sc (.bool true), rfl, ⟨v, hv, true, rfl, by simp [hp]⟩, rfl⟩
  unfold byType
  unfold predMode at hg
  cases hty : e.ty with
  | num =>
    simp only [hty] at hg ⊢
    refine ⟨⟨hg, .inr hf⟩, hf, ?_⟩
    simp only [selKeep, genKeep, predKeep]
    refine keep_congr fun n q _ _ _ => ?_
    constructor
    · rintro ⟨m, e', k, v, ht', hv, hk⟩
      simp only [Sel.test, Option.some.injEq, Prod.mk.injEq] at ht'
      obtain ⟨rfl, rfl, rfl⟩ := ht'
      rw [means_as_num hg hty] at hv
      have h1 := means_ty hg hv
      rw [hty] at h1
      obtain ⟨x, rfl⟩ := h1
      exact ⟨_, hv, (isPosition_iff x q).1 hk⟩
    · rintro ⟨v, hv, hp⟩
      have h1 := means_ty hg hv
      rw [hty] at h1
      obtain ⟨x, rfl⟩ := h1
      exact ⟨_, _, _, _, rfl, (means_as_num hg hty).2 hv, (isPosition_iff x q).2 hp⟩
  | obj =>
    simp only [hty] at hg ⊢
    refine ⟨⟨hg, hf⟩, hf, ?_⟩
    simp only [selKeep, genKeep, predKeep]
    refine keep_congr fun n q _ _ _ => ?_
    have ptrue : ∀ v : EVal, (match v with
        | .sc (.num x) => isPosition (.sc (.num x)) q
        | v => toBool v) = true ↔ PredTrue v q := by
      intro v
      cases v with
      | nodes l => exact toBool_iff (.nodes l)
      | sc s =>
        cases s with
        | num x => exact isPosition_iff x q
        | str s => exact toBool_iff (.sc (.str s))
        | bool s => exact toBool_iff (.sc (.bool s))
    constructor
    · rintro ⟨m, e', k, v, ht', ⟨w', hw, hc⟩, hk⟩
      simp only [Sel.test, Option.some.injEq, Prod.mk.injEq] at ht'
      obtain ⟨rfl, rfl, rfl⟩ := ht'
      have hc : v = w' := hc
      subst hc
      exact ⟨v, hw, (ptrue v).1 hk⟩
    · rintro ⟨v, hv, hp⟩
      exact ⟨_, _, _, v, rfl, ⟨v, hv, rfl⟩, (ptrue v).2 hp⟩
  | str => simp only [hty] at hg ⊢; exact boolean (by simp [hty]) hg
  | bool => simp only [hty] at hg ⊢; exact boolean (by simp [hty]) hg
  | nodes => simp only [hty] at hg ⊢; exact boolean (by simp [hty]) hg

theorem predTrue_bool (b : Bool) (p : Nat) : PredTrue (.sc (.bool b)) p ↔ b = true := Iff.rfl

/-- `position() = e` and `e = position()`. -/
theorem eqPosition_keep {e : Expr} {m : Mode} (hg : Good d r m e) (ht : e.ty = .num) (sized : Bool)
    (l : List Nat) : genKeep d (.number sized e) 1 l.length l = predKeep d (.cmp .eq .position e) l ∧
      genKeep d (.number sized e) 1 l.length l = predKeep d (.cmp .eq e .position) l := by
  have key : ∀ n q, (∃ m e' k v, (Sel.number sized e).test = some (m, e', k) ∧
      MeansAs d m e' n q l.length v ∧ k v q = true) ↔
      ∃ x : XNum, Means d e n q l.length (.sc (.num x)) ∧ x.val.toRat? = some (q : Rat) := by
    intro n q
    constructor
    · rintro ⟨m, e', k, v, ht', hv, hk⟩
      simp only [Sel.test, Option.some.injEq, Prod.mk.injEq] at ht'
      obtain ⟨rfl, rfl, rfl⟩ := ht'
      rw [means_as_num hg ht] at hv
      have h1 := means_ty hg hv
      rw [ht] at h1
      obtain ⟨x, rfl⟩ := h1
      exact ⟨x, hv, (isPosition_iff x q).1 hk⟩
    · rintro ⟨x, hv, hp⟩
      exact ⟨_, _, _, _, rfl, (means_as_num hg ht).2 hv, (isPosition_iff x q).2 hp⟩
  constructor
  · unfold genKeep predKeep
    refine keep_congr fun n q _ _ _ => (key n q).trans ?_
    constructor
    · rintro ⟨x, hv, hp⟩
      refine ⟨.sc (.bool true), ?_, rfl⟩
      simp only [Means]
      refine ⟨_, _, rfl, hv, ?_⟩
      rw [compare_num]
      exact congrArg (fun b => Except.ok (EVal.sc (Scalar.bool b))) ((fin_eq_iff _ _).2 hp)
    · rintro ⟨v, hv, hp⟩
      simp only [Means] at hv
      obtain ⟨a, b, rfl, hb, hc⟩ := hv
      have h1 := means_ty hg hb
      rw [ht] at h1
      obtain ⟨x, rfl⟩ := h1
      rw [compare_num] at hc
      cases hc
      refine ⟨x, hb, ?_⟩
      rw [predTrue_bool] at hp
      exact (fin_eq_iff _ _).1 hp
  · unfold genKeep predKeep
    refine keep_congr fun n q _ _ _ => (key n q).trans ?_
    constructor
    · rintro ⟨x, hv, hp⟩
      refine ⟨.sc (.bool true), ?_, rfl⟩
      simp only [Means]
      refine ⟨_, _, hv, rfl, ?_⟩
      rw [compare_num]
      exact congrArg (fun b => Except.ok (EVal.sc (Scalar.bool b))) ((eq_fin_iff _ _).2 hp)
    · rintro ⟨v, hv, hp⟩
      simp only [Means] at hv
      obtain ⟨a, b, ha, rfl, hc⟩ := hv
      have h1 := means_ty hg ha
      rw [ht] at h1
      obtain ⟨x, rfl⟩ := h1
      rw [compare_num] at hc
      cases hc
      refine ⟨x, ha, ?_⟩
      rw [predTrue_bool] at hp
      exact (eq_fin_iff _ _).1 hp

/-- `position() > k`. -/
theorem slice_keep {e : Expr} (hn : IsNumeric e) (l : List Nat) :
    selKeep d (.slice true e) l = predKeep d (.cmp .gt .position e) l := by
  obtain ⟨x, hx⟩ := numeric_value (d := d) hn
  simp only [selKeep, predKeep]
  refine keep_congr fun n q _ _ _ => ?_
  constructor
  · rintro ⟨v, ⟨w', hw, hc⟩, hb⟩
    rw [hx] at hw
    subst hw
    obtain ⟨y, rfl, h2 | ⟨⟨_, h2⟩, _⟩⟩ := hc
    · simp only [toNum, toNumber, Except.ok.injEq] at h2
      subst h2
      refine ⟨.sc (.bool true), ?_, rfl⟩
      simp only [Means]
      refine ⟨_, _, rfl, (hx _ _ _ _).2 rfl, ?_⟩
      rw [compare_num]
      simpa [cmpFloat, XNum.val, beyond] using hb
    · simp [toNum, toNumber] at h2
  · rintro ⟨v, hv, hp⟩
    simp only [Means] at hv
    obtain ⟨a, b, rfl, hb, hc⟩ := hv
    rw [hx] at hb
    subst hb
    rw [compare_num] at hc
    cases hc
    rw [predTrue_bool] at hp
    exact ⟨_, ⟨_, (hx n q l.length _).2 rfl, x, rfl, .inl rfl⟩, by simpa [beyond, cmpFloat, XNum.val] using hp⟩

theorem numeric_free {e : Expr} (hn : IsNumeric e) : LastFree e := by
  cases e <;> first | trivial | exact hn.elim

theorem litPos_keep {str : Str} {s : Sel} (hs : litSel d str = .ok s) (l : List Nat) :
    (GoodSel d r s ∧ s.free ∧ selKeep d s l = predKeep d (.lit true str) l) ∧
    (GoodSel d r s ∧ s.free ∧ selKeep d s l = predKeep d (.cmp .eq .position (.lit true str)) l) ∧
    (GoodSel d r s ∧ s.free ∧ selKeep d s l = predKeep d (.cmp .eq (.lit true str) .position) l) := by
  refine ⟨litSel_keep hs (fun x hx n q => ?_) l, litSel_keep hs (fun x hx n q => ?_) l,
    litSel_keep hs (fun x hx n q => ?_) l⟩
  · constructor
    · rintro ⟨v, hv, hp⟩
      rw [numeric_lit hx] at hv; subst hv; exact hp
    · intro h1; exact ⟨_, (numeric_lit hx _ _ _ _).2 rfl, h1⟩
  · constructor
    · rintro ⟨v, hv, hp⟩
      rw [Means] at hv
      obtain ⟨a, b, ha, hb, hc⟩ := hv
      rw [Means] at ha
      subst ha
      rw [numeric_lit hx] at hb
      subst hb
      rw [compare_num] at hc; cases hc
      exact (fin_eq_iff _ _).1 hp
    · intro h1
      refine ⟨.sc (.bool true), ?_, rfl⟩
      rw [Means]
      refine ⟨_, _, by rw [Means], (numeric_lit hx _ _ _ _).2 rfl, ?_⟩
      rw [compare_num]
      exact congrArg (fun b => Except.ok (EVal.sc (Scalar.bool b))) ((fin_eq_iff _ _).2 h1)
  · constructor
    · rintro ⟨v, hv, hp⟩
      rw [Means] at hv
      obtain ⟨a, b, ha, hb, hc⟩ := hv
      rw [Means] at hb
      subst hb
      rw [numeric_lit hx] at ha
      subst ha
      rw [compare_num] at hc; cases hc
      exact (eq_fin_iff _ _).1 hp
    · intro h1
      refine ⟨.sc (.bool true), ?_, rfl⟩
      rw [Means]
      refine ⟨_, _, (numeric_lit hx _ _ _ _).2 rfl, by rw [Means], ?_⟩
      rw [compare_num]
      exact congrArg (fun b => Except.ok (EVal.sc (Scalar.bool b))) ((eq_fin_iff _ _).2 h1)

theorem good_num {m m' : Mode} {e : Expr} (hg : Good d r m e) (ht : e.ty = .num) (hl : ∀ b s, e ≠ .lit b s) :
    Good d r m' e := by
  cases e with
  | lit b s => exact absurd rfl (hl b s)
  | fn ty f args => simp only [Good] at hg ⊢; exact hg
  | position => simp only [Good]
  | last => simp only [Good]
  | _ => simp [Expr.ty] at ht

/-- The method chosen for a predicate keeps the nodes that the predicate is true of. -/
theorem mkSel_keep {e : Expr} {s : Sel} (hs : mkSel d e = .ok s) (hg : Good d r (predMode e) e)
    (hp : PredOk e) (l : List Nat) :
    GoodSel d r s ∧ (LastFree e → s.free) ∧ selKeep d s l = predKeep d e l := by
  have weaken : ∀ {s e}, (GoodSel d r s ∧ s.free ∧ selKeep d s l = predKeep d e l) →
      GoodSel d r s ∧ (LastFree e → s.free) ∧ selKeep d s l = predKeep d e l :=
    fun h => ⟨h.1, fun _ => h.2.1, h.2.2⟩
  have other : s = byType e → LastFree e →
      GoodSel d r s ∧ (LastFree e → s.free) ∧ selKeep d s l = predKeep d e l := by
    rintro rfl hf; exact weaken (byType_keep hg hf l)
  cases e with
  | lit b str =>
    have hp : b = true := hp
    subst hp
    exact weaken (litPos_keep hs l).1
  | cmp op a b =>
    simp only [Good] at hg
    have orders : op ≠ .eq → op ≠ .ne → GoodSel d r s ∧ (LastFree (.cmp op a b) → s.free) ∧
        selKeep d s l = predKeep d (.cmp op a b) l := by
      intro h1 h2
      by_cases ha : a = .position
      · subst ha
        have hs' : mkSel d (.cmp op .position b) = if isSimple b ∧ (op = .gt ∨ op = .ge) then
            .ok (.slice (op = .gt) b) else .ok (byType (.cmp op .position b)) := by
          cases op <;> first | rfl | exact absurd rfl h1 | exact absurd rfl h2
        have hp' : if isSimple b ∧ (op = .gt ∨ op = .ge) then op = .gt ∧ IsNumeric b else LastFree b := by
          cases op <;> first | exact hp | exact absurd rfl h1 | exact absurd rfl h2
        rw [hs'] at hs
        by_cases hc : isSimple b = true ∧ (op = .gt ∨ op = .ge)
        · rw [if_pos hc] at hs hp'
          obtain ⟨rfl, hn⟩ := hp'
          cases hs
          exact ⟨⟨by simp, hn⟩, fun _ => numeric_free hn, by simpa using slice_keep hn l⟩
        · rw [if_neg hc] at hs hp'
          cases hs
          exact other rfl (by simp only [LastFree]; exact ⟨trivial, hp'⟩)
      · have hs' : mkSel d (.cmp op a b) = if isSimple a then .error .nameError
            else .ok (byType (.cmp op a b)) := by
          cases op <;> first | exact absurd rfl h1 | exact absurd rfl h2 |
            (cases a <;> first | rfl | exact absurd rfl ha)
        have hp' : LastFree a ∧ LastFree b := by
          cases op <;> first | exact absurd rfl h1 | exact absurd rfl h2 |
            (cases a <;> first | exact hp | exact absurd rfl ha)
        rw [hs'] at hs
        split at hs
        · cases hs
        · cases hs; exact other rfl (by simp only [LastFree]; exact hp')
    cases op
    case eq =>
      by_cases ha : a = .position
      · subst ha
        by_cases hb : ∃ t str, b = .lit t str
        · obtain ⟨t, str, rfl⟩ := hb
          have hp : t = true := hp
          subst hp
          exact weaken (litPos_keep hs l).2.1
        · have hs' : mkSel d (.cmp .eq .position b) = .ok (.number true b) := by
            cases b <;> first | rfl | exact absurd ⟨_, _, rfl⟩ hb
          have hp' : b.ty = .num := by
            cases b <;> first | exact hp | exact absurd ⟨_, _, rfl⟩ hb
          rw [hs'] at hs
          cases hs
          have hk := eqPosition_keep hg.2 hp' true l
          exact ⟨⟨good_num hg.2 hp' (fun t str h => hb ⟨t, str, h⟩), .inl rfl⟩,
            fun h => by simp only [LastFree] at h; exact h.2, hk.1⟩
      · by_cases hb : b = .position
        · subst hb
          by_cases hl : ∃ t str, a = .lit t str
          · obtain ⟨t, str, rfl⟩ := hl
            have hp : t = true := hp
            subst hp
            exact weaken (litPos_keep hs l).2.2
          · have hs' : mkSel d (.cmp .eq a .position) = .ok (.number false a) := by
              cases a <;> first | rfl | exact absurd ⟨_, _, rfl⟩ hl | exact absurd rfl ha
            have hp' : a.ty = .num ∧ LastFree a := by
              cases a <;> first | exact hp | exact absurd ⟨_, _, rfl⟩ hl | exact absurd rfl ha
            rw [hs'] at hs
            cases hs
            have hk := eqPosition_keep hg.1 hp'.1 false l
            exact ⟨⟨good_num hg.1 hp'.1 (fun t str h => hl ⟨t, str, h⟩), .inr hp'.2⟩, fun _ => hp'.2, hk.2⟩
        · have hs' : mkSel d (.cmp .eq a b) = .ok (byType (.cmp .eq a b)) := by
            cases a <;> first | exact absurd rfl ha |
              (cases b <;> first | rfl | exact absurd rfl hb)
          have hp' : LastFree a ∧ LastFree b := by
            cases a <;> first | exact absurd rfl ha |
              (cases b <;> first | exact hp | exact absurd rfl hb)
          rw [hs'] at hs
          cases hs
          exact other rfl (by simp only [LastFree]; exact hp')
    case ne =>
      cases hs
      exact other rfl (by simp only [LastFree]; exact hp)
    all_goals exact orders (by simp) (by simp)
  | _ => cases hs; exact other rfl hp


/-- The same for all predicates of a step. -/
theorem mkSels_keep {es : List Expr} {ss : List Sel} (hs : mkSels d es = .ok ss) (hg : GoodPreds d r es) :
    (∀ x ∈ ss, GoodSel d r x) ∧ ((∀ e ∈ es, LastFree e) → ∀ x ∈ ss, x.free) ∧
    ∀ l, selsKeep d ss l = kept d es l := by
  induction es generalizing ss with
  | nil => cases hs; exact ⟨by simp, by simp, fun l => by simp only [selsKeep, kept]⟩
  | cons e es ih =>
    simp only [GoodPreds] at hg
    simp only [mkSels] at hs
    cases h1 : mkSel d e with
    | error err => simp [h1] at hs
    | ok s =>
      simp only [h1] at hs
      cases h2 : mkSels d es with
      | error err => simp [h2] at hs
      | ok ss' =>
        simp only [h2, Except.ok.injEq] at hs
        subst hs
        obtain ⟨i1, i2, i3⟩ := ih h2 hg.2.2
        have k := mkSel_keep h1 hg.1 hg.2.1
        refine ⟨?_, ?_, fun l => ?_⟩
        · intro x hx
          rcases List.mem_cons.1 hx with rfl | hx
          · exact (k []).1
          · exact i1 x hx
        · intro hf x hx
          rcases List.mem_cons.1 hx with rfl | hx
          · exact (k []).2.1 (hf e (by simp))
          · exact i2 (fun e he => hf e (by simp [he])) x hx
        · rw [selsKeep, (k l).2.2, i3, kept_cons]

/-- What a step selects for a context node, in the order in which it is produced: always document
order. -/
noncomputable def stepOut (d : Doc) : LStep → Nat → List Nat
  | .mk ax t preds, n =>
    if ax.reverse then (kept d preds (cand d ax t n)).reverse else kept d preds (cand d ax t n)

/-- What the steps of a path produce. -/
noncomputable def flow (d : Doc) : List LStep → List Nat → List Nat
  | [], l => l
  | s :: ss, l => flow d ss (l.flatMap (stepOut d s))

theorem mkStep_den {s : LStep} {cs : CStep} (hs : mkStep d s = .ok cs) (hg : GoodStep d r s) :
    (∀ x ∈ cs.sels, GoodSel d r x) ∧
    (StepStable s → cs.axis.reverse = true ∨ ∀ x ∈ cs.sels, x.free) ∧
    stepDen d cs = stepOut d s := by
  cases s with
  | mk ax t preds =>
    simp only [mkStep] at hs
    cases h1 : mkSels d preds with
    | error err => simp [h1] at hs
    | ok sels =>
      simp only [h1] at hs
      split at hs
      · cases hs
      · cases hs
        simp only [GoodStep] at hg
        obtain ⟨i1, i2, i3⟩ := mkSels_keep h1 hg
        refine ⟨i1, fun h => h.imp id i2, funext fun n => ?_⟩
        simp only [stepDen, stepOut, i3]

theorem chain_den {steps : List LStep} {it it' : Iter} (hs : chain d steps it = .ok it')
    (hg : GoodSteps d r steps) (hok : StepsOk steps) (hi : GoodIter d r it) (hst : steps ≠ [] → Stable it) :
    GoodIter d r it' ∧ (∀ z, den d z it' = flow d steps (den d z it)) ∧
    (AllStepsStable steps → Stable it → Stable it') := by
  induction steps generalizing it with
  | nil => cases hs; exact ⟨hi, fun z => rfl, fun _ h => h⟩
  | cons s ss ih =>
    simp only [chain] at hs
    simp only [GoodSteps] at hg
    cases h1 : mkStep d s with
    | error err => simp [h1] at hs
    | ok cs =>
      simp only [h1] at hs
      obtain ⟨k1, k2, k3⟩ := mkStep_den h1 hg.1
      have hst := hst (by simp)
      have hok' : StepsOk ss ∧ (ss ≠ [] → StepStable s) := by
        cases ss with
        | nil => exact ⟨trivial, fun h => absurd rfl h⟩
        | cons a ss => exact ⟨hok.2, fun _ => hok.1⟩
      obtain ⟨i1, i2, i3⟩ := ih hs hg.2 hok'.1 (by exact ⟨k1, hi, hst⟩)
        (fun h => ⟨k2 (hok'.2 h), hst⟩)
      refine ⟨i1, fun z => ?_, fun ha hs' => i3 (fun x hx => ha x (by simp [hx])) ⟨k2 (ha s (by simp)), hs'⟩⟩
      rw [i2, flow, den, k3]

end Verif.Eval
