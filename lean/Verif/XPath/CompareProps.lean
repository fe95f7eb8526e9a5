import Verif.XPath.CompareSpec
import Verif.XPath.NumProps

/-
C20 comparison of node-sets, C21 comparison of scalars.
-/
namespace Verif.XPath
open Verif

/-! ### numbers -/

theorem numLt_iff (a b : Dbl) : a.lt b = true ↔ Spec.NumLt a b := by
  unfold Spec.NumLt
  cases a <;> cases b <;> simp [Dbl.lt, Dbl.toRat?]

theorem numEq_iff (a b : Dbl) : a.eq b = true ↔ Spec.NumEq a b := by
  unfold Spec.NumEq
  cases a <;> cases b <;> simp [Dbl.eq, Dbl.toRat?] <;> grind

theorem numEq_comm {a b : Dbl} : Spec.NumEq a b ↔ Spec.NumEq b a := by
  unfold Spec.NumEq
  constructor <;> rintro (⟨q, h1, h2⟩ | ⟨h1, h2⟩)
  · exact .inl ⟨q, h2, h1⟩
  · exact .inr ⟨h1.symm, h1 ▸ h2⟩
  · exact .inl ⟨q, h2, h1⟩
  · exact .inr ⟨h1.symm, h1 ▸ h2⟩

theorem cmpFloat_iff (op : Op) (a b : Dbl) : cmpFloat op a b = true ↔ Spec.NumRel op a b := by
  cases op <;> simp only [cmpFloat, Spec.NumRel, Dbl.le, Bool.or_eq_true, numLt_iff, numEq_iff,
    Bool.not_eq_true', ← Bool.not_eq_true]
  rw [numEq_comm]

/-- Doubles that compare in the same way: equal, or zeros. -/
def Same (a b : Dbl) : Prop := a = b ∨ (a.toRat? = some 0 ∧ b.toRat? = some 0)

theorem Same.symm {a b : Dbl} (h : Same a b) : Same b a := by
  rcases h with h | ⟨h1, h2⟩
  · exact .inl h.symm
  · exact .inr ⟨h2, h1⟩

theorem Same.trans {a b c : Dbl} (h : Same a b) (h' : Same b c) : Same a c := by
  rcases h with rfl | ⟨h1, h2⟩
  · exact h'
  · rcases h' with rfl | ⟨h3, h4⟩
    · exact .inr ⟨h1, h2⟩
    · exact .inr ⟨h1, h4⟩

theorem zero_cases {a : Dbl} (h : a.toRat? = some 0) : a = .nzero ∨ a = .fin 0 := by
  cases a <;> simp_all [Dbl.toRat?]

theorem Same.lt {a a' b b' : Dbl} (h : Same a a') (h' : Same b b') : Spec.NumLt a b → Spec.NumLt a' b' := by
  rcases h with rfl | ⟨h1, h2⟩ <;> rcases h' with rfl | ⟨h3, h4⟩
  · exact id
  · rcases zero_cases h3 with rfl | rfl <;> rcases zero_cases h4 with rfl | rfl <;>
      simp [Spec.NumLt, Dbl.toRat?]
  · rcases zero_cases h1 with rfl | rfl <;> rcases zero_cases h2 with rfl | rfl <;>
      simp [Spec.NumLt, Dbl.toRat?]
  · rcases zero_cases h1 with rfl | rfl <;> rcases zero_cases h2 with rfl | rfl <;>
    rcases zero_cases h3 with rfl | rfl <;> rcases zero_cases h4 with rfl | rfl <;>
      simp [Spec.NumLt, Dbl.toRat?]

theorem Same.eq {a a' b b' : Dbl} (h : Same a a') (h' : Same b b') : Spec.NumEq a b → Spec.NumEq a' b' := by
  rcases h with rfl | ⟨h1, h2⟩ <;> rcases h' with rfl | ⟨h3, h4⟩
  · exact id
  · cases a <;> rcases zero_cases h3 with rfl | rfl <;> rcases zero_cases h4 with rfl | rfl <;>
      simp [Spec.NumEq, Dbl.toRat?]
  · cases b <;> rcases zero_cases h1 with rfl | rfl <;> rcases zero_cases h2 with rfl | rfl <;>
      simp [Spec.NumEq, Dbl.toRat?]
  · rcases zero_cases h1 with rfl | rfl <;> rcases zero_cases h2 with rfl | rfl <;>
    rcases zero_cases h3 with rfl | rfl <;> rcases zero_cases h4 with rfl | rfl <;>
      simp [Spec.NumEq, Dbl.toRat?]

theorem Same.rel {op : Op} {a a' b b' : Dbl} (h : Same a a') (h' : Same b b') :
    Spec.NumRel op a b ↔ Spec.NumRel op a' b' := by
  have e : Spec.NumEq a b ↔ Spec.NumEq a' b' := ⟨Same.eq h h', Same.eq h.symm h'.symm⟩
  have l : Spec.NumLt a b ↔ Spec.NumLt a' b' := ⟨Same.lt h h', Same.lt h.symm h'.symm⟩
  have g : Spec.NumLt b a ↔ Spec.NumLt b' a' := ⟨Same.lt h' h, Same.lt h'.symm h.symm⟩
  cases op <;> simp only [Spec.NumRel, e, l, g]

theorem isNumber_unique {s : Str} {p q : Rat} (hp : Spec.IsNumber s p) (hq : Spec.IsNumber s q) :
    p = q := by
  obtain ⟨ps, hps, rfl⟩ := exists_parts s
  rw [((isNumber_iff ps hps p).1 hp).2.2, ((isNumber_iff ps hps q).1 hq).2.2]

theorem mkNumber_same (d : Dbl) : Same (mkNumber d).val d := by
  unfold mkNumber XNum.val Same
  by_cases h : d = .nzero
  · subst h; simp [Dbl.toRat?]
  · simp [h]

theorem numberOf_unique (R : Rounding) {s : Str} {a b : Dbl} (ha : Spec.NumberOf R s a) (hb : Spec.NumberOf R s b) :
    Same a b := by
  rcases ha with ⟨p, hp, ha⟩ | ⟨hn, ha⟩ <;> rcases hb with ⟨q, hq, hb⟩ | ⟨hn', hb⟩
  · have := isNumber_unique hp hq
    subst this
    exact Same.trans ha (Same.symm hb)
  · exact absurd ⟨p, hp⟩ hn'
  · exact absurd ⟨q, hq⟩ hn
  · left; rw [ha, hb]

/-- On convertible strings the code's conversion is XPath's `number()`. -/
theorem numberOfString_ok (R : Rounding) (s : Str) (h : Spec.Convertible s) :
    ∃ x, numberOfString R s = .ok x ∧ Spec.NumberOf R s x.val := by
  by_cases hn : ∃ q, Spec.IsNumber s q
  · obtain ⟨q, hq⟩ := hn
    exact ⟨_, C29_parse_number R s q hq, .inl ⟨q, hq, mkNumber_same _⟩⟩
  · exact ⟨_, C29_parse_nan_partial R s h.1 hn h.2, .inr ⟨hn, rfl⟩⟩

theorem toNumber_ok (R : Rounding) (v : Scalar) (h : Spec.ConvertibleS v) :
    ∃ x, toNumber R v = .ok x ∧ Spec.NumberOfScalar R v x.val := by
  cases v with
  | str s => exact numberOfString_ok R s h
  | num x => exact ⟨x, rfl, rfl⟩
  | bool b => refine ⟨_, rfl, ?_⟩; cases b <;> rfl

theorem numberOfScalar_unique (R : Rounding) {v : Scalar} {a b : Dbl} (ha : Spec.NumberOfScalar R v a)
    (hb : Spec.NumberOfScalar R v b) : Same a b := by
  cases v with
  | str s => exact numberOf_unique R ha hb
  | num x => left; rw [ha, hb]
  | bool b => left; rw [ha, hb]

theorem cmpNum_iff (R : Rounding) (op : Op) (v w : Scalar) (hv : Spec.ConvertibleS v) (hw : Spec.ConvertibleS w) :
    ∃ r, cmpNum R op v w = .ok r ∧
      (r = true ↔ ∃ a b, Spec.NumberOfScalar R v a ∧ Spec.NumberOfScalar R w b ∧ Spec.NumRel op a b) := by
  obtain ⟨x, hx, hx'⟩ := toNumber_ok R v hv
  obtain ⟨y, hy, hy'⟩ := toNumber_ok R w hw
  refine ⟨cmpFloat op x.val y.val, by simp [cmpNum, hx, hy], ?_⟩
  rw [cmpFloat_iff]
  constructor
  · intro h; exact ⟨_, _, hx', hy', h⟩
  · rintro ⟨a, b, ha, hb, h⟩
    exact (Same.rel (numberOfScalar_unique R ha hx') (numberOfScalar_unique R hb hy')).1 h

theorem truth_iff (v : Scalar) : toBoolean v = true ↔ Spec.Truth v := by
  cases v with
  | str s => cases s <;> simp [toBoolean, Spec.Truth]
  | bool b => simp [toBoolean, Spec.Truth]
  | num x =>
    simp only [toBoolean, Spec.Truth]
    generalize x.val = d
    cases d <;> simp [Dbl.eq, Dbl.toRat?]

theorem cmpBool_eq (a b : Bool) : cmpBool .eq a b = true ↔ (a = true ↔ b = true) := by
  cases a <;> cases b <;> decide

theorem cmpBool_ne (a b : Bool) : cmpBool .ne a b = true ↔ ¬ (a = true ↔ b = true) := by
  cases a <;> cases b <;> decide

/-! ### C21 -/

/-- Comparing two scalars gives a boolean, and it is the one of section 3.4, whenever the strings to
be converted to numbers are convertible (otherwise see C29 and `C21_refuted`); `=` and `!=` of two
strings or with a boolean need no such condition. -/
theorem C21_scalar_compare_partial (R : Rounding) (op : Op) (v w : Scalar)
    (hv : Spec.ConvertibleS v) (hw : Spec.ConvertibleS w) :
    ∃ r, compare R op (.sc v) (.sc w) = .ok r ∧ (r = true ↔ Spec.ScalarRel R op v w) := by
  simp only [compare]
  suffices h : ∃ r, cmpScalar R op v w = .ok r ∧ (r = true ↔ Spec.ScalarRel R op v w) by
    obtain ⟨r, h1, h2⟩ := h
    exact ⟨r, by rw [h1]; rfl, h2⟩
  have hne : ∀ v w : Scalar, Spec.ConvertibleS v → Spec.ConvertibleS w →
      ∃ r, cmpNum R .ne v w = .ok r ∧ (r = true ↔
        ¬ ∃ a b, Spec.NumberOfScalar R v a ∧ Spec.NumberOfScalar R w b ∧ Spec.NumEq a b) := by
    intro v w hv hw
    obtain ⟨x, hx, hx'⟩ := toNumber_ok R v hv
    obtain ⟨y, hy, hy'⟩ := toNumber_ok R w hw
    refine ⟨cmpFloat .ne x.val y.val, by simp [cmpNum, hx, hy], ?_⟩
    rw [cmpFloat_iff]
    simp only [Spec.NumRel]
    constructor
    · rintro h ⟨a, b, ha, hb, he⟩
      exact h (Same.eq (numberOfScalar_unique R ha hx') (numberOfScalar_unique R hb hy') he)
    · intro h he; exact h ⟨_, _, hx', hy', he⟩
  unfold cmpScalar
  by_cases hop : op = .eq ∨ op = .ne
  · rw [if_pos hop]
    rcases hop with rfl | rfl
    · cases v <;> cases w <;> simp only [Spec.ScalarRel, Spec.EqRel]
      case str.str => exact ⟨_, rfl, by simp⟩
      case str.num => exact cmpNum_iff R .eq _ _ hv hw
      case num.str => exact cmpNum_iff R .eq _ _ hv hw
      case num.num => exact cmpNum_iff R .eq _ _ hv hw
      all_goals exact ⟨_, rfl, by rw [cmpBool_eq, truth_iff]⟩
    · cases v <;> cases w <;> simp only [Spec.ScalarRel, Spec.EqRel]
      case str.str => exact ⟨_, rfl, by simp⟩
      case str.num => exact hne _ _ hv hw
      case num.str => exact hne _ _ hv hw
      case num.num => exact hne _ _ hv hw
      all_goals exact ⟨_, rfl, by rw [cmpBool_ne, truth_iff]⟩
  · rw [if_neg hop]
    have := cmpNum_iff R op v w hv hw
    cases op <;> simp at hop <;> simpa only [Spec.ScalarRel] using this

example : compare exactR .lt (.sc (.str (s!! "9"))) (.sc (.str (s!! "10"))) = .ok true ∧
    compare exactR .eq (.sc (.bool true)) (.sc (.str (s!! "false"))) = .ok true ∧
    compare exactR .ne (.sc (.num .sNaN)) (.sc (.num .sNaN)) = .ok true := by decide +kernel

example : Spec.ConvertibleS (.str (s!! "10")) := by
  refine ⟨by decide, ?_⟩
  intro h
  have := (C29_digitless exactR (s!! "10") (by decide)).2 h
  revert this; decide +kernel

/-- Comparisons as strings or as booleans do not depend on any conversion to numbers. -/
theorem C21_string_boolean_compare (R : Rounding) (op : Op) (hop : op = .eq ∨ op = .ne) (v w : Scalar)
    (h : (∃ b, v = .bool b) ∨ (∃ b, w = .bool b) ∨ ((∃ s, v = .str s) ∧ ∃ s, w = .str s)) :
    ∃ r, compare R op (.sc v) (.sc w) = .ok r ∧ (r = true ↔ Spec.ScalarRel R op v w) := by
  simp only [compare, cmpScalar, if_pos hop]
  rcases hop with rfl | rfl
  · cases v <;> cases w <;> simp at h <;> simp only [Spec.ScalarRel, Spec.EqRel]
    case str.str => exact ⟨_, rfl, by simp⟩
    all_goals exact ⟨_, rfl, by rw [cmpBool_eq, truth_iff]⟩
  · cases v <;> cases w <;> simp at h <;> simp only [Spec.ScalarRel, Spec.EqRel]
    case str.str => exact ⟨_, rfl, by simp⟩
    all_goals exact ⟨_, rfl, by rw [cmpBool_ne, truth_iff]⟩

example : compare exactR .eq (.sc (.str (s!! " "))) (.sc (.str (s!! " "))) = .ok true := by decide +kernel

/-- `"-" < 1` raises ValueError instead of being false. -/
theorem C21_refuted (R : Rounding) :
    compare R .lt (.sc (.str (s!! "-"))) (.sc (.num (.obj (.fin 1)))) = .error (.py .valueError) := by
  have h : numberOfString R (s!! "-") = .error .valueError := (C29_refuted R).1.2
  simp [compare, cmpScalar, cmpNum, toNumber, h, liftErr]

/-! ### C20 -/

theorem anyScalar_ok (R : Rounding) (op : Op) (conv : Str → Except PyErr Scalar) (w : Scalar) (P : Str → Prop)
    (v : List Str)
    (h : ∀ a ∈ v, ∃ x r, conv a = .ok x ∧ cmpScalar R op x w = .ok r ∧ (r = true ↔ P a)) :
    ∃ r, anyScalar R op conv w v = .ok r ∧ (r = true ↔ ∃ a ∈ v, P a) := by
  induction v with
  | nil => exact ⟨false, rfl, by simp⟩
  | cons a rest ih =>
    obtain ⟨x, r, h1, h2, h3⟩ := h a (by simp)
    obtain ⟨r', h4, h5⟩ := ih (fun b hb => h b (by simp [hb]))
    simp only [anyScalar, h1, h2]
    cases r with
    | true => exact ⟨true, rfl, by simp [h3.1 rfl]⟩
    | false =>
      refine ⟨r', h4, ?_⟩
      rw [h5]
      have : ¬ P a := fun h => by simpa using h3.2 h
      simp [this]

/-- The numeric comparison of a node with a number. -/
theorem node_num (R : Rounding) (op : Op) (a : Str) (d : XNum) (h : Spec.Convertible a) :
    ∃ x r, nodeNumber R a = .ok x ∧ cmpScalar R op x (.num d) = .ok r ∧
      (r = true ↔ ∃ e, Spec.NumberOf R a e ∧ Spec.NumRel op e d.val) := by
  obtain ⟨x, hx, hx'⟩ := numberOfString_ok R a h
  refine ⟨.num x, cmpFloat op x.val d.val, by simp [nodeNumber, hx], ?_, ?_⟩
  · unfold cmpScalar
    by_cases hop : op = .eq ∨ op = .ne
    · rw [if_pos hop]; rfl
    · rw [if_neg hop]; rfl
  · rw [cmpFloat_iff]
    constructor
    · intro h; exact ⟨_, hx', h⟩
    · rintro ⟨e, he, h⟩
      exact (Same.rel (numberOf_unique R he hx') (.inl rfl)).1 h

/-- A node-set compared with a boolean, a number or a string, on either side, follows section 3.4,
for all node-sets of convertible strings. -/
theorem cmpNodesScalar_ok (R : Rounding) (op : Op) (v : List Str) (w : Scalar)
    (hv : (∃ x, w = .num x) ∨ ((∃ s, w = .str s) ∧ op ≠ .eq ∧ op ≠ .ne) → ∀ a ∈ v, Spec.Convertible a)
    (hw : op ≠ .eq → op ≠ .ne → Spec.ConvertibleS w) :
    ∃ r, cmpNodesScalar R op v w = .ok r ∧ (r = true ↔ Spec.NodesScalarRel R op v w) := by
  cases w with
  | bool b =>
    have h := C21_scalar_compare_partial R op (.bool (decide (v ≠ []))) (.bool b) trivial trivial
    obtain ⟨r, h1, h2⟩ := h
    have e : (decide (v.length ≠ 0)) = decide (v ≠ []) := by cases v <;> simp
    refine ⟨r, ?_, h2⟩
    simp only [cmpNodesScalar]
    rw [e]
    simp only [compare] at h1
    cases hc : cmpScalar R op (.bool (decide (v ≠ []))) (.bool b) with
    | error e => rw [hc] at h1; simp [liftErr] at h1
    | ok r' => rw [hc] at h1; simpa [liftErr] using h1
  | num x =>
    exact anyScalar_ok R op _ _ _ v (fun a ha => node_num R op a x (hv (.inl ⟨x, rfl⟩) a ha))
  | str s =>
    simp only [cmpNodesScalar]
    by_cases hop : op = .eq ∨ op = .ne
    · rw [if_pos hop]
      apply anyScalar_ok
      intro a ha
      refine ⟨.str a, ?_⟩
      rcases hop with rfl | rfl
      · exact ⟨_, rfl, rfl, by simp [Spec.ScalarRel, Spec.EqRel]⟩
      · exact ⟨_, rfl, rfl, by simp [Spec.ScalarRel, Spec.EqRel]⟩
    · rw [if_neg hop]
      have h1 : op ≠ .eq := fun h => hop (.inl h)
      have h2 : op ≠ .ne := fun h => hop (.inr h)
      by_cases hl : v.length = 0
      · rw [if_pos hl]
        have : v = [] := List.eq_nil_of_length_eq_zero hl
        subst this
        exact ⟨false, rfl, by simp [Spec.NodesScalarRel]⟩
      · rw [if_neg hl]
        obtain ⟨y, hy, hy'⟩ := numberOfString_ok R s (hw h1 h2)
        rw [hy]
        apply anyScalar_ok
        intro a ha
        obtain ⟨x, r, k1, k2, k3⟩ := node_num R op a y (hv (.inr ⟨⟨s, rfl⟩, h1, h2⟩) a ha)
        refine ⟨x, r, k1, k2, ?_⟩
        rw [k3]
        have e : Spec.ScalarRel R op (.str a) (.str s) ↔
            ∃ p q, Spec.NumberOf R a p ∧ Spec.NumberOf R s q ∧ Spec.NumRel op p q := by
          cases op <;> simp at h1 h2 <;> rfl
        rw [e]
        constructor
        · rintro ⟨p, hp, h⟩; exact ⟨p, _, hp, hy', h⟩
        · rintro ⟨p, q, hp, hq, h⟩
          exact ⟨p, hp, (Same.rel (.inl rfl) (numberOf_unique R hq hy')).1 h⟩

/-- A node-set on the left of a scalar. -/
theorem C20_nodes_scalar_partial (R : Rounding) (op : Op) (v : List Str) (w : Scalar)
    (hv : (∃ x, w = .num x) ∨ ((∃ s, w = .str s) ∧ op ≠ .eq ∧ op ≠ .ne) → ∀ a ∈ v, Spec.Convertible a)
    (hw : op ≠ .eq → op ≠ .ne → Spec.ConvertibleS w) :
    ∃ r, compare R op (.nodes v) (.sc w) = .ok r ∧ (r = true ↔ Spec.NodesScalarRel R op v w) := by
  obtain ⟨r, h1, h2⟩ := cmpNodesScalar_ok R op v w hv hw
  exact ⟨r, by simp [compare, h1, liftErr], h2⟩

/-- The operator seen from the other side. -/
theorem numRel_swap (op : Op) (a b : Dbl) : Spec.NumRel op.swap b a ↔ Spec.NumRel op a b := by
  cases op <;> simp only [Op.swap, Spec.NumRel, numEq_comm (a := b) (b := a)]

theorem scalarRel_swap_str (R : Rounding) (op : Op) (a s : Str) :
    Spec.ScalarRel R op.swap (.str a) (.str s) ↔ Spec.ScalarRel R op (.str s) (.str a) := by
  have key : ∀ op : Op, (∃ p q, Spec.NumberOf R a p ∧ Spec.NumberOf R s q ∧ Spec.NumRel op.swap p q) ↔
      (∃ p q, Spec.NumberOf R s p ∧ Spec.NumberOf R a q ∧ Spec.NumRel op p q) := by
    intro op
    constructor
    · rintro ⟨p, q, h1, h2, h3⟩; exact ⟨q, p, h2, h1, (numRel_swap op q p).1 h3⟩
    · rintro ⟨p, q, h1, h2, h3⟩; exact ⟨q, p, h2, h1, (numRel_swap op p q).2 h3⟩
  cases op
  case eq => simp only [Op.swap, Spec.ScalarRel, Spec.EqRel]; exact eq_comm
  case ne => simp only [Op.swap, Spec.ScalarRel, Spec.EqRel]; rw [eq_comm]
  case lt => exact key .lt
  case le => exact key .le
  case gt => exact key .gt
  case ge => exact key .ge

/-- A node-set on the right of a scalar: the same comparison with the sides exchanged. -/
theorem C20_scalar_nodes_partial (R : Rounding) (op : Op) (v : Scalar) (w : List Str)
    (hw : (∃ x, v = .num x) ∨ ((∃ s, v = .str s) ∧ op ≠ .eq ∧ op ≠ .ne) → ∀ a ∈ w, Spec.Convertible a)
    (hv : op ≠ .eq → op ≠ .ne → Spec.ConvertibleS v) :
    ∃ r, compare R op (.sc v) (.nodes w) = .ok r ∧
      (r = true ↔ match v with
        | .bool b => Spec.ScalarRel R op (.bool b) (.bool (decide (w ≠ [])))
        | .num x => ∃ a ∈ w, ∃ d, Spec.NumberOf R a d ∧ Spec.NumRel op x.val d
        | .str s => ∃ a ∈ w, Spec.ScalarRel R op (.str s) (.str a)) := by
  have hs : (op.swap = .eq ↔ op = .eq) ∧ (op.swap = .ne ↔ op = .ne) := by cases op <;> decide
  obtain ⟨r, h1, h2⟩ := cmpNodesScalar_ok R op.swap w v
    (by simpa only [ne_eq, hs.1, hs.2] using hw) (by simpa only [ne_eq, hs.1, hs.2] using hv)
  refine ⟨r, by simp [compare, h1, liftErr], h2.trans ?_⟩
  cases v with
  | bool b =>
    simp only [Spec.NodesScalarRel]
    generalize decide (w ≠ []) = c
    have key : ∀ op : Op, (∃ p q, Spec.NumberOfScalar R (.bool c) p ∧ Spec.NumberOfScalar R (.bool b) q ∧ Spec.NumRel op.swap p q) ↔
        (∃ p q, Spec.NumberOfScalar R (.bool b) p ∧ Spec.NumberOfScalar R (.bool c) q ∧ Spec.NumRel op p q) := by
      intro op
      constructor
      · rintro ⟨p, q, h1, h2, h3⟩; exact ⟨q, p, h2, h1, (numRel_swap op q p).1 h3⟩
      · rintro ⟨p, q, h1, h2, h3⟩; exact ⟨q, p, h2, h1, (numRel_swap op p q).2 h3⟩
    cases op
    case eq => simp only [Op.swap, Spec.ScalarRel, Spec.EqRel, Spec.Truth]; exact iff_comm
    case ne => simp only [Op.swap, Spec.ScalarRel, Spec.EqRel, Spec.Truth]; exact not_congr iff_comm
    case lt => exact key .lt
    case le => exact key .le
    case gt => exact key .gt
    case ge => exact key .ge
  | num x => simp only [Spec.NodesScalarRel, numRel_swap]
  | str s => simp only [Spec.NodesScalarRel, scalarRel_swap_str]

example : compare exactR .lt (.nodes [s!! "x", s!! "3", s!! "12"]) (.sc (.num (.obj (.fin 4)))) = .ok true ∧
    compare exactR .lt (.sc (.num (.obj (.fin 4)))) (.nodes [s!! "x", s!! "3", s!! "12"]) = .ok true ∧
    compare exactR .ne (.nodes []) (.sc (.str (s!! "a"))) = .ok false := by decide +kernel

/-- `=` and `!=` of two node-sets, of any size and content. -/
theorem C20_nodes_equality (R : Rounding) (op : Op) (hop : op = .eq ∨ op = .ne) (v w : List Str) :
    ∃ r, compare R op (.nodes v) (.nodes w) = .ok r ∧ (r = true ↔ Spec.NodesRel R op v w) := by
  simp only [compare, cmpNodes]
  by_cases hl : v.length = 0 ∨ w.length = 0
  · rw [if_pos hl]
    refine ⟨false, rfl, ?_⟩
    unfold Spec.NodesRel
    rcases hl with hl | hl <;> rw [List.eq_nil_of_length_eq_zero hl] <;> simp
  · rw [if_neg hl]
    unfold Spec.NodesRel
    rcases hop with rfl | rfl
    · refine ⟨_, rfl, ?_⟩
      simp [Spec.ScalarRel, Spec.EqRel, List.any_eq_true]
    · refine ⟨_, rfl, ?_⟩
      simp [Spec.ScalarRel, Spec.EqRel, List.any_eq_true]

example : compare exactR .eq (.nodes [s!! "a", s!! "b"]) (.nodes [s!! "c", s!! "b"]) = .ok true ∧
    compare exactR .ne (.nodes [s!! "a"]) (.nodes [s!! "a"]) = .ok false := by decide +kernel

theorem relNodes_sound (R : Rounding) (op : Op) (hop : op ≠ .eq ∧ op ≠ .ne) (w : List Str)
    (hw : ∀ b ∈ w, Spec.Convertible b) (v : List Str) (hv : ∀ a ∈ v, Spec.Convertible a) (i : Nat)
    (h : relNodes R op w i v = .ok true) : Spec.NodesRel R op v w := by
  induction v generalizing i with
  | nil => simp [relNodes] at h
  | cons a rest ih =>
    obtain ⟨x, hx, hx'⟩ := numberOfString_ok R a (hv a (by simp))
    simp only [relNodes, hx] at h
    cases hb : w[i]? with
    | none => rw [hb] at h; simp at h
    | some b =>
      have hbw : b ∈ w := List.mem_of_getElem? hb
      obtain ⟨y, hy, hy'⟩ := numberOfString_ok R b (hw b hbw)
      rw [hb] at h
      simp only [hy] at h
      by_cases hc : cmpFloat op x.val y.val = true
      · rw [cmpFloat_iff] at hc
        refine ⟨a, by simp, b, hbw, ?_⟩
        cases op <;> simp at hop <;> exact ⟨_, _, hx', hy', hc⟩
      · rw [if_neg hc] at h
        obtain ⟨a', h1, h2⟩ := ih (fun c hc => hv c (by simp [hc])) (i + 1) h
        exact ⟨a', by simp [h1], h2⟩

/-- A relational operator on two node-sets: a true result is right ... -/
theorem C20_nodes_relational_sound_partial (R : Rounding) (op : Op) (hop : op ≠ .eq ∧ op ≠ .ne) (v w : List Str)
    (hv : ∀ a ∈ v, Spec.Convertible a) (hw : ∀ b ∈ w, Spec.Convertible b)
    (h : compare R op (.nodes v) (.nodes w) = .ok true) : Spec.NodesRel R op v w := by
  simp only [compare, cmpNodes] at h
  by_cases hl : v.length = 0 ∨ w.length = 0
  · rw [if_pos hl] at h; simp at h
  · rw [if_neg hl] at h
    apply relNodes_sound R op hop w hw v hv 0
    cases op <;> simp at hop <;> exact h

/-- ... and the result is right if each of the node-sets has at most one node; otherwise see
`C20_refuted`. -/
theorem C20_nodes_relational_partial (R : Rounding) (op : Op) (hop : op ≠ .eq ∧ op ≠ .ne) (v w : List Str)
    (hv : ∀ a ∈ v, Spec.Convertible a) (hw : ∀ b ∈ w, Spec.Convertible b)
    (lv : v.length ≤ 1) (lw : w.length ≤ 1) :
    ∃ r, compare R op (.nodes v) (.nodes w) = .ok r ∧ (r = true ↔ Spec.NodesRel R op v w) := by
  match v, w, lv, lw with
  | [], w, _, _ => exact ⟨false, by simp [compare, cmpNodes], by simp [Spec.NodesRel]⟩
  | [a], [], _, _ => exact ⟨false, by simp [compare, cmpNodes], by simp [Spec.NodesRel]⟩
  | [a], [b], _, _ =>
    obtain ⟨x, hx, hx'⟩ := numberOfString_ok R a (hv a (by simp))
    obtain ⟨y, hy, hy'⟩ := numberOfString_ok R b (hw b (by simp))
    have h : compare R op (.nodes [a]) (.nodes [b]) = .ok (cmpFloat op x.val y.val) := by
      have : compare R op (.nodes [a]) (.nodes [b]) = relNodes R op [b] 0 [a] := by
        cases op <;> simp at hop <;> rfl
      rw [this]
      simp only [relNodes, hx, hy, List.getElem?_cons_zero]
      by_cases hc : cmpFloat op x.val y.val = true
      · rw [if_pos hc, hc]
      · rw [if_neg hc]; simp at hc; rw [hc]
    refine ⟨_, h, ?_⟩
    rw [cmpFloat_iff]
    have e : Spec.NodesRel R op [a] [b] ↔
        ∃ p q, Spec.NumberOf R a p ∧ Spec.NumberOf R b q ∧ Spec.NumRel op p q := by
      unfold Spec.NodesRel
      simp only [List.mem_singleton, exists_eq_left]
      cases op <;> simp at hop <;> rfl
    rw [e]
    constructor
    · intro h; exact ⟨_, _, hx', hy', h⟩
    · rintro ⟨p, q, hp, hq, h⟩
      exact (Same.rel (numberOf_unique R hp hx') (numberOf_unique R hq hy')).1 h

example : compare exactR .lt (.nodes [s!! "9"]) (.nodes [s!! "10"]) = .ok true := by decide +kernel

theorem isNumber_digit (s : Str) (h : ∀ c ∈ s, Spec.Digit c) (hne : s ≠ []) : Spec.IsNumber s (Spec.place s) := by
  refine ⟨[], [], s, [], false, false, by simp, by simp, h, by simp, .inl hne, by simp, by simp, ?_⟩
  have : (Spec.place ([] : Str) : Rat) / ((10 ^ ([] : Str).length : Nat) : Rat) = 0 := by decide +kernel
  rw [this]; simp; grind

/-- A relational comparison of two node-sets compares only nodes with the same index: `{1} < {0, 5}`
is false although 1 < 5; with more nodes on the left than on the right it reads past the end of an
array. -/
theorem C20_refuted (R : Rounding) :
    (Spec.NodesRel R .lt [s!! "1"] [s!! "0", s!! "5"] ∧
      compare R .lt (.nodes [s!! "1"]) (.nodes [s!! "0", s!! "5"]) = .ok false) ∧
    compare R .lt (.nodes [s!! "1", s!! "2"]) (.nodes [s!! "0"]) = .error .outOfBounds := by
  have conv : ∀ (s : Str) (n : Int), (∀ c ∈ s, Spec.Digit c) → s ≠ [] → Spec.place s = n.toNat → 0 ≤ n → n ≤ 9 →
      Spec.IsNumber s (n : Rat) ∧ numberOfString R s = .ok (.obj (.fin (n : Rat))) := by
    intro s n h1 h2 h3 h4 h5
    have hq := isNumber_digit s h1 h2
    have e : ((Spec.place s : Nat) : Rat) = (n : Rat) := by
      rw [h3, ← Rat.intCast_natCast]; congr 1; omega
    rw [e] at hq
    refine ⟨hq, ?_⟩
    rw [C29_parse_number R s _ hq, R.exact _ (isDouble_int n (by omega) (by omega))]
    simp [mkNumber]
  have dig : ∀ (c0 : Char), Spec.Digit c0 → ∀ c ∈ [c0], Spec.Digit c := by
    intro c0 h c hc; simp at hc; subst hc; exact h
  obtain ⟨i1, n1⟩ := conv (s!! "1") 1 (dig _ (by unfold Spec.Digit; decide)) (by decide) (by decide) (by decide) (by decide)
  obtain ⟨i0, n0⟩ := conv (s!! "0") 0 (dig _ (by unfold Spec.Digit; decide)) (by decide) (by decide) (by decide) (by decide)
  obtain ⟨i5, n5⟩ := conv (s!! "5") 5 (dig _ (by unfold Spec.Digit; decide)) (by decide) (by decide) (by decide) (by decide)
  obtain ⟨i2, n2⟩ := conv (s!! "2") 2 (dig _ (by unfold Spec.Digit; decide)) (by decide) (by decide) (by decide) (by decide)
  have c10 : cmpFloat .lt (XNum.obj (.fin ((1 : Int) : Rat))).val (XNum.obj (.fin ((0 : Int) : Rat))).val = false := by
    decide +kernel
  refine ⟨⟨?_, ?_⟩, ?_⟩
  · refine ⟨s!! "1", by simp, s!! "5", by simp, .fin ((1 : Int) : Rat), .fin ((5 : Int) : Rat), ?_, ?_, ?_⟩
    · exact .inl ⟨_, i1, .inl (by rw [R.exact _ (isDouble_int 1 (by decide) (by decide))])⟩
    · exact .inl ⟨_, i5, .inl (by rw [R.exact _ (isDouble_int 5 (by decide) (by decide))])⟩
    · exact .inl ⟨_, _, rfl, rfl, by decide +kernel⟩
  · simp only [compare, cmpNodes, List.length_cons, List.length_nil, relNodes, n1, n0, List.getElem?_cons_zero, c10]
    simp
  · simp only [compare, cmpNodes, List.length_cons, List.length_nil, relNodes, n1, n0, n2, List.getElem?_cons_zero, c10]
    simp

end Verif.XPath
