import Verif.Template.PatternLemmas

/-
From the loop of `pattern.match` to chains of ancestors, and from there to paths.
-/
namespace Verif.Template
open Verif Verif.XPath Verif.Dom Verif.Dom.Spec Verif.Eval Verif.Eval.Spec
open Verif.Template.Spec (lstep anyBelow steps last front TestOk StepOk LastOk RelOk CallOk PatOk AllDouble AllSingle
  DoubleFirst)

variable {d : Doc} {root : Nat}

/-- A step, seen as a property of nodes. -/
structure SStep where
  holds : Nat → Prop
  anc : Bool

/-- The code of a test decides a property of nodes. -/
def Decides (d : Doc) (root : Nat) (t : CTest) (P : Nat → Prop) : Prop :=
  ∀ fuel n c b c', InDoc d root n → InDoc d root c.node → t.match d fuel n c = .ok b c' →
    (b = true ↔ P n) ∧ Same c c'

/-- All tests of a list. -/
inductive Reals (d : Doc) (root : Nat) : List CPat → List SStep → Prop
  | nil : Reals d root [] []
  | cons {s : CPat} {t : SStep} {ss : List CPat} {ts : List SStep} : s.ancestor = t.anc →
      Decides d root s.test t.holds → Reals d root ss ts → Reals d root (s :: ss) (t :: ts)

theorem Reals.append {a b : List CPat} {x y : List SStep} (h1 : Reals d root a x) (h2 : Reals d root b y) :
    Reals d root (a ++ b) (x ++ y) := by
  induction h1 with
  | nil => exact h2
  | cons h3 h4 _ ih => exact .cons h3 h4 ih

/-- There is a chain of ancestors of `n` that satisfies the steps. -/
def Chain (d : Doc) : List SStep → Nat → Prop
  | [], _ => True
  | s :: ss, n =>
    if s.anc then ∃ m, Anc d.h m n ∧ s.holds m ∧ Chain d ss m
    else ∃ m, d.h.parent n = some m ∧ s.holds m ∧ Chain d ss m

/-- After a `//` there are only `//`. -/
def Safe : List SStep → Prop
  | [] => True
  | s :: ss => if s.anc then ∀ t ∈ ss, t.anc = true else Safe ss

theorem anc_trans {h : Heap} {a b c : Nat} (h1 : Anc h a b) (h2 : Anc h b c) : Anc h a c := by
  induction h2 with
  | parent hp => exact .step h1 hp
  | step _ hp ih => exact .step ih hp

theorem chain_down {ss : List SStep} (hs : ∀ t ∈ ss, t.anc = true) {m n : Nat} (hm : Anc d.h m n)
    (h : Chain d ss m) : Chain d ss n := by
  cases ss with
  | nil => trivial
  | cons s ss =>
    rw [Chain, if_pos (hs s (by simp))] at h ⊢
    obtain ⟨k, h1, h2, h3⟩ := h
    exact ⟨k, anc_trans h1 hm, h2, h3⟩

theorem same_inDoc {c c' : Ctx} (hs : Same c c') (h : InDoc d root c.node) : InDoc d root c'.node := by
  rw [hs.1]; exact h

/-- The climb: the nearest node that passes, or none does. -/
theorem climbTo_right (w : DocWF d root) {fuel : Nat} {t : CTest} {P : Nat → Prop} (ht : Decides d root t P)
    {k : Nat} {o m : Option Nat} {c c' : Ctx} (hc : InDoc d root c.node)
    (ho : ∀ n, o = some n → InDoc d root n) (h : climbTo d fuel t k o c = .ok m c') :
    Same c c' ∧
    (∀ x, m = some x → ∃ n, o = some n ∧ AncS d.h x n ∧ P x) ∧
    ∀ n y, o = some n → AncS d.h y n → P y → ∃ x, m = some x ∧ AncS d.h y x := by
  induction k generalizing o c with
  | zero =>
    cases o with
    | none => simp only [climbTo] at h; cases h; exact ⟨.refl, nofun, nofun⟩
    | some n => cases h
  | succ k ih =>
    cases o with
    | none => simp only [climbTo] at h; cases h; exact ⟨.refl, nofun, nofun⟩
    | some n =>
      simp only [climbTo] at h
      obtain ⟨b, c1, h1, h2⟩ := bind_ok' h
      have hn := ho n rfl
      obtain ⟨hb, hs⟩ := ht _ _ _ _ _ hn hc h1
      cases b with
      | true =>
        simp only [if_true] at h2
        cases h2
        refine ⟨hs, ?_, ?_⟩
        · rintro x ⟨⟩; exact ⟨n, rfl, .inl rfl, hb.1 rfl⟩
        · rintro _ y ⟨⟩ hy _; exact ⟨n, rfl, hy⟩
      | false =>
        simp only [Bool.false_eq_true, if_false] at h2
        obtain ⟨e1, e2, e3⟩ := ih (same_inDoc hs hc) (fun p hp => parent_inDoc w hn hp) h2
        refine ⟨hs.trans e1, ?_, ?_⟩
        · intro x hx
          obtain ⟨p, hp, hxp, hP⟩ := e2 x hx
          refine ⟨n, rfl, .inr ?_, hP⟩
          rcases hxp with rfl | hxp
          · exact .parent hp
          · exact .step hxp hp
        · rintro _ y ⟨⟩ hy hP
          rcases hy with rfl | hy
          · have := hb.2 hP; cases this
          · obtain ⟨p, hp, hyp⟩ := anc_iff.1 hy
            exact e3 p y hp hyp hP

theorem matchLoop_right (w : DocWF d root) {fuel : Nat} {ss : List CPat} {ts : List SStep} (hr : Reals d root ss ts)
    {n : Nat} {c c' : Ctx} {b : Bool} (hn : InDoc d root n) (hc : InDoc d root c.node)
    (h : matchLoop d fuel ss n c = .ok b c') :
    Same c c' ∧ (b = true → Chain d ts n) ∧ (Safe ts → Chain d ts n → b = true) := by
  induction hr generalizing n c with
  | nil => cases h; exact ⟨.refl, fun _ => trivial, fun _ _ => rfl⟩
  | @cons s t ss ts ha hd hr ih =>
    rw [matchLoop] at h
    rw [Chain, Safe]
    cases hta : t.anc with
    | true =>
      rw [hta] at ha
      simp only [ha, if_true] at h ⊢
      obtain ⟨m, c1, h1, h2⟩ := bind_ok' h
      obtain ⟨e1, e2, e3⟩ := climbTo_right w hd hc (fun p hp => parent_inDoc w hn hp) h1
      cases m with
      | none =>
        cases h2
        refine ⟨e1, nofun, ?_⟩
        rintro _ ⟨m, hm, hP, _⟩
        obtain ⟨p, hp, hmp⟩ := anc_iff.1 hm
        obtain ⟨x, hx, _⟩ := e3 p m hp hmp hP
        cases hx
      | some m =>
        simp only at h2
        obtain ⟨p, hp, hmp, hP⟩ := e2 m rfl
        have hmn : Anc d.h m n := anc_iff.2 ⟨p, hp, hmp⟩
        obtain ⟨g1, g2, g3⟩ := ih (anc_inDoc w hn hmn) (same_inDoc e1 hc) h2
        refine ⟨e1.trans g1, fun hb => ⟨m, hmn, hP, g2 hb⟩, ?_⟩
        rintro hs ⟨y, hy, hPy, hcy⟩
        refine g3 ?_ ?_
        · cases ts with
          | nil => trivial
          | cons t2 ts =>
            rw [Safe, if_pos (hs t2 (by simp))]
            exact fun t ht => hs t (by simp [ht])
        · obtain ⟨q, hq, hyq⟩ := anc_iff.1 hy
          rw [hp] at hq; cases hq
          obtain ⟨x, hx, hyx⟩ := e3 p y hp hyq hPy
          cases hx
          rcases hyx with rfl | hyx
          · exact hcy
          · exact chain_down hs hyx hcy
    | false =>
      rw [hta] at ha
      simp only [ha, Bool.false_eq_true, if_false] at h ⊢
      cases hp : d.h.parent n with
      | none =>
        simp only [hp] at h
        cases h
        exact ⟨.refl, nofun, by rintro _ ⟨m, hm, _⟩; cases hm⟩
      | some p =>
        simp only [hp] at h
        obtain ⟨b1, c1, h1, h2⟩ := bind_ok' h
        have hpd := parent_inDoc w hn hp
        obtain ⟨hb, hs⟩ := hd _ _ _ _ _ hpd hc h1
        cases b1 with
        | false =>
          simp only [Bool.false_eq_true, if_false] at h2
          cases h2
          refine ⟨hs, nofun, ?_⟩
          rintro _ ⟨m, hm, hP, _⟩
          cases hm
          exact hb.2 hP
        | true =>
          simp only [if_true] at h2
          obtain ⟨g1, g2, g3⟩ := ih hpd (same_inDoc hs hc) h2
          refine ⟨hs.trans g1, fun hb' => ⟨p, rfl, hb.1 rfl, g2 hb'⟩, ?_⟩
          rintro hsafe ⟨m, hm, hP, hch⟩
          cases hm
          exact g3 hsafe hch

/-! Compilation -/

theorem step_decides (w : DocWF d root) (hae : AttrsOnElements d) {s : PatStep} {x : CPat} (hx : stepOf d s = .ok x)
    {fuel n : Nat} (hn : InDoc d root n) (ho : LastOk d root s n) {c c' : Ctx} {b : Bool}
    (h : x.test.match d fuel n c = .ok b c') : (b = true ↔ Holds d s n) ∧ Same c c' := by
  unfold stepOf at hx
  split at hx
  · rename_i hp
    cases hx
    obtain ⟨b', h1, h2⟩ := testMatch_right w hae hp hn ho
    simp only [CTest.match, h1, ret] at h
    cases h
    exact ⟨h2, .refl⟩
  · rename_i hp
    have ho' : StepOk d root s := ho.elim id fun h => absurd h.1 (by simpa using hp)
    split at hx
    · cases hx
    · rename_i ss hm
      cases hx
      exact predMatch_right w (by simpa using hp) ho' hm hn h

/-- The steps before the last one, from right to left. -/
def lefts (d : Doc) : Rel → List SStep
  | .one _ => []
  | .slash r _ => ⟨Holds d (last r), false⟩ :: lefts d r
  | .dslash r _ => ⟨Holds d (last r), true⟩ :: lefts d r

theorem stepOf_flag {s : PatStep} {x : CPat} (hx : stepOf d s = .ok x) : x.ancestor = false := by
  unfold stepOf at hx
  split at hx
  · cases hx; rfl
  · split at hx <;> cases hx; rfl

theorem flagLast_append (l : List CPat) (x : CPat) : flagLast (l ++ [x]) = l ++ [{ x with ancestor := true }] := by
  induction l with
  | nil => rfl
  | cons y l ih =>
    cases l with
    | nil => rfl
    | cons z l => simp only [List.cons_append, flagLast] at ih ⊢; rw [ih]

theorem relOf_right (w : DocWF d root) (hae : AttrsOnElements d) {r : Rel} {l : List CPat} (h : relOf d r = .ok l)
    (ho : ∀ s ∈ front r, StepOk d root s) :
    ∃ k x, l = k ++ [x] ∧ stepOf d (last r) = .ok x ∧ Reals d root k.reverse (lefts d r) := by
  have dec : ∀ {s x}, StepOk d root s → stepOf d s = .ok x → Decides d root x.test (Holds d s) :=
    fun h1 h2 _ _ _ _ _ hn _ hm => step_decides w hae h2 hn (.inl h1) hm
  induction r generalizing l with
  | one s =>
    simp only [relOf] at h
    split at h
    · cases h
    · rename_i x hx; cases h
      exact ⟨[], x, rfl, hx, .nil⟩
  | slash r s ih =>
    simp only [relOf] at h
    split at h
    · cases h
    · cases h
    · rename_i l' x h1 h2; cases h
      obtain ⟨k, y, rfl, hy, hk⟩ := ih h1 fun s hs => ho s (by simp [front, hs])
      refine ⟨k ++ [y], x, rfl, h2, ?_⟩
      rw [List.reverse_append]
      exact .cons (stepOf_flag hy) (dec (ho _ (by simp [front])) hy) hk
  | dslash r s ih =>
    simp only [relOf] at h
    split at h
    · cases h
    · cases h
    · rename_i l' x h1 h2; cases h
      obtain ⟨k, y, rfl, hy, hk⟩ := ih h1 fun s hs => ho s (by simp [front, hs])
      refine ⟨k ++ [{ y with ancestor := true }], x, by rw [flagLast_append], h2, ?_⟩
      rw [List.reverse_append]
      exact .cons rfl (dec (x := y) (ho _ (by simp [front])) hy) hk

/-! Paths -/

theorem reaches_append {a b : List LStep} {y n : Nat} :
    Reaches d (a ++ b) y n ↔ ∃ m, Reaches d a y m ∧ Reaches d b m n := by
  induction a generalizing y with
  | nil =>
    constructor
    · intro h; exact ⟨y, by rw [Reaches], h⟩
    · rintro ⟨m, h1, h2⟩; rw [Reaches] at h1; subst h1; exact h2
  | cons s a ih =>
    simp only [List.cons_append, Reaches]
    constructor
    · rintro ⟨k, z, h1, h2, h3⟩
      obtain ⟨m, h4, h5⟩ := ih.1 h3
      exact ⟨m, ⟨k, z, h1, h2, h4⟩, h5⟩
    · rintro ⟨m, ⟨k, z, h1, h2, h4⟩, h5⟩
      exact ⟨k, z, h1, h2, ih.2 ⟨m, h4, h5⟩⟩

theorem step_parent (w : DocWF d root) {s : PatStep} {y n : Nat} {k : List Nat}
    (h : StepSelects d (lstep s) y k) (hn : n ∈ k) : d.h.parent n = some y := by
  rw [lstep_eq, StepSelects] at h
  obtain ⟨l, hl, rfl⟩ := h
  exact onAxis_parent w ((hl.1 n).1 (kept_sublist.subset hn)).1

theorem reaches_one (w : DocWF d root) {s : PatStep} {y n : Nat} :
    Reaches d [lstep s] y n ↔ d.h.parent n = some y ∧ Holds d s n := by
  simp only [Reaches]
  constructor
  · rintro ⟨k, z, h1, h2, rfl⟩
    exact ⟨step_parent w h1 h2, y, k, step_parent w h1 h2, h1, h2⟩
  · rintro ⟨h1, p, k, h2, h3, h4⟩
    rw [h1] at h2; cases h2
    exact ⟨k, n, h3, h4, rfl⟩

theorem below_anc {y n : Nat} (h : Reaches d [anyBelow] y n) : AncS d.h y n := by
  simp only [Reaches, anyBelow, StepSelects, kept] at h
  obtain ⟨_, z, ⟨l, hl, rfl⟩, h2, rfl⟩ := h
  exact ((hl.1 _).1 h2).1.1

theorem reaches_below (w : DocWF d root) {y n : Nat} (hy : InDoc d root y) (h : AncS d.h y n) (ht : TreeNode d.h n) :
    Reaches d [anyBelow] y n := by
  simp only [Reaches, anyBelow, StepSelects, kept]
  obtain ⟨l, hl⟩ := candidates_exist w (.tree .descendantOrSelf) .node hy
  exact ⟨l, n, ⟨l, hl, rfl⟩, (hl.1 n).2 ⟨⟨h, .inl ht⟩, trivial⟩, rfl⟩

theorem treeNode_parent (w : DocWF d root) {n p : Nat} (h : d.h.parent n = some p) : TreeNode d.h p := by
  have := w.wf.parent_kind _ _ h
  constructor <;> intro hk <;> rw [hk] at this <;> cases this

/-- A path from some node `y` with the property `B`. -/
theorem reaches_chain (w : DocWF d root) {r : Rel} {B : Nat → Prop} {n : Nat} (hn : InDoc d root n) :
    (∃ y, B y ∧ Reaches d (steps r) y n) ↔ Holds d (last r) n ∧ Chain d (lefts d r ++ [⟨B, false⟩]) n := by
  induction r generalizing n with
  | one s =>
    simp only [steps, last, lefts, List.nil_append, Chain, reaches_one w, Bool.false_eq_true, if_false, and_true]
    constructor
    · rintro ⟨y, h1, h2, h3⟩; exact ⟨h3, y, h2, h1⟩
    · rintro ⟨h3, y, h2, h1⟩; exact ⟨y, h1, h2, h3⟩
  | slash r s ih =>
    simp only [steps, last, lefts, List.cons_append, Chain, reaches_append, reaches_one w, Bool.false_eq_true, if_false]
    constructor
    · rintro ⟨y, h1, m, h2, h3, h4⟩
      have := (ih (parent_inDoc w hn h3)).1 ⟨y, h1, h2⟩
      exact ⟨h4, m, h3, this⟩
    · rintro ⟨h4, m, h3, h5⟩
      obtain ⟨y, h1, h2⟩ := (ih (parent_inDoc w hn h3)).2 h5
      exact ⟨y, h1, m, h2, h3, h4⟩
  | dslash r s ih =>
    have e : steps (.dslash r s) = steps r ++ ([anyBelow] ++ [lstep s]) := rfl
    simp only [e, last, lefts, List.cons_append, Chain, if_true]
    constructor
    · rintro ⟨y, h1, h0⟩
      obtain ⟨m, h2, h0⟩ := reaches_append.1 h0
      obtain ⟨k, h3, h0⟩ := (reaches_append (a := [anyBelow])).1 h0
      obtain ⟨h4, h5⟩ := (reaches_one w).1 h0
      have hm : Anc d.h m n := anc_iff.2 ⟨k, h4, below_anc h3⟩
      exact ⟨h5, m, hm, (ih (anc_inDoc w hn hm)).1 ⟨y, h1, h2⟩⟩
    · rintro ⟨h5, m, hm, h6⟩
      have hmd := anc_inDoc w hn hm
      obtain ⟨y, h1, h2⟩ := (ih hmd).2 h6
      obtain ⟨k, h4, h7⟩ := anc_iff.1 hm
      exact ⟨y, h1, reaches_append.2 ⟨m, h2, (reaches_append (a := [anyBelow])).2
        ⟨k, reaches_below w hmd h7 (treeNode_parent w h4), (reaches_one w).2 ⟨h4, h5⟩⟩⟩⟩

end Verif.Template
