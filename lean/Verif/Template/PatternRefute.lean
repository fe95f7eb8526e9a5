import Verif.Template.PatternProps

/-
C58: where `pattern.match` and XSLT 1.0 disagree, and cases that meet the hypotheses of the theorems.  The document
is the sample of Verif.Eval: `<r><y><y>1</y><x>2</x></y><x p="" q=""/></r>`.
-/
namespace Verif.Template
open Verif Verif.XPath Verif.Dom Verif.Dom.Spec Verif.Eval Verif.Eval.Spec
open Verif.Template.Spec (lstep anyBelow steps last front TestOk StepOk LastOk RelOk CallOk PatOk AllDouble AllSingle
  DoubleFirst NoBacktracking Selects)

theorem sample_attrs : AttrsOnElements sample := by
  intro e a h
  simp only [sample] at h
  split at h
  · subst e; decide
  · simp at h

theorem sample_attr {n : Nat} (hn : n = 8 ∨ n = 9) : InDoc sample 0 n := by
  have h3 : InDoc sample 0 3 := sample_inDoc (by omega)
  have hp : sample.h.parent n = some 3 := by rcases hn with rfl | rfl <;> rfl
  refine ⟨⟨.inr ?_, rfl⟩, .inr ⟨3, .inl ?_⟩⟩
  · rcases h3.1.1 with h | h
    · cases h
    · exact .step h hp
  · rcases hn with rfl | rfl <;> decide

/-- A child step without predicates. -/
def el (s : Str) : PatStep := ⟨.child, named s, []⟩
/-- `text()` -/
def txt : PatStep := ⟨.child, .kind .text, []⟩

theorem holds_el {n p : Nat} {s : Str} (hn : n ≤ 7) (hp : sample.h.parent n = some p)
    (hk : sample.h.kind n = .element) (hs : sample.name n = (none, some s)) : Holds sample (el s) n := by
  rw [holds_nil sample_wf sample_attrs rfl (sample_inDoc hn)]
  refine ⟨⟨p, hp⟩, ⟨by rw [hk]; nofun, by rw [hk]; nofun⟩, hk, ?_, ?_⟩ <;> rw [hs]

/-! Cases that meet the hypotheses -/

/-- `y[1]/text()`, on the text in the inner `y`: accepted, and the hypotheses of `C58_exact_partial` are met. -/
example : PatOk sample 0 (.rel (.slash (.one ⟨.child, named (s!! "y"), [num (s!! "1")]⟩) txt)) 6 ∧
    NoBacktracking (.rel (.slash (.one ⟨.child, named (s!! "y"), [num (s!! "1")]⟩) txt)) ∧
    Answers sample (.rel (.slash (.one ⟨.child, named (s!! "y"), [num (s!! "1")]⟩) txt)) 6 top true := by
  refine ⟨⟨.inl (.inl rfl), ?_⟩, trivial, 20, top, by decide +kernel⟩
  intro s hs
  simp only [front, last, List.mem_singleton] at hs
  subst hs
  refine ⟨rfl, .inl trivial, ?_⟩
  simp [GoodPreds, Good, predMode, PredOk, num, Expr.ty]

/-- ... and rejected for the text in `x`. -/
example : Answers sample (.rel (.slash (.one ⟨.child, named (s!! "y"), [num (s!! "1")]⟩) txt)) 7 top false :=
  ⟨20, top, by decide +kernel⟩

/-- `*//y/y`, `/r/x` and `@p`. -/
example : PatOk sample 0 (.rel (.slash (.dslash (.one ⟨.child, .any, []⟩) (el (s!! "y"))) (el (s!! "y")))) 4 ∧
    NoBacktracking (.rel (.slash (.dslash (.one ⟨.child, .any, []⟩) (el (s!! "y"))) (el (s!! "y")))) ∧
    Answers sample (.rel (.slash (.dslash (.one ⟨.child, .any, []⟩) (el (s!! "y"))) (el (s!! "y")))) 4 top true ∧
    NoBacktracking (.abs (.slash (.one (el (s!! "r"))) (el (s!! "x")))) ∧
    Answers sample (.abs (.slash (.one (el (s!! "r"))) (el (s!! "x")))) 3 top true ∧
    Answers sample (.abs (.slash (.one (el (s!! "r"))) (el (s!! "x")))) 5 top false ∧
    PatOk sample 0 (.rel (.one ⟨.attr, named (s!! "p"), []⟩)) 8 ∧
    Answers sample (.rel (.one ⟨.attr, named (s!! "p"), []⟩)) 8 top true := by
  refine ⟨⟨.inl trivial, ?_⟩, trivial, ⟨20, top, by decide +kernel⟩, trivial, ⟨20, top, by decide +kernel⟩,
    ⟨20, top, by decide +kernel⟩, ⟨.inl trivial, nofun⟩, ⟨20, top, by decide +kernel⟩⟩
  intro s hs
  simp only [front, last, List.mem_cons, List.not_mem_nil, or_false] at hs
  rcases hs with rfl | rfl <;> exact trivial

/-- A call of `id` that returns the element `r`. -/
def idR : Expr := .fn .nodes (fun _ => .ok (.nodes [1])) [.mk .any (.lit false (s!! "i"))]

theorem idR_ok : CallOk sample 0 idR := by
  refine ⟨?_, _, _, rfl, ?_, ?_⟩
  · simp only [idR, Good, GoodArgs, GoodArg]
    refine ⟨⟨nofun, trivial⟩, ?_⟩
    intro vs v h
    cases h
    exact ⟨⟨_, rfl⟩, by simp [Sorted], by simpa using sample_inDoc (n := 1) (by omega)⟩
  · intro a ha
    rw [List.mem_singleton] at ha
    exact ⟨_, ha⟩
  · intro vs l h x hx
    cases h
    rw [List.mem_singleton] at hx
    subst hx
    exact ⟨by decide, by decide⟩

/-- `id('i')/x`. -/
example : PatOk sample 0 (.idKeySlash idR (.one (el (s!! "x")))) 3 ∧
    NoBacktracking (.idKeySlash idR (.one (el (s!! "x")))) ∧
    Answers sample (.idKeySlash idR (.one (el (s!! "x")))) 3 top true :=
  ⟨⟨idR_ok, .inl trivial, nofun⟩, trivial, 20, top, by decide +kernel⟩

/-! Refutations -/

/-- C58 is false for patterns with `/` to the left of `//`: `r/y//text()` does not match the text in the inner `y`
although that is below the outer `y`, a child of `r`. -/
theorem C58_refuted_nearest : PatOk sample 0 (.rel (.dslash (.slash (.one (el (s!! "r"))) (el (s!! "y"))) txt)) 6 ∧
    Answers sample (.rel (.dslash (.slash (.one (el (s!! "r"))) (el (s!! "y"))) txt)) 6 top false ∧
    Spec.Matches sample (.rel (.dslash (.slash (.one (el (s!! "r"))) (el (s!! "y"))) txt)) 6 := by
  refine ⟨⟨.inl (.inl rfl), ?_⟩, ⟨20, top, by decide +kernel⟩, ?_⟩
  · intro s hs
    simp only [front, last, List.mem_cons, List.not_mem_nil, or_false] at hs
    rcases hs with rfl | rfl <;> exact trivial
  · have key := (reaches_chain sample_wf (r := .dslash (.slash (.one (el (s!! "r"))) (el (s!! "y"))) txt)
      (B := fun _ => True) (sample_inDoc (n := 6) (by omega))).2 ⟨?_, ?_⟩
    · obtain ⟨y, _, h⟩ := key
      exact ⟨y, .inr (reaches_anc sample_wf h), h⟩
    · rw [last, holds_nil sample_wf sample_attrs rfl (sample_inDoc (by omega))]
      exact ⟨⟨4, rfl⟩, ⟨by decide, by decide⟩, rfl⟩
    · refine ⟨2, .step (.parent rfl) (show sample.h.parent 6 = some 4 from rfl),
        holds_el (p := 1) (by omega) rfl rfl rfl, 1, rfl, holds_el (p := 0) (by omega) rfl rfl rfl, 0, rfl, trivial, trivial⟩

/-- C58 is false for `/a//b`, for the same reason: `/*//text()`. -/
theorem C58_refuted_absolute : Answers sample (.abs (.dslash (.one ⟨.child, .any, []⟩) txt)) 6 top false ∧
    Spec.Matches sample (.abs (.dslash (.one ⟨.child, .any, []⟩) txt)) 6 := by
  refine ⟨⟨20, top, by decide +kernel⟩, ?_⟩
  have key := (reaches_chain sample_wf (r := .dslash (.one ⟨.child, .any, []⟩) txt)
    (B := fun z => z = 0) (sample_inDoc (n := 6) (by omega))).2 ⟨?_, ?_⟩
  · obtain ⟨y, rfl, h⟩ := key
    exact ⟨0, .inr (reaches_anc sample_wf h), 0, ⟨.inl rfl, rfl⟩, h⟩
  · rw [last, holds_nil sample_wf sample_attrs rfl (sample_inDoc (by omega))]
    exact ⟨⟨4, rfl⟩, ⟨by decide, by decide⟩, rfl⟩
  · refine ⟨1, .step (.step (.parent rfl) (show sample.h.parent 4 = some 2 from rfl))
      (show sample.h.parent 6 = some 4 from rfl), ?_, 0, rfl, rfl, trivial⟩
    show Holds sample ⟨.child, .any, []⟩ 1
    rw [holds_nil sample_wf sample_attrs rfl (sample_inDoc (by omega))]
    exact ⟨⟨0, rfl⟩, ⟨by decide, by decide⟩, rfl⟩

theorem not_matches_one {s : PatStep} {n : Nat} (h : ¬ Holds sample s n) : ¬ Spec.Matches sample (.rel (.one s)) n := by
  rintro ⟨y, _, hr⟩
  exact h ((reaches_one sample_wf).1 hr).2

/-- C58 is false for `node()`: it matches the root and attributes, which are no children. -/
theorem C58_refuted_node : (∀ n, n = 0 ∨ n = 8 →
    Answers sample (.rel (.one ⟨.child, .node, []⟩)) n top true ∧
    ¬ Spec.Matches sample (.rel (.one ⟨.child, .node, []⟩)) n) ∧
    InDoc sample 0 0 ∧ InDoc sample 0 8 := by
  refine ⟨?_, sample_inDoc (by omega), sample_attr (.inl rfl)⟩
  rintro n (rfl | rfl)
  · refine ⟨⟨20, top, by decide +kernel⟩, not_matches_one ?_⟩
    rintro ⟨p, k, hp, _⟩
    cases hp
  · refine ⟨⟨20, top, by decide +kernel⟩, not_matches_one ?_⟩
    rw [holds_nil sample_wf sample_attrs rfl (sample_attr (.inl rfl))]
    rintro ⟨_, ⟨h, _⟩, _⟩
    exact h rfl

/-- C58 is false for `processing-instruction()`, in every document: it matches no processing instruction, and it
matches all elements. -/
theorem C58_refuted_pi {d : Doc} {root : Nat} (w : DocWF d root) (hae : AttrsOnElements d) {n : Nat} {c : Ctx}
    (hn : InDoc d root n) :
    (d.h.kind n = .pi → Answers d (.rel (.one ⟨.child, .kind .pi, []⟩)) n c false ∧
      Spec.Matches d (.rel (.one ⟨.child, .kind .pi, []⟩)) n) ∧
    (d.h.kind n = .element → Answers d (.rel (.one ⟨.child, .kind .pi, []⟩)) n c true ∧
      ¬ Spec.Matches d (.rel (.one ⟨.child, .kind .pi, []⟩)) n) := by
  have code : ∀ b : Bool, decide (d.h.kind n = .element) = b →
      Answers d (.rel (.one ⟨.child, .kind .pi, []⟩)) n c b := by
    intro b hb
    refine ⟨0, c, ?_⟩
    simp only [Pat.match, compilePat, locOf, relOf, stepOf, List.reverse_cons, List.reverse_nil, List.nil_append,
      matchPat, CTest.match, testMatch, PAxis.kind, ret, Out.bind]
    by_cases hk : d.h.kind n = .element
    · simp only [hk, decide_true] at hb ⊢
      subst hb; rfl
    · simp only [hk, decide_false] at hb ⊢
      subst hb; rfl
  constructor
  · intro hk
    refine ⟨code _ (by simp [hk]), ?_⟩
    have h : Holds d ⟨.child, .kind .pi, []⟩ n := by
      rw [holds_nil w hae rfl hn]
      exact ⟨has_parent w hn (by rw [hk]; nofun), ⟨by rw [hk]; nofun, by rw [hk]; nofun⟩, hk⟩
    obtain ⟨p, _, hp, _⟩ := id h
    exact ⟨p, .inr (.parent hp), (reaches_one w).2 ⟨hp, h⟩⟩
  · intro hk
    refine ⟨code _ (by simp [hk]), ?_⟩
    rintro ⟨y, _, hr⟩
    have h := ((reaches_one w).1 hr).2
    rw [holds_nil w hae rfl hn] at h
    have h2 : d.h.kind n = .pi := h.2.2
    rw [hk] at h2; cases h2

/-- C58 is false for a target: the test raises an exception for every element. -/
theorem C58_refuted_target : ∀ fuel, (Pat.rel (.one ⟨.child, .pi (s!! "t"), []⟩)).match sample fuel 1 top =
    .raise .attributeError := fun _ => rfl

/-- C58 is false for predicates on attributes: `@p[1]` matches the attribute `q`, because attributes of one
element compare equal (C15). -/
theorem C58_refuted_attribute : Answers sample (.rel (.one ⟨.attr, named (s!! "p"), [num (s!! "1")]⟩)) 9 top true ∧
    ¬ Spec.Matches sample (.rel (.one ⟨.attr, named (s!! "p"), [num (s!! "1")]⟩)) 9 := by
  refine ⟨⟨20, top, by decide +kernel⟩, not_matches_one ?_⟩
  rintro ⟨p, k, hp, hk, hn⟩
  rw [lstep_eq, StepSelects] at hk
  obtain ⟨l, hl, rfl⟩ := hk
  have := ((hl.1 9).1 (kept_sublist.subset hn)).2.2.2
  exact absurd this (by decide)

/-- C58 is false for `id(...)//r`, which is treated as `id(...)/r`. -/
theorem C58_refuted_id : PatOk sample 0 (.idKeyDslash idR (.one txt)) 6 ∧
    Answers sample (.idKeyDslash idR (.one txt)) 6 top false ∧
    Spec.Matches sample (.idKeyDslash idR (.one txt)) 6 := by
  refine ⟨⟨idR_ok, .inl (.inl rfl), nofun⟩, ⟨20, top, by decide +kernel⟩, ?_⟩
  have a16 : Anc sample.h 1 4 := .step (.parent rfl) (show sample.h.parent 4 = some 2 from rfl)
  refine ⟨6, .inl rfl, [1], 1, ?_, by simp, ?_⟩
  · simp only [idR, Means, ArgsMean, ArgMeans]
    refine ⟨_, ⟨_, _, ⟨_, rfl, rfl⟩, rfl, rfl⟩, ?_⟩; trivial
  · refine (reaches_append (a := [anyBelow])).2 ⟨4, reaches_below sample_wf (sample_inDoc (by omega)) (.inr a16)
      ⟨by decide, by decide⟩, (reaches_one sample_wf).2 ⟨rfl, ?_⟩⟩
    rw [holds_nil sample_wf sample_attrs rfl (sample_inDoc (by omega))]
    exact ⟨⟨4, rfl⟩, ⟨by decide, by decide⟩, rfl⟩

end Verif.Template
