import Verif.Eval.Props

/-
What goes wrong outside `Good` (C26, C27, C28, C51), on the sample document
`<r><y><y>1</y><x>2</x></y><x p="" q=""/></r>`; and cases that meet the hypotheses of the theorems in
Verif.Eval.Props.
-/
namespace Verif.Eval
open Verif Verif.XPath Verif.Dom Verif.Dom.Spec Verif.Eval.Spec

/-- The element `r` as context node. -/
def atR : Ctx := ⟨1, 1, 1, 0⟩

theorem sample_kids : Candidates sample (.tree .child) .any 1 [2, 3] := by
  have := candidates_of sample_wf (fuel := 5) (n := 1) (ax := .tree .child) (t := .any) (l := [2, 3])
    (sample_inDoc (by omega)).1 rfl
  exact this

/-- A predicate that is true of a child of `r` that is not in the result. -/
theorem missing {e : Expr} {l : List Nat} {i x : Nat} (hx : x ∉ l) (hi : [2, 3][i]? = some x) {u : EVal}
    (hu : Means sample e x (i + 1) 2 u) (ht : PredTrue u (i + 1)) {p s : Nat} :
    ¬ MeansAs sample .any (.path false [kids [e]]) 1 p s (.nodes l) := by
  rintro ⟨v, hm, hv⟩
  have hv : EVal.nodes l = v := hv
  subst hv
  rw [Means] at hm
  obtain ⟨l', hl, _, hm⟩ := hm
  cases hl
  refine hx ((hm x).2 ⟨1, rfl, ?_⟩)
  rw [Reaches]
  refine ⟨_, x, ⟨[2, 3], sample_kids, rfl⟩, ?_, rfl⟩
  rw [kept_cons]
  simp only [kept, predKeep]
  exact (keep_index (candidates_nodup sample_wf sample_kids) hi).2 ⟨u, hu, ht⟩

/-! C26 -/

/-- C26 is false for `position() >= k`: `*[position() >= 1]` selects nothing. -/
theorem C26_refuted_ge : Evaluates sample .any (.path false [kids [.cmp .ge .position (num (s!! "1"))]]) atR
      (.nodes []) atR ∧
    ¬ MeansAs sample .any (.path false [kids [.cmp .ge .position (num (s!! "1"))]]) 1 1 1 (.nodes []) := by
  refine ⟨⟨40, by decide +kernel⟩, missing (i := 0) (x := 2) (by simp) rfl (u := .sc (.bool true)) ?_ rfl⟩
  rw [Means]
  refine ⟨.sc (.num (.obj (.fin 1))), .sc (.num (.obj (.fin 1))), by rw [Means]; rfl, ?_, by decide +kernel⟩
  exact (numeric_lit (x := .obj (.fin 1)) (by decide +kernel) _ _ _ _).2 rfl

/-- C26 is false for a predicate whose value depends on `last()`: `*[last()]` selects the first. -/
theorem C26_refuted_last : Evaluates sample .any (.path false [kids [.last]]) atR (.nodes [2]) ⟨1, 1, 1, 1⟩ ∧
    ¬ MeansAs sample .any (.path false [kids [.last]]) 1 1 1 (.nodes [2]) := by
  refine ⟨⟨40, by decide +kernel⟩,
    missing (i := 1) (x := 3) (by simp) rfl (u := .sc (.num (.obj (.fin 2)))) ?_
      (show (Dbl.fin 2).toRat? = some ((2 : Nat) : Rat) from rfl)⟩
  rw [Means]; rfl

/-- C26 is false for string literals: `*['1']` selects only the first, as if the literal were a
number. -/
theorem C26_refuted_string : Evaluates sample .any (.path false [kids [.lit false (s!! "1")]]) atR
      (.nodes [2]) atR ∧
    ¬ MeansAs sample .any (.path false [kids [.lit false (s!! "1")]]) 1 1 1 (.nodes [2]) := by
  refine ⟨⟨40, by decide +kernel⟩,
    missing (i := 1) (x := 3) (by simp) rfl (u := .sc (.str (s!! "1"))) ?_ (by simp [PredTrue, Truthy, XPath.Spec.Truth])⟩
  rw [Means]

/-- `true()` -/
def true_ : Expr := .fn .bool (fun _ => .ok (.sc (.bool true))) []

/-- C26 is false for `position() = e` if `e` is not a number: `*[position() = true()]` selects only the
first, although a position, which is never zero, equals `true()` as a boolean. -/
theorem C26_refuted_eq : Evaluates sample .any (.path false [kids [.cmp .eq .position true_]]) atR
      (.nodes [2]) ⟨1, 1, 1, 1⟩ ∧
    ¬ MeansAs sample .any (.path false [kids [.cmp .eq .position true_]]) 1 1 1 (.nodes [2]) := by
  refine ⟨⟨40, by decide +kernel⟩,
    missing (i := 1) (x := 3) (by simp) rfl (u := .sc (.bool true)) ?_ rfl⟩
  rw [Means]
  refine ⟨.sc (.num (.obj (.fin 2))), .sc (.bool true), by rw [Means]; rfl, ?_, by decide +kernel⟩
  rw [true_, Means]
  exact ⟨[], by rw [ArgsMean], rfl⟩

/-- C26: `*[0]` raises ValueError instead of selecting nothing. -/
theorem C26_refuted_zero : Raises sample .any (.path false [kids [num (s!! "0")]]) atR .valueError :=
  ⟨40, by decide +kernel⟩

/-- C26: `*[1 < position()]` raises NameError. -/
theorem C26_refuted_lt :
    Raises sample .any (.path false [kids [.cmp .lt (num (s!! "1")) .position]]) atR .nameError :=
  ⟨40, by decide +kernel⟩

/-- Non-vacuity of the theorems on single steps: `descendant::*[2]`, `descendant::*[position() = last()]`,
`ancestor::*[position() > 1]`, `descendant::y[y][1]`. -/
example : numberOfString sample.R (s!! "2") = .ok (.obj (.fin 2)) ∧
    InDoc sample 0 atR.node ∧
    Evaluates sample .any (.path false [desc .any [num (s!! "2")]]) atR (.nodes [4]) atR ∧
    Evaluates sample .any (.path false [desc .any [.cmp .eq .position .last]]) atR (.nodes [3]) ⟨1, 1, 1, 1⟩ ∧
    Evaluates sample .any (.path false [.mk (.tree .ancestor) .any [.cmp .gt .position (num (s!! "1"))]])
      ⟨6, 1, 1, 0⟩ (.nodes [1, 2]) ⟨6, 1, 1, 0⟩ ∧
    GoodPreds sample 0 [.path false [.mk (.tree .child) (named (s!! "y")) []], num (s!! "1")] ∧
    Evaluates sample .any (.path false [desc (named (s!! "y"))
      [.path false [.mk (.tree .child) (named (s!! "y")) []], num (s!! "1")]]) atR (.nodes [2]) ⟨1, 1, 1, 1⟩ := by
  refine ⟨by decide +kernel, sample_inDoc (by decide), ⟨40, by decide +kernel⟩, ⟨40, by decide +kernel⟩,
    ⟨40, by decide +kernel⟩, ?_, ⟨40, by decide +kernel⟩⟩
  simp [GoodPreds, Good, GoodSteps, GoodStep, StepsOk, ShapeOk, PredOk, LastFree,
    num, predMode, Expr.ty]

/-- Non-vacuity of the theorem on filter expressions: `(descendant::*)[position() = last()]`. -/
example : Good sample 0 .nodes (.path false [desc .any]) ∧
    GoodPreds sample 0 [.cmp .eq .position .last] ∧
    Evaluates sample .any (.filter (.path false [desc .any]) [.cmp .eq .position .last]) atR (.nodes [3])
      ⟨1, 1, 1, 1⟩ := by
  refine ⟨?_, ?_, ⟨40, by decide +kernel⟩⟩
  · simp [Good, GoodSteps, GoodStep, GoodPreds, StepsOk, ShapeOk, stepsShape, LStep.axis, stepShape, desc]
  · simp [GoodPreds, Good, PredOk, Expr.ty]

/-! C27 -/

/-- C27 is false for steps that lead to the same node in two ways: `//*/..` gives the parents once for
each child. -/
theorem C27_refuted : Evaluates sample .any (.path true [desc .any, up]) top (.nodes [0, 1, 1, 2, 2]) top ∧
    ¬ Sorted sample [0, 1, 1, 2, 2] :=
  ⟨⟨40, by decide +kernel⟩, fun h => absurd (sorted_nodup sample_wf h) (by decide)⟩

/-- `last() - 1` -/
def beforeLast : Expr := .fn .num (fun
  | [.sc (.num x)] => match x.val with
    | .fin q => .ok (.sc (.num (mkNumber (.fin (q - 1)))))
    | _ => .error .typeError
  | _ => .error .typeError) [.mk .num .last]

/-- C27 is false for paths with `last()` in a predicate of a step that is not the last one: from `r`,
`*[position() = last() - 1]` is 2 and from there `descendant-or-self::*[position() = last()]` is 5, but
the path of the two steps also gives 3. -/
theorem C27_refuted_last :
    Evaluates sample .any (.path false [kids [.cmp .eq .position beforeLast]]) atR (.nodes [2]) ⟨1, 1, 1, 1⟩ ∧
    Evaluates sample .any (.path false [.mk (.tree .descendantOrSelf) .any [.cmp .eq .position .last]])
      ⟨2, 1, 1, 0⟩ (.nodes [5]) ⟨2, 1, 1, 2⟩ ∧
    Evaluates sample .any (.path false [kids [.cmp .eq .position beforeLast],
      .mk (.tree .descendantOrSelf) .any [.cmp .eq .position .last]]) atR (.nodes [5, 3]) ⟨1, 1, 1, 3⟩ :=
  ⟨⟨40, by decide +kernel⟩, ⟨40, by decide +kernel⟩, ⟨40, by decide +kernel⟩⟩

/-- C27 is false for unions of filter expressions: from `r`, `(*)[*][position() > 1]` is empty and `(*)[1]`
is 2, but their union is 4. -/
theorem C27_refuted_union :
    Evaluates sample .any (.filter (.path false [kids]) [.path false [kids], .cmp .gt .position (num (s!! "1"))])
      atR (.nodes []) ⟨1, 1, 1, 1⟩ ∧
    Evaluates sample .any (.filter (.path false [kids]) [num (s!! "1")]) atR (.nodes [2]) atR ∧
    Evaluates sample .any (.union [.filter (.path false [kids]) [.path false [kids], .cmp .gt .position (num (s!! "1"))],
      .filter (.path false [kids]) [num (s!! "1")]]) atR (.nodes [4]) ⟨1, 1, 1, 1⟩ :=
  ⟨⟨40, by decide +kernel⟩, ⟨40, by decide +kernel⟩, ⟨40, by decide +kernel⟩⟩

/-- Non-vacuity of the theorems on paths: `//y/*/text()`, also with a predicate. -/
example : Good sample 0 .any (.path true [desc (named (s!! "y")), kids [num (s!! "1")], .mk (.tree .child) (.kind .text) []]) ∧
    InDoc sample 0 top.node ∧
    Evaluates sample .any (.path true [desc (named (s!! "y")), kids [num (s!! "1")],
      .mk (.tree .child) (.kind .text) []]) top (.nodes [6]) top ∧
    Good sample 0 .any (.path false [desc (named (s!! "x")), .mk .attr .any []]) ∧
    Evaluates sample .any (.path false [desc (named (s!! "x")), .mk .attr .any []]) top (.nodes [8, 9]) top := by
  refine ⟨?_, sample_inDoc (by decide), ⟨40, by decide +kernel⟩, ?_, ⟨40, by decide +kernel⟩⟩
  · simp [Good, GoodSteps, GoodStep, GoodPreds, StepsOk, StepStable, ShapeOk, stepsShape, LStep.axis, stepShape, PredOk,
      LastFree, num, predMode, Expr.ty, desc, kids]
  · simp [Good, GoodSteps, GoodStep, GoodPreds, StepsOk, StepStable, ShapeOk, stepsShape, LStep.axis, stepShape, desc]

/-- Non-vacuity of the theorem on the members of paths: `//*/..`. -/
example : Good sample 0 .bool (.path false [desc .any, up]) ∧
    Evaluates sample .any (.path false [desc .any, up]) top (.nodes [0, 1, 1, 2, 2]) top := by
  refine ⟨?_, ⟨40, by decide +kernel⟩⟩
  simp [Good, GoodSteps, GoodStep, GoodPreds, StepsOk, StepStable, ShapeOk, desc, up]

/-- Non-vacuity of the theorem on unions: `//x | //y | /r`. -/
example : GoodUnion sample 0 [.path true [desc (named (s!! "x"))], .path true [desc (named (s!! "y"))],
      .path true [kids]] ∧
    Evaluates sample .any (.union [.path true [desc (named (s!! "x"))], .path true [desc (named (s!! "y"))],
      .path true [kids]]) top (.nodes [1, 2, 4, 5, 3]) top := by
  refine ⟨?_, ⟨40, by decide +kernel⟩⟩
  simp [GoodUnion, Good, GoodSteps, GoodStep, GoodPreds, StepsOk, ShapeOk, UnionOperand, LStep.axis, ProperAxis,
    desc, kids]

/-! C28 and C51 -/

/-- `//x/preceding-sibling::y` -/
def earlier : Expr := .path true [desc (named (s!! "x")), .mk (.tree .precedingSibling) (named (s!! "y")) []]

/-- C28 is false where the nodes do not come in document order: the node-set is 2 and 4, the
string-value of 2 is "12", but `string()` gives that of 4. -/
theorem C28_refuted : Evaluates sample .nodes earlier top (.nodes [2, 4]) top ∧
    strVal sample 2 = s!! "12" ∧ Evaluates sample .str earlier top (.sc (.str (s!! "1"))) top :=
  ⟨⟨40, by decide +kernel⟩, by decide +kernel, ⟨40, by decide +kernel⟩⟩

/-- C51 is false for numeric literals: `boolean(0)` is true. -/
theorem C51_refuted : Evaluates sample .any (num (s!! "0")) top (.sc (.num (.obj (.fin 0)))) top ∧
    Evaluates sample .bool (num (s!! "0")) top (.sc (.bool true)) top ∧
    ¬ Converts sample .bool (.sc (.num (.obj (.fin 0)))) (.sc (.bool true)) := by
  refine ⟨⟨40, by decide +kernel⟩, ⟨40, by decide +kernel⟩, ?_⟩
  rintro ⟨b, h1, h2⟩
  cases h1
  exact absurd (h2.1 rfl) (by simp [Truthy, XPath.Spec.Truth, XNum.val, Dbl.toRat?])

/-- C51: and `string(1.50)` is "1.50", although the string of the number is "1.5". -/
theorem C51_refuted_string : Evaluates sample .str (num (s!! "1.50")) top (.sc (.str (s!! "1.50"))) top ∧
    ¬ ∃ x, Evaluates sample .any (num (s!! "1.50")) top x top ∧
      Converts sample .str x (.sc (.str (s!! "1.50"))) := by
  refine ⟨⟨40, by decide +kernel⟩, ?_⟩
  rintro ⟨x, ⟨fuel, h1⟩, s, h2, h3⟩
  cases h2
  cases fuel with
  | zero => simp [eval] at h1
  | succ fuel =>
    have hx : x = .sc (.num (.obj (.fin (3 / 2 : Rat)))) := by
      have he : evalLit sample true (s!! "1.50") .any = .ok (.sc (.num (.obj (.fin (3 / 2 : Rat))))) := by
        decide +kernel
      simp only [num, eval, he, ret] at h1
      cases h1
      rfl
    subst hx
    revert h3
    decide +kernel

/-- Non-vacuity of the theorems on C28 and C51: `//y` as string, number, boolean. -/
example : Good sample 0 .str (.path true [desc (named (s!! "y"))]) ∧
    Good sample 0 .num (.path true [desc (named (s!! "y"))]) ∧
    Good sample 0 .bool (.path true [desc (named (s!! "y"))]) ∧
    Good sample 0 .any (.path true [desc (named (s!! "y"))]) ∧
    Evaluates sample .any (.path true [desc (named (s!! "y"))]) top (.nodes [2, 4]) top ∧
    Evaluates sample .str (.path true [desc (named (s!! "y"))]) top (.sc (.str (s!! "12"))) top ∧
    Evaluates sample .num (.path true [desc (named (s!! "y"))]) top (.sc (.num (.obj (.fin 12)))) top ∧
    Evaluates sample .bool (.path true [desc (named (s!! "y"))]) top (.sc (.bool true)) top := by
  refine ⟨?_, ?_, ?_, ?_, ⟨40, by decide +kernel⟩, ⟨40, by decide +kernel⟩, ⟨40, by decide +kernel⟩,
    ⟨40, by decide +kernel⟩⟩
  all_goals simp [Good, GoodSteps, GoodStep, GoodPreds, StepsOk, ShapeOk, stepsShape, LStep.axis, stepShape, desc]

end Verif.Eval
