import Verif.Code.Cost

/-
Which expressions can be compiled.
-/
namespace Verif.Code

open Verif.Py Verif.Code.Spec Gen

variable {V W : Type} {K : Known V} {env : Env V}

/-- A call succeeds if and only if `P`. -/
def OkIff (gen : Gen V) (P : Prop) : Prop := ∀ s, (∃ s', gen s = .ok s') ↔ P

theorem OkIff.seq {a b : Gen V} {P Q : Prop} (ha : OkIff a P) (hb : OkIff b Q) : OkIff (a ;; b) (P ∧ Q) := by
  intro s
  constructor
  · rintro ⟨s', h⟩
    obtain ⟨t, h1, h2⟩ := seq_ok h
    exact ⟨(ha s).1 ⟨t, h1⟩, (hb t).1 ⟨s', h2⟩⟩
  · rintro ⟨hp, hq⟩
    obtain ⟨t, h1⟩ := (ha s).2 hp
    obtain ⟨s', h2⟩ := (hb t).2 hq
    exact ⟨s', by unfold Gen.seq; rw [h1]; exact h2⟩

theorem OkIff.congr {a : Gen V} {P Q : Prop} (h : OkIff a P) (hpq : P ↔ Q) : OkIff a Q := fun s => (h s).trans hpq

theorem okIff_fail (e : CompError) : OkIff (Gen.fail e : Gen V) False := fun _ =>
  ⟨(fun ⟨_, h⟩ => nomatch h), (fun h => nomatch h)⟩

theorem okIff_emit (is : List (Ins V)) : OkIff (Gen.emit is) True := fun _ => ⟨fun _ => trivial, fun _ => ⟨_, rfl⟩⟩

theorem okIff_skip : OkIff (Gen.skip : Gen V) True := fun _ => ⟨fun _ => trivial, fun _ => ⟨_, rfl⟩⟩

theorem okIff_next (b : Nat) : OkIff (Gen.next b : Gen V) True := fun _ => ⟨fun _ => trivial, fun _ => ⟨_, rfl⟩⟩

theorem okIff_nextNew : OkIff (Gen.nextNew : Gen V) True := fun _ => ⟨fun _ => trivial, fun _ => ⟨_, rfl⟩⟩

theorem OkIff.withBlock {k : Nat → Gen V} {P : Prop} (h : ∀ b, OkIff (k b) P) : OkIff (Gen.withBlock k) P := fun _ => h _ _

theorem OkIff.withTmp {k : Str → Gen V} {P : Prop} (h : ∀ b, OkIff (k b) P) : OkIff (Gen.withTmp k) P := fun _ => h _ _

theorem okIff_convert {f : V} {own : Gen V} {P : Prop} (h : OkIff own P) : OkIff (convert f own) P :=
  ((okIff_emit _).seq (h.seq (okIff_emit _))).congr (by simp)

theorem okIff_inherited {own : Gen V} {P : Prop} (h : OkIff own P) (m : Mode) :
    OkIff (inherited K own m) (P ∧ m ≠ .nodeset ∧ m ≠ .iterable) := by
  cases m with
  | plain => exact OkIff.congr h (by simp)
  | boolean => exact (okIff_convert h).congr (by simp)
  | number => exact (okIff_convert h).congr (by simp)
  | string => exact (okIff_convert h).congr (by simp)
  | nodeset => exact (okIff_fail _).congr (by simp)
  | iterable => exact (okIff_fail _).congr (by simp)

theorem okIff_booleanModes {own : Gen V} {P : Prop} (h : OkIff own P) (m : Mode) :
    OkIff (booleanModes K own m) (P ∧ m ≠ .nodeset ∧ m ≠ .iterable) := by
  cases m with
  | boolean => exact OkIff.congr h (by simp)
  | plain => exact okIff_inherited (K := K) h .plain
  | number => exact okIff_inherited (K := K) h .number
  | string => exact okIff_inherited (K := K) h .string
  | nodeset => exact okIff_inherited (K := K) h .nodeset
  | iterable => exact okIff_inherited (K := K) h .iterable

theorem okIff_numberModes {own : Gen V} {P : Prop} (h : OkIff own P) (m : Mode) :
    OkIff (numberModes K own m) (P ∧ m ≠ .nodeset ∧ m ≠ .iterable) := by
  cases m with
  | number => exact OkIff.congr h (by simp)
  | plain => exact okIff_inherited (K := K) h .plain
  | boolean => exact okIff_inherited (K := K) h .boolean
  | string => exact okIff_inherited (K := K) h .string
  | nodeset => exact okIff_inherited (K := K) h .nodeset
  | iterable => exact okIff_inherited (K := K) h .iterable

theorem okIff_block {body : Gen V} {P : Prop} (h : OkIff body P) : OkIff (makeBlock body) P :=
  ((okIff_emit _).seq (h.seq (okIff_emit _))).congr (by simp)

theorem okIff_loop {it : Gen V} {P : Prop} {found empty : List (Ins V)} (h : OkIff it P) : OkIff (makeLoop it found empty) P :=
  okIff_block (.withBlock fun _ => .withBlock fun _ =>
    ((okIff_emit _).seq (h.seq ((okIff_emit _).seq ((okIff_emit _).seq ((okIff_emit _).seq ((okIff_next _).seq
      ((okIff_emit _).seq (okIff_next _)))))))).congr (by simp))

theorem okIff_nodesetModes {it : Gen V} {P : Prop} (h : OkIff it P) (m : Mode) : OkIff (nodesetModes K it m) P := by
  have hs : OkIff (makeNodeset K it) P := okIff_block (((okIff_emit _).seq (h.seq (okIff_emit _))).congr (by simp))
  cases m with
  | plain => exact hs
  | nodeset => exact hs
  | boolean => exact okIff_loop h
  | number => exact okIff_loop h
  | string => exact okIff_loop h
  | iterable => exact h

theorem okIff_callGen (self : V) (m : Mode) : OkIff (callGen self m) (m ≠ .iterable) := by
  cases m with
  | iterable => exact (okIff_fail _).congr (by simp)
  | _ => exact (okIff_emit _).congr (by simp)

theorem okIff_var (pre : Option Str) (loc : Str) : OkIff (varGen K env pre loc) (varKnown env pre loc) := by
  unfold varGen varFind varKnown
  cases pre with
  | none =>
    dsimp only
    by_cases h : env.variables none loc = true
    · rw [if_pos h]
      exact (okIff_emit _).congr (by simp [h])
    · rw [if_neg h]
      exact (okIff_fail _).congr (by simpa using h)
  | some p =>
    dsimp only
    cases hp : env.namespaces p with
    | none => exact (okIff_fail _).congr (by simp)
    | some ns =>
      dsimp only
      by_cases h : env.variables (some ns) loc = true
      · rw [if_pos h]
        exact (okIff_emit _).congr (by simp [h])
      · rw [if_neg h]
        exact (okIff_fail _).congr (by simpa using h)

theorem okIff_ext (pre loc : Str) (args : List V) : OkIff (extGen env pre loc args) (funcKnown env pre loc args.length) := by
  unfold extGen extFind funcKnown funcOf
  cases hp : env.namespaces pre with
  | none => exact (okIff_fail _).congr (by simp)
  | some ns =>
    dsimp only
    cases hf : env.functions ns loc with
    | none => exact (okIff_fail _).congr (by simp [hf])
    | some f =>
      dsimp only
      cases hs : f.sig with
      | none => exact (okIff_emit _).congr (by simp [hf, hs])
      | some s =>
        dsimp only
        have key : (argsWrong s args.length = true) ↔
            ¬(args.length + 1 + s.defaults ≥ s.args ∧ (args.length + 1 ≤ s.args ∨ s.varargs = true)) := by
          unfold argsWrong
          simp only [Bool.or_eq_true, Bool.and_eq_true, Bool.not_eq_true', decide_eq_true_eq]
          cases s.varargs <;> simp <;> omega
        by_cases h : argsWrong s args.length = true
        · rw [if_pos h]
          refine (okIff_fail _).congr ⟨(nofun), fun hh => ?_⟩
          obtain ⟨f', h1, h2⟩ := hh
          simp only [Option.bind_some, hf, Option.some.injEq] at h1
          subst h1
          exact key.1 h (h2 s hs)
        · rw [if_neg h]
          refine (okIff_emit _).congr ⟨fun _ => ⟨f, by simp [hf], fun s' hs' => ?_⟩, fun _ => trivial⟩
          rw [hs] at hs'
          cases hs'
          exact Decidable.not_not.1 fun hn => h (key.2 hn)

theorem okIff_steps (ss : List (Step V)) : OkIff (stepsCode ss) (∀ s ∈ ss, s.select ≠ none) := by
  induction ss with
  | nil => exact okIff_skip.congr (by simp)
  | cons s ss ih =>
    unfold stepsCode
    cases hs : s.select with
    | none => exact (okIff_fail _).congr ⟨(nofun), fun h => h s (.head _) hs⟩
    | some f =>
      refine ((okIff_emit _).seq ih).congr ?_
      simp [hs]

mutual
theorem okIff_compile (e : Expr V) (m : Mode) : OkIff (compile K env e m) (Sound env e m) := by
  cases e with
  | literal isNumber notEmpty number string =>
    unfold compile Sound
    cases m with
    | plain => cases isNumber <;> exact (okIff_emit _).congr (by simp)
    | boolean => exact (okIff_emit _).congr (by simp)
    | number => exact (okIff_emit _).congr (by simp)
    | string => exact (okIff_emit _).congr (by simp)
    | nodeset => exact (okIff_fail _).congr (by simp)
    | iterable => exact (okIff_fail _).congr (by simp)
  | var pre loc =>
    unfold compile Sound
    have h := okIff_var (K := K) (env := env) pre loc
    cases m with
    | nodeset => exact okIff_convert h
    | iterable =>
      show OkIff (emit [.op .popTop] ;; varGen K env pre loc ;; emit [.op .getIter]) _
      exact ((okIff_emit _).seq (h.seq (okIff_emit _))).congr (by simp)
    | plain => exact (okIff_inherited (K := K) h .plain).congr (by simp)
    | boolean => exact (okIff_inherited (K := K) h .boolean).congr (by simp)
    | number => exact (okIff_inherited (K := K) h .number).congr (by simp)
    | string => exact (okIff_inherited (K := K) h .string).congr (by simp)
  | call self =>
    unfold compile Sound
    exact okIff_callGen self m
  | known self value =>
    unfold compile Sound
    cases m with
    | plain => exact (okIff_emit _).congr (by simp)
    | boolean => exact (okIff_emit _).congr (by simp)
    | number => exact okIff_callGen self .number
    | string => exact okIff_callGen self .string
    | nodeset => exact okIff_callGen self .nodeset
    | iterable => exact okIff_callGen self .iterable
  | ext self pre loc args =>
    unfold compile Sound
    cases m with
    | plain => exact (okIff_ext pre loc args).congr (by simp)
    | boolean => exact (okIff_callGen self .boolean).congr (by simp)
    | number => exact (okIff_callGen self .number).congr (by simp)
    | string => exact (okIff_callGen self .string).congr (by simp)
    | nodeset => exact (okIff_callGen self .nodeset).congr (by simp)
    | iterable => exact (okIff_callGen self .iterable).congr (by simp)
  | logic isOr l r =>
    unfold compile Sound
    refine (okIff_booleanModes (.withBlock fun stop => (okIff_compile l .boolean).seq ((okIff_emit _).seq (okIff_nextNew.seq
      ((okIff_emit _).seq ((okIff_compile r .boolean).seq (okIff_next stop)))))) m).congr ?_
    simp only [true_and, and_true, and_assoc]
  | compare c l r =>
    unfold compile Sound
    refine (okIff_booleanModes ((okIff_compile l .plain).seq ((okIff_compile r .plain).seq (okIff_emit _))) m).congr ?_
    simp only [and_true, and_assoc]
  | arith op l r =>
    unfold compile Sound
    refine (okIff_numberModes ((okIff_compile l .number).seq ((okIff_compile r .number).seq (okIff_emit _))) m).congr ?_
    simp only [and_true, and_assoc]
  | neg e =>
    unfold compile Sound
    refine (okIff_numberModes ((okIff_compile e .number).seq (okIff_emit _)) m).congr ?_
    simp only [and_true]
  | union ps =>
    have hit : OkIff (unionGen K (compiles K env ps .iterable)) (Sounds env ps .iterable) :=
      .withTmp fun t => ((okIff_emit _).seq ((okIff_args ps t).seq (okIff_emit _))).congr (by simp)
    unfold Sound
    cases m with
    | boolean =>
      unfold compile
      refine OkIff.congr (P := Sounds env ps .boolean ∧ 0 < len ps) ?_ (by simp)
      exact .withBlock fun stop => ((okIff_tests ps stop).seq (okIff_next stop)).congr (by simp)
    | plain => unfold compile; exact (okIff_nodesetModes hit .plain).congr (by simp)
    | number => unfold compile; exact (okIff_nodesetModes hit .number).congr (by simp)
    | string => unfold compile; exact (okIff_nodesetModes hit .string).congr (by simp)
    | nodeset => unfold compile; exact (okIff_nodesetModes hit .nodeset).congr (by simp)
    | iterable => unfold compile; exact (okIff_nodesetModes hit .iterable).congr (by simp)
  | path e p =>
    unfold compile Sound
    refine okIff_nodesetModes (.seq ?_ (okIff_compile p .iterable)) m
    rw [givesNodes_eq]
    cases givesNodes e with
    | true => exact okIff_compile e .iterable
    | false =>
      refine OkIff.congr ((okIff_emit _).seq (okIff_compile e .nodeset)) ?_
      simp
  | filter e select =>
    unfold compile Sound
    refine okIff_nodesetModes ?_ m
    refine ((okIff_emit _).seq ((okIff_compile e .nodeset).seq (Q := True) ?_)).congr (by simp)
    cases select with
    | none => exact okIff_skip
    | some s => exact okIff_emit _
  | steps absolute ss =>
    unfold compile Sound
    refine okIff_nodesetModes ?_ m
    refine OkIff.congr (.seq (P := True) ?_ (okIff_steps ss)) (by simp)
    cases absolute
    · exact okIff_skip
    · exact okIff_emit _
theorem okIff_args (ps : Exprs V) (t : Str) : OkIff (unionArgs t (compiles K env ps .iterable)) (Sounds env ps .iterable) := by
  cases ps with
  | nil => exact okIff_skip
  | cons e es =>
    unfold compiles unionArgs Sounds
    exact ((okIff_emit _).seq ((okIff_compile e .iterable).seq (okIff_args es t))).congr (by simp)
theorem okIff_tests (ps : Exprs V) (stop : Nat) :
    OkIff (unionTests stop (compiles K env ps .boolean)) (Sounds env ps .boolean ∧ 0 < len ps) := by
  cases ps with
  | nil => exact (okIff_fail _).congr (by simp [len])
  | cons e es =>
    have h1 := okIff_compile e .boolean
    have h2 := okIff_tests es stop
    cases es with
    | nil => exact OkIff.congr h1 (by simp [Sounds, len])
    | cons e' es' =>
      refine OkIff.congr (h1.seq ((okIff_emit [.jump .jumpIfTrue stop]).seq (okIff_nextNew.seq ((okIff_emit [.op .popTop]).seq h2)))) ?_
      simp [Sounds, len]
end

/-- A host for the layout, where nothing runs. -/
def noHost (v : V) : Host V Unit where
  getAttr _ _ := fun w => (.error v, w)
  setAttr _ _ _ := fun w => (.error v, w)
  call _ _ := fun w => (.error v, w)
  binary _ _ _ := fun w => (.error v, w)
  negative _ := fun w => (.error v, w)
  compare _ _ _ := fun w => (.error v, w)
  truth _ := fun w => (.error v, w)
  iter _ := fun w => (.error v, w)
  next _ := fun w => (.error v, w)
  tuple _ := v

/-- The final graph of an expression. -/
theorem compile_chain (e : Expr V) (hs : Small e) (m : Mode) {s : CState V}
    (h : compile K env e m { g := Graph.new, nlocals := 0 } = .ok s) :
    ∃ ch, Chain (s.g.nextNew.emit [.op .returnValue]) ch := by
  obtain ⟨seg, hlay, hgr, _⟩ := emits_compile (H := noHost K.none) (ctx := K.none) e hs m _ _ _ Lay.new h
  obtain ⟨ch, hch, _⟩ := chain_of_lay ((hlay.nextNew).emit [.op .returnValue])
    (closed_append (closed_append (closed_append (a := [.label 0]) trivial hgr.closed) (b := [.label s.g.blocks.length]) trivial)
      ⟨(fun t h => nomatch h), trivial⟩)
  exact ⟨ch, hch⟩

end Verif.Code
