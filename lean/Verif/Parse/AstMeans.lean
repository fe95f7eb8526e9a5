import Verif.Parse.AstBuild
import Verif.Parse.AstResolve
import Verif.Eval.PropsLemmas
/-
Alike expressions have the same value in every context.
-/
namespace Verif.Parse
open Verif.Eval Verif.Eval.Spec Verif.Dom Verif.Dom.Spec
open Spec (dosNode)

variable {d : Doc} {r : Nat}

/-- The nodes of a value are nodes of the document. -/
def ValIn (d : Doc) (r : Nat) : EVal → Prop
  | .sc _ => True
  | .nodes l => ∀ x ∈ l, InDoc d r x

/-- The variables and functions give nodes of the document. -/
structure EnvIn (d : Doc) (r : Nat) (env : Env) : Prop where
  var : ∀ q v, env.var q = some v → ValIn d r v
  fn : ∀ f n g, env.fn f n = some g → ∀ vs, (∀ v ∈ vs, ValIn d r v) → ∀ v, g.f vs = .ok v →
    ValIn d r v

/-- The values of the expression have nodes of the document. -/
def Inside (d : Doc) (r : Nat) (e : Expr) : Prop :=
  ∀ n, InDoc d r n → ∀ p s v, Means d e n p s v → ValIn d r v

/-- Two expressions with the same value in every context. -/
def Same (d : Doc) (r : Nat) (e' e : Expr) : Prop :=
  ∀ n, InDoc d r n → ∀ p s v, Means d e' n p s v ↔ Means d e n p s v

inductive Sames (d : Doc) (r : Nat) : List Expr → List Expr → Prop where
  | nil : Sames d r [] []
  | cons {e' e l' l} : Same d r e' e → Sames d r l' l → Sames d r (e' :: l') (e :: l)

/-- Steps that lead to the same nodes. -/
def SamePath (d : Doc) (r : Nat) (l' l : List LStep) : Prop :=
  ∀ n, InDoc d r n → ∀ x, Reaches d l' n x ↔ Reaches d l n x

/-- A step that selects the same nodes in the same order. -/
def SameStep (d : Doc) (r : Nat) (a b : LStep) : Prop :=
  ∀ n, InDoc d r n → ∀ k, StepSelects d a n k ↔ StepSelects d b n k

theorem selects_in (w : DocWF d r) {s : LStep} {n : Nat} (hn : InDoc d r n) {k : List Nat}
    (h : StepSelects d s n k) : ∀ y ∈ k, InDoc d r y := by
  obtain ⟨ax, t, ps⟩ := s
  rw [StepSelects] at h
  obtain ⟨l, hl, rfl⟩ := h
  intro y hy
  exact onLAxis_inDoc w hn ((hl.1 y).mp (kept_sublist.subset hy)).1

theorem reaches_in (w : DocWF d r) {l : List LStep} {n x : Nat} (hn : InDoc d r n)
    (h : Reaches d l n x) : InDoc d r x := by
  induction l generalizing n with
  | nil => rw [Reaches] at h; exact h ▸ hn
  | cons s l ih =>
    rw [Reaches] at h
    obtain ⟨k, y, hk, hy, h⟩ := h
    exact ih (selects_in w hn hk y hy) h

theorem start_in (w : DocWF d r) {ab : Bool} {n y : Nat} (hn : InDoc d r n)
    (h : StartNode d ab n y) : InDoc d r y := by
  rw [StartNode] at h
  split at h
  · have : y = r := root_unique h hn.1
    subst this
    refine ⟨⟨.inl rfl, h.2⟩, .inl ?_⟩
    constructor <;> rw [w.root] <;> exact nofun
  · exact h ▸ hn

theorem exists_set (w : DocWF d r) (P : Nat → Prop) (hP : ∀ x, P x → InDoc d r x) :
    ∃ l, Sorted d l ∧ ∀ x, x ∈ l ↔ P x := by
  classical
  obtain ⟨m, hs, hm⟩ := exists_sorted w ((r :: List.range d.h.size).filter fun x => decide (P x))
    (fun x hx => hP x (of_decide_eq_true (List.mem_filter.1 hx).2))
  refine ⟨m, hs, fun x => ?_⟩
  rw [hm, List.mem_filter, decide_eq_true_iff]
  refine ⟨fun h => h.2, fun h => ⟨?_, h⟩⟩
  rcases inDoc_bound w (hP x h) with rfl | h
  · exact List.mem_cons_self
  · exact List.mem_cons_of_mem _ (List.mem_range.2 h)

/-! Values stay in the document -/

theorem converts_in {m : Mode} {w v : EVal} (h : Converts d m w v) (hw : ValIn d r w) :
    ValIn d r v := by
  cases m <;> simp only [Converts] at h
  · exact h ▸ hw
  · obtain ⟨b, rfl, _⟩ := h; trivial
  · obtain ⟨b, rfl, _⟩ := h; trivial
  · obtain ⟨b, rfl, _⟩ := h; trivial
  · exact h.1 ▸ hw

/-- All arguments are inside. -/
def ArgsIn (d : Doc) (r : Nat) (l : List Arg) : Prop := ∀ m e, Arg.mk m e ∈ l → Inside d r e

theorem argsMean_in {l : List Arg} (hl : ArgsIn d r l) {n p s : Nat} (hn : InDoc d r n)
    {vs : List EVal} (h : ArgsMean d l n p s vs) : ∀ v ∈ vs, ValIn d r v := by
  induction l generalizing vs with
  | nil => rw [ArgsMean] at h; subst h; exact nofun
  | cons a l ih =>
    obtain ⟨m, e⟩ := a
    rw [ArgsMean] at h
    obtain ⟨v, vs', h1, h2, rfl⟩ := h
    rw [ArgMeans] at h1
    obtain ⟨u, h1, hc⟩ := h1
    intro x hx
    rcases List.mem_cons.mp hx with rfl | hx
    · exact converts_in hc (hl m e List.mem_cons_self n hn _ _ _ h1)
    · exact ih (fun m e hm => hl m e (List.mem_cons_of_mem _ hm)) h2 x hx

theorem inSome_in {es : List Expr} (he : ∀ e ∈ es, Inside d r e) {n p s x : Nat} (hn : InDoc d r n)
    (h : InSome d es n p s x) : InDoc d r x := by
  induction es with
  | nil => rw [InSome] at h; exact h.elim
  | cons e es ih =>
    rw [InSome] at h
    rcases h with ⟨l, h1, h2⟩ | h
    · exact he e List.mem_cons_self n hn _ _ _ h1 x h2
    · exact ih (fun e he' => he e (List.mem_cons_of_mem _ he')) h

theorem path_inside (w : DocWF d r) (ab : Bool) (l : List LStep) : Inside d r (.path ab l) := by
  intro n hn p s v h
  rw [Means] at h
  obtain ⟨k, rfl, _, hk⟩ := h
  intro x hx
  obtain ⟨y, hy, h⟩ := (hk x).mp hx
  exact reaches_in w (start_in w hn hy) h

theorem argsWith_in {modes : Nat → Mode} {es : List Expr} (he : ∀ e ∈ es, Inside d r e) (i : Nat) :
    ArgsIn d r (argsWith modes i es) := by
  induction es generalizing i with
  | nil => intro m e h; exact (nomatch h)
  | cons x es ih =>
    intro m e h
    rw [argsWith] at h
    rcases List.mem_cons.mp h with h | h
    · injection h with _ h
      exact h ▸ he x List.mem_cons_self
    · exact ih (fun e he' => he e (List.mem_cons_of_mem _ he')) _ m e h

theorem fn_inside {ty : Ty} {f : List EVal → Except XErr EVal} {l : List Arg} (hl : ArgsIn d r l)
    (hf : ∀ vs, (∀ v ∈ vs, ValIn d r v) → ∀ v, f vs = .ok v → ValIn d r v) :
    Inside d r (.fn ty f l) := by
  intro n hn p s v h
  rw [Means] at h
  obtain ⟨vs, h1, h2⟩ := h
  exact hf vs (argsMean_in hl hn h1) v h2

theorem onNumbers_in {f} {vs : List EVal} {v : EVal} (h : onNumbers f vs = .ok v) : ValIn d r v := by
  unfold onNumbers at h
  split at h
  · injection h with h; subst h; trivial
  · exact (nomatch h)

theorem onNumber_in {vs : List EVal} {v : EVal} (h : onNumber vs = .ok v) : ValIn d r v := by
  unfold onNumber at h
  split at h
  · injection h with h; subst h; trivial
  · exact (nomatch h)

theorem compare_in {op : XPath.Op} {a b v : EVal} (h : compareVals d op a b = .ok v) : ValIn d r v := by
  unfold compareVals at h
  split at h
  · injection h with h; subst h; trivial
  · exact (nomatch h)
  · exact (nomatch h)

theorem call_inside (w : DocWF d r) {env : Env} (he : EnvIn d r env) {f : Str} {es : List Expr}
    (hes : ∀ e ∈ es, Inside d r e) {x : Expr} (h : callExpr env f es = some x) : Inside d r x := by
  rw [callExpr] at h
  split at h
  · injection h with h; subst h
    intro n hn p s v h; rw [Means] at h; subst h; trivial
  split at h
  · injection h with h; subst h
    intro n hn p s v h; rw [Means] at h; subst h; trivial
  split at h
  · exact (nomatch h)
  · rename_i g hg
    injection h with h; subst h
    refine fn_inside ?_ (he.fn f _ g hg)
    intro m e hm
    rcases List.mem_append.mp hm with hm | hm
    · exact argsWith_in hes 0 m e hm
    · cases hs : g.self with
      | none => rw [hs] at hm; exact (nomatch hm)
      | some m' =>
        rw [hs, selfArg, List.mem_singleton] at hm
        injection hm with _ hm
        exact hm ▸ path_inside w false []

mutual
theorem resolve_inside (w : DocWF d r) {env : Env} (he : EnvIn d r env) :
    ∀ (a : Ast) (x : Expr), resolve d.R env a = some x → Inside d r x
  | .literal s, x, h => by
    rw [resolve] at h; injection h with h; subst h
    intro n hn p s v h; rw [Means] at h; subst h; trivial
  | .number s, x, h => by
    rw [resolve] at h; injection h with h; subst h
    intro n hn p s v h; rw [Means] at h; obtain ⟨_, h, _⟩ := h; subst h; trivial
  | .variable q, x, h => by
    rw [resolve] at h
    split at h
    · rename_i v hv
      injection h with h; subst h
      intro n hn p s v' h; rw [Means] at h; exact h ▸ he.var q v hv
    · exact (nomatch h)
  | .call f args, x, h => by
    rw [resolve] at h
    split at h
    · rename_i es hes
      exact call_inside w he (resolves_inside w he args es hes) h
    · exact (nomatch h)
  | .or l r, x, h => by
    rw [resolve] at h
    split at h
    · injection h with h; subst h
      intro n hn p s v h; rw [Means] at h
      obtain ⟨_, _, ⟨_, rfl⟩ | ⟨_, b, _, b', rfl, _⟩⟩ := h <;> trivial
    · exact (nomatch h)
  | .and l r, x, h => by
    rw [resolve] at h
    split at h
    · injection h with h; subst h
      intro n hn p s v h; rw [Means] at h
      obtain ⟨_, _, ⟨_, rfl⟩ | ⟨_, b, _, b', rfl, _⟩⟩ := h <;> trivial
    · exact (nomatch h)
  | .compare op l r, x, h => by
    rw [resolve] at h
    split at h
    · injection h with h; subst h
      intro n hn p s v h; rw [Means] at h
      obtain ⟨_, _, _, _, h⟩ := h
      exact compare_in h
    · exact (nomatch h)
  | .arith op l r, x, h => by
    rw [resolve] at h
    split at h
    · injection h with h; subst h
      intro n hn p s v h; rw [Means] at h
      obtain ⟨_, _, h⟩ := h
      exact onNumbers_in h
    · exact (nomatch h)
  | .neg e, x, h => by
    rw [resolve] at h
    split at h
    · injection h with h; subst h
      intro n hn p s v h; rw [Means] at h
      obtain ⟨_, _, h⟩ := h
      exact onNumber_in h
    · exact (nomatch h)
  | .path ab l, x, h => by
    rw [resolve] at h
    split at h
    · injection h with h; subst h
      exact path_inside w ab _
    · exact (nomatch h)
  | .union l, x, h => by
    rw [resolve] at h
    split at h
    · rename_i es hes
      injection h with h; subst h
      have := resolves_inside w he l es hes
      intro n hn p s v h; rw [Means] at h
      obtain ⟨k, rfl, _, hk⟩ := h
      exact fun x hx => inSome_in this hn ((hk x).mp hx)
    · exact (nomatch h)
  | .filter e ps, x, h => by
    rw [resolve] at h
    split at h
    · rename_i a l ha hl
      injection h with h; subst h
      have := resolve_inside w he e a ha
      intro n hn p s v h; rw [Means] at h
      obtain ⟨k, h1, rfl⟩ := h
      exact fun x hx => this n hn _ _ _ h1 x (kept_sublist.subset hx)
    · exact (nomatch h)
  | .pathFrom e l, x, h => by
    rw [resolve] at h
    split at h
    · rename_i a l ha hl
      injection h with h; subst h
      have := resolve_inside w he e a ha
      intro n hn p s v h; rw [Means] at h
      obtain ⟨k0, k, h1, rfl, _, hk⟩ := h
      intro x hx
      obtain ⟨y, hy, h⟩ := (hk x).mp hx
      exact reaches_in w (this n hn _ _ _ h1 y hy) h
    · exact (nomatch h)
theorem resolves_inside (w : DocWF d r) {env : Env} (he : EnvIn d r env) :
    ∀ (a : List Ast) (l : List Expr), resolves d.R env a = some l → ∀ e ∈ l, Inside d r e
  | [], l, h => by rw [resolves] at h; injection h with h; subst h; exact nofun
  | a :: as, l, h => by
    rw [resolves] at h
    split at h
    · rename_i x xs hx hxs
      injection h with h; subst h
      intro e h
      rcases List.mem_cons.mp h with rfl | h
      · exact resolve_inside w he a _ hx
      · exact resolves_inside w he as _ hxs e h
    · exact (nomatch h)
end

/-! Congruence -/

theorem Same.refl (e : Expr) : Same d r e e := fun _ _ _ _ _ => Iff.rfl

theorem kept_same {ps' ps : List Expr} (h : Sames d r ps' ps) {l : List Nat}
    (hl : ∀ x ∈ l, InDoc d r x) : kept d ps' l = kept d ps l := by
  induction h generalizing l with
  | nil => rfl
  | cons h _ ih =>
    rw [kept, kept]
    rw [keep_congr (T' := fun n p => ∃ v, Means d _ n p l.length v ∧ PredTrue v p)
      (fun n q hn _ _ => exists_congr fun v => and_congr_left fun _ => h n (hl n hn) q l.length v)]
    exact ih fun x hx => hl x (keep_sublist.subset hx)

theorem kept_append (ps qs : List Expr) (l : List Nat) :
    kept d (ps ++ qs) l = kept d qs (kept d ps l) := by
  induction ps generalizing l with
  | nil => rfl
  | cons p ps ih => rw [List.cons_append, kept, kept, ih]

theorem sameStep (w : DocWF d r) (ax : LAxis) (t : NodeTest) {ps' ps : List Expr}
    (h : Sames d r ps' ps) : SameStep d r (.mk ax t ps') (.mk ax t ps) := by
  intro n hn k
  rw [StepSelects, StepSelects]
  refine exists_congr fun l => and_congr_right fun hl => ?_
  rw [kept_same h fun x hx => onLAxis_inDoc w hn ((hl.1 x).mp hx).1]

theorem samePath_cons (w : DocWF d r) {a b : LStep} (h : SameStep d r a b) {l' l : List LStep}
    (hl : SamePath d r l' l) : SamePath d r (a :: l') (b :: l) := by
  intro n hn x
  rw [Reaches, Reaches]
  refine exists_congr fun k => exists_congr fun y => ?_
  rw [h n hn k]
  refine and_congr_right fun hk => and_congr_right fun hy => ?_
  exact hl y (selects_in w hn hk y hy) x

/-- The nodes that a step without predicates selects. -/
theorem reaches_plain (w : DocWF d r) {ax : LAxis} {t : NodeTest} {l : List LStep} {n x : Nat}
    (hn : InDoc d r n) : Reaches d (.mk ax t [] :: l) n x ↔
      ∃ y, OnLAxis d n y ax ∧ Matches d ax y t ∧ Reaches d l y x := by
  rw [Reaches]
  constructor
  · rintro ⟨k, y, hk, hy, h⟩
    rw [StepSelects] at hk
    obtain ⟨l, hl, rfl⟩ := hk
    have := (hl.1 y).mp hy
    exact ⟨y, this.1, this.2, h⟩
  · rintro ⟨y, h1, h2, h⟩
    obtain ⟨k, hk⟩ := candidates_exist w ax t hn
    refine ⟨k, y, ?_, (hk.1 y).mpr ⟨h1, h2⟩, h⟩
    rw [StepSelects]
    exact ⟨k, hk, rfl⟩

theorem anc_parent {h : Heap} {n x : Nat} : Anc h n x ↔ ∃ y, AncS h n y ∧ h.parent x = some y := by
  constructor
  · intro h
    cases h with
    | parent h => exact ⟨n, .inl rfl, h⟩
    | step h h' => exact ⟨_, .inr h, h'⟩
  · rintro ⟨y, rfl | h, h'⟩
    · exact .parent h'
    · exact .step h h'

/-- `//t` is the same as `/descendant::t`. -/
theorem fuse_same (w : DocWF d r) (t : NodeTest) {l' l : List LStep} (hl : SamePath d r l' l) :
    SamePath d r (.mk (.tree .descendant) t [] :: l')
      (.mk (.tree .descendantOrSelf) .node [] :: .mk (.tree .child) t [] :: l) := by
  intro n hn x
  rw [reaches_plain w hn, reaches_plain w hn]
  have hm : ∀ y, Matches d (.tree .descendant) y t ↔ Matches d (.tree .child) y t := fun y => by
    cases t <;> exact Iff.rfl
  constructor
  · rintro ⟨z, ⟨h1, h2⟩, h3, h⟩
    have hz : TreeNode d.h z := by
      rcases h2 with h2 | rfl
      · exact h2
      · exact absurd h1 (w.wf.acyclic _)
    obtain ⟨y, hy, hp⟩ := anc_parent.mp h1
    have hyd : OnLAxis d n y (.tree .descendantOrSelf) := ⟨hy, .inl (anc_tree w.wf (.parent hp))⟩
    refine ⟨y, hyd, trivial, ?_⟩
    have hyi := onLAxis_inDoc w hn hyd
    rw [reaches_plain w hyi]
    have hzc : OnLAxis d y z (.tree .child) := ⟨hp, .inl hz⟩
    exact ⟨z, hzc, (hm z).mp h3, (hl z (onLAxis_inDoc w hyi hzc) x).mp h⟩
  · rintro ⟨y, hyd, _, h⟩
    have hyi := onLAxis_inDoc w hn hyd
    rw [reaches_plain w hyi] at h
    obtain ⟨z, hzc, h3, h⟩ := h
    have hz : TreeNode d.h z := by
      rcases hzc.2 with h2 | rfl
      · exact h2
      · exact absurd (.parent hzc.1) (w.wf.acyclic _)
    exact ⟨z, ⟨anc_parent.mpr ⟨y, hyd.1, hzc.1⟩, .inl hz⟩, (hm z).mpr h3,
      (hl z (onLAxis_inDoc w hyi hzc) x).mpr h⟩

/-- Arguments with the same values. -/
inductive SameArgs (d : Doc) (r : Nat) : List Arg → List Arg → Prop where
  | nil : SameArgs d r [] []
  | cons (m) {e' e l' l} : Same d r e' e → SameArgs d r l' l →
      SameArgs d r (.mk m e' :: l') (.mk m e :: l)

theorem argsMean_same {l' l : List Arg} (h : SameArgs d r l' l) {n p s : Nat} (hn : InDoc d r n)
    (vs : List EVal) : ArgsMean d l' n p s vs ↔ ArgsMean d l n p s vs := by
  induction h generalizing vs with
  | nil => exact Iff.rfl
  | cons m h _ ih =>
    rw [ArgsMean, ArgsMean]
    refine exists_congr fun v => exists_congr fun vs' => ?_
    rw [ih, ArgMeans, ArgMeans]
    exact and_congr_left fun _ => exists_congr fun u => by rw [h n hn p s u]

theorem fn_same (ty : Ty) (f : List EVal → Except XErr EVal) {l' l : List Arg}
    (h : SameArgs d r l' l) : Same d r (.fn ty f l') (.fn ty f l) := by
  intro n hn p s v
  rw [Means, Means]
  exact exists_congr fun vs => by rw [argsMean_same h hn]

theorem argsWith_same (modes : Nat → Mode) (self : Option Mode) {l' l : List Expr}
    (h : Sames d r l' l) (i : Nat) :
    SameArgs d r (argsWith modes i l' ++ selfArg self) (argsWith modes i l ++ selfArg self) := by
  induction h generalizing i with
  | nil =>
    cases self with
    | none => exact .nil
    | some m => exact .cons m (Same.refl _) .nil
  | cons h _ ih => exact .cons _ h (ih _)

theorem Sames.length {l' l : List Expr} (h : Sames d r l' l) : l'.length = l.length := by
  induction h with
  | nil => rfl
  | cons _ _ ih => simp [ih]

theorem call_same (env : Env) (f : Str) {es' es : List Expr} (h : Sames d r es' es) {x : Expr}
    (hx : callExpr env f es = some x) :
    ∃ x', callExpr env f es' = some x' ∧ Same d r x' x := by
  unfold callExpr at hx ⊢
  rw [h.length]
  split at hx
  · rename_i hf; rw [if_pos hf]; exact ⟨x, hx, Same.refl _⟩
  rename_i hf
  rw [if_neg hf]
  split at hx
  · rename_i hf; rw [if_pos hf]; exact ⟨x, hx, Same.refl _⟩
  rename_i hf
  rw [if_neg hf]
  split at hx
  · exact (nomatch hx)
  · injection hx with hx
    subst hx
    exact ⟨_, rfl, fn_same _ _ (argsWith_same _ _ h 0)⟩

theorem or_same {a' a b' b : Expr} (h1 : Same d r a' a) (h2 : Same d r b' b) :
    Same d r (.or a' b') (.or a b) := by
  intro n hn p s v
  rw [Means, Means]
  simp only [h1 n hn, h2 n hn]

theorem and_same {a' a b' b : Expr} (h1 : Same d r a' a) (h2 : Same d r b' b) :
    Same d r (.and a' b') (.and a b) := by
  intro n hn p s v
  rw [Means, Means]
  simp only [h1 n hn, h2 n hn]

theorem cmp_same (op : XPath.Op) {a' a b' b : Expr} (h1 : Same d r a' a) (h2 : Same d r b' b) :
    Same d r (.cmp op a' b') (.cmp op a b) := by
  intro n hn p s v
  rw [Means, Means]
  simp only [h1 n hn, h2 n hn]

theorem path_same (w : DocWF d r) (ab : Bool) {l' l : List LStep} (h : SamePath d r l' l) :
    Same d r (.path ab l') (.path ab l) := by
  intro n hn p s v
  rw [Means, Means]
  refine exists_congr fun k => and_congr_right fun _ => and_congr_right fun _ =>
    forall_congr' fun x => iff_congr Iff.rfl ?_
  exact exists_congr fun y => and_congr_right fun hy => h y (start_in w hn hy) x

theorem pathFrom_same {a' a : Expr} (ha : Same d r a' a) (hi : Inside d r a) {l' l : List LStep}
    (h : SamePath d r l' l) : Same d r (.pathFrom a' l') (.pathFrom a l) := by
  intro n hn p s v
  rw [Means, Means]
  refine exists_congr fun k0 => exists_congr fun k => ?_
  rw [ha n hn]
  refine and_congr_right fun h0 => and_congr_right fun _ => and_congr_right fun _ =>
    forall_congr' fun x => iff_congr Iff.rfl ?_
  exact exists_congr fun y => and_congr_right fun hy => h y (hi n hn _ _ _ h0 y hy) x

theorem filter_same {a' a : Expr} (ha : Same d r a' a) (hi : Inside d r a) {ps' ps : List Expr}
    (h : Sames d r ps' ps) : Same d r (.filter a' ps') (.filter a ps) := by
  intro n hn p s v
  rw [Means, Means]
  refine exists_congr fun k => ?_
  rw [ha n hn]
  refine and_congr_right fun h0 => ?_
  rw [kept_same h (hi n hn _ _ _ h0)]

/-- `e[p][q]` -/
theorem filters_same {a' a : Expr} {ps : List Expr} (ha : Same d r (.filter a' ps) a)
    (hi : Inside d r a) {p' p : Expr} (h : Same d r p' p) :
    Same d r (.filter a' (ps ++ [p'])) (.filter a [p]) := by
  intro n hn q s v
  rw [Means, Means]
  constructor
  · rintro ⟨l, h1, rfl⟩
    have h2 : Means d a n q s (.nodes (kept d ps l)) := (ha n hn _ _ _).mp (by
      rw [Means]; exact ⟨l, h1, rfl⟩)
    refine ⟨_, h2, ?_⟩
    rw [kept_append, kept_same (.cons h .nil) (hi n hn _ _ _ h2)]
  · rintro ⟨k, h1, rfl⟩
    have h2 := (ha n hn _ _ _).mpr h1
    rw [Means] at h2
    obtain ⟨l, h2, e⟩ := h2
    injection e with e
    subst e
    refine ⟨l, h2, ?_⟩
    rw [kept_append, kept_same (.cons h .nil) (hi n hn _ _ _ h1)]

theorem inSome_append {es : List Expr} {b : Expr} {n p s x : Nat} :
    InSome d (es ++ [b]) n p s x ↔ InSome d es n p s x ∨ ∃ l, Means d b n p s (.nodes l) ∧ x ∈ l := by
  induction es with
  | nil => simp [InSome]
  | cons e es ih => rw [List.cons_append, InSome, InSome, ih, or_assoc]

theorem union_same {a' a b' b : Expr} (h1 : Same d r a' a) (h2 : Same d r b' b) :
    Same d r (.union [a', b']) (.union [a, b]) := by
  intro n hn p s v
  rw [Means, Means]
  simp only [InSome, h1 n hn, h2 n hn]

/-- `(a | b) | c` -/
theorem unions_same (w : DocWF d r) {es : List Expr} (hi : ∀ e ∈ es, Inside d r e) {a b' b : Expr}
    (ha : Same d r (.union es) a) (h : Same d r b' b) :
    Same d r (.union (es ++ [b'])) (.union [a, b]) := by
  intro n hn p s v
  rw [Means, Means]
  refine exists_congr fun k => and_congr_right fun _ => and_congr_right fun _ =>
    forall_congr' fun x => iff_congr Iff.rfl ?_
  rw [inSome_append, InSome, InSome, InSome, or_false]
  refine or_congr ?_ (exists_congr fun l => by rw [h n hn])
  constructor
  · intro hx
    obtain ⟨l, h1, h2⟩ := exists_set w (fun x => InSome d es n p s x) (fun x => inSome_in hi hn)
    refine ⟨l, (ha n hn _ _ _).mp ?_, (h2 x).mpr hx⟩
    rw [Means]
    exact ⟨l, rfl, h1, h2⟩
  · rintro ⟨l, h1, hx⟩
    have h1 := (ha n hn _ _ _).mpr h1
    rw [Means] at h1
    obtain ⟨k, e, _, hk⟩ := h1
    injection e with e
    subst e
    exact (hk x).mp hx

/-! Alike expressions mean the same. -/

theorem resolves_append {R : XPath.Rounding} {env : Env} {as : List Ast} {b : Ast} {l : List Expr}
    {y : Expr} (h : resolves R env as = some l) (hb : resolve R env b = some y) :
    resolves R env (as ++ [b]) = some (l ++ [y]) := by
  induction as generalizing l with
  | nil =>
    rw [resolves] at h
    injection h with h
    subst h
    rw [List.nil_append, resolves, hb, resolves]
    rfl
  | cons a as ih =>
    rw [resolves] at h
    split at h
    · rename_i x xs hx hxs
      injection h with h
      subst h
      rw [List.cons_append, resolves, hx, ih hxs]
      rfl
    · exact (nomatch h)

mutual
theorem alike_same (w : DocWF d r) {env : Env} (he : EnvIn d r env) : ∀ {a' a : Ast},
    Alike a' a → ∀ x, resolve d.R env a = some x →
      ∃ x', resolve d.R env a' = some x' ∧ Same d r x' x
  | _, _, .literal s, x, h => ⟨x, h, Same.refl _⟩
  | _, _, .number s, x, h => ⟨x, h, Same.refl _⟩
  | _, _, .variable s, x, h => ⟨x, h, Same.refl _⟩
  | _, _, .call f hs, x, h => by
    rw [resolve] at h
    split at h
    · rename_i es hes
      obtain ⟨es', hes', sm⟩ := alikes_same w he hs es hes
      obtain ⟨x', hx', sx⟩ := call_same env f sm h
      exact ⟨x', by rw [resolve, hes']; exact hx', sx⟩
    · exact (nomatch h)
  | _, _, .or h1 h2, x, h => by
    rw [resolve] at h
    split at h
    · rename_i a b ha hb
      injection h with h; subst h
      obtain ⟨a', ha', sa⟩ := alike_same w he h1 a ha
      obtain ⟨b', hb', sb⟩ := alike_same w he h2 b hb
      exact ⟨_, by rw [resolve, ha', hb'], or_same sa sb⟩
    · exact (nomatch h)
  | _, _, .and h1 h2, x, h => by
    rw [resolve] at h
    split at h
    · rename_i a b ha hb
      injection h with h; subst h
      obtain ⟨a', ha', sa⟩ := alike_same w he h1 a ha
      obtain ⟨b', hb', sb⟩ := alike_same w he h2 b hb
      exact ⟨_, by rw [resolve, ha', hb'], and_same sa sb⟩
    · exact (nomatch h)
  | _, _, .compare op h1 h2, x, h => by
    rw [resolve] at h
    split at h
    · rename_i f a b hf ha hb
      injection h with h; subst h
      obtain ⟨a', ha', sa⟩ := alike_same w he h1 a ha
      obtain ⟨b', hb', sb⟩ := alike_same w he h2 b hb
      exact ⟨_, by rw [resolve, hf, ha', hb'], cmp_same _ sa sb⟩
    · exact (nomatch h)
  | _, _, .arith op h1 h2, x, h => by
    rw [resolve] at h
    split at h
    · rename_i f a b hf ha hb
      injection h with h; subst h
      obtain ⟨a', ha', sa⟩ := alike_same w he h1 a ha
      obtain ⟨b', hb', sb⟩ := alike_same w he h2 b hb
      exact ⟨_, by rw [resolve, hf, ha', hb'], fn_same _ _ (.cons _ sa (.cons _ sb .nil))⟩
    · exact (nomatch h)
  | _, _, .neg h1, x, h => by
    rw [resolve] at h
    split at h
    · rename_i a ha
      injection h with h; subst h
      obtain ⟨a', ha', sa⟩ := alike_same w he h1 a ha
      exact ⟨_, by rw [resolve, ha'], fn_same _ _ (.cons _ sa .nil)⟩
    · exact (nomatch h)
  | _, _, .path ab h1, x, h => by
    rw [resolve] at h
    split at h
    · rename_i l hl
      injection h with h; subst h
      obtain ⟨l', hl', sl⟩ := alikeSteps_same w he h1 l hl
      exact ⟨_, by rw [resolve, hl'], path_same w ab sl⟩
    · exact (nomatch h)
  | _, _, .union h1 h2, x, h => by
    rw [resolve, resolves, resolves, resolves] at h
    split at h
    · rename_i es hes
      injection h with h; subst h
      split at hes
      · rename_i a l ha hl
        injection hes with hes; subst hes
        split at hl
        · rename_i b l hb e
          injection e with e; subst e
          injection hl with hl; subst hl
          obtain ⟨a', ha', sa⟩ := alike_same w he h1 a ha
          obtain ⟨b', hb', sb⟩ := alike_same w he h2 b hb
          exact ⟨_, by rw [resolve, resolves, ha', resolves, hb', resolves], union_same sa sb⟩
        · exact (nomatch hl)
      · exact (nomatch hes)
    · exact (nomatch h)
  | _, _, .unions h1 h2, x, h => by
    rw [resolve, resolves, resolves, resolves] at h
    split at h
    · rename_i es hes
      injection h with h; subst h
      split at hes
      · rename_i a l ha hl
        injection hes with hes; subst hes
        split at hl
        · rename_i b l hb e
          injection e with e; subst e
          injection hl with hl; subst hl
          obtain ⟨a', ha', sa⟩ := alike_same w he h1 a ha
          obtain ⟨b', hb', sb⟩ := alike_same w he h2 b hb
          rw [resolve] at ha'
          split at ha'
          · rename_i l' hl'
            injection ha' with ha'; subst ha'
            exact ⟨_, by rw [resolve, resolves_append hl' hb'],
              unions_same w (resolves_inside w he _ _ hl') sa sb⟩
          · exact (nomatch ha')
        · exact (nomatch hl)
      · exact (nomatch hes)
    · exact (nomatch h)
  | _, _, .filter h1 h2, x, h => by
    rw [resolve, resolves, resolves] at h
    split at h
    · rename_i a l ha hl
      injection h with h; subst h
      split at hl
      · rename_i b l hb e
        injection e with e; subst e
        injection hl with hl; subst hl
        obtain ⟨a', ha', sa⟩ := alike_same w he h1 a ha
        obtain ⟨b', hb', sb⟩ := alike_same w he h2 b hb
        exact ⟨_, by rw [resolve, resolves, ha', hb', resolves],
          filter_same sa (resolve_inside w he _ _ ha) (.cons sb .nil)⟩
      · exact (nomatch hl)
    · exact (nomatch h)
  | _, _, .filters h1 h2, x, h => by
    rw [resolve, resolves, resolves] at h
    split at h
    · rename_i a l ha hl
      injection h with h; subst h
      split at hl
      · rename_i b l hb e
        injection e with e; subst e
        injection hl with hl; subst hl
        obtain ⟨a', ha', sa⟩ := alike_same w he h1 a ha
        obtain ⟨b', hb', sb⟩ := alike_same w he h2 b hb
        rw [resolve] at ha'
        split at ha'
        · rename_i c l' hc hl'
          injection ha' with ha'; subst ha'
          exact ⟨_, by rw [resolve, hc, resolves_append hl' hb'],
            filters_same sa (resolve_inside w he _ _ ha) sb⟩
        · exact (nomatch ha')
      · exact (nomatch hl)
    · exact (nomatch h)
  | _, _, .pathFrom h1 h2, x, h => by
    rw [resolve] at h
    split at h
    · rename_i a l ha hl
      injection h with h; subst h
      obtain ⟨a', ha', sa⟩ := alike_same w he h1 a ha
      obtain ⟨l', hl', sl⟩ := alikeSteps_same w he h2 l hl
      exact ⟨_, by rw [resolve, ha', hl'], pathFrom_same sa (resolve_inside w he _ _ ha) sl⟩
    · exact (nomatch h)
theorem alikes_same (w : DocWF d r) {env : Env} (he : EnvIn d r env) : ∀ {a' a : List Ast},
    Alikes a' a → ∀ x, resolves d.R env a = some x →
      ∃ x', resolves d.R env a' = some x' ∧ Sames d r x' x
  | _, _, .nil, x, h => by rw [resolves] at h; injection h with h; subst h; exact ⟨[], rfl, .nil⟩
  | _, _, .cons h1 h2, x, h => by
    rw [resolves] at h
    split at h
    · rename_i a l ha hl
      injection h with h; subst h
      obtain ⟨a', ha', sa⟩ := alike_same w he h1 a ha
      obtain ⟨l', hl', sl⟩ := alikes_same w he h2 l hl
      exact ⟨_, by rw [resolves, ha', hl'], .cons sa sl⟩
    · exact (nomatch h)
theorem alikeStep_same (w : DocWF d r) {env : Env} (he : EnvIn d r env) : ∀ {a' a : AStep},
    AlikeStep a' a → ∀ x, resolveStep d.R env a = some x →
      ∃ x', resolveStep d.R env a' = some x' ∧ SameStep d r x' x
  | _, _, .mk ax t h1, x, h => by
    rw [resolveStep] at h
    split at h
    · rename_i t l ht hl
      injection h with h; subst h
      obtain ⟨l', hl', sl⟩ := alikes_same w he h1 l hl
      exact ⟨_, by rw [resolveStep, ht, hl'], sameStep w ax _ sl⟩
    · exact (nomatch h)
theorem alikeSteps_same (w : DocWF d r) {env : Env} (he : EnvIn d r env) : ∀ {a' a : List AStep},
    AlikeSteps a' a → ∀ x, resolveSteps d.R env a = some x →
      ∃ x', resolveSteps d.R env a' = some x' ∧ SamePath d r x' x
  | _, _, .nil, x, h => ⟨x, h, fun _ _ _ => Iff.rfl⟩
  | _, _, .cons h1 h2, x, h => by
    rw [resolveSteps] at h
    split at h
    · rename_i a l ha hl
      injection h with h; subst h
      obtain ⟨a', ha', sa⟩ := alikeStep_same w he h1 a ha
      obtain ⟨l', hl', sl⟩ := alikeSteps_same w he h2 l hl
      exact ⟨_, by rw [resolveSteps, ha', hl'], samePath_cons w sa sl⟩
    · exact (nomatch h)
  | _, _, .fuse t h2, x, h => by
    rw [resolveSteps, dosNode, resolveStep, resolveTest, resolves, resolveSteps, resolveStep, resolves] at h
    cases ht : resolveTest env t with
    | none => rw [ht] at h; exact (nomatch h)
    | some t' =>
      rw [ht] at h
      dsimp only at h
      split at h
      · rename_i a l ha hl
        injection ha with ha; subst ha
        injection h with h; subst h
        split at hl
        · rename_i b l hb hl2
          injection hb with hb; subst hb
          injection hl with hl; subst hl
          obtain ⟨l', hl', sl⟩ := alikeSteps_same w he h2 l hl2
          exact ⟨_, by rw [resolveSteps, resolveStep, ht, resolves, hl'], fuse_same w t' sl⟩
        · exact (nomatch hl)
      · exact (nomatch h)
end

end Verif.Parse
