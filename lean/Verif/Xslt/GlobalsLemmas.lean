import Verif.Xslt.GlobalsSpec

/-
Running the content of a variable gives what the specification says it makes, and leaves the context as it was, or, with
an exception, in parts as it was.
-/
namespace Verif.Globals
open Verif Spec

variable {V N : Type}

/-! Monotonicity -/

/-- One dictionary has all that is in another one. -/
def Sub (m m' : Env V) : Prop := ∀ x v, m x = some v → m' x = some v

theorem Sub.set {m m' : Env V} (h : Sub m m') (x : Name) (v : V) : Sub (m.set x v) (m'.set x v) := by
  intro y w; unfold Env.set; split
  · exact id
  · exact h y w

/-- Neither a missing variable nor a missing key. -/
def Firm {α : Type} (r : Except Err α) : Prop := (∃ v, r = .ok v) ∨ ∃ e, r = .error (.other e)

theorem Ask.run_mono {m m' : Env V} (h : Sub m m') (a : Ask V) (hf : Firm (a.run m)) : a.run m' = a.run m := by
  induction a with
  | ret v => rfl
  | fail e => rfl
  | ask x k ih =>
    unfold Ask.run at hf ⊢
    cases hx : m x with
    | some v => rw [hx] at hf; rw [h x v hx]; exact ih v hf
    | none =>
      rw [hx] at hf
      rcases hf with ⟨v, hv⟩ | ⟨e, he⟩
      · cases hv
      · cases he

theorem expr_undef {env : Env V} {n : N} {e : GExpr V N} {x : Name}
    (h : e.fv.find? (fun x => (env x).isNone) = some x) : expr env n e = .error (.undefined x) := by
  unfold expr; rw [h]

theorem expr_def {env : Env V} {n : N} {e : GExpr V N}
    (h : e.fv.find? (fun x => (env x).isNone) = none) : expr env n e = (e.run n).run env := by
  unfold expr; rw [h]

theorem find_none_iff {env : Env V} {l : List Name} :
    l.find? (fun x => (env x).isNone) = none ↔ ∀ x ∈ l, (env x).isSome = true := by
  rw [List.find?_eq_none]
  constructor
  · intro h x hx; have := h x hx; cases h' : env x <;> simp_all
  · intro h x hx; have := h x hx; cases h' : env x <;> simp_all

theorem Sub.isSome {m m' : Env V} (h : Sub m m') {x : Name} (hx : (m x).isSome = true) : (m' x).isSome = true := by
  cases h' : m x with
  | none => rw [h'] at hx; cases hx
  | some v => rw [h x v h']; rfl

theorem not_firm_undef {α : Type} {x : Name} : ¬ Firm (Except.error (.undefined x) : Except Err α) := by
  rintro (⟨v, h⟩ | ⟨e, h⟩) <;> cases h

theorem expr_mono {m m' : Env V} (h : Sub m m') {n : N} {e : GExpr V N} (hf : Firm (expr m n e)) :
    expr m' n e = expr m n e := by
  cases hd : e.fv.find? (fun x => (m x).isNone) with
  | some x => rw [expr_undef hd] at hf; exact absurd hf not_firm_undef
  | none =>
    have h2 : e.fv.find? (fun x => (m' x).isNone) = none :=
      find_none_iff.mpr fun x hx => h.isSome (find_none_iff.mp hd x hx)
    rw [expr_def hd] at hf ⊢; rw [expr_def h2]
    exact Ask.run_mono h _ hf

theorem Firm.ok {α : Type} (v : α) : Firm (.ok v) := .inl ⟨v, rfl⟩

theorem andThen_mono {a a' b b' : Except Err (List V)} (ha : Firm a → a' = a) (hb : Firm b → b' = b)
    (hf : Firm (andThen a b)) : andThen a' b' = andThen a b := by
  cases a with
  | error x =>
    have : Firm (Except.error x : Except Err (List V)) := hf
    rw [ha this]; rfl
  | ok v =>
    rw [ha (Firm.ok v)]
    cases b with
    | error x =>
      have : Firm (Except.error x : Except Err (List V)) := hf
      rw [hb this]
    | ok w => rw [hb (Firm.ok w)]

theorem concat_cons (f : N → Except Err (List V)) (n : N) (ns : List N) :
    concat f (n :: ns) = andThen (f n) (concat f ns) := by
  rw [concat]; cases f n <;> rfl

theorem concat_mono {f f' : N → Except Err (List V)} (h : ∀ n, Firm (f n) → f' n = f n) :
    ∀ ns, Firm (concat f ns) → concat f' ns = concat f ns
  | [], _ => rfl
  | n :: ns, hf => by
    rw [concat_cons] at hf; rw [concat_cons, concat_cons]
    exact andThen_mono (h n) (concat_mono h ns) hf

theorem content_mono (o : Ops V N) {g g' : Env V} (hg : Sub g g') (c : Code V N) :
    ∀ {env env' : Env V} {n : N}, Sub env env' → Firm (content o g c env n) →
      content o g' c env' n = content o g c env n := by
  have key : ∀ {env env' : Env V} {n : N} (e : GExpr V N) (k k' : V → Except Err (List V)), Sub env env' →
      (∀ v, Firm (k v) → k' v = k v) →
      Firm (match expr env n e with | .error x => .error x | .ok v => k v : Except Err (List V)) →
      (match expr env' n e with | .error x => .error x | .ok v => k' v : Except Err (List V)) =
      (match expr env n e with | .error x => .error x | .ok v => k v : Except Err (List V)) := by
    intro env env' n e k k' hs hk hf
    have hfe : Firm (expr env n e) := by
      cases he : expr env n e with
      | ok v => exact Firm.ok v
      | error x =>
        rw [he] at hf
        rcases hf with ⟨v, hv⟩ | ⟨y, hy⟩
        · cases hv
        · injection hy with hy; subst hy; exact .inr ⟨y, rfl⟩
    rw [expr_mono hs hfe]
    cases he : expr env n e with
    | ok v => rw [he] at hf; exact hk v hf
    | error x => rfl
  induction c with
  | done => intros; rfl
  | out e r ih =>
    intro env env' n hs hf
    rw [content] at hf; rw [content, content]
    exact key e _ _ hs (fun v h => andThen_mono (fun _ => rfl) (ih hs) h) hf
  | ite e c r ihc ihr =>
    intro env env' n hs hf
    rw [content] at hf; rw [content, content]
    refine key e _ _ hs (fun v h => ?_) hf
    cases ht : o.truth v with
    | true => rw [ht, if_pos rfl] at h; rw [if_pos rfl, if_pos rfl]; exact andThen_mono (ihc hs) (ihr hs) h
    | false => rw [ht] at h; exact ihr hs h
  | each e c r ihc ihr =>
    intro env env' n hs hf
    rw [content] at hf; rw [content, content]
    exact key e _ _ hs (fun v h => andThen_mono (concat_mono (fun m => ihc hs) _) (ihr hs) h) hf
  | apply e c r ihc ihr =>
    intro env env' n hs hf
    rw [content] at hf; rw [content, content]
    exact key e _ _ hs (fun v h => andThen_mono (concat_mono (fun m => ihc m hg) _) (ihr hs) h) hf
  | var x e r ih =>
    intro env env' n hs hf
    rw [content] at hf; rw [content, content]
    exact key e _ _ hs (fun v h => ih (hs.set x v) h) hf

theorem value_mono (o : Ops V N) {g g' : Env V} (hg : Sub g g') {n : N} {d : Def V N} (hf : Firm (value o g n d)) :
    value o g' n d = value o g n d := by
  cases d with
  | select e => exact expr_mono hg hf
  | content c =>
    have : Firm (content o g c g n) := by
      cases h : content o g c g n with
      | ok v => exact Firm.ok v
      | error x =>
        rw [value, h] at hf
        rcases hf with ⟨v, hv⟩ | ⟨y, hy⟩
        · cases hv
        · injection hy with hy; subst hy; exact .inr ⟨y, rfl⟩
    rw [value, value, content_mono o hg c hg this]
  | empty => rfl

/-! Which exceptions there are -/

theorem run_asks {fv : List Name} {m : Env V} (h : ∀ x ∈ fv, (m x).isSome = true) :
    ∀ {a : Ask V}, Asks fv a → Firm (a.run m)
  | .ret v, _ => Firm.ok v
  | .fail e, _ => .inr ⟨e, rfl⟩
  | .ask x k, ha => by
    have := h x ha.1
    cases hx : m x with
    | none => rw [hx] at this; cases this
    | some v =>
      have e : Ask.run m (.ask x k) = (k v).run m := by rw [Ask.run, hx]
      rw [e]; exact run_asks h (ha.2 v)

/-- A result, or a missing variable, or an exception of the expression. -/
def Tame {α : Type} (r : Except Err α) : Prop := Firm r ∨ ∃ x, r = .error (.undefined x)

theorem Tame.error {α β : Type} {x : Err} (h : Tame (.error x : Except Err α)) : Tame (.error x : Except Err β) := by
  rcases h with (⟨v, hv⟩ | ⟨e, he⟩) | ⟨y, hy⟩
  · cases hv
  · injection he with he; subst he; exact .inl (.inr ⟨e, rfl⟩)
  · injection hy with hy; subst hy; exact .inr ⟨y, rfl⟩

theorem expr_tame {refs : Nat → List Name} {b : List Name} {e : GExpr V N} (h : FitsE refs b e) (env : Env V) (n : N) :
    Tame (expr env n e) := by
  cases hd : e.fv.find? (fun x => (env x).isNone) with
  | some x => exact .inr ⟨x, expr_undef hd⟩
  | none => rw [expr_def hd]; exact .inl (run_asks (find_none_iff.mp hd) (h.1 n))

theorem andThen_tame {a b : Except Err (List V)} (ha : Tame a) (hb : Tame b) : Tame (andThen a b) := by
  cases a with
  | error x => exact ha
  | ok v =>
    cases b with
    | error x => exact hb
    | ok w => exact .inl (Firm.ok _)

theorem concat_tame {f : N → Except Err (List V)} (h : ∀ n, Tame (f n)) : ∀ ns, Tame (concat f ns)
  | [] => .inl (Firm.ok _)
  | n :: ns => by rw [concat_cons]; exact andThen_tame (h n) (concat_tame h ns)

theorem content_tame (o : Ops V N) (g : Env V) {refs : Nat → List Name} (c : Code V N) :
    ∀ {b : List Name}, Fits refs b c → ∀ (env : Env V) (n : N), Tame (content o g c env n) := by
  induction c with
  | done => intros; exact .inl (Firm.ok _)
  | out e r ih =>
    intro b h env n; rw [content]
    cases he : expr env n e with
    | error x => exact (he ▸ expr_tame h.1 env n : Tame (.error x : Except Err V)).error
    | ok v => exact andThen_tame (.inl (Firm.ok _)) (ih h.2 env n)
  | ite e c r ihc ihr =>
    intro b h env n; rw [content]
    cases he : expr env n e with
    | error x => exact (he ▸ expr_tame h.1 env n : Tame (.error x : Except Err V)).error
    | ok v =>
      dsimp only; split
      · exact andThen_tame (ihc h.2.1 env n) (ihr h.2.2 env n)
      · exact ihr h.2.2 env n
  | each e c r ihc ihr =>
    intro b h env n; rw [content]
    cases he : expr env n e with
    | error x => exact (he ▸ expr_tame h.1 env n : Tame (.error x : Except Err V)).error
    | ok v => exact andThen_tame (concat_tame (fun m => ihc h.2.1 env m) _) (ihr h.2.2 env n)
  | apply e c r ihc ihr =>
    intro b h env n; rw [content]
    cases he : expr env n e with
    | error x => exact (he ▸ expr_tame h.1 env n : Tame (.error x : Except Err V)).error
    | ok v => exact andThen_tame (concat_tame (fun m => ihc m (h.2.1 m) g m) _) (ihr h.2.2 env n)
  | var x e r ih =>
    intro b h env n; rw [content]
    cases he : expr env n e with
    | error x => exact (he ▸ expr_tame h.1 env n : Tame (.error x : Except Err V)).error
    | ok v => exact ih h.2 _ n

theorem value_tame (o : Ops V N) (g : Env V) {refs : Nat → List Name} {d : Def V N} (h : FitsDef refs d) (n : N) :
    Tame (value o g n d) := by
  cases d with
  | select e => exact expr_tame h g n
  | content c =>
    rw [value]
    cases hc : content o g c g n with
    | error x => exact (hc ▸ content_tame o g c h g n : Tame (.error x : Except Err (List V))).error
    | ok v => exact .inl (Firm.ok _)
  | empty => exact .inl (Firm.ok _)

/-! No variable is missing -/

/-- The variables in scope: the global ones and the local ones `b`. -/
structure Scope (g : Env V) (b : List Name) (env : Env V) : Prop where
  out : ∀ x, x ∉ b → env x = g x
  bound : ∀ x ∈ b, (env x).isSome = true

theorem Scope.glob (g : Env V) : Scope g [] g := ⟨fun _ _ => rfl, nofun⟩

theorem Scope.set {g env : Env V} {b : List Name} (h : Scope g b env) (x : Name) (v : V) :
    Scope g (x :: b) (env.set x v) := by
  constructor
  · intro y hy
    have h1 : y ≠ x := fun e => hy (e ▸ List.mem_cons_self)
    unfold Env.set; rw [if_neg h1]; exact h.out y fun m => hy (List.mem_cons_of_mem _ m)
  · intro y hy
    unfold Env.set
    split
    · rfl
    · rename_i ne
      exact h.bound y ((List.mem_cons.mp hy).resolve_left ne)

theorem expr_firm {refs : Nat → List Name} {g env : Env V} {b : List Name} {e : GExpr V N} (h : FitsE refs b e)
    (hs : Scope g b env) (hr : ∀ x ∈ refs e.id, (g x).isSome = true) (n : N) : Firm (expr env n e) := by
  have hd : ∀ x ∈ e.fv, (env x).isSome = true := by
    intro x hx
    by_cases hb : x ∈ b
    · exact hs.bound x hb
    · rw [hs.out x hb]; exact hr x ((h.2.1 x hx).resolve_left hb)
  rw [expr_def (find_none_iff.mpr hd)]
  exact run_asks hd (h.1 n)

theorem andThen_firm {a b : Except Err (List V)} (ha : Firm a) (hb : Firm b) : Firm (andThen a b) := by
  cases a with
  | error x => exact ha
  | ok v =>
    cases b with
    | error x => exact hb
    | ok w => exact Firm.ok _

theorem concat_firm {f : N → Except Err (List V)} (h : ∀ n, Firm (f n)) : ∀ ns, Firm (concat f ns)
  | [] => Firm.ok _
  | n :: ns => by rw [concat_cons]; exact andThen_firm (h n) (concat_firm h ns)

theorem Firm.error {α β : Type} {x : Err} (h : Firm (.error x : Except Err α)) : Firm (.error x : Except Err β) := by
  rcases h with ⟨v, hv⟩ | ⟨e, he⟩
  · cases hv
  · injection he with he; subst he; exact .inr ⟨e, rfl⟩

theorem content_firm (o : Ops V N) {g : Env V} {refs : Nat → List Name} {a : List Name}
    (ha : ∀ x ∈ a, (g x).isSome = true) (c : Code V N) :
    ∀ {b : List Name}, Fits refs b c → Refs refs a c → ∀ {env : Env V}, Scope g b env → ∀ n : N,
      Firm (content o g c env n) := by
  have sub : ∀ {e : GExpr V N}, (∀ x ∈ refs e.id, x ∈ a) → ∀ x ∈ refs e.id, (g x).isSome = true :=
    fun h x hx => ha x (h x hx)
  induction c with
  | done => intros; exact Firm.ok _
  | out e r ih =>
    intro b h hr env hs n; rw [content]
    cases he : expr env n e with
    | error x => exact (he ▸ expr_firm h.1 hs (sub hr.1) n : Firm (.error x : Except Err V)).error
    | ok v => exact andThen_firm (Firm.ok _) (ih h.2 hr.2 hs n)
  | ite e c r ihc ihr =>
    intro b h hr env hs n; rw [content]
    cases he : expr env n e with
    | error x => exact (he ▸ expr_firm h.1 hs (sub hr.1) n : Firm (.error x : Except Err V)).error
    | ok v =>
      dsimp only; split
      · exact andThen_firm (ihc h.2.1 hr.2.1 hs n) (ihr h.2.2 hr.2.2 hs n)
      · exact ihr h.2.2 hr.2.2 hs n
  | each e c r ihc ihr =>
    intro b h hr env hs n; rw [content]
    cases he : expr env n e with
    | error x => exact (he ▸ expr_firm h.1 hs (sub hr.1) n : Firm (.error x : Except Err V)).error
    | ok v => exact andThen_firm (concat_firm (fun m => ihc h.2.1 hr.2.1 hs m) _) (ihr h.2.2 hr.2.2 hs n)
  | apply e c r ihc ihr =>
    intro b h hr env hs n; rw [content]
    cases he : expr env n e with
    | error x => exact (he ▸ expr_firm h.1 hs (sub hr.1) n : Firm (.error x : Except Err V)).error
    | ok v =>
      exact andThen_firm (concat_firm (fun m => ihc m (h.2.1 m) (hr.2.1 m) (Scope.glob g) m) _) (ihr h.2.2 hr.2.2 hs n)
  | var x e r ih =>
    intro b h hr env hs n; rw [content]
    cases he : expr env n e with
    | error x => exact (he ▸ expr_firm h.1 hs (sub hr.1) n : Firm (.error x : Except Err V)).error
    | ok v => exact ih h.2 hr.2 (hs.set x v) n

theorem value_firm (o : Ops V N) {g : Env V} {refs : Nat → List Name} {a : List Name}
    (ha : ∀ x ∈ a, (g x).isSome = true) {d : Def V N} (h : FitsDef refs d) (hr : RefsDef refs a d) (n : N) :
    Firm (value o g n d) := by
  cases d with
  | select e => exact expr_firm h (Scope.glob g) (fun x hx => ha x (hr x hx)) n
  | content c =>
    rw [value]
    cases hc : content o g c g n with
    | error x => exact (hc ▸ content_firm o ha c h hr (Scope.glob g) n : Firm (.error x : Except Err (List V))).error
    | ok v => exact Firm.ok _
  | empty => exact Firm.ok _

end Verif.Globals
