import Verif.Xslt.GlobalsAgain

/-
C75: global variables and parameters.
-/
namespace Verif.Globals
open Verif Spec

variable {V N : Type}

/-- C75.  A stylesheet that is used for the first time: the global variables get the values that XSLT defines, in
whatever order they are declared; otherwise an exception is raised.  Missing: variables that are declared before
variables to which they refer inside of for-each, apply-templates or an element with local variables (then
`C75_refuted_focus` and `C75_refuted_scope` hold).  `lead` are declarations that come after all that they refer to, or
refer to parameters `a` that are passed. -/
theorem C75_values_partial (o : Ops V N) (refs : Nat → List Name) (lead rest : List (Global V N)) (given : Env V) (n : N)
    (a : List Name) (hp : Proper refs (lead ++ rest))
    (ha : ∀ x ∈ a, given x ≠ none ∧ ∃ g ∈ lead ++ rest, g.param = true ∧ g.name = x) (hl : Ordered refs a lead)
    (hr : ∀ g ∈ rest, InnerDef refs (a ++ lead.map (·.name)) g.value) :
    Right o (lead ++ rest) given n ((⟨lead ++ rest, []⟩ : Sheet V N).prime o given n).1
      ((⟨lead ++ rest, []⟩ : Sheet V N).prime o given n).2.2 := by
  refine prime_right (sh := ⟨lead ++ rest, []⟩) hp rfl rfl ?_ hl hr
  intro x hx
  obtain ⟨h1, g, h2, h3, rfl⟩ := ha x hx
  exact ⟨List.mem_map_of_mem (List.mem_filter.mpr ⟨h2, h3⟩), h1⟩

/-- C75.  The order of the declarations makes no difference. -/
theorem C75_order_partial (o : Ops V N) (refs : Nat → List Name) (gs gs' : List (Global V N)) (given : Env V) (n : N)
    (hm : ∀ g, g ∈ gs ↔ g ∈ gs') (hp : Proper refs gs) (hp' : Proper refs gs')
    (hi : ∀ g ∈ gs, InnerDef refs [] g.value) :
    (((⟨gs, []⟩ : Sheet V N).prime o given n).1 = some (.ok ()) ↔
      ((⟨gs', []⟩ : Sheet V N).prime o given n).1 = some (.ok ())) ∧
    (((⟨gs, []⟩ : Sheet V N).prime o given n).1 = some (.ok ()) →
      ((⟨gs, []⟩ : Sheet V N).prime o given n).2.2.dict = ((⟨gs', []⟩ : Sheet V N).prime o given n).2.2.dict) := by
  have h1 := C75_values_partial o refs [] gs given n [] hp nofun trivial hi
  have h2 := right_mem (fun g => (hm g).symm)
    (C75_values_partial o refs [] gs' given n [] hp' nofun trivial (fun g hg => hi g ((hm g).mpr hg)))
  rw [List.nil_append] at h1 h2
  refine ⟨h1.ok.trans h2.ok.symm, fun hok => funext fun x => ?_⟩
  have hok' := h2.ok.mpr (h1.ok.mp hok)
  have := fun v => (h1.values hok x v).trans (h2.values hok' x v).symm
  cases hx : ((⟨gs, []⟩ : Sheet V N).prime o given n).2.2.dict x with
  | some v => rw [(this v).mp hx]
  | none =>
    cases hy : ((⟨gs', []⟩ : Sheet V N).prime o given n).2.2.dict x with
    | none => rfl
    | some v => rw [(this v).mpr hy] at hx; cases hx

/-- C75.  A stylesheet that has been used before, for any documents, with any outcomes: it gives the same values as if
it were new.  Missing: earlier uses with parameters that are not passed now (`C75_refuted_again`), variables with
content (`C75_refuted_shared`). -/
theorem C75_again_partial (o : Ops V N) (refs : Nat → List Name) (gs : List (Global V N)) (runs : List (Env V × N))
    (given : Env V) (n : N) (hp : Proper refs gs) (hs : Selects gs)
    (hr : ∀ r ∈ runs, ∀ g ∈ gs, g.param = true → r.1 g.name ≠ none → given g.name ≠ none) :
    Right o gs given n ((after o ⟨gs, []⟩ runs).prime o given n).1 ((after o ⟨gs, []⟩ runs).prime o given n).2.2 := by
  have hu : Used refs ((gs.filter fun g => g.param && (given g.name).isSome).map (·.name)) gs (⟨gs, []⟩ : Sheet V N) :=
    ⟨hp.names, fun _ => Iff.rfl, fun _ _ _ _ _ _ hc => nomatch hc⟩
  have hu' := Used.after o hs hp.fits runs _ hu (by
    intro r hr' x hx hg
    unfold Sheet.parameters at hx
    obtain ⟨g, k1, rfl⟩ := List.mem_map.mp hx
    obtain ⟨k1, k2⟩ := List.mem_filter.mp k1
    have := hr r hr' g k1 k2 hg
    refine List.mem_map_of_mem (List.mem_filter.mpr ⟨k1, ?_⟩)
    cases hv : given g.name with
    | none => exact absurd hv this
    | some v => rw [k2]; rfl)
  refine hu'.right o hs hp.fits ?_
  intro x hx
  obtain ⟨g, k1, rfl⟩ := List.mem_map.mp hx
  obtain ⟨k1, k2⟩ := List.mem_filter.mp k1
  rw [Bool.and_eq_true] at k2
  refine ⟨List.mem_map_of_mem (List.mem_filter.mpr ⟨(hu'.mem g).mpr k1, k2.1⟩), ?_⟩
  intro e; rw [e] at k2; exact nomatch k2.2

/-- C75.  Only parameters can be passed: what is given for other names makes no difference, however the stylesheet has
been used. -/
theorem C75_parameters (o : Ops V N) (sh : Sheet V N) (given given' : Env V) (n : N)
    (h : ∀ g ∈ sh.order, g.param = true → given g.name = given' g.name) : sh.prime o given n = sh.prime o given' n := by
  have : sh.initial given = sh.initial given' := by
    funext x
    unfold Sheet.initial
    split
    · rename_i hx
      obtain ⟨g, k1, rfl⟩ := List.mem_map.mp hx
      obtain ⟨k1, k2⟩ := List.mem_filter.mp k1
      exact h g k1 k2
    · rfl
  unfold Sheet.prime Sheet.start
  rw [this]

/-- C75.  Variables that need each other have no values: the exception is raised. -/
theorem C75_circular (o : Ops V N) (refs : Nat → List Name) (gs : List (Global V N)) (given : Env V) (n : N)
    (circle : List Name) (hp : Proper refs gs) (hs : Selects gs) (hne : circle ≠ [])
    (hc : ∀ x ∈ circle, ∃ g ∈ gs, g.name = x ∧ ¬ (g.param = true ∧ given x ≠ none) ∧
      ∃ e, g.value = .select e ∧ ∃ y ∈ e.fv, y ∈ circle) :
    ∃ err, ((⟨gs, []⟩ : Sheet V N).prime o given n).1 = some (.error err) ∧
      ((∃ x, err = .circular x ∧ ¬ ∃ v, HasValue o gs given n x v) ∨ ∃ e, err = .other e ∧ Fails o gs given n e) := by
  have hR := C75_again_partial o refs gs [] given n hp hs nofun
  have hno : ∀ x v, HasValue o gs given n x v → x ∉ circle := by
    intro x v h
    induction h with
    | passed g v hg hpar hgv =>
      intro hm
      obtain ⟨g', h1, h2, h3, _⟩ := hc _ hm
      have := hp.inj g' h1 g hg h2
      subst this
      exact h3 ⟨hpar, by rw [hgv]; nofun⟩
    | computed g env v hg _ henv hv ih =>
      intro hm
      obtain ⟨g', h1, h2, _, e, h4, y, h5, h6⟩ := hc _ hm
      have := hp.inj g' h1 g hg h2
      subst this
      rw [h4] at hv
      cases hy : env y with
      | some w => exact ih y w hy h6
      | none =>
        have hv' : expr env n e = .ok v := hv
        cases hd : e.fv.find? (fun x => (env x).isNone) with
        | some z => rw [expr_undef hd] at hv'; cases hv'
        | none =>
          have := find_none_iff.mp hd y h5
          rw [hy] at this; cases this
  cases hr : ((⟨gs, []⟩ : Sheet V N).prime o given n).1 with
  | none => exact absurd hr hR.ends
  | some r =>
    cases r with
    | ok u =>
      cases circle with
      | nil => exact absurd rfl hne
      | cons x xs =>
        obtain ⟨g, h1, rfl, _⟩ := hc x List.mem_cons_self
        obtain ⟨v, hv⟩ := hR.ok.mp hr g h1
        exact absurd List.mem_cons_self (hno _ v hv)
    | error x =>
      refine ⟨x, rfl, ?_⟩
      rcases hR.error x hr with ⟨g, h1, h2, h3⟩ | h
      · exact .inl ⟨g.name, h2, h3⟩
      · exact .inr h

/-! Examples.  Values and foci are numbers; a number `k` stands for the foci `1, …, k`; a fragment is the number with the
given digits. -/
namespace Sample

def ops : Ops Nat Nat := ⟨fun v => v != 0, fun v => (List.range v).map (· + 1), fun l => l.foldl (fun a b => 10 * a + b) 0, 0⟩

def nm (s : String) : Name := (none, s.toList)
def x : Name := nm "x"
def y : Name := nm "y"
def z : Name := nm "z"
def p : Name := nm "p"
def t : Name := nm "t"

/-- A number, a variable, the sum of two variables, the focus. -/
def num (i k : Nat) : GExpr Nat Nat := ⟨i, [], fun _ => .ret k⟩
def ref (i : Nat) (x : Name) : GExpr Nat Nat := ⟨i, [x], fun _ => .ask x .ret⟩
def sum (i : Nat) (x y : Name) : GExpr Nat Nat := ⟨i, [x, y], fun _ => .ask x fun a => .ask y fun b => .ret (a + b)⟩
def here (i : Nat) : GExpr Nat Nat := ⟨i, [], fun n => .ret n⟩

/-- `x` = `$y + $z`, `y` = `$z`, `z` with the content 4 and 2, a parameter `p` that is `$x` by default. -/
def forward : List (Global Nat Nat) :=
  [⟨x, false, .select (sum 0 y z)⟩, ⟨y, false, .select (ref 1 z)⟩,
   ⟨z, false, .content (.out (num 2 4) (.out (num 3 2) .done))⟩, ⟨p, true, .select (ref 4 x)⟩]

def refs : Nat → List Name
  | 0 => [y, z]
  | 1 => [z]
  | 4 => [x]
  | _ => []

theorem fitsE_num (r : Nat → List Name) (i k : Nat) (h : r i = []) : FitsE r [] (num i k) :=
  ⟨fun _ => trivial, nofun, by show ∀ x ∈ r i, _; rw [h]; nofun⟩

theorem fitsE_here (r : Nat → List Name) (i : Nat) (h : r i = []) : FitsE r [] (here i) :=
  ⟨fun _ => trivial, nofun, by show ∀ x ∈ r i, _; rw [h]; nofun⟩

theorem fitsE_ref (r : Nat → List Name) (i : Nat) (x : Name) (h : r i = [x]) : FitsE r [] (ref i x) :=
  ⟨fun _ => ⟨List.mem_cons_self, fun _ => trivial⟩, fun y hy => .inr (by show y ∈ r i; rw [h]; exact hy),
    fun y hy => ⟨by have : y ∈ r i := hy; rw [h] at this; exact this, nofun⟩⟩

theorem fitsE_sum (r : Nat → List Name) (i : Nat) (x y : Name) (h : r i = [x, y]) : FitsE r [] (sum i x y) :=
  ⟨fun _ => ⟨List.mem_cons_self, fun _ => ⟨List.mem_cons_of_mem _ List.mem_cons_self, fun _ => trivial⟩⟩,
    fun y hy => .inr (by show y ∈ r i; rw [h]; exact hy),
    fun y hy => ⟨by have : y ∈ r i := hy; rw [h] at this; exact this, nofun⟩⟩

theorem forward_proper : Proper refs forward := by
  refine ⟨by decide +kernel, ?_⟩
  intro g hg
  simp only [forward, List.mem_cons, List.not_mem_nil, or_false] at hg
  rcases hg with rfl | rfl | rfl | rfl
  · exact fitsE_sum refs 0 y z rfl
  · exact fitsE_ref refs 1 z rfl
  · exact ⟨fitsE_num refs 2 4 rfl, fitsE_num refs 3 2 rfl, trivial⟩
  · exact fitsE_ref refs 4 x rfl

/-- The hypotheses of `C75_values_partial` hold, and the values are as expected: it takes three passes. -/
example : (∀ g ∈ forward, InnerDef refs [] g.value) ∧
    ((⟨forward, []⟩ : Sheet Nat Nat).prime ops (fun _ => none) 0).1 = some (.ok ()) ∧
    ([x, y, z, p].map ((⟨forward, []⟩ : Sheet Nat Nat).prime ops (fun _ => none) 0).2.2.dict) =
      [some 84, some 42, some 42, some 84] ∧
    ((⟨forward, []⟩ : Sheet Nat Nat).prime ops (fun _ => none) 0).2.1.order.map (·.name) = [z, y, x, p] := by
  refine ⟨?_, by decide +kernel, by decide +kernel, by decide +kernel⟩
  intro g hg
  simp only [forward, List.mem_cons, List.not_mem_nil, or_false] at hg
  rcases hg with rfl | rfl | rfl | rfl
  · trivial
  · trivial
  · simp [InnerDef, Code.declares, Inner]
  · trivial

/-- A passed value is used for the parameter; a value passed for a variable is not used. -/
example : ((⟨forward, []⟩ : Sheet Nat Nat).prime ops (fun a => if a = p then some 1 else if a = z then some 9 else none) 0
    ).2.2.dict p = some 1 ∧
    ((⟨forward, []⟩ : Sheet Nat Nat).prime ops (fun a => if a = p then some 1 else if a = z then some 9 else none) 0
    ).2.2.dict z = some 42 := by
  decide +kernel

/-- `x` = `$p`, a parameter `p` that is 5 by default. -/
def early : List (Global Nat Nat) := [⟨x, false, .select (ref 0 p)⟩, ⟨p, true, .select (num 1 5)⟩]

def refsE : Nat → List Name
  | 0 => [p]
  | _ => []

theorem early_proper : Proper refsE early := by
  refine ⟨by decide +kernel, ?_⟩
  intro g hg
  simp only [early, List.mem_cons, List.not_mem_nil, or_false] at hg
  rcases hg with rfl | rfl
  · exact fitsE_ref refsE 0 p rfl
  · exact fitsE_num refsE 1 5 rfl

theorem early_selects : Selects early := by
  constructor
  · intro g hg c
    simp only [early, List.mem_cons, List.not_mem_nil, or_false] at hg
    rcases hg with rfl | rfl <;> nofun
  · intro g hg h hh e e' he he' hid
    simp only [early, List.mem_cons, List.not_mem_nil, or_false] at hg hh
    rcases hg with rfl | rfl <;> rcases hh with rfl | rfl
    · rfl
    · injection he with he; injection he' with he'; subst he; subst he'; exact absurd hid (by decide)
    · injection he with he; injection he' with he'; subst he; subst he'; exact absurd hid (by decide)
    · rfl

/-- The hypotheses of `C75_again_partial`: used first without, then with the parameter. -/
example : (∀ r ∈ [((fun _ => none : Env Nat), 0)], ∀ g ∈ early, g.param = true → r.1 g.name ≠ none →
      (fun a => if a = p then some 7 else none : Env Nat) g.name ≠ none) ∧
    ((after ops ⟨early, []⟩ [((fun _ => none : Env Nat), 0)]).prime ops
      (fun a => if a = p then some 7 else none) 0).2.2.dict x = some 7 := by
  refine ⟨?_, by decide +kernel⟩
  intro r hr g _ _ hn
  rw [List.mem_singleton] at hr
  subst hr
  exact absurd rfl hn

/-- Two variables that need each other. -/
def circle : List (Global Nat Nat) :=
  [⟨z, false, .select (num 2 1)⟩, ⟨x, false, .select (ref 0 y)⟩, ⟨y, false, .select (ref 1 x)⟩]

/-- The hypothesis of `C75_circular`, and what is reported. -/
example : (∀ a ∈ [x, y], ∃ g ∈ circle, g.name = a ∧ ¬ (g.param = true ∧ (fun _ => none : Env Nat) a ≠ none) ∧
      ∃ e, g.value = .select e ∧ ∃ b ∈ e.fv, b ∈ [x, y]) ∧
    ((⟨circle, []⟩ : Sheet Nat Nat).prime ops (fun _ => none) 0).1 = some (.error (.circular x)) := by
  refine ⟨?_, by decide +kernel⟩
  intro a ha
  simp only [List.mem_cons, List.not_mem_nil, or_false] at ha
  rcases ha with rfl | rfl
  · exact ⟨_, List.mem_cons_of_mem _ List.mem_cons_self, rfl, (fun h => nomatch h.1), _, rfl, y, List.mem_cons_self,
      by decide +kernel⟩
  · exact ⟨_, List.mem_cons_of_mem _ (List.mem_cons_of_mem _ List.mem_cons_self), rfl, (fun h => nomatch h.1), _, rfl, x,
      List.mem_cons_self, by decide +kernel⟩

end Sample
open Sample

/-- C75 does not hold for a stylesheet that was used with more parameters than now: `x` was compiled when `$p` was
there, and is now evaluated before `$p` has its default value.  The run fails with a `KeyError`; a new stylesheet object
gives `x` the value 5. -/
theorem C75_refuted_again :
    ((⟨early, []⟩ : Sheet Nat Nat).prime ops (fun _ => none) 0).1 = some (.ok ()) ∧
    ((⟨early, []⟩ : Sheet Nat Nat).prime ops (fun _ => none) 0).2.2.dict x = some 5 ∧
    ((after ops ⟨early, []⟩ [((fun a => if a = p then some 7 else none : Env Nat), 0)]).prime ops (fun _ => none) 0).1 =
      some (.error (.key p)) := by
  decide +kernel

/-- `x` has a for-each with `$y` in it, `z` is the context node, `y` is 3. -/
def Sample.focus : List (Global Nat Nat) :=
  [⟨x, false, .content (.each (num 0 2) (.out (ref 1 y) .done) .done)⟩, ⟨z, false, .select (here 2)⟩,
   ⟨y, false, .select (num 3 3)⟩]

/-- C75 does not hold for variables with for-each: the focus of the for-each that was given up is the focus of the
variables after it.  `z` is the context node, which is 0, but it gets the value 1. -/
theorem C75_refuted_focus :
    HasValue ops Sample.focus (fun _ => none) 0 z 0 ∧
    ((⟨Sample.focus, []⟩ : Sheet Nat Nat).prime ops (fun _ => none) 0).1 = some (.ok ()) ∧
    ((⟨Sample.focus, []⟩ : Sheet Nat Nat).prime ops (fun _ => none) 0).2.2.dict z = some 1 ∧
    ((⟨Sample.focus, []⟩ : Sheet Nat Nat).prime ops (fun _ => none) 0).2.2.focus = 1 := by
  refine ⟨?_, by decide +kernel, by decide +kernel, by decide +kernel⟩
  exact .computed ⟨z, false, .select (here 2)⟩ (fun _ => none) 0 (List.mem_cons_of_mem _ List.mem_cons_self)
    (fun h => nomatch h.1) nofun rfl

/-- `x` has a local variable and then `$y`, `y` is 3. -/
def Sample.local : List (Global Nat Nat) :=
  [⟨x, false, .content (.var t (num 0 1) (.out (ref 1 y) .done))⟩, ⟨y, false, .select (num 3 3)⟩]

/-- C75 does not hold for variables with local variables: the copy of the variables stays in use, so the values of all
variables that come later are lost when the templates begin. -/
theorem C75_refuted_scope :
    HasValue ops Sample.local (fun _ => none) 0 y 3 ∧
    ((⟨Sample.local, []⟩ : Sheet Nat Nat).prime ops (fun _ => none) 0).1 = some (.ok ()) ∧
    ((⟨Sample.local, []⟩ : Sheet Nat Nat).prime ops (fun _ => none) 0).2.2.dict y = none ∧
    ((⟨Sample.local, []⟩ : Sheet Nat Nat).prime ops (fun _ => none) 0).2.2.dict x = none := by
  refine ⟨?_, by decide +kernel, by decide +kernel, by decide +kernel⟩
  exact .computed ⟨y, false, .select (num 3 3)⟩ (fun _ => none) 3 (List.mem_cons_of_mem _ List.mem_cons_self)
    (fun h => nomatch h.1) nofun rfl

/-- `x` and `z` both apply a template that refers to `$y`; `x` only if the document is of some kind. -/
def Sample.shared : List (Global Nat Nat) :=
  [⟨x, false, .content (.ite (here 0) (.apply (num 1 1) (fun _ => .out (ref 2 y) .done) .done) .done)⟩,
   ⟨y, false, .select (num 3 3)⟩,
   ⟨z, false, .content (.apply (num 4 1) (fun _ => .out (ref 2 y) .done) .done)⟩]

/-- C75 does not hold for variables with content in a stylesheet that was used before: the template was compiled for
another variable.  The second run fails with a `KeyError`, which does not happen with a new stylesheet object. -/
theorem C75_refuted_shared :
    ((⟨Sample.shared, []⟩ : Sheet Nat Nat).prime ops (fun _ => none) 1).1 = some (.ok ()) ∧
    ((⟨Sample.shared, []⟩ : Sheet Nat Nat).prime ops (fun _ => none) 0).1 = some (.ok ()) ∧
    ((after ops ⟨Sample.shared, []⟩ [((fun _ => none : Env Nat), 0)]).prime ops (fun _ => none) 1).1 =
      some (.error (.key y)) := by
  decide +kernel

end Verif.Globals
