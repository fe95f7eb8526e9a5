import Verif.Code.Sim
import Verif.Code.Correct3

/-
Which constants are in the code of an expression, how much code it is, and when there is any.
-/
namespace Verif.Code.Spec

open Verif.Py Verif.Code

variable {V : Type} (K : Known V) (env : Env V)

/-- The objects that all code can refer to. -/
def Known.objects : List V :=
  [K.boolean, K.number, K.string, K.nodeset, K.unioniter, K.true, K.false, K.nan, K.empty, K.none]

/-- The objects of an extension function. -/
def funcObjects : Option (Func V) → List V
  | some f => f.value :: f.dynamic.toList
  | none => []

mutual
/-- The objects in an expression. -/
def objects : Expr V → List V
  | .literal _ _ number string => number.toList ++ string.toList
  | .var pre loc => [namespaceOf K env pre, K.str loc]
  | .call self => [self]
  | .known self value => [self, value]
  | .ext self pre loc args => self :: args ++ funcObjects (funcOf env pre loc)
  | .logic _ l r => objects l ++ objects r
  | .compare _ l r => objects l ++ objects r
  | .arith _ l r => objects l ++ objects r
  | .neg e => objects e
  | .union ps => objectss ps
  | .path e p => objects e ++ objects p
  | .filter e select => objects e ++ select.toList
  | .steps _ ss => ss.filterMap (·.select)
/-- See `objects`. -/
def objectss : Exprs V → List V
  | .nil => []
  | .cons e es => objects e ++ objectss es
end

mutual
/-- The number of parts of an expression. -/
def parts : Expr V → Nat
  | .ext _ _ _ args => 1 + args.length
  | .logic _ l r => 1 + parts l + parts r
  | .compare _ l r => 1 + parts l + parts r
  | .arith _ l r => 1 + parts l + parts r
  | .neg e => 1 + parts e
  | .union ps => 1 + partss ps
  | .path e p => 1 + parts e + parts p
  | .filter e _ => 1 + parts e
  | .steps _ ss => 1 + ss.length
  | _ => 1
/-- See `parts`. -/
def partss : Exprs V → Nat
  | .nil => 0
  | .cons e es => 1 + parts e + partss es
end

/-- A variable is known. -/
def varKnown (pre : Option Str) (loc : Str) : Prop :=
  match pre with
  | none => env.variables none loc = true
  | some p => ∃ ns, env.namespaces p = some ns ∧ env.variables (some ns) loc = true

/-- An extension function is known and takes so many arguments. -/
def funcKnown (pre loc : Str) (argc : Nat) : Prop :=
  ∃ f, funcOf env pre loc = some f ∧ ∀ s, f.sig = some s → argc + 1 + s.defaults ≥ s.args ∧ (argc + 1 ≤ s.args ∨ s.varargs = true)

mutual
/-- An expression can be compiled in a way: names are known; what must be a node set can be one. -/
def Sound : Expr V → Mode → Prop
  | .literal .., m => m ≠ .nodeset ∧ m ≠ .iterable
  | .var pre loc, _ => varKnown env pre loc
  | .call _, m => m ≠ .iterable
  | .known .., m => m ≠ .iterable
  | .ext _ pre loc args, m => m ≠ .iterable ∧ (m = .plain → funcKnown env pre loc args.length)
  | .logic _ l r, m => Sound l .boolean ∧ Sound r .boolean ∧ m ≠ .nodeset ∧ m ≠ .iterable
  | .compare _ l r, m => Sound l .plain ∧ Sound r .plain ∧ m ≠ .nodeset ∧ m ≠ .iterable
  | .arith _ l r, m => Sound l .number ∧ Sound r .number ∧ m ≠ .nodeset ∧ m ≠ .iterable
  | .neg e, m => Sound e .number ∧ m ≠ .nodeset ∧ m ≠ .iterable
  | .union ps, m => (m = .boolean → Sounds ps .boolean ∧ 0 < len ps) ∧ (m ≠ .boolean → Sounds ps .iterable)
  | .path e p, _ => Sound e (if givesNodes e then .iterable else .nodeset) ∧ Sound p .iterable
  | .filter e _, _ => Sound e .nodeset
  | .steps _ ss, _ => ∀ s ∈ ss, s.select ≠ none
/-- See `Sound`. -/
def Sounds : Exprs V → Mode → Prop
  | .nil, _ => True
  | .cons e es, m => Sound e m ∧ Sounds es m
end

end Verif.Code.Spec

namespace Verif.Code

open Verif.Py Verif.Code.Spec Gen

variable {V : Type} {C : V → Prop} {K : Known V} {env : Env V}

/-- The number of instructions. -/
def Graph.total (g : Graph V) : Nat := (g.blocks.map fun b => b.ins.length).sum

/-- All constants are as said. -/
def GAll (C : V → Prop) (g : Graph V) : Prop := ∀ k ∈ g.blocks, ∀ i ∈ k.ins, InsC C i

/-- A call emits at most so many instructions, with constants as said. -/
def Keeps (C : V → Prop) (n : Nat) (gen : Gen V) : Prop :=
  ∀ s s', gen s = .ok s' → s'.g.total ≤ s.g.total + n ∧ (GAll C s.g → GAll C s'.g)

theorem Keeps.mono {m n : Nat} {a : Gen V} (h : Keeps C m a) (hmn : m ≤ n) : Keeps C n a := fun s s' hg =>
  ⟨by have := (h s s' hg).1; omega, (h s s' hg).2⟩

theorem Keeps.seq {m n k : Nat} {a b : Gen V} (ha : Keeps C m a) (hb : Keeps C n b) (hk : m + n ≤ k) : Keeps C k (a ;; b) := by
  intro s s' h
  obtain ⟨t, h1, h2⟩ := seq_ok h
  have := ha s t h1
  have := hb t s' h2
  exact ⟨by omega, fun h => (hb t s' h2).2 ((ha s t h1).2 h)⟩

theorem Keeps.fail (e : CompError) {n : Nat} : Keeps C n (Gen.fail e : Gen V) := fun _ _ h => nomatch h

theorem Keeps.skip {n : Nat} : Keeps C n (Gen.skip : Gen V) := by
  intro s s' h
  cases h
  exact ⟨by omega, id⟩

theorem mem_modify {A : Type} {f : A → A} {l : List A} {k : Nat} {x : A} (h : x ∈ l.modify k f) : x ∈ l ∨ ∃ y ∈ l, x = f y := by
  induction l generalizing k with
  | nil => simp at h
  | cons a l ih =>
    cases k with
    | zero =>
      rw [List.modify_zero_cons] at h
      rcases List.mem_cons.1 h with h | h
      · exact .inr ⟨a, .head _, h⟩
      · exact .inl (.tail _ h)
    | succ k =>
      rw [List.modify_succ_cons] at h
      rcases List.mem_cons.1 h with h | h
      · exact .inl (h ▸ .head _)
      · rcases ih h with h | ⟨y, h1, h2⟩
        · exact .inl (.tail _ h)
        · exact .inr ⟨y, .tail _ h1, h2⟩

theorem sum_modify {A : Type} {f : A → A} {w : A → Nat} {n : Nat} (hf : ∀ a, w (f a) ≤ w a + n) (l : List A) (k : Nat) :
    ((l.modify k f).map w).sum ≤ (l.map w).sum + n := by
  induction l generalizing k with
  | nil => simp
  | cons a l ih =>
    cases k with
    | zero =>
      rw [List.modify_zero_cons]
      simp only [List.map_cons, List.sum_cons]
      have := hf a
      omega
    | succ k =>
      rw [List.modify_succ_cons]
      simp only [List.map_cons, List.sum_cons]
      have := ih k
      omega

theorem total_emit (g : Graph V) (is : List (Ins V)) : (g.emit is).total ≤ g.total + is.length :=
  sum_modify (fun a => by simp) g.blocks g.current

theorem total_newBlock (g : Graph V) : g.newBlock.total = g.total := by
  simp [Graph.total, Graph.newBlock]

theorem total_nextBlock (g : Graph V) (b : Nat) : (g.nextBlock b).total ≤ g.total :=
  sum_modify (n := 0) (fun a => by simp) g.blocks g.current

theorem total_nextNew (g : Graph V) : g.nextNew.total ≤ g.total := by
  have := total_nextBlock g.newBlock g.blocks.length
  rw [total_newBlock] at this
  exact this

theorem GAll.emit {g : Graph V} {is : List (Ins V)} (h : GAll C g) (hi : ∀ i ∈ is, InsC C i) : GAll C (g.emit is) := by
  intro k hk i hm
  rcases mem_modify hk with hk | ⟨y, hy, rfl⟩
  · exact h k hk i hm
  · rcases List.mem_append.1 hm with hm | hm
    · exact h y hy i hm
    · exact hi i hm

theorem GAll.newBlock {g : Graph V} (h : GAll C g) : GAll C g.newBlock := by
  intro k hk i hm
  rcases List.mem_append.1 hk with hk | hk
  · exact h k hk i hm
  · cases List.mem_singleton.1 hk; exact nomatch hm

theorem GAll.nextBlock {g : Graph V} {b : Nat} (h : GAll C g) : GAll C (g.nextBlock b) := by
  intro k hk i hm
  rcases mem_modify hk with hk | ⟨y, hy, rfl⟩
  · exact h k hk i hm
  · exact h y hy i hm

theorem GAll.nextNew {g : Graph V} (h : GAll C g) : GAll C g.nextNew := h.newBlock.nextBlock

theorem Keeps.emit {is : List (Ins V)} (hi : ∀ i ∈ is, InsC C i) {n : Nat} (hn : is.length ≤ n) : Keeps C n (Gen.emit is) := by
  intro s s' h
  cases h
  have := total_emit s.g is
  exact ⟨by show (s.g.emit is).total ≤ _; omega, fun h => h.emit hi⟩

theorem Keeps.withBlock {k : Nat → Gen V} {n : Nat} (h : ∀ b, Keeps C n (k b)) : Keeps C n (Gen.withBlock k) := by
  intro s s' hg
  unfold Gen.withBlock at hg
  have := h _ _ _ hg
  have ht := total_newBlock s.g
  exact ⟨by have := this.1; dsimp only at this; omega, fun h => this.2 h.newBlock⟩

theorem Keeps.withTmp {k : Str → Gen V} {n : Nat} (h : ∀ b, Keeps C n (k b)) : Keeps C n (Gen.withTmp k) := by
  intro s s' hg
  unfold Gen.withTmp at hg
  exact h _ { s with nlocals := s.nlocals + 1 } s' hg

theorem Keeps.nextNew {n : Nat} : Keeps C n (Gen.nextNew : Gen V) := by
  intro s s' h
  cases h
  have := total_nextNew s.g
  exact ⟨by show s.g.nextNew.total ≤ _; omega, fun h => h.nextNew⟩

theorem Keeps.next {b n : Nat} : Keeps C n (Gen.next b : Gen V) := by
  intro s s' h
  cases h
  have := total_nextBlock s.g b
  exact ⟨by show (s.g.nextBlock b).total ≤ _; omega, fun h => h.nextBlock⟩

/-- The constants of a list of instructions. -/
theorem insC_consts {is : List (Ins V)} (h : ∀ v, .const v ∈ is → C v)
    (h' : ∀ o n, .num o n ∈ is → n ≤ 65535 := by
      intro o n h; simp [loadCtx, storeCtx, contextNodes, selectCode] at h <;> omega) : ∀ i ∈ is, InsC C i := by
  intro i hi
  cases i with
  | const v => exact h v hi
  | num o n => exact h' o n hi
  | _ => trivial

/-- What is asked of the known objects. -/
def KC (C : V → Prop) (K : Known V) : Prop := ∀ v ∈ Known.objects K, C v

section
variable (hK : KC C K)
include hK

theorem kboolean : C K.boolean := hK _ (by simp [Known.objects])
theorem knumber : C K.number := hK _ (by simp [Known.objects])
theorem kstring : C K.string := hK _ (by simp [Known.objects])
theorem knodeset : C K.nodeset := hK _ (by simp [Known.objects])
theorem kunion : C K.unioniter := hK _ (by simp [Known.objects])
theorem ktrue : C K.true := hK _ (by simp [Known.objects])
theorem kfalse : C K.false := hK _ (by simp [Known.objects])
theorem knan : C K.nan := hK _ (by simp [Known.objects])
theorem kempty : C K.empty := hK _ (by simp [Known.objects])

omit hK in
theorem keeps_convert {f : V} (hf : C f) {own : Gen V} {n k : Nat} (h : Keeps C n own) (hk : n + 2 ≤ k) :
    Keeps C k (convert f own) := by
  refine .seq (m := 1) (.emit ?_ (by simp)) (n := n + 1) (.seq h (n := 1) (.emit ?_ (by simp)) (Nat.le_refl _)) (by omega)
  · intro i hi; cases List.mem_singleton.1 hi; exact hf
  · intro i hi; cases List.mem_singleton.1 hi; exact (by decide : 1 ≤ 65535)

theorem keeps_inherited {own : Gen V} {n k : Nat} (h : Keeps C n own) (hk : n + 2 ≤ k) (m : Mode) :
    Keeps C k (inherited K own m) := by
  cases m with
  | plain => exact h.mono (by omega)
  | boolean => exact keeps_convert (kboolean hK) h hk
  | number => exact keeps_convert (knumber hK) h hk
  | string => exact keeps_convert (kstring hK) h hk
  | nodeset => exact .fail _
  | iterable => exact .fail _

theorem keeps_booleanModes {own : Gen V} {n k : Nat} (h : Keeps C n own) (hk : n + 2 ≤ k) (m : Mode) :
    Keeps C k (booleanModes K own m) := by
  cases m with
  | boolean => exact h.mono (by omega)
  | plain => exact keeps_inherited hK h hk .plain
  | number => exact keeps_inherited hK h hk .number
  | string => exact keeps_inherited hK h hk .string
  | nodeset => exact keeps_inherited hK h hk .nodeset
  | iterable => exact keeps_inherited hK h hk .iterable

theorem keeps_numberModes {own : Gen V} {n k : Nat} (h : Keeps C n own) (hk : n + 2 ≤ k) (m : Mode) :
    Keeps C k (numberModes K own m) := by
  cases m with
  | number => exact h.mono (by omega)
  | plain => exact keeps_inherited hK h hk .plain
  | boolean => exact keeps_inherited hK h hk .boolean
  | string => exact keeps_inherited hK h hk .string
  | nodeset => exact keeps_inherited hK h hk .nodeset
  | iterable => exact keeps_inherited hK h hk .iterable

omit hK in
theorem keeps_makeBlock {body : Gen V} {n k : Nat} (h : Keeps C n body) (hk : n + 13 ≤ k) : Keeps C k (makeBlock body) := by
  refine .seq (m := 6) (.emit ?_ (by simp [loadCtx])) (n := n + 7)
    (.seq h (n := 7) (.emit ?_ (by simp [storeCtx])) (Nat.le_refl _)) (by omega)
  · exact insC_consts fun v hv => by simp [loadCtx] at hv
  · exact insC_consts fun v hv => by simp [storeCtx] at hv

omit hK in
theorem keeps_makeLoop {it : Gen V} {found empty : List (Ins V)} {n k : Nat} (h : Keeps C n it)
    (hf : ∀ i ∈ found, InsC C i) (he : ∀ i ∈ empty, InsC C i) (hk : n + 21 + found.length + empty.length ≤ k) :
    Keeps C k (makeLoop it found empty) := by
  refine keeps_makeBlock (n := n + 8 + found.length + empty.length) (.withBlock fun stop => .withBlock fun els => ?_) (by omega)
  refine .seq (m := 3) (n := n + 5 + found.length + empty.length) (.emit (insC_consts fun v hv => by simp [contextNodes, loadCtx] at hv) (by simp [contextNodes, loadCtx])) ?_ (by omega)
  refine .seq (m := n) (n := 5 + found.length + empty.length) h ?_ (by omega)
  refine .seq (m := 2) (n := 3 + found.length + empty.length) (.emit (insC_consts fun v hv => by simp at hv) (by simp)) ?_ (by omega)
  refine .seq (m := found.length) (n := 3 + empty.length) (.emit hf (by omega)) ?_ (by omega)
  refine .seq (m := 3) (n := empty.length) (.emit (insC_consts fun v hv => by simp at hv) (by simp)) ?_ (by omega)
  refine .seq (m := 0) (n := empty.length) .next ?_ (by omega)
  exact .seq (m := empty.length) (n := 0) (.emit he (by omega)) .next (by omega)

theorem keeps_nodesetModes {it : Gen V} {n k : Nat} (h : Keeps C n it) (hk : n + 26 ≤ k) (m : Mode) :
    Keeps C k (nodesetModes K it m) := by
  have hset : Keeps C k (makeNodeset K it) := by
    refine keeps_makeBlock (n := n + 5) (.seq (m := 4) (n := n + 1) (.emit (insC_consts fun v hv => ?_) (by simp [contextNodes, loadCtx])) (.seq h (n := 1) (.emit (insC_consts fun v hv => by simp at hv) (by simp)) (Nat.le_refl _)) (by omega)) (by omega)
    simp [contextNodes, loadCtx] at hv
    exact hv ▸ knodeset hK
  cases m with
  | plain => exact hset
  | nodeset => exact hset
  | iterable => exact h.mono (by omega)
  | boolean =>
    refine keeps_makeLoop h (insC_consts fun v hv => ?_) (insC_consts fun v hv => ?_) (by simp; omega)
    · simp at hv; exact hv ▸ ktrue hK
    · simp at hv; exact hv ▸ kfalse hK
  | number =>
    refine keeps_makeLoop h (insC_consts fun v hv => ?_) (insC_consts fun v hv => ?_) (by simp; omega)
    · simp at hv; exact hv ▸ knumber hK
    · simp at hv; exact hv ▸ knumber hK
  | string =>
    refine keeps_makeLoop h (insC_consts fun v hv => ?_) (insC_consts fun v hv => ?_) (by simp; omega)
    · simp at hv; exact hv ▸ kstring hK
    · simp at hv; exact hv ▸ kempty hK
end

theorem keeps_callGen {self : V} (h : C self) (m : Mode) : Keeps C 4 (callGen self m) := by
  have : Keeps C 4 (Gen.emit [.const self, .attr .load (methodName m), .fast .load ctxName, .num .callFunction 1]) :=
    .emit (insC_consts fun v hv => by simp at hv; exact hv ▸ h) (by simp)
  cases m with
  | iterable => exact .fail _
  | _ => exact this

theorem keeps_select {f : V} (h : C f) : Keeps C 5 (Gen.emit (selectCode f)) :=
  .emit (insC_consts fun v hv => by simp [selectCode] at hv; exact hv ▸ h) (by simp [selectCode])

theorem keeps_stepsCode {ss : List (Step V)} (h : ∀ v ∈ ss.filterMap (·.select), C v) : Keeps C (5 * ss.length) (stepsCode ss) := by
  induction ss with
  | nil => exact .skip
  | cons s ss ih =>
    unfold stepsCode
    cases hs : s.select with
    | none => exact .fail _
    | some f =>
      refine .seq (m := 5) (n := 5 * ss.length) (keeps_select (h f ?_)) (ih fun v hv => h v ?_) (by simp only [List.length_cons]; omega)
      · rw [List.filterMap_cons_some hs]; exact .head _
      · rw [List.filterMap_cons_some hs]; exact .tail _ hv

theorem varFind_ns {pre : Option Str} {loc : Str} {ns : Option V} (h : varFind env pre loc = .ok ns) :
    ns.getD K.none = namespaceOf K env pre := by
  unfold varFind at h
  cases pre with
  | none =>
    dsimp only at h
    split at h
    · cases h; rfl
    · exact nomatch h
  | some p =>
    dsimp only at h
    split at h
    · exact nomatch h
    · next ns' hns =>
      split at h
      · cases h; simp [namespaceOf, hns]
      · exact nomatch h

theorem extFind_func {pre loc : Str} {n : Nat} {f : Func V} (h : extFind env pre loc n = .ok f) : funcOf env pre loc = some f := by
  unfold extFind at h
  split at h
  · exact nomatch h
  · next ns hns =>
    split at h
    · exact nomatch h
    · next f' hf =>
      split at h
      · split at h
        · exact nomatch h
        · cases h; simp [funcOf, hns, hf]
      · cases h; simp [funcOf, hns, hf]

mutual
theorem keeps_compile (hK : KC C K) (e : Expr V) (hs : Small e) (he : ∀ v ∈ objects K env e, C v) (m : Mode) :
    Keeps C (40 * parts e) (compile K env e m) := by
  cases e with
  | literal isNumber notEmpty number string =>
    have hn : C (number.getD K.nan) := by
      cases number with
      | none => exact knan hK
      | some v => exact he v (by simp [objects])
    have hs : C (string.getD K.empty) := by
      cases string with
      | none => exact kempty hK
      | some v => exact he v (by simp [objects])
    have key : ∀ v, C v → Keeps C (40 * 1) (Gen.emit [.const v]) := fun v hv =>
      .emit (insC_consts fun u hu => by simp at hu; exact hu ▸ hv) (by simp)
    unfold compile
    show Keeps C (40 * 1) _
    cases m with
    | plain => cases isNumber <;> exact key _ (by assumption)
    | boolean =>
      cases notEmpty
      · exact key _ (kfalse hK)
      · exact key _ (ktrue hK)
    | number => exact key _ hn
    | string => exact key _ hs
    | nodeset => exact .fail _
    | iterable => exact .fail _
  | var pre loc =>
    have hown : Keeps C 6 (varGen K env pre loc) := by
      unfold varGen
      split
      · exact .fail _
      · next ns hns =>
        refine .emit (insC_consts fun v hv => ?_) (by simp [loadCtx])
        rw [varFind_ns (K := K) hns] at hv
        simp [loadCtx] at hv
        rcases hv with rfl | rfl
        · exact he _ (by simp [objects])
        · exact he _ (by simp [objects])
    unfold compile
    show Keeps C (40 * 1) _
    cases m with
    | nodeset => exact keeps_convert (knodeset hK) hown (by omega)
    | iterable =>
      show Keeps C (40 * 1) (emit [.op .popTop] ;; varGen K env pre loc ;; emit [.op .getIter])
      exact .seq (m := 1) (n := 7) (.emit (insC_consts fun v hv => by simp at hv) (by simp))
        (.seq hown (n := 1) (.emit (insC_consts fun v hv => by simp at hv) (by simp)) (by omega)) (by omega)
    | plain => exact keeps_inherited hK hown (by omega) .plain
    | boolean => exact keeps_inherited hK hown (by omega) .boolean
    | number => exact keeps_inherited hK hown (by omega) .number
    | string => exact keeps_inherited hK hown (by omega) .string
  | call self =>
    unfold compile
    exact (keeps_callGen (he self (by simp [objects])) m).mono (by show 4 ≤ 40 * 1; omega)
  | known self value =>
    unfold compile
    show Keeps C (40 * 1) _
    have hv : Keeps C (40 * 1) (Gen.emit [.const value]) :=
      .emit (insC_consts fun u hu => by simp at hu; exact hu ▸ he value (by simp [objects])) (by simp)
    have hc := fun m => (keeps_callGen (C := C) (he self (by simp [objects])) m).mono (show 4 ≤ 40 * 1 by omega)
    cases m with
    | plain => exact hv
    | boolean => exact hv
    | number => exact hc .number
    | string => exact hc .string
    | nodeset => exact hc .nodeset
    | iterable => exact hc .iterable
  | ext self pre loc args =>
    have hc := fun m => (keeps_callGen (C := C) (he self (by simp [objects])) m).mono (show 4 ≤ 40 * (1 + args.length) by omega)
    unfold compile
    show Keeps C (40 * (1 + args.length)) _
    cases m with
    | plain =>
      show Keeps C _ (extGen env pre loc args)
      unfold extGen
      split
      · exact .fail _
      · next f hf =>
        have hf := extFind_func hf
        refine .emit (insC_consts (fun v hv => ?_) fun o n hn => ?_) ?_
        · have hobj : ∀ v ∈ self :: args ++ funcObjects (some f), C v := fun v hv => he v (by simpa [objects, hf] using hv)
          simp only [List.mem_append, List.mem_cons, List.mem_map] at hv
          rcases hv with (hv | hv | ⟨u, hu, hv⟩) | hv
          · unfold funcCode at hv
            split at hv
            · next d hd =>
              simp at hv
              exact hobj v (by simp [funcObjects, hd, hv])
            · simp at hv
              exact hobj v (by simp [funcObjects, hv])
          · exact nomatch hv
          · cases hv; exact hobj v (by simp [hu])
          · simp at hv
        · have hs : args.length < 255 := hs
          simp only [List.mem_append, List.mem_cons, List.mem_map] at hn
          rcases hn with (hn | hn | ⟨u, hu, hn⟩) | hn
          · unfold funcCode at hn
            split at hn <;> simp at hn <;> omega
          · exact nomatch hn
          · exact nomatch hn
          · simp at hn; omega
        · have : (funcCode f).length ≤ 3 := by unfold funcCode; split <;> simp
          simp
          omega
    | boolean => exact hc .boolean
    | number => exact hc .number
    | string => exact hc .string
    | nodeset => exact hc .nodeset
    | iterable => exact hc .iterable
  | logic isOr l r =>
    have hl := keeps_compile hK l hs.1 (fun v hv => he v (by simp [objects, hv])) .boolean
    have hr := keeps_compile hK r hs.2 (fun v hv => he v (by simp [objects, hv])) .boolean
    unfold compile
    show Keeps C (40 * (1 + parts l + parts r)) _
    refine keeps_booleanModes hK (n := 40 * parts l + 40 * parts r + 2) (.withBlock fun stop => ?_) (by omega) m
    refine .seq (n := 40 * parts r + 2) hl ?_ (by omega)
    refine .seq (m := 1) (n := 40 * parts r + 1) (.emit (insC_consts fun v hv => by simp at hv) (by simp)) ?_ (by omega)
    refine .seq (m := 0) (n := 40 * parts r + 1) .nextNew ?_ (by omega)
    refine .seq (m := 1) (n := 40 * parts r) (.emit (insC_consts fun v hv => by simp at hv) (by simp)) ?_ (by omega)
    exact .seq hr (n := 0) .next (by omega)
  | compare c l r =>
    have hl := keeps_compile hK l hs.1 (fun v hv => he v (by simp [objects, hv])) .plain
    have hr := keeps_compile hK r hs.2 (fun v hv => he v (by simp [objects, hv])) .plain
    unfold compile
    show Keeps C (40 * (1 + parts l + parts r)) _
    refine keeps_booleanModes hK (n := 40 * parts l + 40 * parts r + 1) ?_ (by omega) m
    exact .seq hl (n := 40 * parts r + 1) (.seq hr (n := 1) (.emit (insC_consts fun v hv => by simp at hv) (by simp)) (by omega)) (by omega)
  | arith op l r =>
    have hl := keeps_compile hK l hs.1 (fun v hv => he v (by simp [objects, hv])) .number
    have hr := keeps_compile hK r hs.2 (fun v hv => he v (by simp [objects, hv])) .number
    unfold compile
    show Keeps C (40 * (1 + parts l + parts r)) _
    refine keeps_numberModes hK (n := 40 * parts l + 40 * parts r + 1) ?_ (by omega) m
    exact .seq hl (n := 40 * parts r + 1) (.seq hr (n := 1) (.emit (insC_consts fun v hv => by simp at hv) (by simp)) (by omega)) (by omega)
  | neg e =>
    have hl := keeps_compile hK e hs (fun v hv => he v (by simp [objects, hv])) .number
    unfold compile
    show Keeps C (40 * (1 + parts e)) _
    refine keeps_numberModes hK (n := 40 * parts e + 1) ?_ (by omega) m
    exact .seq hl (n := 1) (.emit (insC_consts fun v hv => by simp at hv) (by simp)) (by omega)
  | union ps =>
    have hi := keeps_args hK ps hs.2 (fun v hv => he v (by simp [objects, hv]))
    have hb := keeps_tests hK ps hs.2 (fun v hv => he v (by simp [objects, hv]))
    have hit : Keeps C (40 * partss ps + 4) (unionGen K (compiles K env ps .iterable)) :=
      .withTmp fun t =>
        .seq (m := 2) (n := 40 * partss ps + 2) (.emit (insC_consts fun v hv => by simp at hv; exact hv ▸ kunion hK) (by simp))
          (.seq (hi t) (n := 2) (.emit (insC_consts (fun v hv => by simp at hv) fun o n h => by
            simp at h
            have := len_compiles (K := K) (env := env) ps .iterable
            have := hs.1
            omega) (by simp)) (by omega)) (by omega)
    show Keeps C (40 * (1 + partss ps)) _
    cases m with
    | boolean =>
      unfold compile
      exact .withBlock fun stop => .seq (hb stop) (n := 0) .next (by omega)
    | plain => unfold compile; exact keeps_nodesetModes hK hit (by omega) .plain
    | number => unfold compile; exact keeps_nodesetModes hK hit (by omega) .number
    | string => unfold compile; exact keeps_nodesetModes hK hit (by omega) .string
    | nodeset => unfold compile; exact keeps_nodesetModes hK hit (by omega) .nodeset
    | iterable => unfold compile; exact keeps_nodesetModes hK hit (by omega) .iterable
  | path e p =>
    have h1 := fun m => keeps_compile hK e hs.1 (fun v hv => he v (by simp [objects, hv])) m
    have h2 := keeps_compile hK p hs.2 (fun v hv => he v (by simp [objects, hv])) .iterable
    unfold compile
    show Keeps C (40 * (1 + parts e + parts p)) _
    refine keeps_nodesetModes hK (n := 40 * parts e + 40 * parts p + 1) ?_ (by omega) m
    refine .seq (m := 40 * parts e + 1) ?_ h2 (by omega)
    split
    · exact (h1 _).mono (by omega)
    · exact .seq (m := 1) (.emit (insC_consts fun v hv => by simp at hv) (by simp)) (h1 _) (by omega)
  | filter e select =>
    have h1 := keeps_compile hK e hs (fun v hv => he v (by simp [objects, hv])) .nodeset
    unfold compile
    show Keeps C (40 * (1 + parts e)) _
    refine keeps_nodesetModes hK (n := 40 * parts e + 6) ?_ (by omega) m
    refine .seq (m := 1) (n := 40 * parts e + 5) (.emit (insC_consts fun v hv => by simp at hv) (by simp)) ?_ (by omega)
    refine .seq h1 (n := 5) ?_ (by omega)
    split
    · next s => exact keeps_select (he s (by simp [objects]))
    · exact .skip
  | steps absolute ss =>
    unfold compile
    show Keeps C (40 * (1 + ss.length)) _
    refine keeps_nodesetModes hK (n := 5 * ss.length + 5) ?_ (by omega) m
    refine .seq (m := 5) ?_ (keeps_stepsCode fun v hv => he v (by simpa [objects] using hv)) (by omega)
    split
    · exact .emit (insC_consts fun v hv => by simp [loadCtx] at hv) (by simp [loadCtx])
    · exact .skip
theorem keeps_args (hK : KC C K) (ps : Exprs V) (hs : Smalls ps) (he : ∀ v ∈ objectss K env ps, C v) (t : Str) :
    Keeps C (40 * partss ps) (unionArgs t (compiles K env ps .iterable)) := by
  cases ps with
  | nil => exact .skip
  | cons e es =>
    have h1 := keeps_compile hK e hs.1 (fun v hv => he v (by simp [objectss, hv])) .iterable
    have h2 := keeps_args hK es hs.2 (fun v hv => he v (by simp [objectss, hv])) t
    unfold compiles unionArgs
    show Keeps C (40 * (1 + parts e + partss es)) _
    exact .seq (m := 1) (n := 40 * parts e + 40 * partss es) (.emit (insC_consts fun v hv => by simp at hv) (by simp))
      (.seq h1 h2 (Nat.le_refl _)) (by omega)
theorem keeps_tests (hK : KC C K) (ps : Exprs V) (hs : Smalls ps) (he : ∀ v ∈ objectss K env ps, C v) (stop : Nat) :
    Keeps C (40 * partss ps) (unionTests stop (compiles K env ps .boolean)) := by
  cases ps with
  | nil => exact .fail _
  | cons e es =>
    have h1 := keeps_compile hK e hs.1 (fun v hv => he v (by simp [objectss, hv])) .boolean
    have h2 := keeps_tests hK es hs.2 (fun v hv => he v (by simp [objectss, hv])) stop
    show Keeps C (40 * (1 + parts e + partss es)) _
    cases es with
    | nil => exact h1.mono (by omega)
    | cons e' es' =>
      refine .seq h1 (n := 40 * partss (.cons e' es') + 2) ?_ (by omega)
      refine .seq (m := 1) (n := 40 * partss (.cons e' es') + 1) (.emit (insC_consts fun v hv => by simp at hv) (by simp)) ?_ (by omega)
      refine .seq (m := 0) (n := 40 * partss (.cons e' es') + 1) .nextNew ?_ (by omega)
      exact .seq (m := 1) (.emit (insC_consts fun v hv => by simp at hv) (by simp)) h2 (by omega)
end

end Verif.Code
