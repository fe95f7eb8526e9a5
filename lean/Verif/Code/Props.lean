import Verif.Code.Static

/-
C84: the code of a compiled XPath expression computes the expression.
-/
namespace Verif.Code

open Verif.Py Verif.Code.Spec Gen

variable {V W : Type}

/-- C84.  If an expression has been compiled, then calling its code with a context gives what the expression is said to
give (`Spec.eval`): the same value or the same exception, with the same effects in the same order.  No instruction finds
too few values on the stack, none goes beyond the size that was computed for it, no local variable is read before it is
set, no jump leads astray.  Asked is that no call has more than 255 arguments, and that no two different objects in the
expression are equal as keys of a dictionary. -/
theorem C84_code_computes (H : Host V W) (K : Known V) (env : Env V) (same : V → V → Bool) (doc : V) (e : Expr V) (m : Mode)
    (hm : m ≠ .iterable) (hsmall : Small e)
    (hsame : ∀ a ∈ doc :: Known.objects K ++ objects K env e, ∀ b ∈ doc :: Known.objects K ++ objects K env e,
      same a b = true → a = b)
    {code : Code V} (h : codeOf K env same doc e m = .ok code) (ctx nodes : V) (w : W) :
    ∃ n, ∀ fuel, n ≤ fuel → callCode H code [ctx] fuel w = some (result (eval H K env ctx e m nodes w)) := by
  unfold codeOf at h
  split at h
  · exact nomatch h
  · next s hs =>
    split at h
    · exact nomatch h
    · next c hc =>
      cases h
      refine code_runs (C := fun v => v ∈ doc :: Known.objects K ++ objects K env e)
        (fun a b ha hb => hsame a ha b hb) (by simp)
        (keeps_compile (K := K) (env := env) (fun v hv => by simp [hv]) e hsmall (fun v hv => by simp [hv]) m) ?_ hs hc w
      have := emits_compile (H := H) (K := K) (env := env) (ctx := ctx) e hsmall m
      unfold SemM at this
      rw [if_neg hm] at this
      exact this.mono fun _ _ _ _ h => h nodes

/-- C84.  An expression can be compiled exactly if its names are known, extension functions that are called for their
value get a number of arguments that they take, and what must be a node set can be one. -/
theorem C84_compiles_iff (K : Known V) (env : Env V) (same : V → V → Bool) (doc : V) (e : Expr V) (m : Mode) :
    (∀ x, codeOf K env same doc e m ≠ .error (.comp x)) ↔ Sound env e m := by
  have h := okIff_compile (K := K) (env := env) e m { g := Graph.new, nlocals := 0 }
  rw [← h]
  unfold codeOf
  cases hc : compile K env e m { g := Graph.new, nlocals := 0 } with
  | error x => exact ⟨fun hh => absurd rfl (hh x), (fun ⟨_, hh⟩ => nomatch hh)⟩
  | ok s =>
    refine ⟨fun _ => ⟨s, rfl⟩, fun _ x => ?_⟩
    dsimp only
    split <;> exact nofun

/-- C84.  An expression with at most 546 parts that can be compiled is assembled. -/
theorem C84_assembled (K : Known V) (env : Env V) (same : V → V → Bool) (doc : V) (e : Expr V) (m : Mode)
    (hsound : Sound env e m) (hsmall : Small e) (hparts : parts e ≤ 546)
    (hsame : ∀ a ∈ doc :: Known.objects K ++ objects K env e, ∀ b ∈ doc :: Known.objects K ++ objects K env e,
      same a b = true → a = b) :
    ∃ code, codeOf K env same doc e m = .ok code := by
  obtain ⟨s, hs⟩ := (okIff_compile (K := K) (env := env) e m { g := Graph.new, nlocals := 0 }).2 hsound
  obtain ⟨ch, hch⟩ := compile_chain e hsmall m hs
  have hk := keeps_compile (C := fun v => v ∈ doc :: Known.objects K ++ objects K env e) (K := K) (env := env)
    (fun v hv => by simp [hv]) e hsmall (fun v hv => by simp [hv]) m _ _ hs
  have hall := (hk.2 (by intro k hk i hi; cases List.mem_singleton.1 hk; exact nomatch hi)).nextNew.emit
    (is := [.op .returnValue]) (by intro i hi; cases List.mem_singleton.1 hi; trivial)
  have htot : (s.g.nextNew.emit [.op .returnValue]).total ≤ 21845 := by
    have h1 := total_emit s.g.nextNew [.op .returnValue]
    have h2 := total_nextNew s.g
    have h3 := hk.1
    have h4 : (Graph.new : Graph V).total = 0 := rfl
    dsimp only at h3
    rw [h4] at h3
    simp only [List.length_cons, List.length_nil] at h1
    omega
  obtain ⟨code, hc⟩ := assemble_ok (same := same) (doc := doc) (fun a b ha hb => hsame a ha b hb) (by simp) hch hall htot
  refine ⟨code, ?_⟩
  unfold codeOf
  rw [hs]
  dsimp only
  rw [hc]

/-- Where the node, the position and the size of a context are kept. -/
structure Spec.Keeper (H : Host V W) (ctx : V) (get : W → Str → V) : Prop where
  load : ∀ a w, a ∈ [s!! "node", s!! "position", s!! "size"] → H.getAttr ctx a w = (.ok (get w a), w)
  store : ∀ a v w, a ∈ [s!! "node", s!! "position", s!! "size"] → ∃ w', H.setAttr ctx a v w = (.ok (), w') ∧
    ∀ b ∈ [s!! "node", s!! "position", s!! "size"], get w' b = if b = a then v else get w b

theorem saving_restores {H : Host V W} {ctx : V} {get : W → Str → V} (hK : Keeper H ctx get) {body : Act V W V} {w w' : W} {v : V}
    (h : saving H ctx body w = (.ok v, w')) : ∀ b ∈ [s!! "node", s!! "position", s!! "size"], get w' b = get w b := by
  unfold saving at h
  simp only [act_bind_apply] at h
  rw [hK.load _ w (by simp)] at h
  dsimp only at h
  rw [hK.load _ w (by simp)] at h
  dsimp only at h
  rw [hK.load _ w (by simp)] at h
  dsimp only at h
  cases hb : body w with
  | mk r w1 =>
    rw [hb] at h
    cases r with
    | error e => exact nomatch h
    | ok v1 =>
      dsimp only at h
      obtain ⟨w2, h2, g2⟩ := hK.store (s!! "size") (get w (s!! "size")) w1 (by simp)
      rw [h2] at h
      dsimp only at h
      obtain ⟨w3, h3, g3⟩ := hK.store (s!! "position") (get w (s!! "position")) w2 (by simp)
      rw [h3] at h
      dsimp only at h
      obtain ⟨w4, h4, g4⟩ := hK.store (s!! "node") (get w (s!! "node")) w3 (by simp)
      rw [h4] at h
      dsimp only at h
      have hw : w4 = w' := (Prod.mk.inj h).2
      subst hw
      intro b hb
      rw [g4 b hb, g3 b hb, g2 b hb]
      simp only [List.mem_cons, List.not_mem_nil, or_false] at hb
      rcases hb with rfl | rfl | rfl <;> rfl

/-- C84.  After a path, a filter or a location path has been evaluated to a value, the node, the position and the size of
the context are what they were, whatever happened to them in between. -/
theorem C84_context_restored_partial (H : Host V W) (K : Known V) (env : Env V) {ctx : V} {get : W → Str → V}
    (hK : Keeper H ctx get) (e : Expr V) (he : e.isNodeset = true) (m : Mode) (hm : m ≠ .iterable)
    (hu : ∀ ps, e = .union ps → m ≠ .boolean) (nodes : V) (w w' : W) (v : V)
    (h : eval H K env ctx e m nodes w = (.ok v, w')) :
    ∀ b ∈ [s!! "node", s!! "position", s!! "size"], get w' b = get w b := by
  have key : ∀ it : V → Act V W V, nodesetAs H K ctx it m nodes w = (.ok v, w') →
      ∀ b ∈ [s!! "node", s!! "position", s!! "size"], get w' b = get w b := by
    intro it hh
    cases m with
    | iterable => exact absurd rfl hm
    | _ => exact saving_restores hK hh
  cases e with
  | union ps =>
    have := hu ps rfl
    cases m with
    | boolean => exact absurd rfl this
    | _ => unfold eval at h; exact key _ h
  | path e p => rw [eval] at h; exact key _ h
  | filter e s => rw [eval] at h; exact key _ h
  | steps a ss => rw [eval] at h; exact key _ h
  | _ => exact nomatch he

/-- The number of blocks that are walked through to find the size of the stack. -/
def Graph.stackWork (g : Graph V) : Nat := (walk g g.blocks.length [] 0 0 0 0).2

/-- C84, against "the time to compile an expression is not more than some multiple of its length": to compile
`v or v or … or v` with `n` times `or`, at least `2 ^ n` blocks are walked through. -/
theorem C84_refuted_time (K : Known V) (env : Env V) (v : V) (n : Nat) :
    ∃ s, compile K env (orChain v n) .boolean { g := Graph.new, nlocals := 0 } = .ok s ∧ parts (orChain v n) = 2 * n + 1 ∧
      2 ^ n ≤ (s.g.nextNew.emit [.op .returnValue]).stackWork := by
  have hsound : ∀ n, Sound env (orChain v n) .boolean := by
    intro n
    induction n with
    | zero => unfold orChain Sound; exact (nofun)
    | succ n ih => unfold orChain Sound; exact ⟨ih, by unfold Sound; exact (nofun), (nofun), (nofun)⟩
  have hparts : parts (orChain v n) = 2 * n + 1 := by
    induction n with
    | zero => rfl
    | succ n ih =>
      show 1 + parts (orChain v n) + 1 = _
      omega
  obtain ⟨s, hs⟩ := (okIff_compile (K := K) (env := env) _ .boolean { g := Graph.new, nlocals := 0 }).2 (hsound n)
  refine ⟨s, hs, hparts, ?_⟩
  obtain ⟨seg, hlay, hgr, hcost⟩ := emits_orChain (K := K) (env := env) v n _ _ _ Lay.new hs
  obtain ⟨ch, hch, hF⟩ := chain_of_lay ((hlay.nextNew).emit [.op .returnValue])
    (closed_append (closed_append (closed_append (a := [.label 0]) trivial hgr.closed) (b := [.label s.g.blocks.length]) trivial)
      ⟨(fun t h => nomatch h), trivial⟩)
  obtain ⟨r, rfl⟩ := hch.first
  have hw := walk_cost (g := s.g.nextNew.emit [.op .returnValue]) (s.g.nextNew.emit [.op .returnValue]).blocks.length
    (seen := []) (r := r) (b := 0) hch.links (fwd_of_closed hch.closed) hch.nodup
    (length_nodup hch.nodup hch.bound) (fun _ _ => (nofun)) 0 0 0
  unfold Graph.stackWork
  refine Nat.le_trans ?_ hw
  have hF : [Item.label 0] ++ seg ++ [.label s.g.blocks.length] ++ [Ins.op Op.returnValue].map .ins =
    Item.label 0 :: (((s.g.nextNew.emit [.op .returnValue]).block 0).ins.map .ins ++ items (s.g.nextNew.emit [.op .returnValue]) r) := hF
  have hF : seg ++ ([.label s.g.blocks.length] ++ [Ins.op Op.returnValue].map Item.ins) =
    ((s.g.nextNew.emit [.op .returnValue]).block 0).ins.map .ins ++ items (s.g.nextNew.emit [.op .returnValue]) r := by
    simpa using (List.cons.inj hF).2
  rw [← hF]
  have := hcost ([.label s.g.blocks.length] ++ [Ins.op Op.returnValue].map Item.ins)
  have h1 : 2 ^ n ≤ 2 ^ n * (cost ([.label s.g.blocks.length] ++ [Ins.op Op.returnValue].map (Item.ins (V := V))) + 1) :=
    Nat.le_mul_of_pos_right _ (by omega)
  omega

/-- C84, against "a union can have any node sets as its parts": a function, although it gives a node set, cannot be one
(`id('a') | b`). -/
theorem C84_refuted_union_of_function (K : Known V) (env : Env V) (same : V → V → Bool) (doc self : V) (e : Expr V) :
    codeOf K env same doc (.union (.cons (.call self) (.cons e .nil))) .nodeset = .error (.comp .typeError) := rfl

/-! ### Examples -/

/-- Objects of the examples: numbers with a sign, infinity, strings, functions, iterators. -/
inductive Obj where
  | num (neg : Bool) (n : Nat)
  | inf (neg : Bool)
  | str (s : Str)
  | obj (n : Nat)
  | list (l : List Nat)
  | iter
  deriving DecidableEq, Repr

/-- The calls that were made. -/
abbrev Log := List (Obj × List Obj)

/-- Division and addition as far as the examples need them. -/
def objBinary : Bin → Obj → Obj → Obj
  | .div, .num s _, .num t 0 => .inf (s != t)
  | .div, .num s n, .num t k => .num (s != t) (n / k)
  | .add, .num _ 0, x => x
  | .add, .num false a, .num false b => .num false (a + b)
  | _, _, _ => .obj 99

/-- A host for the examples: calls are written down. -/
def demo : Host Obj Log where
  getAttr _ s := fun w => (.ok (.str s), w)
  setAttr _ _ _ := fun w => (.ok (), w)
  call f args := fun w => (.ok (.obj w.length), w ++ [(f, args)])
  binary b x y := fun w => (.ok (objBinary b x y), w)
  negative x := fun w => (.ok x, w)
  compare _ x y := fun w => (.ok (if x = y then .num false 1 else .num false 0), w)
  truth x := fun w => (.ok (x != .num false 0), w)
  iter _ := fun w => (.ok .iter, w)
  next _ := fun w => (.ok (some (.obj 50)), w)
  tuple l := .list (l.map fun _ => 0)

/-- The known objects of the examples. -/
def demoKnown : Known Obj where
  boolean := .obj 1000
  number := .obj 1001
  string := .obj 1002
  nodeset := .obj 1003
  unioniter := .obj 1004
  true := .num false 1
  false := .num false 0
  nan := .obj 1005
  empty := .str []
  none := .obj 1006
  str := .str

/-- No prefixes; every variable without one. -/
def demoEnv : Env Obj := { namespaces := fun p => if p = s!! "f" then some (.str (s!! "urn:f")) else none, variables := fun ns _ => ns.isNone, functions := fun _ _ => some ⟨.obj 7, some ⟨300, 299, false⟩, none⟩ }

/-- Numbers are equal as keys without regard to the sign of zero. -/
def demoSame : Obj → Obj → Bool
  | .num s n, .num t k => n == k && (n == 0 || s == t)
  | x, y => x == y

/-- `0 + 1 div '-0'`. -/
def zeros : Expr Obj :=
  .arith .add (.literal true true (some (.num false 0)) none)
    (.arith .div (.literal true true (some (.num false 1)) none) (.literal false true (some (.num true 0)) (some (.str (s!! "-0")))))

/-- What a call gives. -/
def value : Option (Out Obj Log) → Option Obj
  | some (.ret v _) => some v
  | _ => none

/-- The code, or none. -/
def code? (e : Expr Obj) (m : Mode) : Option (Code Obj) := (codeOf demoKnown demoEnv demoSame (.str (s!! "doc")) e m).toOption

/-- C84, against the theorem without the condition on keys: 0 and -0 are one constant, so `0 + 1 div '-0'` is Infinity
and not -Infinity. -/
theorem C84_refuted_zero : ∃ code, codeOf demoKnown demoEnv demoSame (.str (s!! "doc")) zeros .plain = .ok code ∧
    value (callCode demo code [.obj 0] 50 []) = some (.inf false) ∧
    value (some (result (eval demo demoKnown demoEnv (.obj 0) zeros .plain (.obj 0) []))) = some (.inf true) := by
  cases h : codeOf demoKnown demoEnv demoSame (.str (s!! "doc")) zeros .plain with
  | error x =>
    have : (codeOf demoKnown demoEnv demoSame (.str (s!! "doc")) zeros .plain).toOption.isSome = true := by decide +kernel
    rw [h] at this
    exact nomatch this
  | ok code =>
    refine ⟨code, rfl, ?_, by decide +kernel⟩
    have : (codeOf demoKnown demoEnv demoSame (.str (s!! "doc")) zeros .plain).toOption.map
        (fun c => value (callCode demo c [.obj 0] 50 [])) = some (some (.inf false)) := by decide +kernel
    rw [h] at this
    exact Option.some.inj this

/-- An extension function with so many arguments. -/
def calls (n : Nat) : Expr Obj := .ext (.obj 1) (s!! "f") (s!! "g") (List.replicate n (.obj 2))

/-- Has the interpreter gone wrong? -/
def crashed : Option (Out Obj Log) → Bool
  | some .crash => true
  | _ => false

/-- C84, against the theorem without the condition on the number of arguments: of 256 arguments none is a positional one
(255 and the context). -/
theorem C84_refuted_arguments : (code? (calls 255) .plain).map (fun c => crashed (callCode demo c [.obj 0] 300 [])) = some true ∧
    (code? (calls 254) .plain).map (fun c => crashed (callCode demo c [.obj 0] 300 [])) = some false := by
  decide +kernel

/-- The state of a context: its node. -/
def raising : Host Obj Nat where
  getAttr _ _ := fun w => (.ok (.num false w), w)
  setAttr _ _ v := fun w => (.ok (), match v with | .num _ n => n | _ => w)
  call _ _ := fun _ => (.error (.str (s!! "error")), 5)
  binary _ x _ := fun w => (.ok x, w)
  negative x := fun w => (.ok x, w)
  compare _ x _ := fun w => (.ok x, w)
  truth _ := fun w => (.ok true, w)
  iter x := fun w => (.ok x, w)
  next x := fun w => (.ok (some x), w)
  tuple l := .list (l.map fun _ => 0)

/-- C84, against "the context is left as it was": not if there is an exception. -/
theorem C84_refuted_context : ∃ v, (eval raising demoKnown demoEnv (.obj 0) (.steps false [⟨some (.obj 3)⟩]) .plain (.obj 0) 1) =
    (.error v, 5) := ⟨_, rfl⟩

/-- `/a[1] | $x = (not(1) or f:g())`, roughly. -/
def example1 : Expr Obj :=
  .compare .eq (.union (.cons (.steps true [⟨some (.obj 3)⟩]) (.cons (.var none (s!! "x")) .nil)))
    (.logic true (.call (.obj 4)) (.ext (.obj 5) (s!! "f") (s!! "g") [.obj 6]))

example : Small example1 ∧ parts example1 = 11 ∧ Sound demoEnv example1 .boolean := by
  refine ⟨by unfold example1; simp [Small, Smalls, len], rfl, ?_⟩
  simp [example1, Sound, Sounds, varKnown, demoEnv]

example : ∀ a ∈ .str (s!! "doc") :: Known.objects demoKnown ++ objects demoKnown demoEnv example1,
    ∀ b ∈ .str (s!! "doc") :: Known.objects demoKnown ++ objects demoKnown demoEnv example1,
      demoSame a b = true → a = b := by decide +kernel

/-- The theorems apply: the code runs, and makes these calls. -/
example : (code? example1 .boolean).map (fun c => callCode demo c [.obj 0] 100 [] |>.map fun o => match o with
      | .ret v w => (v, w.map (·.1))
      | _ => (.iter, [])) =
    some (some (.num false 0, [.obj 3, .obj 1004, .obj 1003, .str (s!! "evaluate_as_boolean")])) := by decide +kernel

example : (code? example1 .boolean).map (fun c => (c.bytes.length, c.stackSize)) = some (144, 9) := by decide +kernel

example : Keeper (V := Obj) (W := Str → Obj) { (raising) with
    getAttr := fun _ a w => (.ok (w a), w)
    setAttr := fun _ a v w => (.ok (), fun b => if b = a then v else w b)
    call := fun _ _ _ => (.ok (.obj 1), fun _ => .obj 9)
    binary := fun _ x _ w => (.ok x, w)
    negative := fun x w => (.ok x, w)
    compare := fun _ x _ w => (.ok x, w)
    truth := fun _ w => (.ok true, w)
    iter := fun x w => (.ok x, w)
    next := fun x w => (.ok (some x), w)
    tuple := raising.tuple } (.obj 0) (fun w a => w a) where
  load _ _ _ := rfl
  store _ _ _ _ := ⟨_, rfl, fun _ _ => rfl⟩

end Verif.Code
