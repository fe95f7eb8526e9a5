import Verif.Code.Does

/-
The pieces that the `compile` methods append compute the expressions.
-/
namespace Verif.Code.Spec

open Verif.Code

variable {V : Type}

/-- The number of expressions in a list. -/
def len : Exprs V → Nat
  | .nil => 0
  | .cons _ es => len es + 1

mutual
/-- No call has more than 255 arguments. -/
def Small : Expr V → Prop
  | .ext _ _ _ args => args.length < 255
  | .logic _ l r => Small l ∧ Small r
  | .compare _ l r => Small l ∧ Small r
  | .arith _ l r => Small l ∧ Small r
  | .neg e => Small e
  | .union ps => len ps < 256 ∧ Smalls ps
  | .path e p => Small e ∧ Small p
  | .filter e _ => Small e
  | _ => True
/-- See `Small`. -/
def Smalls : Exprs V → Prop
  | .nil => True
  | .cons e es => Small e ∧ Smalls es
end

end Verif.Code.Spec

namespace Verif.Code

open Verif.Py Verif.Code.Spec

variable {V W A : Type} {H : Host V W} {K : Known V} {env : Env V} {ctx : V}

/-- A piece pushes a value. -/
def SemV (H : Host V W) (ctx : V) (a : Act V W V) : Nat → Nat → List (Item V) → Prop := fun lo hi seg =>
  ∀ stk, Does H (Ctx ctx) lo hi seg stk a (fun v => v :: stk)

/-- A piece replaces nodes by a value. -/
def SemI (H : Host V W) (ctx : V) (a : V → Act V W V) : Nat → Nat → List (Item V) → Prop := fun lo hi seg =>
  ∀ nodes stk, Does H (Ctx ctx) lo hi seg (nodes :: stk) (a nodes) (fun v => v :: stk)

theorem ctx_agree (ctx : V) {lo hi : Nat} : ∀ l l', Ctx ctx l → Agree lo hi l l' → Ctx ctx l' :=
  fun _ _ h ha => h.agree ha

theorem map_ins (is : List (Ins V)) : is.map Item.ins = is.map .ins := rfl

theorem emits_const (v : V) : Emits (Gen.emit [.const v]) (SemV H ctx (pure v)) :=
  .emit (by intro i hi; cases List.mem_singleton.1 hi; rfl) fun _ _ => .const (.nil rfl)

theorem emits_convert {own : Gen V} {a : Act V W V} (f : V) (h : Emits own (SemV H ctx a)) :
    Emits (convert f own) (SemV H ctx (a >>= fun v => H.call f [v])) := by
  refine .seq (S1 := fun _ _ x => x = [.ins (.const f)])
    (.emit (by intro i hi; cases List.mem_singleton.1 hi; rfl) fun _ => rfl)
    (.seq h (S2 := fun _ _ x => x = [.ins (.num .callFunction 1)])
      (S3 := fun lo hi x => ∀ stk, Does H (Ctx ctx) lo hi x (f :: stk) (a >>= fun v => H.call f [v]) (fun v => v :: stk))
      (.emit (by intro i hi; cases List.mem_singleton.1 hi; rfl) fun _ => rfl) ?_) ?_
  · rintro lo mid hi x y h1 h2 hx rfl stk
    exact .bind h1 h2 (ctx_agree ctx) (hx _) fun v => .call1
  · rintro lo mid hi x y h1 h2 rfl hy stk
    intro rest loc w o hl hf
    refine Exec.go (f' := ⟨f :: stk, loc⟩) (w' := w) rfl (hy stk rest loc w o hl ?_)
    unfold Fin at hf ⊢
    split at hf
    · next x w' he => exact fun loc' hag => hf loc' fun x hx => hag x fun k h3 h4 => hx k (by omega) h4
    · exact hf

/-- Widening the range of temporaries. -/
theorem Does.widen {P : (Str → Option V) → Prop} {lo hi lo' hi' : Nat} {seg : List (Item V)} {stk : List V}
    {a : Act V W A} {post : A → List V} (h1 : lo' ≤ lo) (h2 : hi ≤ hi') (h : Does H P lo hi seg stk a post) :
    Does H P lo' hi' seg stk a post := by
  intro rest loc w o hl hf
  refine h rest loc w o hl ?_
  unfold Fin at hf ⊢
  split at hf
  · next x w' he => exact fun loc' hag => hf loc' fun x hx => hag x fun k h3 h4 => hx k (by omega) (by omega)
  · exact hf

/-- Instructions, and then a piece. -/
theorem emits_before {gen : Gen V} {is : List (Ins V)} {S1 S2 : Nat → Nat → List (Item V) → Prop}
    (ht : ∀ i ∈ is, i.target = none) (h : Emits gen S1)
    (hs : ∀ lo hi x, S1 lo hi x → S2 lo hi (is.map .ins ++ x)) : Emits (Gen.seq (Gen.emit is) gen) S2 := by
  intro s s' L hl hg
  obtain ⟨t, h1, h2⟩ := seq_ok hg
  cases h1
  obtain ⟨y, hy1, hy2, hy3⟩ := h _ s' _ (hl.emit is) h2
  refine ⟨is.map .ins ++ y, by rw [← List.append_assoc]; exact hy1, ⟨?_, hy2.nlocals, fun b hb => ?_, ?_⟩, hs _ _ _ hy3⟩
  · have := hy2.blocks
    rwa [length_emit] at this
  · rw [labels_append, labels_map] at hb
    have := hy2.labels b hb
    rwa [length_emit] at this
  · exact closed_append (closed_map ht) hy2.closed

/-- A piece, and then instructions. -/
theorem emits_after {gen : Gen V} {is : List (Ins V)} {S1 S2 : Nat → Nat → List (Item V) → Prop}
    (ht : ∀ i ∈ is, i.target = none) (h : Emits gen S1)
    (hs : ∀ lo hi x, lo ≤ hi → S1 lo hi x → S2 lo hi (x ++ is.map .ins)) : Emits (Gen.seq gen (Gen.emit is)) S2 := by
  intro s s' L hl hg
  obtain ⟨t, h1, h2⟩ := seq_ok hg
  cases h2
  obtain ⟨y, hy1, hy2, hy3⟩ := h _ t _ hl h1
  refine ⟨y ++ is.map .ins, by rw [← List.append_assoc]; exact hy1.emit is, ⟨?_, hy2.nlocals, fun b hb => ?_, ?_⟩,
    hs _ _ _ hy2.nlocals hy3⟩
  · show _ ≤ (t.g.emit is).blocks.length
    rw [length_emit]; exact hy2.blocks
  · rw [labels_append, labels_map, List.append_nil] at hb
    exact hy2.labels b hb
  · exact closed_append hy2.closed (closed_map ht)

/-- No jumps. -/
def straight (is : List (Ins V)) : Prop := ∀ i ∈ is, i.target = none

theorem straight_cons {i : Ins V} {is : List (Ins V)} (h : i.target = none) (hs : straight is) : straight (i :: is) := by
  intro j hj
  cases hj with
  | head => exact h
  | tail _ hj => exact hs j hj

theorem straight_nil : straight ([] : List (Ins V)) := fun _ h => nomatch h

theorem straight_append {a b : List (Ins V)} (ha : straight a) (hb : straight b) : straight (a ++ b) := fun i hi =>
  (List.mem_append.1 hi).elim (ha i) (hb i)

theorem does_after {P : (Str → Option V) → Prop} (hP : ∀ lo hi l l', P l → Agree lo hi l l' → P l') {lo hi : Nat}
    {x y : List (Item V)} {stk : List V} {B : Type} {a : Act V W A} {p : A → List V}
    {k : A → Act V W B} {post : B → List V} (h : lo ≤ hi)
    (ha : Does H P lo hi x stk a p) (hk : ∀ v, Does H P hi hi y (p v) (k v) post) :
    Does H P lo hi (x ++ y) stk (a >>= k) post := .bind h (Nat.le_refl _) (hP _ _) ha hk

/-- The methods of `expression`. -/
theorem emits_inherited {own : Gen V} {a : Act V W V} (h : Emits own (SemV H ctx a)) (m : Mode) :
    Emits (inherited K own m) (SemV H ctx (valueAs H K a m)) := by
  cases m with
  | plain => exact h
  | boolean => exact emits_convert _ h
  | number => exact emits_convert _ h
  | string => exact emits_convert _ h
  | nodeset => exact .fail _
  | iterable => exact .fail _

theorem emits_inherited_iter {own : Gen V} {S : Nat → Nat → List (Item V) → Prop} : Emits (inherited K own .iterable) S :=
  .fail _

theorem emits_boolean {own : Gen V} {a : Act V W V} (h : Emits own (SemV H ctx a)) (m : Mode) :
    Emits (booleanModes K own m) (SemV H ctx (if m = .boolean then a else valueAs H K a m)) := by
  cases m with
  | boolean => exact h
  | plain => exact emits_inherited (K := K) h .plain
  | number => exact emits_inherited h .number
  | string => exact emits_inherited h .string
  | nodeset => exact .fail _
  | iterable => exact .fail _

theorem emits_number {own : Gen V} {a : Act V W V} (h : Emits own (SemV H ctx a)) (m : Mode) :
    Emits (numberModes K own m) (SemV H ctx (if m = .number then a else valueAs H K a m)) := by
  cases m with
  | boolean => exact emits_inherited h .boolean
  | plain => exact emits_inherited (K := K) h .plain
  | number => exact h
  | string => exact emits_inherited h .string
  | nodeset => exact .fail _
  | iterable => exact .fail _

theorem method_eq (m : Mode) : methodName m = method m := by cases m <;> rfl

/-- The methods of `function_call`. -/
theorem emits_call (self : V) (m : Mode) : Emits (callGen self m) (SemV H ctx (ask H ctx self m)) := by
  have key : Emits (Gen.emit [.const self, .attr .load (methodName m), .fast .load ctxName, .num .callFunction 1])
      (SemV H ctx (ask H ctx self m)) := by
    refine .emit (straight_cons rfl (straight_cons rfl (straight_cons rfl (straight_cons rfl straight_nil)))) fun n stk => ?_
    unfold ask
    rw [← method_eq]
    exact .const (.getAttr fun f => .ctx (fun _ h => h) .call1)
  cases m with
  | iterable => exact .fail _
  | _ => exact key

theorem emits_known (self value : V) (m : Mode) (n : V) :
    Emits (knownGen self value m) (SemV H ctx (eval H K env ctx (.known self value) m n)) := by
  cases m with
  | plain => exact emits_const value
  | boolean => exact emits_const value
  | number => exact emits_call self .number
  | string => exact emits_call self .string
  | nodeset => exact emits_call self .nodeset
  | iterable => exact emits_call self .iterable

theorem emits_literal (isNumber notEmpty : Bool) (number string : Option V) (m : Mode) (n : V) :
    Emits (literalGen K isNumber notEmpty number string m)
      (SemV H ctx (eval H K env ctx (.literal isNumber notEmpty number string) m n)) := by
  cases m with
  | plain => cases isNumber <;> exact emits_const _
  | boolean => exact emits_const _
  | number => exact emits_const _
  | string => exact emits_const _
  | nodeset => exact .fail _
  | iterable => exact .fail _

/-- The value of a variable. -/
def varValue (H : Host V W) (K : Known V) (env : Env V) (ctx : V) (pre : Option Str) (loc : Str) : Act V W V := do
  let vars ← H.getAttr ctx (s!! "variables")
  H.binary .subscr vars (H.tuple [namespaceOf K env pre, K.str loc])

theorem varFind_ok {pre : Option Str} {loc : Str} {ns : Option V} (h : varFind env pre loc = .ok ns) :
    ns.getD K.none = namespaceOf K env pre := by
  unfold varFind at h
  cases pre with
  | none =>
    dsimp only at h
    split at h <;> cases h
    rfl
  | some p =>
    dsimp only at h
    split at h
    · exact nomatch h
    · next x hx =>
      split at h <;> cases h
      show _ = ((some p).bind env.namespaces).getD _
      rw [Option.bind_some, hx]

theorem emits_var (pre : Option Str) (loc : Str) :
    Emits (varGen K env pre loc) (SemV H ctx (varValue H K env ctx pre loc)) := by
  unfold varGen
  split
  · exact .fail _
  · next ns hns =>
    refine .emit (straight_append (straight_cons rfl (straight_cons rfl straight_nil))
      (straight_cons rfl (straight_cons rfl (straight_cons rfl (straight_cons rfl straight_nil))))) fun n stk => ?_
    rw [varFind_ok hns]
    refine .ctx (fun _ h => h) (.getAttr fun vars => .const (.const ?_))
    exact Does.tuple (vs := [namespaceOf K env pre, K.str loc]) rfl (.last fun _ _ _ => rfl)

/-- The mode decides what is known of the piece. -/
def SemM (H : Host V W) (ctx : V) (a : Mode → V → Act V W V) (m : Mode) : Nat → Nat → List (Item V) → Prop :=
  if m = .iterable then SemI H ctx (a .iterable) else fun lo hi x => ∀ n, SemV H ctx (a m n) lo hi x

theorem emits_all {gen : Gen V} {a : Mode → V → Act V W V} {m : Mode} (hm : m ≠ .iterable)
    {b : Act V W V} (he : ∀ n, a m n = b) (h : Emits gen (SemV H ctx b)) : Emits gen (SemM H ctx a m) := by
  unfold SemM
  rw [if_neg hm]
  exact h.mono fun lo hi x _ hx n => by rw [he]; exact hx

theorem emits_all' {gen : Gen V} {a : Mode → V → Act V W V} {m : Mode} (hm : m ≠ .iterable)
    (h : Emits gen (fun lo hi x => ∀ n, SemV H ctx (a m n) lo hi x)) : Emits gen (SemM H ctx a m) := by
  unfold SemM
  rwa [if_neg hm]

theorem emits_varModes (pre : Option Str) (loc : Str) (m : Mode) :
    Emits (varModes K (varGen K env pre loc) m) (SemM H ctx (eval H K env ctx (.var pre loc)) m) := by
  have h := emits_var (H := H) (K := K) (env := env) (ctx := ctx) pre loc
  cases m with
  | plain => exact emits_all (by decide) (fun _ => rfl) (emits_inherited (K := K) h .plain)
  | boolean => exact emits_all (by decide) (fun _ => rfl) (emits_inherited (K := K) h .boolean)
  | number => exact emits_all (by decide) (fun _ => rfl) (emits_inherited (K := K) h .number)
  | string => exact emits_all (by decide) (fun _ => rfl) (emits_inherited (K := K) h .string)
  | nodeset => exact emits_all (by decide) (fun _ => rfl) (emits_convert _ h)
  | iterable =>
    show Emits (Gen.seq (Gen.emit [.op .popTop]) (Gen.seq _ (Gen.emit [.op .getIter]))) (SemI H ctx _)
    refine emits_before (straight_cons rfl straight_nil) (S1 := SemV H ctx (varValue H K env ctx pre loc >>= H.iter))
      (emits_after (straight_cons rfl straight_nil) h ?_) ?_
    · intro lo hi x hle hx stk
      exact .bind hle (Nat.le_refl _) (ctx_agree ctx) (hx stk) fun v => .last fun _ _ _ => rfl
    · intro lo hi x hx nodes stk
      exact .pop (hx stk)

theorem extFind_ok {pre loc : Str} {argc : Nat} {f : Func V} (h : extFind env pre loc argc = .ok f) :
    funcOf env pre loc = some f := by
  unfold extFind at h
  unfold funcOf
  split at h
  · exact nomatch h
  · next ns hns =>
    rw [hns, Option.bind_some]
    split at h
    · exact nomatch h
    · next g hg =>
      rw [hg]
      split at h
      · split at h <;> cases h
        rfl
      · cases h; rfl

theorem does_consts {P : (Str → Option V) → Prop} {lo hi : Nat} {args stk : List V} {seg : List (Item V)} {a : Act V W A}
    {post : A → List V} (h : Does H P lo hi seg (args.reverse ++ stk) a post) :
    Does H P lo hi ((args.map Ins.const).map .ins ++ seg) stk a post := by
  induction args generalizing stk with
  | nil => exact h
  | cons x args ih =>
    refine .const (ih ?_)
    rw [List.reverse_cons, List.append_assoc] at h
    exact h

theorem straight_consts (args : List V) : straight (args.map Ins.const) := by
  intro i hi
  obtain ⟨v, _, rfl⟩ := List.mem_map.1 hi
  rfl

theorem emits_ext {pre loc : Str} {args : List V} (hs : args.length < 255) :
    Emits (extGen env pre loc args)
      (SemV H ctx (funcValue H K ctx (funcOf env pre loc) >>= fun f => H.call f (ctx :: args))) := by
  unfold extGen
  split
  · exact .fail _
  · next f hf =>
    rw [extFind_ok hf]
    have hcall : ∀ n stk (g : V), Does H (Ctx ctx) n n
        (((Ins.fast .load ctxName :: args.map .const) ++ [Ins.num .callFunction (1 + args.length)]).map .ins) (g :: stk)
        (H.call g (ctx :: args)) (fun v => v :: stk) := by
      intro n stk g
      rw [← act_bind_pure (H.call g (ctx :: args)), List.map_append]
      refine .ctx (fun _ h => h) (does_consts ?_)
      have := Does.call (H := H) (P := Ctx ctx) (lo := n) (hi := n) (vs := ctx :: args) (f := g) (seg := []) (stk := stk)
        (k := pure) (post := fun v => v :: stk) (n := 1 + args.length) (by simp; omega) (by omega) fun x => .nil rfl
      rwa [List.reverse_cons, List.append_assoc] at this
    unfold funcCode funcValue
    rw [List.append_assoc]
    dsimp only
    cases hd : f.dynamic with
    | some d =>
      refine .emit (straight_append (straight_cons rfl (straight_cons rfl (straight_cons rfl straight_nil)))
        (straight_append (straight_cons rfl (straight_consts args)) (straight_cons rfl straight_nil))) fun n stk => ?_
      rw [List.map_append]
      refine .bind (Nat.le_refl n) (Nat.le_refl n) (ctx_agree ctx) (p := fun v => v :: stk) ?_ fun g => hcall n stk g
      exact .const (.ctx (fun _ h => h) .call1)
    | none =>
      refine .emit (straight_append (straight_cons rfl straight_nil)
        (straight_append (straight_cons rfl (straight_consts args)) (straight_cons rfl straight_nil))) fun n stk => ?_
      exact .const (hcall n stk f.value)

theorem emits_extModes {self : V} {pre loc : Str} {args : List V} (hs : args.length < 255) (m : Mode) (n : V) :
    Emits (extModes self (extGen env pre loc args) m)
      (SemV H ctx (eval H K env ctx (.ext self pre loc args) m n)) := by
  cases m with
  | plain => exact emits_ext hs
  | boolean => exact emits_call self .boolean
  | number => exact emits_call self .number
  | string => exact emits_call self .string
  | nodeset => exact emits_call self .nodeset
  | iterable => exact emits_call self .iterable

end Verif.Code
