import Verif.Code.Linear

/-
What a piece of a list does to the stack.
-/
namespace Verif.Code

open Verif.Py Verif.Code.Spec

variable {V W A B : Type}

/-- Two assignments of local variables agree but for temporary ones in a range. -/
def Agree (lo hi : Nat) (l l' : Str → Option V) : Prop :=
  ∀ x, (∀ k, lo < k → k ≤ hi → x ≠ tmp k) → l' x = l x

theorem Agree.refl (lo hi : Nat) (l : Str → Option V) : Agree lo hi l l := fun _ _ => rfl

theorem Agree.trans {lo mid hi : Nat} {a b c : Str → Option V} (h1 : lo ≤ mid) (h2 : mid ≤ hi) (hab : Agree lo mid a b)
    (hbc : Agree mid hi b c) : Agree lo hi a c := fun x hx =>
  (hbc x fun k h3 h4 => hx k (by omega) h4).trans (hab x fun k h3 h4 => hx k h3 (by omega))

theorem tmp_inj {j k : Nat} (h : tmp j = tmp k) : j = k := by
  have h1 : Nat.toDigits 10 j = Nat.toDigits 10 k := (List.cons.inj h).2
  have h2 := congrArg (fun l => Nat.ofDigitChars 10 l 0) h1
  simpa [Nat.ofDigitChars_toDigits] using h2

theorem tmp_ne (k : Nat) : ctxName ≠ tmp k := by
  intro h
  have := (List.cons.inj (show 'c' :: s!! "ontext" = '$' :: _ from h)).1
  exact absurd this (by decide)

/-- `context` is the context. -/
def Ctx (ctx : V) (loc : Str → Option V) : Prop := loc ctxName = some ctx

theorem Ctx.agree {ctx : V} {lo hi : Nat} {l l' : Str → Option V} (h : Ctx ctx l) (ha : Agree lo hi l l') : Ctx ctx l' :=
  (ha ctxName fun k _ _ => tmp_ne k).trans h

/-- What must be shown of the rest of a list for the result of a computation. -/
def Fin (H : Host V W) (rest : List (Item V)) (lo hi : Nat) (loc : Str → Option V) (post : A → List V)
    (r : Except V A × W) (o : Out V W) : Prop :=
  match r with
  | (.ok x, w) => ∀ loc', Agree lo hi loc loc' → Exec H rest ⟨post x, loc'⟩ w o
  | (.error e, w) => o = .raised e w

/-- A piece of a list, from a stack, does a computation, and leaves the stack `post` of its result. -/
def Does (H : Host V W) (P : (Str → Option V) → Prop) (lo hi : Nat) (seg : List (Item V)) (stk : List V)
    (a : Act V W A) (post : A → List V) : Prop :=
  ∀ rest loc w o, P loc → Fin H rest lo hi loc post (a w) o → Exec H (seg ++ rest) ⟨stk, loc⟩ w o

variable {H : Host V W} {P Q : (Str → Option V) → Prop} {lo mid hi : Nat}

theorem Does.weaken {seg : List (Item V)} {stk : List V} {a : Act V W A} {post : A → List V}
    (h : Does H P lo hi seg stk a post) (hp : ∀ l, Q l → P l) : Does H Q lo hi seg stk a post :=
  fun rest loc w o hl hf => h rest loc w o (hp _ hl) hf

theorem Does.bind {x y : List (Item V)} {stk : List V} {a : Act V W A} {p : A → List V} {k : A → Act V W B}
    {post : B → List V} (h1 : lo ≤ mid) (h2 : mid ≤ hi)
    (hP : ∀ l l', P l → Agree lo mid l l' → P l')
    (ha : Does H P lo mid x stk a p) (hk : ∀ v, Does H P mid hi y (p v) (k v) post) :
    Does H P lo hi (x ++ y) stk (a >>= k) post := by
  intro rest loc w o hl hf
  rw [List.append_assoc]
  refine ha _ loc w o hl ?_
  have hb : (a >>= k) w = (match a w with | (.ok x, w) => k x w | (.error e, w) => (.error e, w)) := rfl
  rw [hb] at hf
  cases h : a w with
  | mk r w' =>
    rw [h] at hf
    cases r with
    | error e => exact hf
    | ok v =>
      intro loc' hag
      refine hk v rest loc' w' o (hP _ _ hl hag) ?_
      have hf : Fin H rest lo hi loc post (k v w') o := hf
      unfold Fin at hf ⊢
      cases h' : k v w' with
      | mk r w'' =>
        rw [h'] at hf
        cases r with
        | error e => exact hf
        | ok u => exact fun loc'' hag' => hf loc'' (hag.trans h1 h2 hag')

theorem act_bind_pure (a : Act V W A) : (a >>= pure) = a := by
  funext w
  show (match a w with | (.ok x, w) => (pure x : Act V W A) w | (.error e, w) => (.error e, w)) = a w
  cases h : a w with
  | mk r w' => cases r <;> rfl

theorem act_assoc {C : Type} (a : Act V W A) (f : A → Act V W B) (g : B → Act V W C) :
    ((a >>= f) >>= g) = (a >>= fun x => f x >>= g) := by
  funext w
  show (match (match a w with | (.ok x, w) => f x w | (.error e, w) => (.error e, w)) with
      | (.ok x, w) => g x w | (.error e, w) => (.error e, w)) =
    (match a w with
      | (.ok x, w) => (match f x w with | (.ok x, w) => g x w | (.error e, w) => (.error e, w))
      | (.error e, w) => (.error e, w))
  cases h : a w with
  | mk r w' => cases r <;> rfl

theorem Does.nil {stk : List V} {x : A} {post : A → List V} (h : stk = post x) :
    Does H P lo hi [] stk (pure x) post := by
  intro rest loc w o _ hf
  rw [h]; exact hf loc (Agree.refl _ _ _)

/-- An instruction that only moves things. -/
theorem Does.move {i : Ins V} {seg : List (Item V)} {stk stk' : List V} {a : Act V W A} {post : A → List V}
    (hs : ∀ loc w, P loc → step H i.dec ⟨stk, loc⟩ w = .go ⟨stk', loc⟩ w)
    (h : Does H P lo hi seg stk' a post) : Does H P lo hi (.ins i :: seg) stk a post :=
  fun rest loc w o hl hf => .go (hs loc w hl) (h rest loc w o hl hf)

/-- An instruction that asks an object. -/
theorem Does.ask {i : Ins V} {seg : List (Item V)} {stk : List V} {b : Act V W B} {p : B → List V} {k : B → Act V W A}
    {post : A → List V}
    (hs : ∀ loc w, P loc → step H i.dec ⟨stk, loc⟩ w = Eff.of (b w) fun x w => .go ⟨p x, loc⟩ w)
    (h : ∀ x, Does H P lo hi seg (p x) (k x) post) : Does H P lo hi (.ins i :: seg) stk (b >>= k) post := by
  intro rest loc w o hl hf
  have hb : (b >>= k) w = (match b w with | (.ok x, w) => k x w | (.error e, w) => (.error e, w)) := rfl
  rw [hb] at hf
  have hs := hs loc w hl
  cases hr : b w with
  | mk r w' =>
    rw [hr] at hs hf
    cases r with
    | error e =>
      have hf : o = .raised e w' := hf
      exact .out (hf ▸ hs)
    | ok x => exact .go hs (h x rest loc w' o hl hf)

/-- The last instruction. -/
theorem Does.last {i : Ins V} {stk : List V} {b : Act V W A} {p : A → List V}
    (hs : ∀ loc w, P loc → step H i.dec ⟨stk, loc⟩ w = Eff.of (b w) fun x w => .go ⟨p x, loc⟩ w) :
    Does H P lo hi [.ins i] stk b p := by
  rw [← act_bind_pure b]
  exact .ask hs fun x => .nil rfl

theorem Does.const {v : V} {seg : List (Item V)} {stk : List V} {a : Act V W A} {post : A → List V}
    (h : Does H P lo hi seg (v :: stk) a post) : Does H P lo hi (.ins (.const v) :: seg) stk a post :=
  .move (fun _ _ _ => rfl) h

theorem step_loadCtx {ctx : V} {stk : List V} (loc : Str → Option V) (w : W) (h : Ctx ctx loc) :
    step H (Ins.dec (V := V) (.fast .load ctxName)) ⟨stk, loc⟩ w = .go ⟨ctx :: stk, loc⟩ w := by
  show (match loc ctxName with | some v => _ | none => _) = _
  rw [show loc ctxName = some ctx from h]

theorem Does.ctx {ctx : V} {seg : List (Item V)} {stk : List V} {a : Act V W A} {post : A → List V}
    (hP : ∀ l, P l → Ctx ctx l)
    (h : Does H P lo hi seg (ctx :: stk) a post) : Does H P lo hi (.ins (.fast .load ctxName) :: seg) stk a post :=
  .move (fun loc w hl => step_loadCtx loc w (hP _ hl)) h

theorem Does.getAttr {v : V} {name : Str} {seg : List (Item V)} {stk : List V} {k : V → Act V W A} {post : A → List V}
    (h : ∀ x, Does H P lo hi seg (x :: stk) (k x) post) :
    Does H P lo hi (.ins (.attr .load name) :: seg) (v :: stk) (H.getAttr v name >>= k) post :=
  .ask (p := fun x => x :: stk) (fun _ _ _ => rfl) h

theorem Does.setAttr {c v : V} {name : Str} {seg : List (Item V)} {stk : List V} {k : Unit → Act V W A} {post : A → List V}
    (h : Does H P lo hi seg stk (k ()) post) :
    Does H P lo hi (.ins (.attr .store name) :: seg) (c :: v :: stk) (H.setAttr c name v >>= k) post :=
  .ask (p := fun _ => stk) (fun _ _ _ => rfl) fun _ => h

theorem Does.pop {v : V} {seg : List (Item V)} {stk : List V} {a : Act V W A} {post : A → List V}
    (h : Does H P lo hi seg stk a post) : Does H P lo hi (.ins (.op .popTop) :: seg) (v :: stk) a post :=
  .move (fun _ _ _ => rfl) h

theorem Does.rotTwo {x y : V} {seg : List (Item V)} {stk : List V} {a : Act V W A} {post : A → List V}
    (h : Does H P lo hi seg (y :: x :: stk) a post) : Does H P lo hi (.ins (.op .rotTwo) :: seg) (x :: y :: stk) a post :=
  .move (fun _ _ _ => rfl) h

theorem Does.rotThree {x y z : V} {seg : List (Item V)} {stk : List V} {a : Act V W A} {post : A → List V}
    (h : Does H P lo hi seg (y :: z :: x :: stk) a post) :
    Does H P lo hi (.ins (.op .rotThree) :: seg) (x :: y :: z :: stk) a post :=
  .move (fun _ _ _ => rfl) h

theorem Does.rotFour {x y z u : V} {seg : List (Item V)} {stk : List V} {a : Act V W A} {post : A → List V}
    (h : Does H P lo hi seg (y :: z :: u :: x :: stk) a post) :
    Does H P lo hi (.ins (.op .rotFour) :: seg) (x :: y :: z :: u :: stk) a post :=
  .move (fun _ _ _ => rfl) h

theorem Does.tuple {vs : List V} {seg : List (Item V)} {stk : List V} {a : Act V W A} {post : A → List V} {n : Nat}
    (hn : n = vs.length) (h : Does H P lo hi seg (H.tuple vs :: stk) a post) :
    Does H P lo hi (.ins (.num .buildTuple n) :: seg) (vs.reverse ++ stk) a post := by
  refine .move (fun loc w _ => ?_) h
  subst hn
  show (if vs.length ≤ (vs.reverse ++ stk).length then _ else _) = _
  rw [if_pos (by simp)]
  simp

theorem step_call {vs stk : List V} {f : V} {n : Nat} (hn : n = vs.length) (h256 : n < 256) (loc : Str → Option V) (w : W) :
    step H (Ins.dec (V := V) (.num .callFunction n)) ⟨vs.reverse ++ f :: stk, loc⟩ w =
      Eff.of (H.call f vs w) fun x w => .go ⟨x :: stk, loc⟩ w := by
  subst hn
  show (if vs.length ≥ 256 then _ else (match (vs.reverse ++ f :: stk).drop vs.length with
    | func :: s => Eff.of (H.call func ((vs.reverse ++ f :: stk).take vs.length).reverse w)
        fun v w => Eff.go ⟨v :: s, loc⟩ w
    | [] => _)) = _
  have h1 : (vs.reverse ++ f :: stk).drop vs.length = f :: stk := by simp
  have h2 : ((vs.reverse ++ f :: stk).take vs.length).reverse = vs := by simp
  rw [if_neg (by omega), h1, h2]

/-- CALL_FUNCTION. -/
theorem Does.call {vs : List V} {f : V} {seg : List (Item V)} {stk : List V} {k : V → Act V W A} {post : A → List V}
    {n : Nat} (hn : n = vs.length) (h256 : n < 256) (h : ∀ x, Does H P lo hi seg (x :: stk) (k x) post) :
    Does H P lo hi (.ins (.num .callFunction n) :: seg) (vs.reverse ++ f :: stk) (H.call f vs >>= k) post :=
  .ask (p := fun x => x :: stk) (fun loc w _ => step_call hn h256 loc w) h

theorem Does.call1 {x f : V} {stk : List V} :
    Does H P lo hi [.ins (.num .callFunction 1)] (x :: f :: stk) (H.call f [x]) (fun v => v :: stk) := by
  rw [← act_bind_pure (H.call f [x])]
  exact Does.call (vs := [x]) rfl (by omega) fun _ => .nil rfl

theorem Does.call2 {x y f : V} {seg : List (Item V)} {stk : List V} {k : V → Act V W A} {post : A → List V}
    (h : ∀ v, Does H P lo hi seg (v :: stk) (k v) post) :
    Does H P lo hi (.ins (.num .callFunction 2) :: seg) (y :: x :: f :: stk) (H.call f [x, y] >>= k) post :=
  Does.call (vs := [x, y]) rfl (by omega) h

/-- What is known of a generator: it appends a piece to the list, with labels of its own, to which all of its jumps
go. -/
structure Grow (s s' : CState V) (seg : List (Item V)) : Prop where
  blocks : s.g.blocks.length ≤ s'.g.blocks.length
  nlocals : s.nlocals ≤ s'.nlocals
  labels : ∀ b ∈ labels seg, s.g.blocks.length ≤ b
  closed : Closed seg

/-- See `Grow`; `S` is said of the piece. -/
def Emits (gen : Gen V) (S : Nat → Nat → List (Item V) → Prop) : Prop :=
  ∀ s s' L, Lay s.g L → gen s = .ok s' →
    ∃ seg, Lay s'.g (L ++ seg) ∧ Grow s s' seg ∧ S s.nlocals s'.nlocals seg

variable {S S1 S2 S3 : Nat → Nat → List (Item V) → Prop}

theorem seq_ok {a b : Gen V} {s s' : CState V} (h : Gen.seq a b s = .ok s') : ∃ t, a s = .ok t ∧ b t = .ok s' := by
  unfold Gen.seq at h
  split at h
  · exact nomatch h
  · next t ht => exact ⟨t, ht, h⟩

theorem Emits.fail (e : CompError) : Emits (Gen.fail e : Gen V) S := fun _ _ _ _ h => nomatch h

theorem Emits.mono {gen : Gen V} (h : Emits gen S1) (hs : ∀ lo hi x, lo ≤ hi → S1 lo hi x → S2 lo hi x) : Emits gen S2 :=
  fun s s' L hl hg =>
    let ⟨seg, h1, h2, h3⟩ := h s s' L hl hg
    ⟨seg, h1, h2, hs _ _ _ h2.nlocals h3⟩

theorem Emits.skip (h : ∀ n, S n n []) : Emits (Gen.skip : Gen V) S := by
  intro s s' L hl hg
  cases hg
  exact ⟨[], by simpa using hl, ⟨Nat.le_refl _, Nat.le_refl _, (fun _ hb => nomatch hb), trivial⟩, h _⟩

theorem Emits.emit {is : List (Ins V)} (ht : ∀ i ∈ is, i.target = none) (h : ∀ n, S n n (is.map .ins)) :
    Emits (Gen.emit is) S := by
  intro s s' L hl hg
  cases hg
  refine ⟨is.map .ins, hl.emit is, ⟨?_, Nat.le_refl _, fun b hb => ?_, closed_map ht⟩, h _⟩
  · show _ ≤ (s.g.emit is).blocks.length
    rw [length_emit]; exact Nat.le_refl _
  · rw [labels_map] at hb; exact nomatch hb

theorem Grow.append {s t u : CState V} {x y : List (Item V)} (h1 : Grow s t x) (h2 : Grow t u y) : Grow s u (x ++ y) := by
  refine ⟨Nat.le_trans h1.blocks h2.blocks, Nat.le_trans h1.nlocals h2.nlocals, fun b hb => ?_,
    closed_append h1.closed h2.closed⟩
  rw [labels_append] at hb
  rcases List.mem_append.1 hb with hb | hb
  · exact h1.labels b hb
  · exact Nat.le_trans h1.blocks (h2.labels b hb)

theorem Emits.seq {a b : Gen V} (ha : Emits a S1) (hb : Emits b S2)
    (h : ∀ lo mid hi x y, lo ≤ mid → mid ≤ hi → S1 lo mid x → S2 mid hi y → S3 lo hi (x ++ y)) :
    Emits (Gen.seq a b) S3 := by
  intro s s' L hl hg
  obtain ⟨t, h1, h2⟩ := seq_ok hg
  obtain ⟨x, hx1, hx2, hx3⟩ := ha s t L hl h1
  obtain ⟨y, hy1, hy2, hy3⟩ := hb t s' _ hx1 h2
  exact ⟨x ++ y, by rw [← List.append_assoc]; exact hy1, hx2.append hy2, h _ _ _ _ _ hx2.nlocals hy2.nlocals hx3 hy3⟩

end Verif.Code
