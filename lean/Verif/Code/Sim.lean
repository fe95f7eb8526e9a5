import Verif.Code.Bytes

/-
The interpreter on the bytes follows the list.
-/
namespace Verif.Code

open Verif.Py

variable {V W N M : Type} {H : Host V W}

/-- The same with other local variables. -/
def Eff.reloc (loc : M → Option V) : Eff V W N → Eff V W M
  | .go f w => .go ⟨f.stack, loc⟩ w
  | .jump f w => .jump ⟨f.stack, loc⟩ w
  | .out o => .out o

theorem reloc_of {A : Type} (loc : M → Option V) (r : Except V A × W) (k : A → W → Eff V W N) :
    (Eff.of r k).reloc loc = Eff.of r fun x w => (k x w).reloc loc := by
  obtain ⟨r, w⟩ := r
  cases r <;> rfl

theorem reloc_op (o : Op) (stk : List V) (loc : N → Option V) (loc' : M → Option V) (w : W) :
    stepOp H o ⟨stk, loc'⟩ w = (stepOp H o ⟨stk, loc⟩ w).reloc loc' := by
  cases o <;> (rcases stk with _ | ⟨a, _ | ⟨b, _ | ⟨c, _ | ⟨d, s⟩⟩⟩⟩) <;> first | rfl | (simp only [stepOp, Op.bin, reloc_of]; rfl)

theorem reloc_num (o : NumOp) (n : Nat) (stk : List V) (loc : N → Option V) (loc' : M → Option V) (w : W) :
    stepNum H o n ⟨stk, loc'⟩ w = (stepNum H o n ⟨stk, loc⟩ w).reloc loc' := by
  cases o with
  | buildTuple =>
    unfold stepNum
    dsimp only
    split <;> rfl
  | callFunction =>
    unfold stepNum
    dsimp only
    by_cases h : n ≥ 256
    · rw [if_pos h, if_pos h]; rfl
    · rw [if_neg h, if_neg h]
      cases stk.drop n with
      | nil => rfl
      | cons f s => dsimp only; rw [reloc_of]; rfl

theorem reloc_attr (o : AttrOp) (name : Str) (stk : List V) (loc : N → Option V) (loc' : M → Option V) (w : W) :
    stepAttr H o name ⟨stk, loc'⟩ w = (stepAttr H o name ⟨stk, loc⟩ w).reloc loc' := by
  cases o <;> (rcases stk with _ | ⟨a, _ | ⟨b, s⟩⟩) <;> first | rfl | (simp only [stepAttr, reloc_of]; rfl)

theorem reloc_jump (o : JumpOp) (stk : List V) (loc : N → Option V) (loc' : M → Option V) (w : W) :
    stepJump H o ⟨stk, loc'⟩ w = (stepJump H o ⟨stk, loc⟩ w).reloc loc' := by
  have hof : ∀ {A : Type} (r : Except V A × W) (k : A → W → Eff V W M) (k' : A → W → Eff V W N),
      (∀ x w, k x w = (k' x w).reloc loc') → Eff.of r k = (Eff.of r k').reloc loc' := by
    intro A r k k' h
    rw [reloc_of]
    congr
    funext x w
    exact h x w
  cases stk with
  | nil => cases o <;> rfl
  | cons a s =>
    cases o with
    | jumpForward => rfl
    | jumpIfTrue => exact hof _ _ _ fun t w => by cases t <;> rfl
    | jumpIfFalse => exact hof _ _ _ fun t w => by cases t <;> rfl
    | forIter => exact hof _ _ _ fun x w => by cases x <;> rfl

/-- An instruction for local variables by their numbers; `k` is the number. -/
def Ins.decN (k : Nat) : Ins V → Dec V Nat
  | .op o => .op o
  | .num o n => .num o n
  | .const v => .const v
  | .fast o _ => .fast o k
  | .attr o s => .attr o s
  | .cmp c => .cmp c
  | .jump o _ => .jump o

/-- Local variables by name and by number. -/
structure Rel (names : List Str) (f : Frame V Str) (f' : Frame V Nat) : Prop where
  stack : f'.stack = f.stack
  locals : ∀ k s, names[k]? = some s → f'.locals k = f.locals s

/-- The result of a step by name and by number. -/
def RelE (names : List Str) : Eff V W Str → Eff V W Nat → Prop
  | .go f w, e => ∃ f', e = .go f' w ∧ Rel names f f'
  | .jump f w, e => ∃ f', e = .jump f' w ∧ Rel names f f'
  | .out o, e => e = .out o

theorem relE_reloc {names : List Str} {f : Frame V Str} {f' : Frame V Nat} (h : Rel names f f') {e : Eff V W Str}
    (he : e = e.reloc f.locals) : RelE names e (e.reloc f'.locals) := by
  cases e with
  | go g w =>
    refine ⟨_, rfl, rfl, fun k s hk => ?_⟩
    have : g = ⟨g.stack, f.locals⟩ := by
      have := he
      simp only [Eff.reloc, Eff.go.injEq, and_true] at this
      exact this
    rw [this]; exact h.locals k s hk
  | jump g w =>
    refine ⟨_, rfl, rfl, fun k s hk => ?_⟩
    have : g = ⟨g.stack, f.locals⟩ := by
      have := he
      simp only [Eff.reloc, Eff.jump.injEq, and_true] at this
      exact this
    rw [this]; exact h.locals k s hk
  | out o => rfl

theorem step_rel {names : List Str} (hn : names.Nodup) {i : Ins V} {k : Nat}
    (hk : ∀ o s, i = .fast o s → names[k]? = some s) {f : Frame V Str} {f' : Frame V Nat} (h : Rel names f f') (w : W) :
    RelE names (step H i.dec f w) (step H (i.decN k) f' w) := by
  obtain ⟨stk, loc⟩ := f
  obtain ⟨stk', loc'⟩ := f'
  have hst : stk' = stk := h.stack
  subst hst
  have key : ∀ {e : Eff V W Str} {e' : Eff V W Nat}, e' = e.reloc loc' → e = e.reloc loc → RelE names e e' := by
    intro e e' h1 h2
    rw [h1]; exact relE_reloc h h2
  have hinj : ∀ j s, names[j]? = some s → names[k]? = some s → j = k := by
    intro j s h1 h2
    have hj : j < names.length := by
      rcases Nat.lt_or_ge j names.length with h | h
      · exact h
      · rw [List.getElem?_eq_none h] at h1; exact nomatch h1
    have hk' : k < names.length := by
      rcases Nat.lt_or_ge k names.length with h | h
      · exact h
      · rw [List.getElem?_eq_none h] at h2; exact nomatch h2
    exact (List.getElem?_inj hj hn).1 (h1.trans h2.symm)
  cases i with
  | op o => exact key (reloc_op o _ _ _ w) (reloc_op o _ _ _ w)
  | num o n => exact key (reloc_num o n _ _ _ w) (reloc_num o n _ _ _ w)
  | const v => exact key rfl rfl
  | attr o s => exact key (reloc_attr o s _ _ _ w) (reloc_attr o s _ _ _ w)
  | jump o t => exact key (reloc_jump o _ _ _ w) (reloc_jump o _ _ _ w)
  | cmp c =>
    have : ∀ {A : Type} (l : A → Option V), step H (.cmp c : Dec V Nat) ⟨stk', loc'⟩ w = (step H (.cmp c : Dec V Str) ⟨stk', loc⟩ w).reloc loc' ∧
        step H (.cmp c : Dec V Str) ⟨stk', loc⟩ w = (step H (.cmp c : Dec V Str) ⟨stk', loc⟩ w).reloc loc := by
      intro A l
      rcases stk' with _ | ⟨a, _ | ⟨b, s⟩⟩
      · exact ⟨rfl, rfl⟩
      · exact ⟨rfl, rfl⟩
      · simp only [step, reloc_of]
        exact ⟨rfl, rfl⟩
    exact key (this loc).1 (this loc).2
  | fast o s =>
    have hk' := hk o s rfl
    clear hk
    have hl : loc' k = loc s := h.locals k s hk'
    cases o with
    | load =>
      show RelE names (match loc s with | some v => _ | none => _) (match loc' k with | some v => _ | none => _)
      rw [hl]
      cases loc s with
      | none => rfl
      | some v => exact ⟨_, rfl, rfl, h.locals⟩
    | store =>
      cases stk' with
      | nil => rfl
      | cons v st =>
        refine ⟨_, rfl, rfl, fun j x hj => ?_⟩
        show (if j = k then some v else loc' j) = (if x = s then some v else loc x)
        by_cases hx : x = s
        · subst hx
          rw [if_pos rfl, if_pos (hinj j x hj hk')]
        · rw [if_neg hx, if_neg fun he => hx (by subst he; rw [hk'] at hj; exact (Option.some.inj hj).symm)]
          exact h.locals j x hj
    | delete =>
      show RelE names (match loc s with | some v => _ | none => _) (match loc' k with | some v => _ | none => _)
      rw [hl]
      cases loc s with
      | none => rfl
      | some v =>
        refine ⟨_, rfl, rfl, fun j x hj => ?_⟩
        show (if j = k then none else loc' j) = (if x = s then none else loc x)
        by_cases hx : x = s
        · subst hx
          rw [if_pos rfl, if_pos (hinj j x hj hk')]
        · rw [if_neg hx, if_neg fun he => hx (by subst he; rw [hk'] at hj; exact (Option.some.inj hj).symm)]
          exact h.locals j x hj

/-- The size of the stack after a step. -/
def EffLe (n : Int) : Eff V W N → Prop
  | .go f _ => (f.stack.length : Int) ≤ n
  | .jump f _ => (f.stack.length : Int) ≤ n
  | .out _ => True

theorem effLe_of {A : Type} {n : Int} {r : Except V A × W} {k : A → W → Eff V W N} (h : ∀ x w, EffLe n (k x w)) :
    EffLe n (Eff.of r k) := by
  obtain ⟨r, w⟩ := r
  cases r with
  | ok x => exact h x w
  | error e => trivial

theorem step_effect (i : Ins V) (f : Frame V Str) (w : W) : EffLe ((f.stack.length : Int) + i.effect) (step H i.dec f w) := by
  obtain ⟨stk, loc⟩ := f
  cases i with
  | op o =>
    cases o <;> (rcases stk with _ | ⟨a, _ | ⟨b, _ | ⟨c, _ | ⟨d, s⟩⟩⟩⟩) <;>
      first
        | trivial
        | (refine effLe_of fun x w => ?_
           simp only [EffLe, List.length_cons, List.length_nil, Ins.effect]; omega)
        | (show ((_ : Nat) : Int) ≤ _
           simp only [List.length_cons, List.length_nil, Ins.effect]; omega)
  | num o n =>
    cases o with
    | buildTuple =>
      show EffLe _ (if n ≤ stk.length then _ else _)
      split
      · show ((_ : Nat) : Int) ≤ _
        simp only [List.length_cons, List.length_drop, Ins.effect]; omega
      · trivial
    | callFunction =>
      show EffLe _ (if n ≥ 256 then _ else (match stk.drop n with
        | func :: s => Eff.of _ fun v w => Eff.go _ w
        | [] => _))
      split
      · trivial
      · split
        · next func s hd =>
          refine effLe_of fun x w => ?_
          have := congrArg List.length hd
          rw [List.length_drop, List.length_cons] at this
          have h1 : n % 256 = n := Nat.mod_eq_of_lt (by omega)
          have h2 : n / 256 = 0 := by omega
          simp only [EffLe, List.length_cons, Ins.effect, h1, h2]; omega
        · trivial
  | const v =>
    show ((_ : Nat) : Int) ≤ _
    simp only [List.length_cons, Ins.effect]; omega
  | fast o s =>
    cases o with
    | load =>
      show EffLe _ (match loc s with | some v => _ | none => _)
      split
      · show ((_ : Nat) : Int) ≤ _
        simp only [List.length_cons, Ins.effect]; omega
      · trivial
    | store =>
      cases stk with
      | nil => trivial
      | cons v st =>
        show ((_ : Nat) : Int) ≤ _
        simp only [List.length_cons, Ins.effect]; omega
    | delete =>
      show EffLe _ (match loc s with | some v => _ | none => _)
      split
      · show ((_ : Nat) : Int) ≤ _
        simp only [Ins.effect]; omega
      · trivial
  | attr o s =>
    cases o <;> (rcases stk with _ | ⟨a, _ | ⟨b, st⟩⟩) <;>
      first
        | trivial
        | (refine effLe_of fun x w => ?_
           simp only [EffLe, List.length_cons, List.length_nil, Ins.effect]; omega)
  | cmp c =>
    rcases stk with _ | ⟨a, _ | ⟨b, st⟩⟩
    · trivial
    · trivial
    · refine effLe_of fun x w => ?_
      simp only [EffLe, List.length_cons, Ins.effect]; omega
  | jump o t =>
    cases stk with
    | nil =>
      cases o <;> first | trivial | (show ((_ : Nat) : Int) ≤ _; simp only [Ins.effect]; omega)
    | cons a s =>
      cases o with
      | jumpForward => show ((_ : Nat) : Int) ≤ _; simp only [Ins.effect]; omega
      | jumpIfTrue =>
        refine effLe_of fun x w => ?_
        cases x <;> (show ((_ : Nat) : Int) ≤ _; simp only [Ins.effect]; omega)
      | jumpIfFalse =>
        refine effLe_of fun x w => ?_
        cases x <;> (show ((_ : Nat) : Int) ≤ _; simp only [Ins.effect]; omega)
      | forIter =>
        refine effLe_of fun x w => ?_
        cases x <;> (show ((_ : Nat) : Int) ≤ _; simp only [List.length_cons, Ins.effect]; omega)

/-- A code object for a list. -/
structure Image (c : Code V) (T : Tables V) (offs : List (Nat × Nat)) (F : List (Item V)) : Prop where
  consts : c.consts = T.consts
  names : c.names = T.names
  locals : c.locals = T.locals
  nodup : T.locals.Nodup
  bytes : ∀ {a b : List (Ins V)} {i : Ins V}, insOf F = a ++ i :: b → ∃ r x rest, Resolved T i r ∧
      encode offs (a.map Ins.len).sum r = .ok x ∧ c.bytes.drop (a.map Ins.len).sum = x ++ rest
  offset : ∀ {a b : List (Item V)} {t : Nat}, F = a ++ .label t :: b → offset offs t = psize a

theorem decode0_code (o : Op) : (decode0 o.code : Option (Dec V Nat)) = some (.op o) := by cases o <;> rfl

theorem op_lt (o : Op) : o.code < 90 := by cases o <;> decide

theorem lookup_lt {A : Type} {l : List A} {k : Nat} {x : A} (h : l[k]? = some x) : k < l.length := by
  rcases Nat.lt_or_ge k l.length with h' | h'
  · exact h'
  · rw [List.getElem?_eq_none h'] at h; exact nomatch h

/-- What the interpreter finds at the place of an instruction. -/
theorem fetch_image {c : Code V} {T : Tables V} {offs : List (Nat × Nat)} {F pre r : List (Item V)} {i : Ins V}
    (h : Image c T offs F) (hF : F = pre ++ .ins i :: r) :
    ∃ k n, fetch c (psize pre) = some (i.len, i.decN k, n) ∧ (∀ o s, i = .fast o s → T.locals[k]? = some s) ∧
      ∀ t, i.target = some t → psize pre + i.len + n = offset offs t := by
  obtain ⟨res, x, rest, hr, he, hb⟩ := h.bytes (a := insOf pre) (b := insOf r) (i := i) (by rw [hF, insOf_append]; rfl)
  have hb : c.bytes.drop (psize pre) = x ++ rest := hb
  have he : encode offs (psize pre) res = .ok x := he
  have harg : ∀ {code : Nat} {n : Int}, 90 ≤ code → encodeArg code n = .ok x → 0 ≤ n ∧
      fetch c (psize pre) = (decode1 c code n.toNat).map fun d => (3, d, n.toNat) := by
    intro code n hc hx
    unfold encodeArg at hx
    split at hx
    · exact nomatch hx
    · split at hx
      · exact nomatch hx
      · cases hx
        refine ⟨by omega, ?_⟩
        unfold fetch
        rw [hb]
        show (if code < 90 then _ else _) = _
        rw [if_neg (by omega)]
        have : n.toNat % 256 + 256 * (n.toNat / 256) = n.toNat := by omega
        show Option.map _ (decode1 c code (n.toNat % 256 + 256 * (n.toNat / 256))) = _
        rw [this]
  cases i with
  | op o =>
    cases hr
    cases he
    refine ⟨0, 0, ?_, (nofun), (nofun)⟩
    unfold fetch
    rw [hb]
    show (if o.code < 90 then _ else _) = _
    rw [if_pos (op_lt o), decode0_code]; rfl
  | num o n =>
    cases hr
    have := (harg (by cases o <;> decide) he).2
    refine ⟨0, n, ?_, (nofun), (nofun)⟩
    rw [this]
    cases o <;> rfl
  | const v =>
    obtain ⟨k, rfl, hk⟩ := hr
    have := (harg (by decide) he).2
    refine ⟨0, k, ?_, (nofun), (nofun)⟩
    rw [this]
    show Option.map _ (Option.map _ c.consts[k]?) = _
    rw [h.consts, hk]; rfl
  | fast o s =>
    obtain ⟨k, rfl, hk⟩ := hr
    have := (harg (by cases o <;> decide) he).2
    have hlt := lookup_lt hk
    refine ⟨k, k, ?_, (fun o' s' heq => by cases heq; exact hk), (nofun)⟩
    rw [this]
    cases o
    · show Option.map _ (if k < c.locals.length then _ else _) = _
      rw [h.locals, if_pos hlt]; rfl
    · show Option.map _ (if k < c.locals.length then _ else _) = _
      rw [h.locals, if_pos hlt]; rfl
    · show Option.map _ (if k < c.locals.length then _ else _) = _
      rw [h.locals, if_pos hlt]; rfl
  | attr o s =>
    obtain ⟨k, rfl, hk⟩ := hr
    have := (harg (by cases o <;> decide) he).2
    refine ⟨0, k, ?_, (nofun), (nofun)⟩
    rw [this]
    cases o
    · show Option.map _ (Option.map _ c.names[k]?) = _
      rw [h.names, hk]; rfl
    · show Option.map _ (Option.map _ c.names[k]?) = _
      rw [h.names, hk]; rfl
  | cmp cc =>
    cases hr
    have := (harg (by decide) he).2
    refine ⟨0, cc.index, ?_, (nofun), (nofun)⟩
    rw [this]
    cases cc <;> rfl
  | jump o t =>
    cases hr
    obtain ⟨h0, hf⟩ := harg (by cases o <;> decide) he
    refine ⟨0, ((offset offs t : Int) - (psize pre + 3 : Nat)).toNat, ?_, (nofun), fun u hu => ?_⟩
    · rw [hf]
      cases o <;> rfl
    · cases hu
      show psize pre + 3 + _ = _
      omega

theorem after_of_mem {t : Nat} {r : List (Item V)} (h : t ∈ labels r) : ∃ q, r = q ++ .label t :: after t r := by
  induction r with
  | nil => exact nomatch h
  | cons x r ih =>
    cases x with
    | label b =>
      by_cases hb : b = t
      · subst hb
        exact ⟨[], by rw [after_label]; rfl⟩
      · have h : t ∈ b :: labels r := h
        rcases List.mem_cons.1 h with h | h
        · exact absurd h.symm hb
        · obtain ⟨q, hq⟩ := ih h
          refine ⟨.label b :: q, ?_⟩
          show _ = Item.label b :: (q ++ .label t :: (if b = t then r else after t r))
          rw [if_neg hb, ← hq]
    | ins i =>
      obtain ⟨q, hq⟩ := ih h
      exact ⟨.ins i :: q, by show _ = Item.ins i :: (q ++ .label t :: after t r); rw [← hq]⟩

theorem Closed.suffix {a b : List (Item V)} (h : Closed (a ++ b)) : Closed b := by
  induction a with
  | nil => exact h
  | cons x a ih =>
    cases x with
    | label c => exact ih h
    | ins i => exact ih h.2

/-- The loop of the interpreter. -/
theorem exec_image {c : Code V} {T : Tables V} {offs : List (Nat × Nat)} {F : List (Item V)} (h : Image c T offs F)
    (hc : Closed F) {suf : List (Item V)} {f : Frame V Str} {w : W} {o : Out V W} (hx : Exec H suf f w o) :
    ∀ pre, F = pre ++ suf → ∀ size, Fits c.stackSize suf size → (f.stack.length : Int) ≤ size →
      ∀ f', Rel T.locals f f' → ∃ fuel, exec H c fuel (psize pre) f' w = some o := by
  induction hx with
  | @label b r f w o hx ih =>
    intro pre hF size hfit hlen f' hrel
    cases hfit with
    | label hfit =>
      have := ih (pre ++ [.label b]) (by rw [hF, List.append_assoc]; rfl) size hfit hlen f' hrel
      rw [psize_append] at this
      exact this
  | @out i r f w o hs =>
    intro pre hF size hfit hlen f' hrel
    obtain ⟨k, n, h1, h2, h3⟩ := fetch_image h hF
    have hst := step_rel (H := H) h.nodup h2 hrel w
    rw [hs] at hst
    have hst : step H (i.decN k) f' w = .out o := hst
    refine ⟨1, ?_⟩
    unfold exec
    rw [h1]
    dsimp only
    rw [hst]
  | @go i r f w f1 w1 o hs hx ih =>
    intro pre hF size hfit hlen f' hrel
    obtain ⟨k, n, h1, h2, h3⟩ := fetch_image h hF
    have hst := step_rel (H := H) h.nodup h2 hrel w
    rw [hs] at hst
    obtain ⟨f1', hst, hrel1⟩ := hst
    have heff := step_effect (H := H) i f w
    rw [hs] at heff
    have heff : (f1.stack.length : Int) ≤ (f.stack.length : Int) + i.effect := heff
    cases hfit with
    | ins hM hj hg =>
      have hnf : ∀ t, i ≠ .jump .jumpForward t := by
        intro t he
        subst he
        exact nomatch hs
      obtain ⟨fuel, hfu⟩ := ih (pre ++ [.ins i]) (by rw [hF, List.append_assoc]; rfl) _ (hg hnf) (by omega) f1' hrel1
      refine ⟨fuel + 1, ?_⟩
      unfold exec
      rw [h1]
      dsimp only
      rw [hst]
      dsimp only
      rw [if_pos (by rw [hrel1.stack]; omega)]
      rw [psize_append] at hfu
      have : psize [Item.ins i] = i.len := by simp [psize, insOf]
      rw [this] at hfu
      exact hfu
  | @jump i r f w f1 w1 o t ht hs hx ih =>
    intro pre hF size hfit hlen f' hrel
    obtain ⟨k, n, h1, h2, h3⟩ := fetch_image h hF
    have hst := step_rel (H := H) h.nodup h2 hrel w
    rw [hs] at hst
    obtain ⟨f1', hst, hrel1⟩ := hst
    have heff := step_effect (H := H) i f w
    rw [hs] at heff
    have heff : (f1.stack.length : Int) ≤ (f.stack.length : Int) + i.effect := heff
    have hcl : Closed (.ins i :: r) := by
      rw [hF] at hc; exact hc.suffix
    obtain ⟨q, hq⟩ := after_of_mem (hcl.1 t ht)
    cases hfit with
    | ins hM hj hg =>
      have hF' : F = (pre ++ .ins i :: q) ++ .label t :: after t r := by
        rw [hF, List.append_assoc]
        show _ = pre ++ (.ins i :: (q ++ .label t :: after t r))
        rw [← hq]
      have hoff := h.offset hF'
      obtain ⟨fuel, hfu⟩ := ih (pre ++ .ins i :: q ++ [.label t]) (by rw [hF', List.append_assoc _ [_]]; rfl) _ (hj t ht)
        (by omega) f1' hrel1
      refine ⟨fuel + 1, ?_⟩
      unfold exec
      rw [h1]
      dsimp only
      rw [hst]
      dsimp only
      rw [if_pos (by rw [hrel1.stack]; omega), h3 t ht, hoff]
      rw [psize_append _ [_]] at hfu
      exact hfu

theorem exec_more {c : Code V} {n : Nat} {pc : Nat} {f : Frame V Nat} {w : W} {o : Out V W}
    (h : exec H c n pc f w = some o) (m : Nat) (hm : n ≤ m) : exec H c m pc f w = some o := by
  induction n generalizing m pc f w with
  | zero => exact nomatch h
  | succ n ih =>
    cases m with
    | zero => omega
    | succ m =>
      have ih := fun {pc f w} h => ih (pc := pc) (f := f) (w := w) h m (by omega)
      unfold exec at h ⊢
      cases hf : fetch c pc with
      | none => rw [hf] at h; exact h
      | some x =>
        obtain ⟨len, d, k⟩ := x
        rw [hf] at h
        dsimp only at h ⊢
        cases hs : step H d f w with
        | out o => rw [hs] at h; exact h
        | go f1 w1 =>
          rw [hs] at h
          dsimp only at h ⊢
          split at h
          · next hle => rw [if_pos hle]; exact ih h
          · next hle => rw [if_neg hle]; exact h
        | jump f1 w1 =>
          rw [hs] at h
          dsimp only at h ⊢
          split at h
          · next hle => rw [if_pos hle]; exact ih h
          · next hle => rw [if_neg hle]; exact h

end Verif.Code
