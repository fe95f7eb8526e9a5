import Verif.Code.Correct

/-
Branches, loops, unions; all expressions.
-/
namespace Verif.Code

open Verif.Py Verif.Code.Spec
open Verif.Code.Gen

variable {V W A : Type} {H : Host V W} {K : Known V} {env : Env V} {ctx : V}

theorem act_bind_apply {B : Type} (a : Act V W A) (k : A → Act V W B) (w : W) :
    (a >>= k) w = (match a w with | (.ok x, w) => k x w | (.error e, w) => (.error e, w)) := rfl

theorem Fin.mono {rest rest' : List (Item V)} {lo hi : Nat} {loc : Str → Option V} {post post' : A → List V}
    {r : Except V A × W} {o : Out V W} (h : Fin H rest lo hi loc post r o)
    (hh : ∀ x loc' w, Exec H rest ⟨post x, loc'⟩ w o → Exec H rest' ⟨post' x, loc'⟩ w o) :
    Fin H rest' lo hi loc post' r o := by
  obtain ⟨r, w⟩ := r
  cases r with
  | ok x => exact fun loc' hag => hh x loc' w (h loc' hag)
  | error e => exact h

/-- The instruction of a test, and what it decides. -/
theorem exec_test {isOr : Bool} {stop : Nat} {v : V} {stk : List V} {loc : Str → Option V} {w : W} {o : Out V W}
    {r : List (Item V)}
    (h : match H.truth v w with
      | (.ok t, w') => if t = isOr then Exec H (after stop r) ⟨v :: stk, loc⟩ w' o else Exec H r ⟨v :: stk, loc⟩ w' o
      | (.error e, w') => o = .raised e w') :
    Exec H (.ins (.jump (if isOr then .jumpIfTrue else .jumpIfFalse) stop) :: r) ⟨v :: stk, loc⟩ w o := by
  cases ht : H.truth v w with
  | mk x w' =>
    rw [ht] at h
    cases x with
    | error e =>
      have h : o = .raised e w' := h
      subst h
      refine .out ?_
      cases isOr
      · show Eff.of (H.truth v w) _ = _
        rw [ht]; rfl
      · show Eff.of (H.truth v w) _ = _
        rw [ht]; rfl
    | ok t =>
      dsimp only at h
      cases isOr <;> cases t
      · refine .jump (t := stop) (f' := ⟨v :: stk, loc⟩) (w' := w') rfl ?_ h
        show Eff.of (H.truth v w) _ = _
        rw [ht]; rfl
      · refine .go (f' := ⟨v :: stk, loc⟩) (w' := w') ?_ h
        show Eff.of (H.truth v w) _ = _
        rw [ht]; rfl
      · refine .go (f' := ⟨v :: stk, loc⟩) (w' := w') ?_ h
        show Eff.of (H.truth v w) _ = _
        rw [ht]; rfl
      · refine .jump (t := stop) (f' := ⟨v :: stk, loc⟩) (w' := w') rfl ?_ h
        show Eff.of (H.truth v w) _ = _
        rw [ht]; rfl

/-- The list of a test and what comes if it goes on. -/
theorem does_test {isOr : Bool} {stop k : Nat} {lo hi : Nat} {y : List (Item V)} {v : V} {stk : List V} {b : Act V W V}
    (hk : k ≠ stop) (hy : stop ∉ labels y) (hb : ∀ stk, Does H (Ctx ctx) lo hi y stk b (fun v => v :: stk)) :
    Does H (Ctx ctx) lo hi
      (.ins (.jump (if isOr then .jumpIfTrue else .jumpIfFalse) stop) :: .label k :: .ins (.op .popTop) :: (y ++ [.label stop]))
      (v :: stk) (H.truth v >>= fun t => if t = isOr then pure v else b) (fun v => v :: stk) := by
  intro rest loc w o hl hf
  refine exec_test ?_
  rw [act_bind_apply] at hf
  cases ht : H.truth v w with
  | mk x w' =>
    rw [ht] at hf
    cases x with
    | error e => exact hf
    | ok t =>
      dsimp only at hf ⊢
      by_cases h : t = isOr
      · rw [if_pos h] at hf ⊢
        have h1 : after stop (.label k :: .ins (.op .popTop) :: (y ++ [.label stop]) ++ rest) = rest := by
          show after stop ((.label k :: .ins (.op .popTop) :: (y ++ [.label stop])) ++ rest) = rest
          rw [show (.label k :: .ins (.op .popTop) :: (y ++ [.label stop])) ++ rest =
            (.label k :: .ins (.op .popTop) :: y) ++ (.label stop :: rest) by simp]
          rw [after_append]
          · exact after_label _ _
          · show stop ∉ k :: labels y
            simp only [List.mem_cons, not_or]
            exact ⟨Ne.symm hk, hy⟩
        have h1' : after stop (.label k :: (.ins (.op .popTop) :: (y ++ [.label stop])).append rest) = rest := h1
        refine cast (congrArg (fun l => Exec H l _ _ _) h1'.symm) ?_
        exact hf loc (Agree.refl _ _ _)
      · rw [if_neg h] at hf ⊢
        refine .label (.go (f' := ⟨stk, loc⟩) (w' := w') rfl ?_)
        have := hb stk (.label stop :: rest) loc w' o hl (Fin.mono (H := H) hf fun _ _ _ h => Exec.label h)
        have he : y ++ Item.label stop :: rest = (y ++ [Item.label stop]).append rest := by
          show _ = (y ++ [.label stop]) ++ rest
          simp
        rw [← he]; exact this

/-- The list of an `or` or `and`. -/
theorem emits_branch {isOr : Bool} {l r : Gen V} {S1 S2 S3 : Nat → Nat → List (Item V) → Prop} (hl : Emits l S1) (hr : Emits r S2)
    (hS : ∀ lo mid hi x y stop k, lo ≤ mid → mid ≤ hi → k ≠ stop → stop ∉ labels y → S1 lo mid x → S2 mid hi y →
      S3 lo hi (x ++ (.ins (.jump (if isOr then .jumpIfTrue else .jumpIfFalse) stop) :: .label k ::
        .ins (.op .popTop) :: (y ++ [.label stop])))) :
    Emits (logicGen isOr l r) S3 := by
  intro s s' L hL hg
  obtain ⟨s1, h1, hg⟩ := seq_ok (hg : Gen.seq _ _ _ = _)
  obtain ⟨s2, h2, hg⟩ := seq_ok hg
  obtain ⟨s3, h3, hg⟩ := seq_ok hg
  obtain ⟨s4, h4, hg⟩ := seq_ok hg
  obtain ⟨s5, h5, h6⟩ := seq_ok hg
  cases h2; cases h3; cases h4; cases h6
  obtain ⟨x, hx1, hx2, hx3⟩ := hl _ s1 L hL.newBlock h1
  have e1 := hx1.emit [.jump (if isOr then .jumpIfTrue else .jumpIfFalse) s.g.blocks.length]
  have e2 := e1.nextNew
  have e3 := e2.emit [.op .popTop]
  rw [length_emit] at e3
  obtain ⟨y, hy1, hy2, hy3⟩ := hr _ s5 _ e3 h5
  have b1 := hx2.blocks
  have b2 := hy2.blocks
  rw [length_newBlock] at b1
  rw [length_emit, length_nextNew, length_emit] at b2
  have lx := hx2.labels
  have ly := hy2.labels
  rw [length_newBlock] at lx
  rw [length_emit, length_nextNew, length_emit] at ly
  have hyn : s.g.blocks.length ∉ labels y := fun h => by have := ly _ h; omega
  have e4 := hy1.next (t := s.g.blocks.length) (by omega) (by
    simp only [labels_append, List.mem_append, not_or]
    refine ⟨⟨⟨⟨⟨fun h => ?_, fun h => ?_⟩, fun h => ?_⟩, fun h => ?_⟩, fun h => ?_⟩, hyn⟩
    · have := hL.labels_lt _ h; omega
    · have := lx _ h; omega
    · simp [labels] at h
    · simp only [labels, List.mem_singleton] at h; omega
    · simp [labels] at h)
  refine ⟨x ++ (.ins (.jump (if isOr then .jumpIfTrue else .jumpIfFalse) s.g.blocks.length) :: .label s1.g.blocks.length ::
      .ins (.op .popTop) :: (y ++ [.label s.g.blocks.length])), ?_, ⟨?_, ?_, ?_, ?_⟩, ?_⟩
  · simpa [List.append_assoc] using e4
  · show _ ≤ (s5.g.nextBlock _).blocks.length
    rw [length_next]; omega
  · exact Nat.le_trans hx2.nlocals hy2.nlocals
  · intro b hb
    rw [labels_append] at hb
    rcases List.mem_append.1 hb with hb | hb
    · have := lx b hb; omega
    · simp only [labels, labels_append, List.mem_cons, List.mem_append, List.not_mem_nil, or_false] at hb
      rcases hb with hb | hb | hb
      · omega
      · have := ly b hb; omega
      · omega
  · refine closed_append hx2.closed ⟨fun t ht => ?_, (nofun), closed_append hy2.closed trivial⟩
    cases ht
    simp [labels, labels_append]
  · exact hS _ _ _ _ _ _ _ hx2.nlocals hy2.nlocals (by omega) hyn hx3 hy3

theorem emits_logic {isOr : Bool} {l r : Gen V} {a b : Act V W V} (hl : Emits l (SemV H ctx a)) (hr : Emits r (SemV H ctx b)) :
    Emits (logicGen isOr l r) (SemV H ctx (decide H isOr a b)) :=
  emits_branch hl hr fun _ _ _ _ _ _ _ h1 h2 hk hy hx3 hy3 stk =>
    .bind h1 h2 (ctx_agree ctx) (hx3 stk) fun _ => does_test hk hy hy3

/-- The context is put back. -/
theorem emits_block {body : Gen V} {a : Act V W V} (h : Emits body (SemV H ctx a)) :
    Emits (makeBlock body) (SemV H ctx (saving H ctx a)) := by
  unfold makeBlock saving
  refine emits_before (S1 := fun lo hi x => ∀ node position size stk,
      Does H (Ctx ctx) lo hi x (size :: position :: node :: stk) (do
        let v ← a
        H.setAttr ctx (s!! "size") size
        H.setAttr ctx (s!! "position") position
        H.setAttr ctx (s!! "node") node
        return v) (fun v => v :: stk)) ?_ (emits_after ?_ h ?_) ?_
  · exact straight_cons rfl (straight_cons rfl (straight_cons rfl (straight_cons rfl (straight_cons rfl
      (straight_cons rfl straight_nil)))))
  · exact straight_cons rfl (straight_cons rfl (straight_cons rfl (straight_cons rfl (straight_cons rfl
      (straight_cons rfl (straight_cons rfl straight_nil))))))
  · intro lo hi x hle hx node position size stk
    refine .bind hle (Nat.le_refl _) (ctx_agree ctx) (hx _) fun v => ?_
    exact .rotFour (.ctx (fun _ h => h) (.setAttr (.ctx (fun _ h => h) (.setAttr (.ctx (fun _ h => h) (.setAttr (.nil rfl)))))))
  · intro lo hi x hx stk
    exact .ctx (fun _ h => h) (.getAttr fun node => .ctx (fun _ h => h) (.getAttr fun position =>
      .ctx (fun _ h => h) (.getAttr fun size => hx node position size stk)))

theorem does_start {P : (Str → Option V) → Prop} (hP : ∀ l, P l → Ctx ctx l) {lo hi : Nat} {seg : List (Item V)} {stk : List V}
    {k : V → Act V W A} {post : A → List V} (h : ∀ nodes, Does H P lo hi seg (nodes :: stk) (k nodes) post) :
    Does H P lo hi ((contextNodes : List (Ins V)).map .ins ++ seg) stk (start H ctx >>= k) post := by
  unfold start
  rw [act_assoc]
  refine .ctx hP (.getAttr fun node => ?_)
  exact Does.tuple (vs := [node]) rfl (h _)

theorem straight_context : straight (contextNodes : List (Ins V)) :=
  straight_cons rfl (straight_cons rfl (straight_cons rfl straight_nil))

theorem emits_nodeset {iterable : Gen V} {it : V → Act V W V} (h : Emits iterable (SemI H ctx it)) :
    Emits (makeNodeset K iterable) (SemV H ctx (saving H ctx (start H ctx >>= fun nodes => it nodes >>= fun x =>
      H.call K.nodeset [x]))) := by
  refine emits_block (emits_before (S1 := fun lo hi x => ∀ nodes stk,
    Does H (Ctx ctx) lo hi x (nodes :: K.nodeset :: stk) (it nodes >>= fun x => H.call K.nodeset [x]) (fun v => v :: stk))
    (straight_cons rfl straight_context) (emits_after (straight_cons rfl straight_nil) h ?_) ?_)
  · intro lo hi x hle hx nodes stk
    exact .bind hle (Nat.le_refl _) (ctx_agree ctx) (hx nodes _) fun v => .call1
  · intro lo hi x hx stk
    exact .const (does_start (fun _ h => h) fun nodes => hx nodes stk)

/-- FOR_ITER. -/
theorem exec_forIter {els : Nat} {it : V} {stk : List V} {loc : Str → Option V} {w : W} {o : Out V W} {r : List (Item V)}
    (h : match H.next it w with
      | (.ok (some v), w') => Exec H r ⟨v :: it :: stk, loc⟩ w' o
      | (.ok none, w') => Exec H (after els r) ⟨stk, loc⟩ w' o
      | (.error e, w') => o = .raised e w') :
    Exec H (.ins (.jump .forIter els) :: r) ⟨it :: stk, loc⟩ w o := by
  have hs : step H (Ins.dec (V := V) (.jump .forIter els)) ⟨it :: stk, loc⟩ w = Eff.of (H.next it w) fun x w =>
    match x with
    | some v => .go ⟨v :: it :: stk, loc⟩ w
    | none => .jump ⟨stk, loc⟩ w := rfl
  cases ht : H.next it w with
  | mk x w' =>
    rw [ht] at h hs
    cases x with
    | error e =>
      have h : o = .raised e w' := h
      subst h
      exact .out hs
    | ok x =>
      cases x with
      | none => exact .jump rfl hs h
      | some v => exact .go hs h

/-- What the loop does with the first thing. -/
def firstOf (H : Host V W) (found : V → Act V W V) (empty : Act V W V) (it : V) : Act V W V := do
  match ← H.next it with
  | some node => found node
  | none => empty

/-- The list of a loop, after GET_ITER. -/
theorem does_loop {els stop lo hi : Nat} (hne : els ≠ stop) {found empty : List (Ins V)} {fa : V → Act V W V}
    {ea : Act V W V} (hle : lo ≤ hi)
    (hf : ∀ n v it stk, Does H (Ctx ctx) n n (found.map .ins) (v :: it :: stk) (fa v) (fun x => x :: it :: stk))
    (he : ∀ n stk, Does H (Ctx ctx) n n (empty.map .ins) stk ea (fun x => x :: stk)) (it : V) (stk : List V) :
    Does H (Ctx ctx) lo hi
      (.ins (.jump .forIter els) :: (found.map .ins ++ (.ins (.op .rotTwo) :: .ins (.op .popTop) ::
        .ins (.jump .jumpForward stop) :: .label els :: (empty.map .ins ++ [.label stop]))))
      (it :: stk) (firstOf H fa ea it) (fun v => v :: stk) := by
  intro rest loc w o hl hfin
  refine exec_forIter ?_
  unfold firstOf at hfin
  rw [act_bind_apply] at hfin
  have hwide : ∀ {r : Except V V × W} {rest' : List (Item V)} {p : V → List V},
      (∀ x loc' w, Agree lo hi loc loc' → r = (.ok x, w) → Exec H rest' ⟨p x, loc'⟩ w o) →
      (∀ e w, r = (.error e, w) → o = .raised e w) → Fin H rest' lo lo loc p r o := by
    intro r rest' p h1 h2
    cases r with
    | mk r w =>
      cases r with
      | ok x => exact fun loc' hag => h1 x loc' w (fun y hy => hag y fun k h3 h4 => hy k h3 (by omega)) rfl
      | error e => exact h2 e w rfl
  cases ht : H.next it w with
  | mk x w' =>
    rw [ht] at hfin
    cases x with
    | error e => exact hfin
    | ok x =>
      cases x with
      | some v =>
        dsimp only at hfin ⊢
        have h1 := hf lo v it stk (.ins (.op .rotTwo) :: .ins (.op .popTop) ::
          .ins (.jump .jumpForward stop) :: .label els :: (empty.map .ins ++ (.label stop :: rest))) loc w' o hl (hwide ?_ ?_)
        · refine cast (congrArg (fun l => Exec H l _ _ _) ?_) h1
          simp
        · intro x loc' w'' hag hr
          refine .go (f' := ⟨it :: x :: stk, loc'⟩) (w' := w'') rfl (.go (f' := ⟨x :: stk, loc'⟩) (w' := w'') rfl
            (.jump (t := stop) (f' := ⟨x :: stk, loc'⟩) (w' := w'') rfl rfl ?_))
          have ha : after stop (.label els :: (empty.map .ins ++ (.label stop :: rest))) = rest := by
            show (if els = stop then _ else after stop (empty.map .ins ++ (.label stop :: rest))) = rest
            rw [if_neg hne, after_append (by rw [labels_map]; exact List.not_mem_nil), after_label]
          rw [ha]
          rw [hr] at hfin
          exact hfin loc' hag
        · intro e w'' hr
          rw [hr] at hfin; exact hfin
      | none =>
        dsimp only at hfin ⊢
        have ha : after els (found.map .ins ++ (.ins (.op .rotTwo) :: .ins (.op .popTop) ::
            .ins (.jump .jumpForward stop) :: .label els :: (empty.map .ins ++ (.label stop :: rest)))) =
            empty.map .ins ++ (.label stop :: rest) := by
          rw [after_append (by rw [labels_map]; exact List.not_mem_nil)]
          exact after_label _ _
        have h1 := he lo stk (.label stop :: rest) loc w' o hl (hwide ?_ ?_)
        · rw [← ha] at h1
          refine cast (congrArg (fun l => Exec H l _ _ _) ?_) h1
          simp
        · intro x loc' w'' hag hr
          rw [hr] at hfin
          exact .label (hfin loc' hag)
        · intro e w'' hr
          rw [hr] at hfin; exact hfin

theorem emits_loop {iterable : Gen V} {it : V → Act V W V} {found empty : List (Ins V)} {fa : V → Act V W V}
    {ea : Act V W V} (h : Emits iterable (SemI H ctx it)) (hsf : straight found) (hse : straight empty)
    (hf : ∀ n v it stk, Does H (Ctx ctx) n n (found.map .ins) (v :: it :: stk) (fa v) (fun x => x :: it :: stk))
    (he : ∀ n stk, Does H (Ctx ctx) n n (empty.map .ins) stk ea (fun x => x :: stk)) :
    Emits (makeLoop iterable found empty) (SemV H ctx (first H ctx it fa ea)) := by
  unfold makeLoop first
  refine emits_block ?_
  intro s s' L hL hg
  unfold Gen.withBlock at hg
  dsimp only at hg
  obtain ⟨s1, h1, hg⟩ := seq_ok hg
  obtain ⟨s2, h2, hg⟩ := seq_ok hg
  obtain ⟨s3, h3, hg⟩ := seq_ok hg
  obtain ⟨s4, h4, hg⟩ := seq_ok hg
  obtain ⟨s5, h5, hg⟩ := seq_ok hg
  obtain ⟨s6, h6, hg⟩ := seq_ok hg
  obtain ⟨s7, h7, h8⟩ := seq_ok hg
  cases h1; cases h3; cases h4; cases h5; cases h6; cases h7; cases h8
  simp only [length_newBlock]
  have e1 := (hL.newBlock.newBlock).emit contextNodes
  obtain ⟨x, hx1, hx2, hx3⟩ := h _ s2 _ e1 h2
  have bx := hx2.blocks
  have lx := hx2.labels
  rw [length_emit, length_newBlock, length_newBlock] at bx lx
  have e2 := ((hx1.emit [.op .getIter, .jump .forIter (s.g.blocks.length + 1)]).emit found).emit
    [.op .rotTwo, .op .popTop, .jump .jumpForward s.g.blocks.length]
  have e3 := e2.next (t := s.g.blocks.length + 1) (by simp only [length_emit]; omega) (by
    simp only [labels_append, labels_map, List.mem_append, not_or, List.not_mem_nil, not_false_eq_true, and_true]
    refine ⟨fun h => ?_, fun h => ?_⟩
    · have := hL.labels_lt _ h; omega
    · have := lx _ h; omega)
  have e4 := (e3.emit empty).next (t := s.g.blocks.length) (by simp only [length_emit, length_next]; omega) (by
    simp only [labels_append, labels_map, List.mem_append, not_or, List.not_mem_nil, not_false_eq_true, and_true]
    refine ⟨⟨fun h => ?_, fun h => ?_⟩, fun h => ?_⟩
    · have := hL.labels_lt _ h; omega
    · have := lx _ h; omega
    · simp only [labels, List.mem_singleton] at h; omega)
  refine ⟨contextNodes.map .ins ++ (x ++ (.ins (.op .getIter) :: (.ins (.jump .forIter (s.g.blocks.length + 1)) ::
      (found.map .ins ++ (.ins (.op .rotTwo) :: .ins (.op .popTop) :: .ins (.jump .jumpForward s.g.blocks.length) ::
        .label (s.g.blocks.length + 1) :: (empty.map .ins ++ [.label s.g.blocks.length])))))), ?_, ⟨?_, ?_, ?_, ?_⟩, ?_⟩
  · simpa [List.append_assoc] using e4
  · simp only [length_emit, length_next]; omega
  · exact hx2.nlocals
  · intro b hb
    simp only [labels, labels_append, labels_map, List.mem_cons, List.mem_append, List.not_mem_nil, or_false, false_or] at hb
    rcases hb with hb | hb | hb
    · have := lx b hb; omega
    · omega
    · omega
  · refine closed_append (closed_map straight_context) (closed_append hx2.closed ⟨(nofun), fun t ht => ?_, closed_append
      (closed_map hsf) ⟨(nofun), (nofun), fun t ht => ?_, closed_append (closed_map hse) trivial⟩⟩)
    · cases ht; simp [labels, labels_append]
    · cases ht; simp [labels, labels_append]
  · intro stk
    refine does_start (fun _ h => h) fun nodes => .bind hx2.nlocals (Nat.le_refl _) (ctx_agree ctx) (hx3 nodes stk) fun v => ?_
    exact .ask (p := fun x => x :: stk) (fun _ _ _ => rfl) fun x =>
      does_loop (by omega) (Nat.le_refl _) hf he x stk

/-- The methods of `nodeset_expression`. -/
theorem emits_nodesetModes {iterable : Gen V} {it : V → Act V W V} (h : Emits iterable (SemI H ctx it)) (m : Mode) :
    Emits (nodesetModes K iterable m) (SemM H ctx (nodesetAs H K ctx it) m) := by
  have hcall : ∀ (f : V) n v i stk, Does H (Ctx ctx) n n
      ([Ins.const f, .op .rotTwo, .num .callFunction 1].map .ins) (v :: i :: stk) (H.call f [v]) (fun x => x :: i :: stk) :=
    fun f n v i stk => .const (.rotTwo .call1)
  have s3 : ∀ f : V, straight [Ins.const f, .op .rotTwo, .num .callFunction 1] := fun f =>
    straight_cons rfl (straight_cons rfl (straight_cons rfl straight_nil))
  cases m with
  | iterable => exact h
  | plain => exact emits_all (by decide) (fun _ => rfl) (emits_nodeset (K := K) h)
  | nodeset => exact emits_all (by decide) (fun _ => rfl) (emits_nodeset (K := K) h)
  | boolean =>
    refine emits_all (by decide) (fun _ => rfl) (emits_loop h (straight_cons rfl (straight_cons rfl straight_nil))
      (straight_cons rfl straight_nil) ?_ ?_)
    · exact fun n v i stk => .pop (.const (.nil rfl))
    · exact fun n stk => .const (.nil rfl)
  | number =>
    refine emits_all (by decide) (fun _ => rfl) (emits_loop h (s3 _) (straight_cons rfl (straight_cons rfl straight_nil))
      (hcall _) ?_)
    exact fun n stk => .const (.last fun _ _ _ => rfl)
  | string =>
    refine emits_all (by decide) (fun _ => rfl) (emits_loop h (s3 _) (straight_cons rfl straight_nil) (hcall _) ?_)
    exact fun n stk => .const (.nil rfl)

end Verif.Code
