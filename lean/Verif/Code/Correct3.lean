import Verif.Code.Correct2

/-
Unions, and all expressions.
-/
namespace Verif.Code

open Verif.Py Verif.Code.Spec
open Verif.Code.Gen

variable {V W A : Type} {H : Host V W} {K : Known V} {env : Env V} {ctx : V}

/-- The paths of a union push their iterables. -/
theorem emits_args {k : Nat} {ps : List (Gen V)} {as : V → List (Act V W V)}
    (h : ∀ nodes, ps.length = (as nodes).length)
    (hp : ∀ i (hi : i < ps.length), Emits ps[i] (SemI H ctx fun nodes => (as nodes)[i]'(h nodes ▸ hi))) :
    Emits (unionArgs (tmp k) ps) (fun lo hi x => k ≤ lo → ∀ nodes stk,
      Does H (fun loc => Ctx ctx loc ∧ loc (tmp k) = some nodes) lo hi x stk (all (as nodes)) (fun vs => vs.reverse ++ stk)) := by
  induction ps generalizing as with
  | nil =>
    refine .skip fun n _ nodes stk => ?_
    have : as nodes = [] := List.eq_nil_of_length_eq_zero (h nodes).symm
    rw [this]
    exact .nil rfl
  | cons p ps ih =>
    have hcons : ∀ (l : List (Act V W V)) (hl : 0 < l.length), l = l[0] :: l.tail := fun l hl => by
      cases l with
      | nil => exact absurd hl (Nat.lt_irrefl _)
      | cons a r => rfl
    have hc : ∀ nodes, as nodes = ((as nodes)[0]'(by rw [← h nodes]; simp)) :: (as nodes).tail := fun nodes =>
      hcons _ _
    have ht : ∀ nodes, ps.length = (as nodes).tail.length := fun nodes => by
      rw [List.length_tail, ← h nodes]; rfl
    have h0 := hp 0 (by simp)
    have hrest := ih (as := fun nodes => (as nodes).tail) ht fun i hi => by
      have := hp (i + 1) (by simpa using hi)
      refine this.mono fun lo hi' x _ hx => ?_
      have he : (fun nodes => (as nodes).tail[i]'(ht nodes ▸ hi)) =
          (fun nodes => (as nodes)[i + 1]'(h nodes ▸ (by simpa using hi))) := by
        funext nodes
        rw [List.getElem_tail]
      rw [he]; exact hx
    refine emits_before (S1 := fun lo hi x => k ≤ lo → ∀ nodes stk,
        Does H (fun loc => Ctx ctx loc ∧ loc (tmp k) = some nodes) lo hi x (nodes :: stk) (all (as nodes))
          (fun vs => vs.reverse ++ stk)) (straight_cons rfl straight_nil) ?_ ?_
    · refine .seq h0 hrest fun lo mid hi x y h1 h2 hx hy hk nodes stk => ?_
      rw [hc nodes]
      have hstab : ∀ l l', (Ctx ctx l ∧ l (tmp k) = some nodes) → Agree lo mid l l' → (Ctx ctx l' ∧ l' (tmp k) = some nodes) :=
        fun l l' hl hag => ⟨hl.1.agree hag, (hag _ fun j h3 _ he => by have := tmp_inj he; omega).trans hl.2⟩
      unfold all
      refine .bind h1 h2 hstab ((hx nodes stk).weaken fun l hl => hl.1) fun v => ?_
      have hy' := hy (by omega) nodes (v :: stk)
      rw [← List.append_nil y]
      refine .bind h2 (Nat.le_refl _) (fun l l' hl hag =>
        ⟨hl.1.agree hag, (hag _ fun j h3 _ he => by have := tmp_inj he; omega).trans hl.2⟩) hy' fun vs => .nil ?_
      simp
    · intro lo hi x hx hk nodes stk
      refine .move (stk' := nodes :: stk) (fun loc w hl => ?_) (hx hk nodes stk)
      show (match loc (tmp k) with | some v => _ | none => _) = _
      rw [hl.2]

theorem length_all {as : List (Act V W V)} {w w' : W} {vs : List V} (h : all as w = (.ok vs, w')) : vs.length = as.length := by
  induction as generalizing w w' vs with
  | nil =>
    have : (Except.ok [], w) = (Except.ok vs, w') := h
    cases this; rfl
  | cons a as ih =>
    unfold all at h
    rw [act_bind_apply] at h
    split at h
    · next v w1 h1 =>
      rw [act_bind_apply] at h
      split at h
      · next us w2 h2 =>
        have : (Except.ok (v :: us), w2) = (Except.ok vs, w') := h
        cases this
        simp [ih h2]
      · cases h
    · cases h

theorem straight_single {i : Ins V} (h : i.target = none) : straight [i] := straight_cons h straight_nil

theorem emits_union {ps : List (Gen V)} {as : V → List (Act V W V)} (hn : ps.length < 256)
    (h : ∀ nodes, ps.length = (as nodes).length)
    (hp : ∀ i (hi : i < ps.length), Emits ps[i] (SemI H ctx fun nodes => (as nodes)[i]'(h nodes ▸ hi))) :
    Emits (unionGen K ps) (SemI H ctx fun nodes => all (as nodes) >>= fun its => H.call K.unioniter its) := by
  intro s s' L hL hg
  unfold unionGen Gen.withTmp at hg
  have hE : Emits (emit [.fast .store (tmp (s.nlocals + 1)), .const K.unioniter] ;; unionArgs (tmp (s.nlocals + 1)) ps ;;
      emit [.num .callFunction ps.length, .fast .delete (tmp (s.nlocals + 1))])
      (fun lo hi x => ∃ y, x = .ins (.fast .store (tmp (s.nlocals + 1))) :: .ins (.const K.unioniter) ::
        (y ++ [.ins (.num .callFunction ps.length), .ins (.fast .delete (tmp (s.nlocals + 1)))]) ∧ lo ≤ hi ∧
        (s.nlocals + 1 ≤ lo → ∀ nodes stk,
          Does H (fun loc => Ctx ctx loc ∧ loc (tmp (s.nlocals + 1)) = some nodes) lo hi y stk (all (as nodes))
            (fun vs => vs.reverse ++ stk))) := by
    refine emits_before (straight_cons rfl (straight_single rfl)) (emits_after (straight_cons rfl (straight_single rfl))
      (S2 := fun lo hi x => ∃ y, x = y ++ [.ins (.num .callFunction ps.length), .ins (.fast .delete (tmp (s.nlocals + 1)))] ∧
        lo ≤ hi ∧ (s.nlocals + 1 ≤ lo → ∀ nodes stk,
          Does H (fun loc => Ctx ctx loc ∧ loc (tmp (s.nlocals + 1)) = some nodes) lo hi y stk (all (as nodes))
            (fun vs => vs.reverse ++ stk)))
      (emits_args h hp) fun lo hi x hle hx => ⟨x, rfl, hle, hx⟩) fun lo hi x hx => ?_
    obtain ⟨y, rfl, hle, hy⟩ := hx
    exact ⟨y, rfl, hle, hy⟩
  obtain ⟨seg, hseg, hgrow, y, rfl, hle, hy⟩ := hE { g := s.g, nlocals := s.nlocals + 1 } s' L hL hg
  refine ⟨_, hseg, ⟨hgrow.blocks, Nat.le_trans (Nat.le_succ _) hgrow.nlocals, hgrow.labels, hgrow.closed⟩, ?_⟩
  have hle : s.nlocals + 1 ≤ s'.nlocals := hle
  intro nodes stk rest loc w o hl hf
  have hy := hy (Nat.le_refl _) nodes (K.unioniter :: stk)
  have hloc1 : ∀ x, x ≠ tmp (s.nlocals + 1) → (if x = tmp (s.nlocals + 1) then some nodes else loc x) = loc x :=
    fun x hx => if_neg hx
  refine .go (f' := ⟨stk, fun x => if x = tmp (s.nlocals + 1) then some nodes else loc x⟩) (w' := w) rfl
    (.go (f' := ⟨K.unioniter :: stk, fun x => if x = tmp (s.nlocals + 1) then some nodes else loc x⟩) (w' := w) rfl ?_)
  have hf : Fin H rest s.nlocals s'.nlocals loc (fun v => v :: stk)
    ((all (as nodes) >>= fun its => H.call K.unioniter its) w) o := hf
  rw [act_bind_apply] at hf
  have := hy (.ins (.num .callFunction ps.length) :: .ins (.fast .delete (tmp (s.nlocals + 1))) :: rest)
    (fun x => if x = tmp (s.nlocals + 1) then some nodes else loc x) w o
    ⟨(hloc1 _ (tmp_ne _)).trans hl, if_pos rfl⟩ ?_
  · refine cast (congrArg (fun l => Exec H l _ _ _) ?_) this
    simp
  · cases hr : all (as nodes) w with
    | mk r w1 =>
      rw [hr] at hf
      cases r with
      | error e => exact hf
      | ok vs =>
        intro loc2 hag
        have hlen := length_all hr
        have hlen2 := h nodes
        have hstep := step_call (H := H) (vs := vs) (stk := stk) (f := K.unioniter) (n := ps.length) (by omega) hn loc2 w1
        have hf : Fin H rest s.nlocals s'.nlocals loc (fun v => v :: stk) (H.call K.unioniter vs w1) o := hf
        cases hc : H.call K.unioniter vs w1 with
        | mk r w2 =>
          rw [hc] at hf hstep
          cases r with
          | error e =>
            have hf : o = .raised e w2 := hf
            subst hf
            exact .out hstep
          | ok v =>
            refine .go hstep ?_
            have hag' : loc2 (tmp (s.nlocals + 1)) = some nodes :=
              (hag _ fun j (h3 : s.nlocals + 1 < j) _ he => by have := tmp_inj he; omega).trans (if_pos rfl)
            refine .go (f' := ⟨v :: stk, fun x => if x = tmp (s.nlocals + 1) then none else loc2 x⟩) (w' := w2) ?_ (hf _ ?_)
            · show (match loc2 (tmp (s.nlocals + 1)) with | some _ => _ | none => _) = _
              rw [hag']
            · intro x hx
              have hne : x ≠ tmp (s.nlocals + 1) := hx _ (by omega) hle
              show (if x = tmp (s.nlocals + 1) then none else loc2 x) = loc x
              rw [if_neg hne, hag x fun k (h3 : s.nlocals + 1 < k) h4 => hx k (by omega) h4]
              exact hloc1 x hne

theorem seq_assoc (a b c : Gen V) : ((a ;; b) ;; c) = (a ;; b ;; c) := by
  funext s
  unfold Gen.seq
  cases a s <;> rfl

/-- The tests of a union. -/
theorem emits_tests {stop : Nat} {ps : List (Gen V)} {as : List (Act V W V)} (h : ps.length = as.length)
    (hp : ∀ i (hi : i < ps.length), Emits ps[i] (SemV H ctx (as[i]'(h ▸ hi))))
    {s s' : CState V} {L : List (Item V)} (hL : Lay s.g L) (hstop : stop < s.g.blocks.length) (hnot : stop ∉ labels L)
    (hg : (unionTests stop ps ;; next stop) s = .ok s') :
    ∃ y, Lay s'.g (L ++ (y ++ [.label stop])) ∧ stop ∉ labels y ∧ s.g.blocks.length ≤ s'.g.blocks.length ∧
      s.nlocals ≤ s'.nlocals ∧ (∀ b ∈ labels y, s.g.blocks.length ≤ b) ∧ Closed (y ++ [.label stop]) ∧
      ∀ stk, Does H (Ctx ctx) s.nlocals s'.nlocals (y ++ [.label stop]) stk (anyTrue H K as) (fun v => v :: stk) := by
  induction ps generalizing as s L with
  | nil =>
    obtain ⟨t, h1, h2⟩ := seq_ok hg
    exact nomatch h1
  | cons p ps ih =>
    cases as with
    | nil => simp at h
    | cons a as =>
    cases ps with
    | nil =>
      cases as with
      | cons _ _ => simp at h
      | nil =>
      obtain ⟨s1, h1, h2⟩ := seq_ok hg
      obtain ⟨x, hx1, hx2, hx3⟩ := hp 0 (by simp) _ s1 L hL h1
      cases h2
      have hnx : stop ∉ labels x := fun hm => by have := hx2.labels _ hm; omega
      have bx := hx2.blocks
      refine ⟨x, ?_, hnx, ?_, hx2.nlocals, hx2.labels, closed_append hx2.closed trivial, fun stk => ?_⟩
      · rw [← List.append_assoc]
        refine hx1.next (by omega) ?_
        rw [labels_append, List.mem_append, not_or]
        exact ⟨hnot, hnx⟩
      · show _ ≤ (s1.g.nextBlock stop).blocks.length
        rw [length_next]; exact bx
      · intro rest loc w o hl hf
        rw [List.append_assoc]
        exact hx3 stk (.label stop :: rest) loc w o hl (Fin.mono (H := H) hf fun _ _ _ h => Exec.label h)
    | cons q ps =>
      cases as with
      | nil => simp at h
      | cons b as =>
      have hg : ((p ;; emit [.jump .jumpIfTrue stop] ;; nextNew ;; emit [.op .popTop] ;; unionTests stop (q :: ps)) ;; next stop) s
        = .ok s' := hg
      rw [seq_assoc, seq_assoc, seq_assoc, seq_assoc] at hg
      obtain ⟨s1, h1, hg⟩ := seq_ok hg
      obtain ⟨s2, h2, hg⟩ := seq_ok hg
      obtain ⟨s3, h3, hg⟩ := seq_ok hg
      obtain ⟨s4, h4, hg⟩ := seq_ok hg
      cases h2; cases h3; cases h4
      obtain ⟨x, hx1, hx2, hx3⟩ := hp 0 (by simp) _ s1 L hL h1
      have hnx : stop ∉ labels x := fun hm => by have := hx2.labels _ hm; omega
      have bx := hx2.blocks
      have e1 := hx1.emit [.jump .jumpIfTrue stop]
      have e2 := e1.nextNew
      have e3 := e2.emit [.op .popTop]
      rw [length_emit] at e3
      have hlt : stop < ((Graph.emit [.op .popTop] (Graph.nextNew (Graph.emit [.jump .jumpIfTrue stop] s1.g)))).blocks.length := by
        rw [length_emit, length_nextNew, length_emit]; omega
      obtain ⟨y, hy1, hy2, hy3, hy4, hy5, hy6, hy7⟩ := ih (as := b :: as) (by simpa using h)
        (fun i hi => hp (i + 1) (by simpa using hi)) e3 hlt (by
          simp only [labels_append, labels, List.mem_append, not_or, List.map_cons, List.map_nil, List.not_mem_nil,
            not_false_eq_true, and_true, List.mem_singleton]
          exact ⟨⟨hnot, hnx⟩, by omega⟩) hg
      rw [length_emit, length_nextNew, length_emit] at hy3 hy5
      have hne : s1.g.blocks.length ≠ stop := by omega
      refine ⟨x ++ (.ins (.jump .jumpIfTrue stop) :: .label s1.g.blocks.length :: .ins (.op .popTop) :: y), ?_, ?_, ?_, ?_, ?_, ?_,
        fun stk => ?_⟩
      · simpa [List.append_assoc] using hy1
      · simp only [labels_append, labels, List.mem_append, List.mem_cons, not_or]
        exact ⟨hnx, Ne.symm hne, hy2⟩
      · omega
      · exact Nat.le_trans hx2.nlocals hy4
      · intro c hc
        simp only [labels_append, labels, List.mem_append, List.mem_cons] at hc
        rcases hc with hc | hc | hc
        · exact hx2.labels c hc
        · omega
        · have := hy5 c hc; omega
      · rw [List.append_assoc]
        refine closed_append hx2.closed ⟨fun t ht => ?_, (nofun), hy6⟩
        cases ht
        show stop ∈ labels (Item.label _ :: Item.ins _ :: (y ++ [Item.label stop]))
        simp [labels, labels_append]
      · rw [List.append_assoc]
        show Does _ _ _ _ _ _ (decide H true a (anyTrue H K (b :: as))) _
        refine .bind hx2.nlocals hy4 (ctx_agree ctx) (hx3 stk) fun v => ?_
        intro rest loc w o hl hf
        refine exec_test (isOr := true) ?_
        rw [act_bind_apply] at hf
        cases ht : H.truth v w with
        | mk r w' =>
          rw [ht] at hf
          cases r with
          | error e => exact hf
          | ok t =>
            dsimp only at hf ⊢
            by_cases hc : t = true
            · rw [if_pos hc] at hf ⊢
              have h1 : after stop ((.label s1.g.blocks.length :: .ins (.op .popTop) :: y) ++ (.label stop :: rest)) = rest := by
                rw [after_append]
                · exact after_label _ _
                · show stop ∉ _ :: labels y
                  simp only [List.mem_cons, not_or]
                  exact ⟨Ne.symm hne, hy2⟩
              have := hf loc (Agree.refl _ _ _)
              rw [← h1] at this
              refine cast (congrArg (fun l => Exec H l _ _ _) (congrArg (after stop) ?_)) this
              simp
            · rw [if_neg hc] at hf ⊢
              refine .label (.go (f' := ⟨stk, loc⟩) (w' := w') rfl ?_)
              exact hy7 stk rest loc w' o hl hf

theorem emits_unionBoolean {ps : List (Gen V)} {as : List (Act V W V)} (h : ps.length = as.length)
    (hp : ∀ i (hi : i < ps.length), Emits ps[i] (SemV H ctx (as[i]'(h ▸ hi)))) :
    Emits (unionBoolean ps) (SemV H ctx (anyTrue H K as)) := by
  intro s s' L hL hg
  unfold unionBoolean Gen.withBlock at hg
  dsimp only at hg
  obtain ⟨y, h1, h2, h3, h4, h5, h6, h7⟩ := emits_tests (K := K) h hp hL.newBlock (by
    show s.g.blocks.length < s.g.newBlock.blocks.length
    rw [length_newBlock]; omega)
    (fun hm => by have := hL.labels_lt _ hm; omega) hg
  have e : ({ s with g := s.g.newBlock } : CState V).g.blocks.length = s.g.blocks.length + 1 := length_newBlock _
  rw [e] at h3 h5
  refine ⟨_, h1, ⟨by omega, h4, fun b hb => ?_, h6⟩, h7⟩
  rw [labels_append] at hb
  rcases List.mem_append.1 hb with hb | hb
  · have := h5 b hb; omega
  · simp only [labels, List.mem_singleton] at hb; omega

theorem does_select {P : (Str → Option V) → Prop} (hP : ∀ l, P l → Ctx ctx l) {lo hi : Nat} {f nodes : V} {seg : List (Item V)}
    {stk : List V} {k : V → Act V W A} {post : A → List V} (h : ∀ v, Does H P lo hi seg (v :: stk) (k v) post) :
    Does H P lo hi ((selectCode f).map .ins ++ seg) (nodes :: stk) (H.call f [ctx, nodes] >>= k) post :=
  .const (.ctx hP (.rotThree (.rotThree (.call2 h))))

theorem straight_select (f : V) : straight (selectCode f) :=
  straight_cons rfl (straight_cons rfl (straight_cons rfl (straight_cons rfl (straight_cons rfl straight_nil))))

theorem emits_steps (ss : List (Step V)) :
    Emits (stepsCode ss) (SemI H ctx (selects H ctx (ss.filterMap (·.select)))) := by
  induction ss with
  | nil => exact .skip fun n nodes stk => .nil rfl
  | cons s ss ih =>
    cases hs : s.select with
    | none =>
      unfold stepsCode
      rw [hs]; exact .fail _
    | some f =>
      unfold stepsCode
      rw [hs, List.filterMap_cons_some hs]
      exact emits_before (straight_select f) ih fun lo hi x hx nodes stk =>
        does_select (fun _ h => h) fun v => hx v stk

theorem emits_seqI {a b : Gen V} {x : V → Act V W V} {y : V → Act V W V} (ha : Emits a (SemI H ctx x))
    (hb : Emits b (SemI H ctx y)) : Emits (a ;; b) (SemI H ctx fun nodes => x nodes >>= y) :=
  .seq ha hb fun _ _ _ _ _ h1 h2 hx hy nodes stk => .bind h1 h2 (ctx_agree ctx) (hx nodes stk) fun v => hy v stk

theorem emits_pop {a : Gen V} {x : V → Act V W V} (h : Emits a (fun lo hi y => ∀ n, SemV H ctx (x n) lo hi y)) :
    Emits (emit [.op .popTop] ;; a) (SemI H ctx x) :=
  emits_before (straight_single rfl) h fun _ _ _ hx nodes stk => .pop (hx nodes stk)

theorem emits_stepsGen (absolute : Bool) (ss : List (Step V)) :
    Emits (stepsGen absolute ss) (SemI H ctx fun nodes => do
      if absolute then
        let node ← H.getAttr ctx (s!! "node")
        let root ← H.getAttr node (s!! "xml_root")
        selects H ctx (ss.filterMap (·.select)) (H.tuple [root])
      else selects H ctx (ss.filterMap (·.select)) nodes) := by
  unfold stepsGen
  cases absolute with
  | false => exact .seq (.skip (S := fun lo hi x => x = []) fun _ => rfl) (emits_steps ss) (by
      rintro lo mid hi x y h1 h2 rfl hy nodes stk
      exact (hy nodes stk).widen h1 (Nat.le_refl _))
  | true =>
    refine emits_before (straight_cons rfl (straight_cons rfl (straight_cons rfl (straight_cons rfl (straight_single rfl)))))
      (emits_steps (H := H) (ctx := ctx) ss) fun lo hi x hx nodes stk => ?_
    refine .pop (.ctx (fun _ h => h) (.getAttr fun node => .getAttr fun root => ?_))
    exact Does.tuple (vs := [root]) rfl (hx _ stk)

theorem emits_filterGen {nodeset : Gen V} {a : V → Act V W V} {select : Option V}
    (h : Emits nodeset (fun lo hi y => ∀ n, SemV H ctx (a n) lo hi y)) :
    Emits (filterGen nodeset select) (SemI H ctx fun nodes => a nodes >>= fun x => selects H ctx select.toList x) := by
  unfold filterGen
  rw [← seq_assoc]
  refine emits_seqI (emits_pop h) ?_
  cases select with
  | none => exact .skip fun n nodes stk => .nil rfl
  | some f =>
    refine .emit (straight_select f) fun n nodes stk => ?_
    have := does_select (H := H) (ctx := ctx) (P := Ctx ctx) (fun _ h => h) (lo := n) (hi := n) (f := f) (nodes := nodes)
      (seg := []) (stk := stk) (k := fun v => (pure v : Act V W V)) (post := fun v => v :: stk) fun v => .nil rfl
    rwa [List.append_nil] at this

theorem givesNodes_eq (e : Expr V) : e.isNodeset = givesNodes e := by cases e <;> rfl

theorem emits_pathGen {e : Expr V} {i n p : Gen V} {a : Mode → V → Act V W V} {q : V → Act V W V}
    (hi : Emits i (SemI H ctx (a .iterable)))
    (hn : Emits n (fun lo hi y => ∀ n, SemV H ctx (a .nodeset n) lo hi y))
    (hp : Emits p (SemI H ctx q)) :
    Emits (pathGen e.isNodeset i n p) (SemI H ctx fun nodes =>
      a (if givesNodes e then .iterable else .nodeset) nodes >>= q) := by
  unfold pathGen
  rw [givesNodes_eq]
  refine emits_seqI (x := fun nodes => a (if givesNodes e then .iterable else .nodeset) nodes) ?_ hp
  cases givesNodes e with
  | true => exact hi
  | false => exact emits_pop hn

theorem len_evals (ps : Exprs V) (m : Mode) (n : V) : (evals H K env ctx ps m n).length = len ps := by
  induction ps using Exprs.rec (motive_1 := fun _ => True) with
  | nil => rfl
  | cons e es _ ih => simp [evals, len, ih]
  | _ => trivial

theorem len_compiles (ps : Exprs V) (m : Mode) : (compiles K env ps m).length = len ps := by
  induction ps using Exprs.rec (motive_1 := fun _ => True) with
  | nil => rfl
  | cons e es _ ih => simp [compiles, len, ih]
  | _ => trivial

mutual
/-- The nodes are looked at only for an iterable. -/
theorem eval_indep (e : Expr V) (m : Mode) (hm : m ≠ .iterable) (n n' : V) :
    eval H K env ctx e m n = eval H K env ctx e m n' := by
  have hns : ∀ it, nodesetAs H K ctx it m n = nodesetAs H K ctx it m n' := fun it => by
    cases m <;> first | rfl | exact absurd rfl hm
  cases e with
  | literal a b c d => unfold eval; rfl
  | var pre loc => unfold eval; rfl
  | call self => unfold eval; rfl
  | known self v => unfold eval; rfl
  | ext self pre loc args => unfold eval; rfl
  | logic isOr l r =>
    unfold eval
    rw [eval_indep l .boolean (by decide) n n', eval_indep r .boolean (by decide) n n']
  | compare c l r =>
    unfold eval
    rw [eval_indep l .plain (by decide) n n', eval_indep r .plain (by decide) n n']
  | arith op l r =>
    unfold eval
    rw [eval_indep l .number (by decide) n n', eval_indep r .number (by decide) n n']
  | neg e =>
    unfold eval
    rw [eval_indep e .number (by decide) n n']
  | union ps =>
    unfold eval
    cases m with
    | boolean => dsimp only; rw [evals_indep ps .boolean (by decide) n n']
    | iterable => exact absurd rfl hm
    | _ => exact hns _
  | path e p => unfold eval; exact hns _
  | filter e select => unfold eval; exact hns _
  | steps absolute ss => unfold eval; exact hns _
theorem evals_indep (ps : Exprs V) (m : Mode) (hm : m ≠ .iterable) (n n' : V) :
    evals H K env ctx ps m n = evals H K env ctx ps m n' := by
  cases ps with
  | nil => rfl
  | cons e es =>
    unfold evals
    rw [eval_indep e m hm n n', evals_indep es m hm n n']
end

/-- A value that does not depend on the nodes. -/
theorem emits_value {gen : Gen V} {e : Expr V} {m : Mode} (hm : m ≠ .iterable)
    (h : Emits gen (SemV H ctx (eval H K env ctx e m K.none))) : Emits gen (SemM H ctx (eval H K env ctx e) m) :=
  emits_all hm (fun n => eval_indep e m hm n K.none) h

theorem SemM.value {gen : Gen V} {e : Expr V} {m : Mode} (h : Emits gen (SemM H ctx (eval H K env ctx e) m))
    (hm : m ≠ .iterable) (n : V) : Emits gen (SemV H ctx (eval H K env ctx e m n)) := by
  unfold SemM at h
  rw [if_neg hm] at h
  exact h.mono fun lo hi x _ hx => hx n

theorem emits_values {a b : Gen V} {f : V → V → Act V W V} {x y : Act V W V} {i : Ins V} (hi : i.target = none)
    (ha : Emits a (SemV H ctx x)) (hb : Emits b (SemV H ctx y))
    (hf : ∀ n u v stk, Does H (Ctx ctx) n n [.ins i] (v :: u :: stk) (f u v) (fun r => r :: stk)) :
    Emits (a ;; b ;; emit [i]) (SemV H ctx (x >>= fun u => y >>= fun v => f u v)) := by
  refine .seq ha (S2 := fun lo hi z => ∀ u stk,
    Does H (Ctx ctx) lo hi z (u :: stk) (y >>= fun v => f u v) (fun r => r :: stk)) (emits_after (straight_single hi) hb ?_) ?_
  · intro lo hi z hle hz u stk
    exact .bind hle (Nat.le_refl _) (ctx_agree ctx) (hz (u :: stk)) fun v => hf _ u v stk
  · intro lo mid hi p q h1 h2 hp hq stk
    exact .bind h1 h2 (ctx_agree ctx) (hp stk) fun u => hq u stk

theorem bin_eq (op : Arith) : op.op.bin = some (binOf op) := by cases op <;> rfl

theorem step_arith (op : Arith) (u v : V) (stk : List V) (loc : Str → Option V) (w : W) :
    step H (Ins.dec (V := V) (.op op.op)) ⟨v :: u :: stk, loc⟩ w =
      Eff.of (H.binary (binOf op) u v w) fun x w => .go ⟨x :: stk, loc⟩ w := by
  cases op <;> rfl

mutual
/-- The pieces of all expressions. -/
theorem emits_compile (e : Expr V) (hs : Small e) (m : Mode) :
    Emits (compile K env e m) (SemM H ctx (eval H K env ctx e) m) := by
  cases e with
  | literal isNumber notEmpty number string =>
    unfold compile
    cases m with
    | iterable => exact .fail _
    | _ => exact emits_value (by decide) (emits_literal (env := env) isNumber notEmpty number string _ K.none)
  | var pre loc => unfold compile; exact emits_varModes pre loc m
  | call self =>
    unfold compile
    cases m with
    | iterable => exact .fail _
    | _ => exact emits_value (by decide) (by unfold eval; exact emits_call self _)
  | known self value =>
    unfold compile
    cases m with
    | iterable => exact .fail _
    | _ => exact emits_value (by decide) (emits_known (K := K) (env := env) self value _ K.none)
  | ext self pre loc args =>
    unfold compile
    unfold Small at hs
    cases m with
    | iterable => exact .fail _
    | _ => exact emits_value (by decide) (emits_extModes (K := K) hs _ K.none)
  | logic isOr l r =>
    unfold compile
    unfold Small at hs
    by_cases hm : m = .iterable
    · subst hm; exact .fail _
    · refine emits_value hm ?_
      unfold eval
      exact emits_boolean (emits_logic (SemM.value (emits_compile l hs.1 .boolean) (by decide) _)
        (SemM.value (emits_compile r hs.2 .boolean) (by decide) _)) m
  | compare c l r =>
    unfold compile
    unfold Small at hs
    by_cases hm : m = .iterable
    · subst hm; exact .fail _
    · refine emits_value hm ?_
      unfold eval
      exact emits_boolean (emits_values rfl (SemM.value (emits_compile l hs.1 .plain) (by decide) _)
        (SemM.value (emits_compile r hs.2 .plain) (by decide) _) fun n u v stk => .last fun _ _ _ => rfl) m
  | arith op l r =>
    unfold compile
    unfold Small at hs
    by_cases hm : m = .iterable
    · subst hm; exact .fail _
    · refine emits_value hm ?_
      unfold eval
      exact emits_number (emits_values rfl (SemM.value (emits_compile l hs.1 .number) (by decide) _)
        (SemM.value (emits_compile r hs.2 .number) (by decide) _) fun n u v stk =>
          .last fun loc w _ => step_arith op u v stk loc w) m
  | neg e =>
    unfold compile
    unfold Small at hs
    by_cases hm : m = .iterable
    · subst hm; exact .fail _
    · refine emits_value hm ?_
      unfold eval
      refine emits_number (emits_after (straight_single rfl) (SemM.value (emits_compile e hs .number) (by decide) K.none)
        fun lo hi x hle hx stk => ?_) m
      exact .bind hle (Nat.le_refl _) (ctx_agree ctx) (hx stk) fun v => .last fun _ _ _ => rfl
  | union ps =>
    unfold Small at hs
    have hmode : ∀ m, m ≠ .boolean → Emits (nodesetModes K (unionGen K (compiles K env ps .iterable)) m)
        (SemM H ctx (nodesetAs H K ctx fun nodes => do
          let its ← all (evals H K env ctx ps .iterable nodes)
          H.call K.unioniter its) m) := fun m _ =>
      emits_nodesetModes (emits_union (by rw [len_compiles]; exact hs.1)
        (fun nodes => by rw [len_compiles, len_evals]) (emits_iterables ps hs.2)) m
    unfold compile
    cases m with
    | boolean =>
      refine emits_value (by decide) ?_
      unfold eval
      exact emits_unionBoolean (by rw [len_compiles, len_evals]) (emits_booleans ps hs.2)
    | iterable => exact hmode .iterable (by decide)
    | plain => exact hmode .plain (by decide)
    | number => exact hmode .number (by decide)
    | string => exact hmode .string (by decide)
    | nodeset => exact hmode .nodeset (by decide)
  | path e p =>
    unfold Small at hs
    have h := emits_nodesetModes (K := K) (emits_pathGen (e := e) (emits_compile e hs.1 .iterable)
      (emits_compile e hs.1 .nodeset) (emits_compile p hs.2 .iterable)) m
    unfold compile
    have he : eval H K env ctx (.path e p) = fun m n => nodesetAs H K ctx (fun nodes => do
      let nodes ← eval H K env ctx e (if givesNodes e then .iterable else .nodeset) nodes
      eval H K env ctx p .iterable nodes) m n := by
      funext m n; rw [eval]
    rw [he]; exact h
  | filter e select =>
    unfold Small at hs
    have h := emits_nodesetModes (K := K) (emits_filterGen (select := select) (emits_compile e hs .nodeset)) m
    unfold compile
    have he : eval H K env ctx (.filter e select) = fun m n => nodesetAs H K ctx (fun nodes => do
      let nodes ← eval H K env ctx e .nodeset nodes
      selects H ctx select.toList nodes) m n := by
      funext m n; rw [eval]
    rw [he]; exact h
  | steps absolute ss =>
    have h := emits_nodesetModes (K := K) (emits_stepsGen (H := H) (ctx := ctx) absolute ss) m
    unfold compile
    have he : eval H K env ctx (.steps absolute ss) = fun m n => nodesetAs H K ctx (fun nodes => do
      if absolute then
        let node ← H.getAttr ctx (s!! "node")
        let root ← H.getAttr node (s!! "xml_root")
        selects H ctx (ss.filterMap (·.select)) (H.tuple [root])
      else selects H ctx (ss.filterMap (·.select)) nodes) m n := by
      funext m n; rw [eval]
    rw [he]; exact h
theorem emits_iterables (ps : Exprs V) (hs : Smalls ps) (i : Nat) (hi : i < (compiles K env ps .iterable).length) :
    Emits (compiles K env ps .iterable)[i] (SemI H ctx fun nodes =>
      (evals H K env ctx ps .iterable nodes)[i]'(by rw [len_evals, ← len_compiles (K := K) (env := env) ps .iterable]; exact hi)) := by
  cases ps with
  | nil => exact absurd hi (Nat.not_lt_zero _)
  | cons e es =>
    unfold Smalls at hs
    cases i with
    | zero => exact emits_compile e hs.1 .iterable
    | succ i => exact emits_iterables es hs.2 i (by simpa [compiles] using hi)
theorem emits_booleans (ps : Exprs V) (hs : Smalls ps) (i : Nat) (hi : i < (compiles K env ps .boolean).length) :
    Emits (compiles K env ps .boolean)[i] (SemV H ctx
      ((evals H K env ctx ps .boolean K.none)[i]'(by rw [len_evals, ← len_compiles (K := K) (env := env) ps .boolean]; exact hi))) := by
  cases ps with
  | nil => exact absurd hi (Nat.not_lt_zero _)
  | cons e es =>
    unfold Smalls at hs
    cases i with
    | zero => exact SemM.value (emits_compile e hs.1 .boolean) (by decide) _
    | succ i => exact emits_booleans es hs.2 i (by simpa [compiles] using hi)
end

end Verif.Code
