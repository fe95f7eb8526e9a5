import Verif.Parse.SaxRun

/-
The reader under a handler that suspends the parser (a generator), and under a handler that raises exceptions.
-/
namespace Verif.Parse.Sax

open Verif.Py
open Spec (YieldsAt kindC kindE yields Single content Calm noBorder waiting AfterMarkup Nested Good)

variable {V : Type}

/-! ## A handler that yields values at one kind of event -/

theorem yields_append (h : Handler V) (b E F : List Event) :
    yields h b (E ++ F) = yields h b E ++ yields h (b ++ E) F := by
  induction E generalizing b with
  | nil => simp [yields]
  | cons e E ih =>
    simp only [List.cons_append, yields]
    cases h (b ++ [e]) <;> simp [ih]

/-- The handler that always returns. -/
def quiet : Handler V := fun _ => .ok

theorem quiet_ok (es : List Event) : (quiet : Handler V) es = .ok := rfl

theorem emit_plain {h : Handler V} {k : Spec.Kind} (hy : YieldsAt k h) {e : Event} (he : kindE e ≠ some k) (r : Run V) :
    emit h e r = { r with sent := r.sent ++ [e] } ∧ yields h r.sent [e] = [] := by
  rcases hy r.sent e with h1 | ⟨h1, _⟩
  · simp [emit, yields, h1]
  · exact (he h1).elim

theorem emit_at {h : Handler V} {k : Spec.Kind} (hy : YieldsAt k h) (e : Event) {r : Run V} (hs : r.status = .parsing) :
    (emit h e r = { r with sent := r.sent ++ [e] } ∧ yields h r.sent [e] = [])
    ∨ ∃ v, emit h e r = { r with sent := r.sent ++ [e], yielded := some v, status := .suspended }
        ∧ yields h r.sent [e] = [v] := by
  rcases hy r.sent e with h1 | ⟨_, v, h1⟩
  · exact .inl (by simp [emit, yields, h1])
  · exact .inr ⟨v, by simp [emit, yields, h1, hs, Status.suspend]⟩

theorem flush_plain {h : Handler V} {k : Spec.Kind} (hy : YieldsAt k h) (r : Run V) :
    flush h r = { r with rd := { r.rd with buf := [] }, sent := r.sent ++ flushE r.rd }
      ∧ yields h r.sent (flushE r.rd) = [] := by
  unfold flush flushE
  split
  · rename_i h1
    cases r with | mk rd sent y st =>
    cases rd with | mk buf ctxs bases langs spaces keeps =>
    simp_all [yields]
  · dsimp only
    split
    · simp [yields]
    · have := emit_plain hy (e := .characters r.rd.buf) (by simp [kindE])
        { r with rd := { r.rd with buf := [] } }
      exact ⟨this.1, this.2⟩

/-- What a callback gives: nothing is yielded, or one value is. -/
inductive Step (h : Handler V) (r : Run V) (rd : Reader) (E : List Event) : Run V → Prop
  | plain (hv : yields h r.sent E = []) : Step h r rd E { r with rd, sent := r.sent ++ E }
  | value (v : V) (hv : yields h r.sent E = [v]) :
      Step h r rd E { r with rd, sent := r.sent ++ E, yielded := some v, status := .suspended }

theorem flush_then_plain {h : Handler V} {k : Spec.Kind} (hy : YieldsAt k h) (r : Run V) (hs : r.status ≠ .stopped)
    {e : Event} (he : kindE e ≠ some k) (rd : Reader) :
    flushed h r (fun r' => emit h e { r' with rd }) = { r with rd, sent := r.sent ++ (flushE r.rd ++ [e]) }
      ∧ yields h r.sent (flushE r.rd ++ [e]) = [] := by
  obtain ⟨f1, f2⟩ := flush_plain hy r
  have g := emit_plain hy he { r with rd, sent := r.sent ++ flushE r.rd }
  refine ⟨?_, ?_⟩
  · simp only [flushed, f1, hs, if_false]
    rw [g.1]
    simp [List.append_assoc]
  · rw [yields_append, f2]
    exact g.2

theorem flush_then_at {h : Handler V} {k : Spec.Kind} (hy : YieldsAt k h) (r : Run V) (hs : r.status = .parsing)
    (e : Event) (rd : Reader) :
    Step h r rd (flushE r.rd ++ [e]) (flushed h r (fun r' => emit h e { r' with rd })) := by
  obtain ⟨f1, f2⟩ := flush_plain hy r
  have hs' : r.status ≠ .stopped := by rw [hs]; exact (nomatch ·)
  rcases emit_at hy e (r := { r with rd, sent := r.sent ++ flushE r.rd }) hs with ⟨g1, g2⟩ | ⟨v, g1, g2⟩
  · have : flushed h r (fun r' => emit h e { r' with rd }) = { r with rd, sent := r.sent ++ (flushE r.rd ++ [e]) } := by
      simp only [flushed, f1, hs', if_false]
      rw [g1]
      simp [List.append_assoc]
    rw [this]
    exact .plain (by rw [yields_append, f2]; exact g2)
  · have : flushed h r (fun r' => emit h e { r' with rd })
        = { r with rd, sent := r.sent ++ (flushE r.rd ++ [e]), yielded := some v, status := .suspended } := by
      simp only [flushed, f1, hs', if_false]
      rw [g1]
      simp [List.append_assoc]
    rw [this]
    exact .value v (by rw [yields_append, f2]; exact g2)

/-- The callbacks that give an event after the character data that waits. -/
def eventOf (c : Call) (rd : Reader) : Option Event :=
  match c with
  | .start n atts => some (.startElement n (atts ++ fixups { rd with buf := [] } atts))
  | .stop n => some (.endElement n)
  | .pi t d => some (.pi t d)
  | .comment d => some (.comment d)
  | .startNs p u => some (.startNs p u)
  | .endNs p => some (.endNs p)
  | .skipped n => some (.skipped n)
  | _ => none

theorem call_shape {h : Handler V} {k : Spec.Kind} (hy : YieldsAt k h) (strip : Str → Bool) (c : Call) (r : Run V)
    (hs : r.status ≠ .stopped) {e : Event} (he : eventOf c r.rd = some e) :
    nextE c r.rd = flushE r.rd ++ [e] ∧ kindE e = kindC c
      ∧ call h strip c r = flushed h r (fun r' => emit h e { r' with rd := nextRd strip c r.rd }) := by
  obtain ⟨f1, _⟩ := flush_plain hy r
  cases c <;> simp only [eventOf, Option.some.injEq, reduceCtorEq] at he <;> subst he <;>
    refine ⟨rfl, rfl, ?_⟩ <;> simp only [call, hs, if_false, flushed, f1, nextRd]
  rename_i n
  simp only [emit]
  cases h (r.sent ++ flushE r.rd ++ [.endElement n]) <;> rfl

theorem call_plain {h : Handler V} {k : Spec.Kind} (hy : YieldsAt k h) (strip : Str → Bool) (c : Call)
    (hc : kindC c ≠ some k) (r : Run V) (hs : r.status ≠ .stopped) :
    call h strip c r = { r with rd := nextRd strip c r.rd, sent := r.sent ++ nextE c r.rd }
      ∧ yields h r.sent (nextE c r.rd) = [] := by
  cases he : eventOf c r.rd with
  | some e =>
    obtain ⟨a, b, f⟩ := call_shape hy strip c r hs he
    rw [f, a]
    exact flush_then_plain hy r hs (by rw [b]; exact hc) _
  | none =>
    cases c <;> simp only [eventOf, reduceCtorEq] at he
    · simp [call, hs, nextRd, nextE, yields]
    · have := emit_plain hy (e := .startCdata) (by simp [kindE]) r
      simpa [call, hs, nextRd, nextE] using this
    · have := emit_plain hy (e := .endCdata) (by simp [kindE]) r
      simpa [call, hs, nextRd, nextE] using this

theorem call_at {h : Handler V} {k : Spec.Kind} (hy : YieldsAt k h) (strip : Str → Bool) (c : Call)
    (hc : kindC c = some k) (r : Run V) (hs : r.status = .parsing) :
    Step h r (nextRd strip c r.rd) (nextE c r.rd) (call h strip c r) := by
  have hs' : r.status ≠ .stopped := by rw [hs]; exact (nomatch ·)
  cases he : eventOf c r.rd with
  | some e =>
    obtain ⟨a, _, f⟩ := call_shape hy strip c r hs' he
    rw [f, a]
    exact flush_then_at hy r hs e _
  | none => cases c <;> simp [eventOf, kindC] at he hc

theorem group_cons (h : Handler V) (strip : Str → Bool) (c : Call) (cs : List Call) (r : Run V) :
    group h strip (c :: cs) r = group h strip cs (call h strip c r) := rfl

theorem group_plain {h : Handler V} {k : Spec.Kind} (hy : YieldsAt k h) (strip : Str → Bool) (cs : List Call)
    (hc : ∀ c ∈ cs, kindC c ≠ some k) (r : Run V) (hs : r.status ≠ .stopped) :
    group h strip cs r = { r with rd := groupRd strip cs r.rd, sent := r.sent ++ groupE strip cs r.rd }
      ∧ yields h r.sent (groupE strip cs r.rd) = [] := by
  induction cs generalizing r with
  | nil => cases r; simp [group, groupRd, groupE, yields]
  | cons c cs ih =>
    obtain ⟨a, b⟩ := call_plain hy strip c (hc c List.mem_cons_self) r hs
    rw [group_cons, a]
    obtain ⟨f, g⟩ := ih (fun c' h' => hc c' (List.mem_cons_of_mem _ h'))
      { r with rd := nextRd strip c r.rd, sent := r.sent ++ nextE c r.rd } hs
    rw [f]
    refine ⟨by simp [groupRd, groupE, List.append_assoc], ?_⟩
    simp only [groupE, yields_append, b]
    exact g

theorem group_at {h : Handler V} {k : Spec.Kind} (hy : YieldsAt k h) (strip : Str → Bool) (cs : List Call)
    (hc : (cs.filter (kindC · = some k)).length ≤ 1) (r : Run V) (hs : r.status = .parsing) :
    Step h r (groupRd strip cs r.rd) (groupE strip cs r.rd) (group h strip cs r) := by
  have hs' : r.status ≠ .stopped := by rw [hs]; exact (nomatch ·)
  induction cs generalizing r with
  | nil =>
    have := (group_plain hy strip [] (by simp) r hs')
    rw [this.1]
    exact .plain this.2
  | cons c cs ih =>
    by_cases hk : kindC c = some k
    · have hrest : ∀ c' ∈ cs, kindC c' ≠ some k := by
        intro c' h' e
        have : c' ∈ cs.filter (kindC · = some k) := List.mem_filter.mpr ⟨h', by simpa using e⟩
        have hp := List.length_pos_of_mem this
        simp [hk] at hc
        exact hc c' h' e
      rw [group_cons]
      have := call_at hy strip c hk r hs
      generalize call h strip c r = r1 at this
      cases this with
      | plain hv =>
        obtain ⟨f, g⟩ := group_plain hy strip cs hrest
          { r with rd := nextRd strip c r.rd, sent := r.sent ++ nextE c r.rd } hs'
        rw [f]
        simp only [List.append_assoc]
        exact .plain (by simp only [groupE, yields_append, hv]; exact g)
      | value v hv =>
        obtain ⟨f, g⟩ := group_plain hy strip cs hrest
          { r with rd := nextRd strip c r.rd, sent := r.sent ++ nextE c r.rd, yielded := some v, status := .suspended }
          (by exact (nomatch ·))
        rw [f]
        simp only [List.append_assoc]
        refine .value v ?_
        simp only [groupE, yields_append, hv]
        dsimp only at g
        rw [g]; rfl
    · obtain ⟨a, b⟩ := call_plain hy strip c hk r hs'
      rw [group_cons, a]
      have := ih (by simpa [hk] using hc) { r with rd := nextRd strip c r.rd, sent := r.sent ++ nextE c r.rd } hs hs'
      generalize group h strip cs { r with rd := nextRd strip c r.rd, sent := r.sent ++ nextE c r.rd } = r1 at this
      cases this with
      | plain hv =>
        simp only [List.append_assoc]
        exact .plain (by simp only [groupE, yields_append, b]; exact hv)
      | value v hv =>
        simp only [List.append_assoc]
        exact .value v (by simp only [groupE, yields_append, b]; exact hv)

theorem ctxs_next (strip : Str → Bool) (c : Call) (rd : Reader) : (nextRd strip c rd).ctxs.length = rd.ctxs.length := by
  cases c <;> simp only [nextRd, pushElement, popElement]
  cases rd.ctxs <;> simp [clearFixup]

theorem ctxs_group (strip : Str → Bool) (cs : List Call) (rd : Reader) :
    (groupRd strip cs rd).ctxs.length = rd.ctxs.length := by
  induction cs generalizing rd with
  | nil => rfl
  | cons c cs ih => rw [groupRd, ih, ctxs_next]

/-- Entities without that kind of content are read as they are under a handler that always returns. -/
theorem run_plain {h : Handler V} {k : Spec.Kind} (hy : YieldsAt k h) (strip : Str → Bool) (d : Doc)
    (hc : ∀ c ∈ content d, kindC c ≠ some k) (r : Run V) (hs : r.status = .parsing) {r0 : Run V}
    (h0 : run quiet strip d r = (r0, .ok)) :
    run h strip d r = (r0, .ok) ∧ r0.status = .parsing ∧ r0.yielded = r.yielded
      ∧ r0.rd.ctxs.length = r.rd.ctxs.length ∧ ∃ E, r0.sent = r.sent ++ E ∧ yields h r.sent E = [] := by
  induction d generalizing r r0 with
  | done =>
    simp only [run, Prod.mk.injEq, and_true] at h0
    subst h0
    exact ⟨rfl, hs, rfl, rfl, [], by simp, rfl⟩
  | edge d ih => exact ih hc r hs h0
  | bad => simp [run] at h0
  | unreadable => simp [run] at h0
  | calls cs d ih =>
    have hs' : r.status ≠ .stopped := by rw [hs]; exact (nomatch ·)
    have e0 := group_ok (quiet_ok (V := V)) strip cs r hs'
    obtain ⟨e1, e2⟩ := group_plain hy strip cs (fun c h' => hc c (List.mem_append_left _ h')) r hs'
    simp only [run, e0, hs] at h0
    simp only [run, e1, hs]
    obtain ⟨a, b, c, g, E, f1, f2⟩ := ih (fun c h' => hc c (List.mem_append_right _ h'))
      { r with rd := groupRd strip cs r.rd, sent := r.sent ++ groupE strip cs r.rd, status := .parsing } rfl h0
    refine ⟨a, b, c, by rw [g]; exact ctxs_group strip cs r.rd, groupE strip cs r.rd ++ E,
      by rw [f1]; simp [List.append_assoc], ?_⟩
    rw [yields_append, e2]
    exact f2
  | ext uri inner d ihi ihd =>
    simp only [run] at h0 ⊢
    cases hr : run quiet strip inner { r with rd := beginContext (some uri) r.rd } with
    | mk r1 out =>
      rw [hr] at h0
      cases out with
      | ok =>
        obtain ⟨a, b, c, g, E, f1, f2⟩ := ihi (fun c h' => hc c (List.mem_append_left _ h'))
          { r with rd := beginContext (some uri) r.rd } hs hr
        rw [a]
        dsimp only at h0 ⊢
        cases he : endContext r1.rd with
        | none => rw [he] at h0; simp at h0
        | some rd =>
          rw [he] at h0
          dsimp only at h0 ⊢
          obtain ⟨a', b', c', g', E', f1', f2'⟩ := ihd (fun c h' => hc c (List.mem_append_right _ h')) { r1 with rd } b h0
          refine ⟨a', b', c'.trans c, ?_, E ++ E', by rw [f1']; simp [f1, List.append_assoc], ?_⟩
          · rw [g']
            unfold endContext at he
            split at he
            · cases he
            · simp only [Option.some.injEq] at he
              subst he
              simp only [List.length_tail, g]
              simp [beginContext]
          · rw [yields_append, f2, ← f1]
            exact f2'
      | error =>
        dsimp only at h0
        cases he : endContext r1.rd <;> rw [he] at h0 <;> simp at h0
      | suspended t => simp at h0
      | crash => simp at h0

/-- What the generator does until the next value. -/
theorem run_gen {h : Handler V} {k : Spec.Kind} (hy : YieldsAt k h) (strip : Str → Bool) (d : Doc)
    (hc : Single k d) (r : Run V) (hs : r.status = .parsing) (hn : r.yielded = none) {r0 : Run V}
    (h0 : run quiet strip d r = (r0, .ok)) :
    r0.status = .parsing ∧ r0.yielded = none ∧ r0.rd.ctxs.length = r.rd.ctxs.length ∧
    ∃ E, r0.sent = r.sent ++ E ∧
      ((yields h r.sent E = [] ∧ run h strip d r = (r0, .ok))
      ∨ ∃ v r1 d' E1, run h strip d r = ({ r1 with yielded := some v, status := .suspended }, .suspended [d'])
        ∧ yields h r.sent E = v :: yields h r1.sent E1 ∧ r0.sent = r1.sent ++ E1
        ∧ r1.status = .parsing ∧ r1.yielded = none ∧ r1.rd.ctxs.length = r.rd.ctxs.length
        ∧ run quiet strip d' r1 = (r0, .ok) ∧ Single k d' ∧ sizeOf d' < sizeOf d) := by
  induction d generalizing r r0 with
  | done =>
    simp only [run, Prod.mk.injEq, and_true] at h0
    subst h0
    exact ⟨hs, hn, rfl, [], by simp, .inl ⟨rfl, rfl⟩⟩
  | edge d ih =>
    obtain ⟨a, b, g, E, f, x⟩ := ih hc r hs hn h0
    refine ⟨a, b, g, E, f, ?_⟩
    rcases x with x | ⟨v, r1, d', E1, x1, x2, x3, x4, x5, x6, x7, x8, x9⟩
    · exact .inl x
    · exact .inr ⟨v, r1, d', E1, x1, x2, x3, x4, x5, x6, x7, x8, by simp only [Doc.edge.sizeOf_spec]; omega⟩
  | bad => simp [run] at h0
  | unreadable => simp [run] at h0
  | calls cs d ih =>
    have hs' : r.status ≠ .stopped := by rw [hs]; exact (nomatch ·)
    have e0 := group_ok (quiet_ok (V := V)) strip cs r hs'
    have e1 := group_at hy strip cs hc.1 r hs
    simp only [run, e0, hs] at h0
    obtain ⟨a, b, g, E, f, x⟩ := ih hc.2
      { r with rd := groupRd strip cs r.rd, sent := r.sent ++ groupE strip cs r.rd, status := .parsing } rfl hn h0
    refine ⟨a, b, g.trans (ctxs_group strip cs r.rd), groupE strip cs r.rd ++ E, by rw [f]; simp [List.append_assoc], ?_⟩
    simp only [run]
    generalize group h strip cs r = r1 at e1
    cases e1 with
    | plain hv =>
      simp only [hs]
      rcases x with ⟨x1, x2⟩ | ⟨v, r1, d', E1, x1, x2, x3, x4, x5, x6, x7, x8, x9⟩
      · exact .inl ⟨by rw [yields_append, hv]; exact x1, x2⟩
      · exact .inr ⟨v, r1, d', E1, x1, by rw [yields_append, hv]; exact x2, x3, x4, x5,
          x6.trans (ctxs_group strip cs r.rd), x7, x8, by simp only [Doc.calls.sizeOf_spec]; omega⟩
    | value v hv =>
      refine .inr ⟨v, { r with rd := groupRd strip cs r.rd, sent := r.sent ++ groupE strip cs r.rd }, d, E, rfl,
        by rw [yields_append, hv]; rfl, by rw [f], hs, hn, ctxs_group strip cs r.rd, ?_, hc.2,
        by simp only [Doc.calls.sizeOf_spec]; omega⟩
      rw [← h0]
      simp only [hs]
  | ext uri inner d ihi ihd =>
    simp only [run] at h0 ⊢
    cases hr : run quiet strip inner { r with rd := beginContext (some uri) r.rd } with
    | mk r1 out =>
      rw [hr] at h0
      cases out with
      | ok =>
        obtain ⟨a, b, c, g, E, f1, f2⟩ := run_plain hy strip inner hc.1
          { r with rd := beginContext (some uri) r.rd } hs hr
        rw [a]
        dsimp only at h0 ⊢
        cases he : endContext r1.rd with
        | none => rw [he] at h0; simp at h0
        | some rd =>
          rw [he] at h0
          dsimp only at h0 ⊢
          have gl : rd.ctxs.length = r.rd.ctxs.length := by
            unfold endContext at he
            split at he
            · cases he
            · simp only [Option.some.injEq] at he
              subst he
              simp only [List.length_tail, g]
              simp [beginContext]
          obtain ⟨a', b', g', E', f', x⟩ := ihd hc.2 { r1 with rd } b (c.trans hn) h0
          refine ⟨a', b', g'.trans gl, E ++ E', by rw [f']; simp [f1, List.append_assoc], ?_⟩
          rcases x with ⟨x1, x2⟩ | ⟨v, r1', d', E1, x1, x2, x3, x4, x5, x6, x7, x8, x9⟩
          · exact .inl ⟨by rw [yields_append, f2, ← f1]; exact x1, x2⟩
          · exact .inr ⟨v, r1', d', E1, x1, by rw [yields_append, f2, ← f1]; exact x2, x3, x4, x5, x6.trans gl, x7, x8,
              by simp only [Doc.ext.sizeOf_spec]; omega⟩
      | error =>
        dsimp only at h0
        cases he : endContext r1.rd <;> rw [he] at h0 <;> simp at h0
      | suspended t => simp at h0
      | crash => simp at h0

theorem nexts_succ (h : Handler V) (strip : Str → Bool) (n : Nat) (o : Obj V) :
    nexts h strip (n + 1) o
      = ((nexts h strip n (next h strip o).1).1, (next h strip o).2 :: (nexts h strip n (next h strip o).1).2) := rfl

/-- After the end the generator says so whenever it is asked. -/
theorem nexts_stop (h : Handler V) (strip : Str → Bool) (n : Nat) {o : Obj V} (hs : o.run.status = .finished)
    (hy : o.run.yielded = none) : nexts h strip n o = (o, List.replicate n .stop) := by
  induction n with
  | zero => rfl
  | succ n ih =>
    have : next h strip o = (o, .stop) := by simp [next, hs, take, hy]
    rw [nexts_succ, this, ih]; rfl

/-- The generator gives all values in order, then says that it has ended. -/
theorem nexts_gen {h : Handler V} {k : Spec.Kind} (hy : YieldsAt k h) (strip : Str → Bool) (m : Nat) {r0 : Run V}
    (hend : ∃ rd, endContext r0.rd = some rd ∧ rd.ctxs = []) (d : Doc) (hm : sizeOf d ≤ m) (hc : Single k d) (r : Run V)
    (hs : r.status = .parsing) (hn : r.yielded = none) (hx : r.rd.ctxs ≠ [])
    (h0 : run quiet strip d r = (r0, .ok)) (E : List Event) (hE : r0.sent = r.sent ++ E) (n : Nat) :
    (nexts h strip ((yields h r.sent E).length + 1 + n) { run := { r with status := .suspended }, todo := [d] }).2
        = (yields h r.sent E).map .value ++ List.replicate (n + 1) .stop
      ∧ (nexts h strip ((yields h r.sent E).length + 1 + n)
          { run := { r with status := .suspended }, todo := [d] }).1.run.sent = r0.sent := by
  induction m generalizing d r E with
  | zero => cases d <;> simp at hm
  | succ m ih =>
    obtain ⟨a, b, g, E', f, x⟩ := run_gen hy strip d hc r hs hn h0
    obtain rfl : E = E' := List.append_cancel_left (hE.symm.trans f)
    have hr : ({ ({ r with status := .suspended } : Run V) with status := .parsing } : Run V) = r := by
      cases r; simp only at hs; subst hs; rfl
    have hnext : next h strip { run := { r with status := .suspended }, todo := [d] }
        = resume h strip { run := { r with status := .suspended }, todo := [d] } := by
      simp [next, hx, hn]
    rcases x with ⟨x1, x2⟩ | ⟨v, r1, d', E1, x1, x2, x3, x4, x5, x6, x7, x8, x9⟩
    · have : ∃ o', next h strip { run := { r with status := .suspended }, todo := [d] } = (o', .stop)
          ∧ o'.run.status = .finished ∧ o'.run.yielded = none ∧ o'.run.sent = r0.sent := by
        rw [hnext]
        simp only [resume, hr, x2]
        obtain ⟨rd, he1, he2⟩ := hend
        cases d.final with
        | true =>
          simp only [if_true, he1, he2]
          exact ⟨_, by simp [take, b]; rfl, rfl, rfl, rfl⟩
        | false => exact ⟨_, by simp [take, b]; rfl, rfl, rfl, rfl⟩
      obtain ⟨o', e1, e2, e3, e4⟩ := this
      rw [x1, show ([] : List V).length + 1 + n = n + 1 by simp; omega, nexts_succ, e1, nexts_stop h strip n e2 e3]
      exact ⟨by simp [List.replicate_succ], e4⟩
    · have e1 : next h strip { run := { r with status := .suspended }, todo := [d] }
          = ({ run := { r1 with status := .suspended }, todo := [d'] }, .value v) := by
        rw [hnext]
        simp only [resume, hr, x1, take]
        cases r1
        simp only at x5
        subst x5
        rfl
      have := ih d' (by omega) x8 r1 x4 x5 (by
        intro e
        rw [e] at x6
        exact hx (List.length_eq_zero_iff.mp x6.symm)) x7 E1 x3
      rw [x2, show (v :: yields h r1.sent E1).length + 1 + n = ((yields h r1.sent E1).length + 1 + n) + 1 by
        simp; omega, nexts_succ, e1]
      exact ⟨by rw [this.1]; simp, this.2⟩

/-! ## A handler that raises exceptions -/

theorem emit_calm {h : Handler V} (hc : Calm h) (e : Event) (r : Run V) :
    emit h e r = { r with sent := r.sent ++ [e] }
    ∨ (noBorder e = true ∧ emit h e r = { r with sent := r.sent ++ [e], status := .stopped }) := by
  rcases hc r.sent e with h1 | ⟨h0, h1⟩
  · exact .inl (by simp [emit, h1])
  · exact .inr ⟨h0, by simp [emit, h1]⟩

theorem flush_calm {h : Handler V} (hc : Calm h) (r : Run V) :
    flush h r = { r with rd := { r.rd with buf := [] }, sent := r.sent ++ flushE r.rd }
    ∨ flush h r = { r with rd := { r.rd with buf := [] }, sent := r.sent ++ flushE r.rd, status := .stopped } := by
  unfold flush flushE
  split
  · rename_i h1
    cases r with | mk rd sent y st =>
    cases rd with | mk buf ctxs bases langs spaces keeps =>
    simp_all
  · dsimp only
    split
    · simp
    · rcases emit_calm hc (.characters r.rd.buf) { r with rd := { r.rd with buf := [] } } with h1 | ⟨_, h1⟩
      · exact .inl h1
      · exact .inr h1

/-- A callback goes on, or it stops the parser with nothing waiting. -/
theorem call_calm {h : Handler V} (hc : Calm h) (strip : Str → Bool) (c : Call) (r : Run V) (hs : r.status ≠ .stopped) :
    ((call h strip c r).rd = nextRd strip c r.rd ∧ (call h strip c r).status = r.status)
    ∨ ((call h strip c r).status = .stopped ∧ (call h strip c r).rd.buf = []
      ∧ ((call h strip c r).rd = { r.rd with buf := [] } ∨ (call h strip c r).rd = nextRd strip c r.rd)) := by
  have pl : ∀ (e : Event) (rd : Reader), rd.buf = [] → ∀ r' : Run V,
      r' = flushed h r (fun r'' => emit h e { r'' with rd }) →
      (r'.rd = rd ∧ r'.status = r.status)
      ∨ (r'.status = .stopped ∧ r'.rd.buf = [] ∧ (r'.rd = { r.rd with buf := [] } ∨ r'.rd = rd)) := by
    rintro e rd hb r' rfl
    rcases flush_calm hc r with f | f
    · simp only [flushed, f, hs, if_false]
      rcases emit_calm hc e { r with rd, sent := r.sent ++ flushE r.rd } with g | ⟨_, g⟩
      · exact .inl (by rw [g]; exact ⟨rfl, rfl⟩)
      · exact .inr (by rw [g]; exact ⟨rfl, hb, .inr rfl⟩)
    · exact .inr (by simp [flushed, f])
  have pl0 : ∀ (e : Event), (∃ rd : Reader, rd = { r.rd with buf := [] }) →
      ((flushed h r (emit h e)).rd = { r.rd with buf := [] } ∧ (flushed h r (emit h e)).status = r.status)
      ∨ ((flushed h r (emit h e)).status = .stopped ∧ (flushed h r (emit h e)).rd.buf = []
        ∧ ((flushed h r (emit h e)).rd = { r.rd with buf := [] }
          ∨ (flushed h r (emit h e)).rd = { r.rd with buf := [] })) := by
    rintro e -
    rcases flush_calm hc r with f | f
    · simp only [flushed, f, hs, if_false]
      rcases emit_calm hc e { r with rd := { r.rd with buf := [] }, sent := r.sent ++ flushE r.rd } with g | ⟨_, g⟩
      · exact .inl (by rw [g]; exact ⟨rfl, rfl⟩)
      · exact .inr (by rw [g]; exact ⟨rfl, rfl, .inr rfl⟩)
    · exact .inr (by simp [flushed, f])
  cases c with
  | text s => exact .inl (by simp [call, hs, nextRd])
  | start n atts =>
    simp only [call, hs, if_false, nextRd]
    refine pl (.startElement n (atts ++ fixups { r.rd with buf := [] } atts))
      (pushElement strip n atts { r.rd with buf := [] }) rfl _ ?_
    rcases flush_calm hc r with f | f <;> simp [flushed, f, hs]
  | stop n =>
    simp only [call, hs, if_false, nextRd]
    refine pl (.endElement n) (popElement { r.rd with buf := [] }) rfl _ ?_
    rcases flush_calm hc r with f | f
    · simp only [flushed, f, hs, if_false, emit]
      cases h (r.sent ++ flushE r.rd ++ [.endElement n]) <;> rfl
    · simp [flushed, f]
  | pi t d => simpa only [call, hs, if_false, nextRd] using pl0 _ ⟨_, rfl⟩
  | comment d => simpa only [call, hs, if_false, nextRd] using pl0 _ ⟨_, rfl⟩
  | startNs p u => simpa only [call, hs, if_false, nextRd] using pl0 _ ⟨_, rfl⟩
  | endNs p => simpa only [call, hs, if_false, nextRd] using pl0 _ ⟨_, rfl⟩
  | skipped n => simpa only [call, hs, if_false, nextRd] using pl0 _ ⟨_, rfl⟩
  | cdata =>
    simp only [call, hs, if_false, nextRd]
    rcases emit_calm hc .startCdata r with g | ⟨g, _⟩
    · exact .inl (by rw [g]; exact ⟨rfl, rfl⟩)
    · cases g
  | endCdata =>
    simp only [call, hs, if_false, nextRd]
    rcases emit_calm hc .endCdata r with g | ⟨g, _⟩
    · exact .inl (by rw [g]; exact ⟨rfl, rfl⟩)
    · cases g

/-- The stacks that contexts share with elements have `m` entries at least. -/
def Deep (rd : Reader) (m : Nat) : Prop := m ≤ rd.bases.length ∧ m ≤ rd.langs.length ∧ m ≤ rd.spaces.length

theorem Deep.mono {rd : Reader} {m n : Nat} (h : Deep rd m) (hn : n ≤ m) : Deep rd n :=
  ⟨Nat.le_trans hn h.1, Nat.le_trans hn h.2.1, Nat.le_trans hn h.2.2⟩

theorem deep_next {strip : Str → Bool} {c : Call} {rd : Reader} {floor n m : Nat} (hf : floor ≤ n)
    (hd : Spec.depth floor n [c] = some m) (h : Deep rd (rd.ctxs.length + n)) :
    floor ≤ m ∧ Deep (nextRd strip c rd) ((nextRd strip c rd).ctxs.length + m) := by
  rw [ctxs_next]
  cases c <;> simp only [Spec.depth, Option.some.injEq] at hd
  case start =>
    subst hd
    refine ⟨by omega, ?_⟩
    simp only [Deep, nextRd, pushElement, List.length_cons] at h ⊢
    omega
  case stop =>
    split at hd
    · simp only [Option.some.injEq] at hd
      subst hd
      refine ⟨by omega, ?_⟩
      simp only [Deep, nextRd, popElement, List.length_tail] at h ⊢
      omega
    · cases hd
  case text =>
    split at hd
    · simp only [Option.some.injEq] at hd
      subst hd
      exact ⟨hf, h⟩
    · cases hd
  all_goals
    subst hd
    exact ⟨hf, h⟩

theorem group_stopped (h : Handler V) (strip : Str → Bool) (cs : List Call) {r : Run V} (hs : r.status = .stopped) :
    group h strip cs r = r := by
  induction cs with
  | nil => rfl
  | cons c cs ih => rw [group_cons, show call h strip c r = r by simp [call, hs], ih]

theorem waiting_next {strip : Str → Bool} {c : Call} {rd : Reader} {w : Bool} (hw : rd.buf ≠ [] → w = true) :
    (nextRd strip c rd).buf ≠ [] → waiting w [c] = true := by
  cases c with
  | text s =>
    intro hb
    simp only [nextRd] at hb
    by_cases h1 : rd.buf = []
    · have : s ≠ [] := by simpa [h1] using hb
      cases s with
      | nil => exact (this rfl).elim
      | cons a s => simp [waiting]
    · simp [waiting, hw h1]
  | cdata => exact hw
  | endCdata => exact hw
  | _ => intro hb; simp [nextRd, pushElement, popElement] at hb

theorem waiting_append (w : Bool) (a b : List Call) : waiting w (a ++ b) = waiting (waiting w a) b := by
  induction a generalizing w with
  | nil => rfl
  | cons c a ih => cases c <;> simp [waiting, ih]

/-- How a group of callbacks ends. -/
theorem group_calm {h : Handler V} (hc : Calm h) (strip : Str → Bool) (cs : List Call) {r : Run V}
    (hs : r.status = .parsing) {floor n m : Nat} {w : Bool} (hf : floor ≤ n) (hd : Spec.depth floor n cs = some m)
    (hl : Deep r.rd (r.rd.ctxs.length + n)) (hw : r.rd.buf ≠ [] → w = true) :
    (group h strip cs r).rd.ctxs.length = r.rd.ctxs.length ∧
    (((group h strip cs r).status = .parsing ∧ floor ≤ m
      ∧ Deep (group h strip cs r).rd (r.rd.ctxs.length + m)
      ∧ ((group h strip cs r).rd.buf ≠ [] → waiting w cs = true))
    ∨ ((group h strip cs r).status = .stopped ∧ (group h strip cs r).rd.buf = []
      ∧ Deep (group h strip cs r).rd r.rd.ctxs.length)) := by
  induction cs generalizing r n w with
  | nil =>
    simp only [Spec.depth, Option.some.injEq] at hd
    subst hd
    exact ⟨rfl, .inl ⟨hs, hf, hl, hw⟩⟩
  | cons c cs ih =>
    obtain ⟨n1, d1, d2⟩ := depth_cons _ _ _ _ hd
    have hs' : r.status ≠ .stopped := by rw [hs]; exact (nomatch ·)
    obtain ⟨f1, l1⟩ := deep_next (strip := strip) hf d1 hl
    rw [group_cons]
    rcases call_calm hc strip c r hs' with ⟨e1, e2⟩ | ⟨e1, e2, e3⟩
    · have := ih (r := call h strip c r) (e2.trans hs) f1 d2 (by rw [e1]; exact l1)
        (w := waiting w [c]) (by rw [e1]; exact waiting_next hw)
      have hcl : (call h strip c r).rd.ctxs.length = r.rd.ctxs.length := by rw [e1, ctxs_next]
      rw [hcl, ← waiting_append] at this
      exact this
    · rw [group_stopped h strip cs e1]
      rcases e3 with e3 | e3
      · refine ⟨by rw [e3], .inr ⟨e1, e2, ?_⟩⟩
        rw [e3]
        exact hl.mono (by omega)
      · refine ⟨by rw [e3, ctxs_next], .inr ⟨e1, e2, ?_⟩⟩
        rw [e3]
        rw [ctxs_next] at l1
        exact l1.mono (by omega)

/-- Ending a context. -/
theorem endContext_deep {rd : Reader} {m : Nat} (h : Deep rd (m + 1)) :
    ∃ rd', endContext rd = some rd' ∧ rd'.ctxs = rd.ctxs.tail ∧ rd'.buf = rd.buf ∧ Deep rd' m := by
  obtain ⟨h1, h2, h3⟩ := h
  cases hb : rd.bases with
  | nil => simp [hb] at h1
  | cons b bs =>
    cases hl : rd.langs with
    | nil => simp [hl] at h2
    | cons l ls =>
      cases hs : rd.spaces with
      | nil => simp [hs] at h3
      | cons s ss =>
        refine ⟨{ rd with ctxs := rd.ctxs.tail, spaces := ss, langs := ls, bases := bs }, by simp [endContext, hb, hl, hs],
          rfl, rfl, ?_⟩
        simp only [Deep, hb, hl, hs, List.length_cons] at h1 h2 h3 ⊢
        exact ⟨by omega, by omega, by omega⟩

theorem run_calm {h : Handler V} (hc : Calm h) (strip : Str → Bool) (d : Doc) {r : Run V} (hs : r.status = .parsing)
    {floor n : Nat} {w : Bool} (hf : floor ≤ n) (hn : Nested floor n d) (hl : Deep r.rd (r.rd.ctxs.length + n))
    (hw : r.rd.buf ≠ [] → w = true) (ha : AfterMarkup w d) :
    (run h strip d r).1.rd.ctxs.length = r.rd.ctxs.length ∧
    (((run h strip d r).2 = .ok ∧ (run h strip d r).1.status = .parsing
      ∧ Deep (run h strip d r).1.rd (r.rd.ctxs.length + floor)
      ∧ ((run h strip d r).1.rd.buf ≠ [] → waiting w (content d) = true))
    ∨ ((run h strip d r).2 = .error ∧ (run h strip d r).1.rd.buf = []
      ∧ Deep (run h strip d r).1.rd r.rd.ctxs.length)) := by
  have hcontra : ∀ {b : Bool}, b = false → (r.rd.buf ≠ [] → b = true) → r.rd.buf = [] := by
    intro b hb h
    by_cases e : r.rd.buf = []
    · exact e
    · rw [hb] at h; cases h e
  induction d generalizing r floor n w with
  | done =>
    simp only [Nested] at hn
    subst hn
    exact ⟨rfl, .inl ⟨rfl, hs, hl, hw⟩⟩
  | edge d ih => exact ih hs hf hn hl hw ha hcontra
  | bad => exact ⟨rfl, .inr ⟨rfl, hcontra ha hw, hl.mono (by omega)⟩⟩
  | unreadable => exact ⟨rfl, .inr ⟨rfl, hcontra ha hw, hl.mono (by omega)⟩⟩
  | calls cs d ih =>
    obtain ⟨m, h1, h2⟩ := hn
    obtain ⟨g1, g2⟩ := group_calm hc strip cs hs hf h1 hl hw
    simp only [run]
    generalize group h strip cs r = r1 at g1 g2
    rcases g2 with ⟨a1, a2, a3, a4⟩ | ⟨a1, a2, a3⟩
    · rw [a1]
      dsimp only
      have := ih (r := r1) a1 a2 h2 (by rw [g1]; exact a3) a4 ha (by
        intro b hb h
        by_cases e : r1.rd.buf = []
        · exact e
        · rw [hb] at h; cases h e)
      rw [g1] at this
      simp only [content]
      rw [waiting_append]
      exact this
    · rw [a1]
      exact ⟨g1, .inr ⟨rfl, a2, a3⟩⟩
  | ext uri inner d ihi ihd =>
    obtain ⟨hn1, hn2⟩ := hn
    have hl1 : Deep (beginContext (some uri) r.rd) ((beginContext (some uri) r.rd).ctxs.length + n) := by
      simp only [Deep, beginContext, List.length_cons] at hl ⊢
      omega
    have b1 := ihi (r := { r with rd := beginContext (some uri) r.rd }) hs (Nat.le_refl n) hn1 hl1 hw ha.1 hcontra
    have hcl : (beginContext (some uri) r.rd).ctxs.length = r.rd.ctxs.length + 1 := by simp [beginContext]
    simp only [run]
    revert b1
    generalize run h strip inner { r with rd := beginContext (some uri) r.rd } = x
    obtain ⟨r1, out⟩ := x
    rintro ⟨c1, c2⟩
    rw [hcl] at c2
    dsimp only at c1 c2 ⊢
    rcases c2 with ⟨a1, a2, a3, a4⟩ | ⟨a1, a2, a3⟩
    · subst a1
      dsimp only
      obtain ⟨rd, e1, e2, e3, e4⟩ := endContext_deep (m := r.rd.ctxs.length + n) (a3.mono (by omega))
      rw [e1]
      dsimp only
      have e5 : rd.ctxs.length = r.rd.ctxs.length := by rw [e2, List.length_tail, c1, hcl]; omega
      have := ihd (r := { r1 with rd }) a2 hf hn2 (by rw [e5]; exact e4) (w := waiting w (content inner))
        (by rw [e3]; exact a4) ha.2 (by
          intro b hb h
          by_cases e : rd.buf = []
          · exact e
          · rw [hb] at h; cases h e)
      dsimp only at this
      rw [e5] at this
      simp only [content]
      rw [waiting_append]
      exact this
    · subst a1
      dsimp only
      obtain ⟨rd, e1, e2, e3, e4⟩ := endContext_deep (m := r.rd.ctxs.length) a3
      rw [e1]
      dsimp only
      have e5 : rd.ctxs.length = r.rd.ctxs.length := by rw [e2, List.length_tail, c1, hcl]; omega
      exact ⟨e5, .inr ⟨rfl, e3.trans a2, e4⟩⟩

theorem destroy_deep {rd : Reader} (h : Deep rd rd.ctxs.length) :
    ∃ rd', destroy rd = some rd' ∧ rd'.ctxs = [] ∧ rd'.buf = rd.buf := by
  have : ∀ (cs : List Ctx) (rd : Reader), rd.ctxs.length = cs.length → Deep rd cs.length →
      ∃ rd', destroyAll cs rd = some rd' ∧ rd'.ctxs = [] ∧ rd'.buf = rd.buf := by
    intro cs
    induction cs with
    | nil => intro rd h1 _; exact ⟨rd, rfl, List.length_eq_zero_iff.mp h1, rfl⟩
    | cons c cs ih =>
      intro rd h1 h2
      obtain ⟨rd1, e1, e2, e3, e4⟩ := endContext_deep (m := cs.length) h2
      obtain ⟨rd', f1, f2, f3⟩ := ih rd1 (by rw [e2, List.length_tail, h1]; simp) e4
      refine ⟨rd', ?_, f2, f3.trans e3⟩
      simp only [destroyAll, e1]
      exact f1
  exact this rd.ctxs rd rfl h

/-- A reader that has no context and nothing waiting. -/
def Ready (o : Obj V) : Prop := o.run.rd.buf = [] ∧ o.run.rd.ctxs = []

theorem cleanup_deep {r : Run V} (hb : r.rd.buf = []) (h : Deep r.rd r.rd.ctxs.length) (s : Shown) :
    (cleanup r s).2 = s ∧ Ready (cleanup r s).1 := by
  obtain ⟨rd', e1, e2, e3⟩ := destroy_deep h
  unfold cleanup
  rw [e1]
  exact ⟨rfl, e3.trans hb, e2⟩

/-- After any such parse the reader is ready for the next one. -/
theorem parse_calm {h : Handler V} (hc : Calm h) (strip : Str → Bool) (uri : Str) (d : Doc) {o : Obj V} (ho : Ready o)
    (hn : Nested 0 0 d) (ha : AfterMarkup false d) :
    Ready (parse h strip uri d o).1 ∧ (parse h strip uri d o).2 ≠ .crash := by
  have hb0 : (beginContext (some uri) o.run.rd).buf = [] := ho.1
  have hcl : (beginContext (some uri) o.run.rd).ctxs.length = 1 := by simp [beginContext, ho.2]
  have hl : Deep (beginContext (some uri) o.run.rd) 1 := by
    simp only [Deep, beginContext, List.length_cons]
    omega
  have stop : ∀ (r : Run V), r.rd.buf = [] → r.rd.ctxs.length = 1 → Deep r.rd 1 → ∀ s, s ≠ .crash →
      Ready (cleanup r s).1 ∧ (cleanup r s).2 ≠ .crash := by
    intro r h1 h2 h3 s hs
    obtain ⟨a, b⟩ := cleanup_deep h1 (by rw [h2]; exact h3) s
    exact ⟨b, by rw [a]; exact hs⟩
  unfold parse startParsing
  rcases emit_calm hc .startDocument
      { o.run with rd := beginContext (some uri) o.run.rd, status := .parsing } with e | ⟨_, e⟩
  · rw [e]
    dsimp only
    have := run_calm hc strip d
      (r := ⟨beginContext (some uri) o.run.rd, o.run.sent ++ [.startDocument], o.run.yielded, .parsing⟩) rfl (Nat.le_refl 0) hn
      (by dsimp only; rw [hcl]; exact hl) (w := false) (fun h => (h hb0).elim) ha
    revert this
    generalize run h strip d _ = x
    obtain ⟨r1, out⟩ := x
    rintro ⟨c1, c2⟩
    dsimp only at c1 c2 ⊢
    rw [hcl] at c1 c2
    rcases c2 with ⟨a1, a2, a3, a4⟩ | ⟨a1, a2, a3⟩
    · subst a1
      simp only [finish]
      rcases flush_calm hc { r1 with status := .finished } with f | f
      · simp only [f, reduceCtorEq, if_false]
        rcases emit_calm hc .endDocument
            ⟨{ r1.rd with buf := [] }, r1.sent ++ flushE r1.rd, r1.yielded, .finished⟩ with g | ⟨_, g⟩
        · rw [g]
          refine stop _ ?_ ?_ ?_ _ ?_
          · rfl
          · exact c1
          · exact a3
          · split <;> exact (nomatch ·)
        · rw [g]
          refine stop _ ?_ ?_ ?_ _ ?_
          · rfl
          · exact c1
          · exact a3
          · split <;> exact (nomatch ·)
      · simp only [f, if_true]
        refine stop _ ?_ ?_ ?_ _ ?_
        · rfl
        · exact c1
        · exact a3
        · exact (nomatch ·)
    · subst a1
      exact stop r1 a2 c1 a3 .error (nomatch ·)
  · rw [e]
    refine stop _ ?_ ?_ ?_ _ ?_
    · exact hb0
    · exact hcl
    · exact hl
    · exact (nomatch ·)

end Verif.Parse.Sax
