import Verif.Parse.SaxGen

/-
C83: what a SAX reader reports of a document, for any division into buffers; reading with a generator; using a reader
again.
-/
namespace Verif.Parse.Sax

open Verif.Py
open Spec (YieldsAt yields Single content Calm noBorder AfterMarkup Nested Good report borders Each Adds SpaceOk
  FlatEntities events merge border)

variable {V : Type}

/-- The state after `startDocument`. -/
def begun (uri : Str) (o : Obj V) : Run V :=
  ⟨beginContext (some uri) o.run.rd, o.run.sent ++ [.startDocument], o.run.yielded, .parsing⟩

/-- How the reader gets through a document. -/
theorem begun_run {h : Handler V} (hh : ∀ es, h es = .ok) (ex : Bool) {strip : Str → Bool} (uri : Str) {d : Doc}
    {o : Obj V} (ho : Ready o) (hg : Good d) (hn : Nested 0 0 d) (hs : SpaceOk strip d)
    (hx : ex = true ∨ FlatEntities d) :
    ∃ rd' E, run h strip d (begun uri o) = ({ begun uri o with rd := rd', sent := (begun uri o).sent ++ E }, .ok)
      ∧ rd'.buf = [] ∧ rd'.ctxs.length = 1 ∧ endContext rd' = some o.run.rd
      ∧ Trans ex strip [] [] (content d) [] [] E := by
  obtain ⟨hb, hc⟩ := ho
  have hfix : headFix (begun uri o).rd.ctxs = false := by simp [begun, beginContext, hc, headFix]
  obtain ⟨o', rd', E, e1, e2, e3, e4, e5⟩ := run_report (h := h) hh (ex := ex) (strip := strip) (K0 := o.run.rd.keeps) d
    (floor := 0) (n := 0) (o := []) (r := begun uri o) hg hn (Nat.le_refl 0)
    ⟨rfl, ⟨rfl, fun _ => hb⟩, by
      rcases hs with a | a | a
      · exact .inl a
      · exact .inr (.inl ⟨a, o.run.rd.spaces, rfl⟩)
      · exact .inr (.inr ⟨a, by simp, 0, o.run.rd.spaces, Nat.le_refl 0, rfl⟩)⟩
    (by
      rcases hx with a | a
      · exact .inl a
      · exact .inr (.inl ⟨hfix, a⟩)) rfl
  obtain rfl := List.length_eq_zero_iff.mp e2
  have b0 := e3.empty rfl
  have hb' : rd'.bases = some uri :: o.run.rd.bases := by simpa [begun, beginContext] using e4.bases
  have hl' : rd'.langs = none :: o.run.rd.langs := by simpa [begun, beginContext] using e4.langs
  have hs' : rd'.spaces = false :: o.run.rd.spaces := by simpa [begun, beginContext] using e4.spaces
  have hc' : rd'.ctxs.tail = o.run.rd.ctxs := by simpa [begun, beginContext] using e4.ctxs.tail
  have hk' : rd'.keeps = o.run.rd.keeps := by simpa using e3.keeps
  refine ⟨rd', E, e1, b0, ?_, ?_, ?_⟩
  · rw [e4.ctxs.length]; simp [begun, beginContext, hc]
  · unfold endContext
    rw [hb', hl', hs', hc', hk', b0]
    simp [← hb]
  · rw [b0] at e5
    have : (begun uri o).rd.buf = [] := hb
    rw [this] at e5
    exact e5

theorem begun_eq (h : Handler V) (uri : Str) (o : Obj V) (he : h (o.run.sent ++ [.startDocument]) = .ok) :
    emit h .startDocument { o.run with rd := beginContext (some uri) o.run.rd, status := .parsing } = begun uri o := by
  simp [emit, he, begun]

theorem destroy_one {rd rd0 : Reader} (h1 : rd.ctxs.length = 1) (h2 : endContext rd = some rd0) :
    destroy rd = some rd0 := by
  unfold destroy
  cases hc : rd.ctxs with
  | nil => simp [hc] at h1
  | cons c cs =>
    rw [hc] at h1
    obtain rfl := List.length_eq_zero_iff.mp (Nat.succ.inj h1)
    simp [destroyAll, h2]

theorem finish_ok {h : Handler V} {r : Run V} {rd0 : Reader} (hb : r.rd.buf = []) (h1 : r.rd.ctxs.length = 1)
    (h2 : endContext r.rd = some rd0) (he : h (r.sent ++ [.endDocument]) = .ok) :
    finish h r = ({ run := ⟨rd0, r.sent ++ [.endDocument], r.yielded, .finished⟩, todo := [] }, .ok) := by
  simp [finish, flush, hb, emit, he, cleanup, destroy_one h1 h2]

/-- A plain parse. -/
theorem parse_plain {h : Handler V} (hh : ∀ es, h es = .ok) (ex : Bool) {strip : Str → Bool} (uri : Str) {d : Doc}
    {o : Obj V} (ho : Ready o) (hg : Good d) (hn : Nested 0 0 d) (hs : SpaceOk strip d)
    (hx : ex = true ∨ FlatEntities d) :
    ∃ E, parse h strip uri d o
        = ({ run := ⟨o.run.rd, o.run.sent ++ ([.startDocument] ++ E ++ [.endDocument]), o.run.yielded, .finished⟩,
             todo := [] }, .ok)
      ∧ Trans ex strip [] [] (content d) [] [] E := by
  obtain ⟨rd', E, e1, e2, e3, e4, e5⟩ := begun_run hh ex uri ho hg hn hs hx
  refine ⟨E, ?_, e5⟩
  unfold parse startParsing
  rw [begun_eq h uri o (hh _)]
  simp only [e1]
  rw [show (begun uri o).status = .parsing from rfl]
  dsimp only
  rw [finish_ok (rd0 := o.run.rd) e2 e3 e4 (hh _)]
  simp [begun, List.append_assoc]

theorem events_nil (strip : Str → Bool) (C : List Call) :
    events strip [] (merge (.text [] :: C)) = events strip [] (merge C) := by
  rw [merge]
  cases merge C with
  | nil => simp
  | cons c cs => cases c <;> simp

theorem Each.eq {R : Event → Event → Prop} {a b : List Event} (h : Each R a b) (hr : ∀ x y, R x y → x = y) : a = b := by
  induction h with
  | nil => rfl
  | cons h _ ih => rw [hr _ _ h, ih]

theorem Each.imp {R S : Event → Event → Prop} {a b : List Event} (h : Each R a b) (hr : ∀ x y, R x y → S x y) :
    Each S a b := by
  induction h with
  | nil => exact .nil
  | cons h _ ih => exact .cons (hr _ _ h) ih

/-- **C83.** `parse()` of a well-formed document gives, between `startDocument` and `endDocument`, one event for each
tag, comment and so on, in order and with the content of external entities in the place of the references, and all
contiguous character data in one piece, or in none where the rules strip it — whatever the division into buffers was.
The start tags may have got attributes `xml:base` and `xml:lang` if there are elements in external entities. The
borders of CDATA sections are reported in order.  The reader is left as it was.

Missing: the place of the borders of CDATA sections among the other events (see `C83_refuted_cdata`), and `xml:space`
across the border of an entity (see `C83_refuted_space`). -/
theorem C83_report_partial (h : Handler V) (strip : Str → Bool) (uri : Str) (d : Doc) (o : Obj V)
    (hh : ∀ es, h es = .ok) (hb : o.run.rd.buf = []) (hc : o.run.rd.ctxs = [])
    (hg : Good d) (hn : Nested 0 0 d) (hs : SpaceOk strip d) :
    (parse h strip uri d o).2 = .ok
    ∧ (∃ E, (parse h strip uri d o).1.run.sent = o.run.sent ++ E
      ∧ Each Adds (report strip d) (E.filter noBorder)
      ∧ E.filter (!noBorder ·) = borders d
      ∧ (FlatEntities d → E.filter noBorder = report strip d))
    ∧ (parse h strip uri d o).1.run.rd = o.run.rd := by
  obtain ⟨E, e1, t1, Es, t2, t3⟩ := parse_plain hh true uri ⟨hb, hc⟩ hg hn hs (.inl rfl)
  rw [e1]
  refine ⟨rfl, ⟨_, rfl, ?_, ?_, ?_⟩, rfl⟩
  · have := t3 []
    rw [List.append_nil, events_nil, events_nil] at this
    simp only [merge, events, List.append_nil] at this
    unfold report
    rw [this]
    simp only [List.filter_append, List.filter_cons, List.filter_nil, noBorder, if_true, List.cons_append,
      List.nil_append]
    exact .cons (.same _) (Each.append (Each.imp t2 fun x y h => by simpa [Rel] using h) (.cons (.same _) .nil))
  · simp only [List.filter_append, List.filter_cons, List.filter_nil, noBorder, Bool.not_true, Bool.false_eq_true,
      if_false, List.nil_append, List.append_nil]
    exact t1
  · intro hf
    obtain ⟨E', e1', t1', Es', t2', t3'⟩ := parse_plain hh false uri ⟨hb, hc⟩ hg hn hs (.inr hf)
    rw [e1] at e1'
    simp only [Prod.mk.injEq, Obj.mk.injEq, Run.mk.injEq, List.append_cancel_left_eq, true_and, and_true,
      List.append_cancel_right_eq] at e1'
    subst e1'
    have := t3' []
    rw [List.append_nil, events_nil, events_nil] at this
    simp only [merge, events, List.append_nil] at this
    unfold report
    rw [this, Each.eq t2' (fun x y h => by simpa [Rel] using h)]
    simp [List.filter_cons, noBorder]

/-- **C83.** With a handler that yields a value at some of the events of one kind, where Expat makes at most one such
callback between two looks at its status and none in external entities: `parse()` returns a generator, and the
generator gives exactly these values, in order, and then ends; by then the handler has got the events that a plain
parse gives it.

Missing: `endDocument`, which is not reported if a value has been yielded (see `C83_refuted_end`), and every other
place to yield a value (see `C83_refuted_two_values`, `C83_refuted_start_document`, `C83_refuted_entity`). -/
theorem C83_generator_partial (h : Handler V) (k : Spec.Kind) (strip : Str → Bool) (uri : Str) (d : Doc) (o : Obj V)
    (hy : YieldsAt k h) (hb : o.run.rd.buf = []) (hc : o.run.rd.ctxs = []) (hv : o.run.yielded = none)
    (hg : Good d) (hn : Nested 0 0 d) (hs : SpaceOk strip d) (hk : Single k d) :
    ∃ E, (parse (fun _ => .ok) strip uri d o).1.run.sent = o.run.sent ++ E ++ [.endDocument] ∧
      (parse h strip uri d o).2 = .ok ∧
      ∀ n, (nexts h strip ((yields h o.run.sent E).length + 1 + n) (parse h strip uri d o).1).2
          = (yields h o.run.sent E).map .value ++ List.replicate (n + 1) .stop
        ∧ (nexts h strip ((yields h o.run.sent E).length + 1 + n) (parse h strip uri d o).1).1.run.sent
          = o.run.sent ++ E ++ (if yields h o.run.sent E = [] then [.endDocument] else []) := by
  have ho : Ready o := ⟨hb, hc⟩
  obtain ⟨rd', E, e1, e2, e3, e4, -⟩ := begun_run (h := quiet) (quiet_ok (V := V)) true uri ho hg hn hs (.inl rfl)
  have p0 : (parse (fun _ => .ok) strip uri d o).1.run.sent = o.run.sent ++ ([.startDocument] ++ E) ++ [.endDocument] := by
    unfold parse startParsing
    rw [begun_eq _ uri o rfl]
    dsimp only
    rw [show (begun uri o).status = .parsing from rfl]
    dsimp only
    rw [show (fun _ => Reply.ok : Handler V) = quiet from rfl, e1]
    dsimp only
    rw [finish_ok (rd0 := o.run.rd) e2 e3 e4 rfl]
    simp [begun, List.append_assoc]
  have hsd : h (o.run.sent ++ [.startDocument]) = .ok := by
    rcases hy o.run.sent .startDocument with h1 | ⟨h1, _⟩
    · exact h1
    · cases h1
  have hys : yields h o.run.sent ([.startDocument] ++ E) = yields h (begun uri o).sent E := by
    rw [yields_append]
    simp [yields, hsd, begun]
  refine ⟨[.startDocument] ++ E, p0, ?_⟩
  rw [hys]
  have hcx : (begun uri o).rd.ctxs ≠ [] := by simp [begun, beginContext]
  obtain ⟨a, b, g, E', f, x⟩ := run_gen hy strip d hk (begun uri o) rfl hv e1
  obtain rfl : E = E' := List.append_cancel_left f
  have pe : parse h strip uri d o = match run h strip d (begun uri o) with
      | (r2, .ok) => finish h r2
      | (r2, .error) => cleanup r2 .error
      | (r2, .suspended todo) => ({ run := r2, todo }, .ok)
      | (r2, .crash) => ({ run := r2, todo := [] }, .crash) := by
    unfold parse startParsing
    rw [begun_eq _ uri o hsd]
    rfl
  rcases x with ⟨x1, x2⟩ | ⟨v, r1, d', E1, x1, x2, x3, x4, x5, x6, x7, x8, x9⟩
  · have hed : h ((begun uri o).sent ++ E ++ [.endDocument]) = .ok := by
      rcases hy ((begun uri o).sent ++ E) .endDocument with h1 | ⟨h1, _⟩
      · exact h1
      · cases h1
    rw [pe, x2]
    dsimp only
    rw [finish_ok (rd0 := o.run.rd) e2 e3 e4 hed, x1]
    refine ⟨rfl, fun n => ?_⟩
    have hst := nexts_stop h strip (([] : List V).length + 1 + n)
      (o := { run := ⟨o.run.rd, (begun uri o).sent ++ E ++ [.endDocument], o.run.yielded, .finished⟩, todo := [] }) rfl hv
    exact ⟨(congrArg (·.2) hst).trans (by simp [Nat.add_comm]),
      (congrArg (·.1.run.sent) hst).trans (by simp [begun, List.append_assoc])⟩
  · rw [pe, x1]
    dsimp only
    refine ⟨rfl, fun n => ?_⟩
    have h1 : next h strip { run := { r1 with yielded := some v, status := .suspended }, todo := [d'] }
        = ({ run := { r1 with status := .suspended }, todo := [d'] }, .value v) := by
      cases r1
      simp only at x5
      subst x5
      simp [next, take]
    have h2 := nexts_gen hy strip (sizeOf d') ⟨o.run.rd, e4, hc⟩ d' (Nat.le_refl _) x8 r1 x4 x5 (by
        intro e
        rw [e] at x6
        exact hcx (List.length_eq_zero_iff.mp x6.symm)) x7 E1 x3 n
    rw [x2, show (v :: yields h r1.sent E1).length + 1 + n = ((yields h r1.sent E1).length + 1 + n) + 1 by
      simp; omega, nexts_succ, h1]
    refine ⟨by rw [h2.1]; simp, ?_⟩
    rw [h2.2]
    simp [begun, List.append_assoc]

/-- A parse of the past: the handler, the rules for white space, the URI, the document. -/
structure Job (V : Type) where
  handler : Handler V
  strip : Str → Bool
  uri : Str
  doc : Doc

/-- Parses one after the other with the same reader. -/
def Job.run (jobs : List (Job V)) (o : Obj V) : Obj V :=
  jobs.foldl (fun o j => (parse j.handler j.strip j.uri j.doc o).1) o

/-- **C83.** A reader can be used again: after any parses of any documents, some of which may have ended with errors of
syntax, of reading, or with exceptions of the handler, the next document is reported as by a new reader.

Missing: parses with generators (see `C83_refuted_stale_context`); documents that break off in character data (see
`C83_refuted_left_over`). -/
theorem C83_reuse_partial (jobs : List (Job V)) (hj : ∀ j ∈ jobs, Calm j.handler ∧ Nested 0 0 j.doc ∧ AfterMarkup false j.doc)
    (h : Handler V) (strip : Str → Bool) (uri : Str) (d : Doc)
    (hh : ∀ es, h es = .ok) (hg : Good d) (hn : Nested 0 0 d) (hs : SpaceOk strip d) :
    (parse h strip uri d (Job.run jobs Obj.new)).2 = .ok
    ∧ ∃ E, (parse h strip uri d (Job.run jobs Obj.new)).1.run.sent = (Job.run jobs Obj.new).run.sent ++ E
      ∧ Each Adds (report strip d) (E.filter noBorder)
      ∧ E.filter (!noBorder ·) = borders d
      ∧ (FlatEntities d → E.filter noBorder = report strip d) := by
  have key : ∀ (jobs : List (Job V)) (o : Obj V), Ready o →
      (∀ j ∈ jobs, Calm j.handler ∧ Nested 0 0 j.doc ∧ AfterMarkup false j.doc) → Ready (Job.run jobs o) := by
    intro jobs
    induction jobs with
    | nil => intro o ho _; exact ho
    | cons j js ih =>
      intro o ho hj
      obtain ⟨a, b, c⟩ := hj j List.mem_cons_self
      exact ih _ (parse_calm a j.strip j.uri j.doc ho b c).1 (fun j' h' => hj j' (List.mem_cons_of_mem _ h'))
  obtain ⟨hb, hc⟩ := key jobs Obj.new ⟨rfl, rfl⟩ hj
  obtain ⟨a, b, _⟩ := C83_report_partial h strip uri d _ hh hb hc hg hn hs
  exact ⟨a, b⟩

/-- **C83.** No such parse crashes. -/
theorem C83_no_crash (jobs : List (Job V)) (hj : ∀ j ∈ jobs, Calm j.handler ∧ Nested 0 0 j.doc ∧ AfterMarkup false j.doc)
    (j : Job V) (hn : Calm j.handler ∧ Nested 0 0 j.doc ∧ AfterMarkup false j.doc) :
    (parse j.handler j.strip j.uri j.doc (Job.run jobs Obj.new)).2 ≠ .crash := by
  have key : ∀ (jobs : List (Job V)) (o : Obj V), Ready o →
      (∀ j ∈ jobs, Calm j.handler ∧ Nested 0 0 j.doc ∧ AfterMarkup false j.doc) → Ready (Job.run jobs o) := by
    intro jobs
    induction jobs with
    | nil => intro o ho _; exact ho
    | cons j js ih =>
      intro o ho hj
      obtain ⟨a, b, c⟩ := hj j List.mem_cons_self
      exact ih _ (parse_calm a j.strip j.uri j.doc ho b c).1 (fun j' h' => hj j' (List.mem_cons_of_mem _ h'))
  exact (parse_calm hn.1 j.strip j.uri j.doc (key jobs Obj.new ⟨rfl, rfl⟩ hj) hn.2.1 hn.2.2).2

/-! ## Cases -/

namespace Case

/-- `<a>x&e;z</a>` with an external entity `y<b xml:base="u"/>`, in buffers. -/
def doc : Doc :=
  .calls [.start (s!! "a") []] <| .edge <| .calls [.text (s!! "x")] <|
    .ext (s!! "e") (.calls [.text (s!! "y")] <| .calls [.start (s!! "b") [], .stop (s!! "b")] .done) <|
    .edge <| .calls [.text (s!! "z1"), .text (s!! "z2")] <| .edge <| .calls [.text (s!! "z3")] <|
    .calls [.stop (s!! "a")] .done

/-- The document has what the theorems ask for. -/
theorem doc_ok : Good doc ∧ Nested 0 0 doc ∧ ¬ FlatEntities doc :=
  ⟨⟨trivial, trivial⟩, ⟨1, rfl, 1, rfl, ⟨1, rfl, 1, rfl, rfl⟩, 1, rfl, 1, rfl, 0, rfl, rfl⟩,
    fun h => h.1 (.start (s!! "b") []) (by decide) _ _ rfl⟩

/-- A handler that yields the number of events at start tags. -/
def atStart : Handler Nat := fun es =>
  match es.getLast? with
  | some (.startElement _ _) => .yield es.length
  | _ => .ok

theorem atStart_ok : YieldsAt .start atStart := by
  intro es e
  unfold atStart
  rw [List.getLast?_concat]
  cases e <;> simp [Spec.kindE]

/-- `<a>x<b/>y<b/></a>`. -/
def flat : Doc :=
  .calls [.start (s!! "a") []] <| .calls [.text (s!! "x")] <| .edge <|
    .calls [.start (s!! "b") [], .stop (s!! "b")] <| .calls [.text (s!! "y")] <|
    .calls [.start (s!! "b") [], .stop (s!! "b")] <| .edge <| .calls [.stop (s!! "a")] .done

theorem flat_ok : Good flat ∧ Nested 0 0 flat ∧ Single .start flat ∧ FlatEntities flat :=
  ⟨trivial, ⟨1, rfl, 1, rfl, 1, rfl, 1, rfl, 1, rfl, 0, rfl, rfl⟩, by simp [Single, flat, Spec.kindC], trivial⟩

/-- A document that breaks off after a tag, in an external entity. -/
def broken : Doc :=
  .calls [.start (s!! "a") []] <| .calls [.text (s!! "x")] <|
    .ext (s!! "e") (.calls [.start (s!! "b") []] .bad) <| .calls [.stop (s!! "a")] .done

/-- A handler that raises an exception at the third event. -/
def raises : Handler Nat := fun es => if es.length = 3 then (if es.getLast?.all noBorder then .raise else .ok) else .ok

theorem raises_ok : Calm raises := by
  intro es e
  unfold raises
  rw [List.getLast?_concat]
  by_cases h : es.length = 2 <;> cases hb : noBorder e <;> simp [h, hb]

end Case

open Case

/-- The hypotheses of `C83_report_partial` are met, and the events are not trivial. -/
example : (parse (fun _ => .ok : Handler Nat) (fun _ => false) (s!! "d") doc Obj.new).1.run.sent
    = [.startDocument, .startElement (s!! "a") [], .characters (s!! "xy"),
       .startElement (s!! "b") [⟨s!! "xml:base", s!! "e"⟩], .endElement (s!! "b"), .characters (s!! "z1z2z3"),
       .endElement (s!! "a"), .endDocument] := by decide +kernel

example : (parse (fun _ => .ok : Handler Nat) (fun _ => false) (s!! "d") doc Obj.new).2 = .ok
    ∧ ∃ E, (parse (fun _ => .ok : Handler Nat) (fun _ => false) (s!! "d") doc Obj.new).1.run.sent = [] ++ E
      ∧ Each Adds (report (fun _ => false) doc) (E.filter noBorder) :=
  let t := C83_report_partial (V := Nat) (fun _ => .ok) (fun _ => false) (s!! "d") doc Obj.new (fun _ => rfl) rfl rfl
    doc_ok.1 doc_ok.2.1 (.inl fun _ => rfl)
  ⟨t.1, t.2.1.choose, t.2.1.choose_spec.1, t.2.1.choose_spec.2.1⟩

/-- The hypotheses of `C83_generator_partial` are met: three values, then the end. -/
example : (nexts atStart (fun _ => false) 5 (parse atStart (fun _ => false) (s!! "d") flat Obj.new).1).2
    = [.value 2, .value 4, .value 7, .stop, .stop] := by decide +kernel

example : ∃ E, (parse atStart (fun _ => false) (s!! "d") flat Obj.new).2 = .ok
    ∧ (nexts atStart (fun _ => false) ((yields atStart [] E).length + 1 + 7)
        (parse atStart (fun _ => false) (s!! "d") flat Obj.new).1).2
      = (yields atStart [] E).map .value ++ List.replicate 8 .stop :=
  let ⟨E, _, b, c⟩ := C83_generator_partial atStart .start (fun _ => false) (s!! "d") flat Obj.new atStart_ok rfl rfl rfl
    flat_ok.1 flat_ok.2.1 (.inl fun _ => rfl) flat_ok.2.2.1
  ⟨E, b, (c 7).1⟩

/-- The hypotheses of `C83_reuse_partial` are met by parses that fail in several ways. -/
example : (parse (fun _ => .ok : Handler Nat) (fun _ => false) (s!! "d") flat
    (Job.run [⟨raises, fun _ => true, s!! "1", flat⟩, ⟨raises, fun _ => false, s!! "2", broken⟩,
      ⟨fun _ => .ok, fun _ => true, s!! "3", .calls [.start (s!! "a") []] .unreadable⟩] Obj.new)).2 = .ok :=
  (C83_reuse_partial (V := Nat) _
    (by
      intro j hj
      simp only [List.mem_cons, List.not_mem_nil, or_false] at hj
      rcases hj with rfl | rfl | rfl
      · exact ⟨raises_ok, flat_ok.2.1, by simp [AfterMarkup, flat]⟩
      · exact ⟨raises_ok, ⟨1, rfl, 1, rfl, ⟨2, rfl, trivial⟩, 0, rfl, rfl⟩, by simp [AfterMarkup, broken, Spec.waiting]⟩
      · exact ⟨fun _ _ => .inl rfl, ⟨1, rfl, trivial⟩, by simp [AfterMarkup, Spec.waiting]⟩)
    (fun _ => .ok) (fun _ => false) (s!! "d") flat (fun _ => rfl) flat_ok.1 flat_ok.2.1 (.inl fun _ => rfl)).1

/-! ## Where the code does otherwise -/

/-- Character data that waits when a parse fails is reported in the next document: `<a>hello`, then `<b/>`. -/
theorem C83_refuted_left_over :
    (parse (fun _ => .ok : Handler Nat) (fun _ => false) (s!! "2") (.calls [.start (s!! "b") [], .stop (s!! "b")] .done)
      (parse (fun _ => .ok : Handler Nat) (fun _ => false) (s!! "1")
        (.calls [.start (s!! "a") []] <| .calls [.text (s!! "hello")] .bad) Obj.new).1).1.run.sent
    = [.startDocument, .startElement (s!! "a") [],
       .startDocument, .characters (s!! "hello"), .startElement (s!! "b") [], .endElement (s!! "b"), .endDocument] := by
  decide +kernel

/-- A generator does not report `endDocument`. -/
theorem C83_refuted_end :
    (nexts atStart (fun _ => false) 2
      (parse atStart (fun _ => false) (s!! "d") (.calls [.start (s!! "b") [], .stop (s!! "b")] .done) Obj.new).1)
    = (⟨⟨Reader.new, [.startDocument, .startElement (s!! "b") [], .endElement (s!! "b")], none, .finished⟩, []⟩,
       [.value 2, .stop]) := by
  decide +kernel

/-- A value for the start and one for the end of an empty element: an error. -/
theorem C83_refuted_two_values :
    (parse (fun es => match es.getLast? with
        | some (.startElement _ _) => .yield 1
        | some (.endElement _) => .yield 2
        | _ => .ok : Handler Nat) (fun _ => false) (s!! "d")
      (.calls [.start (s!! "b") [], .stop (s!! "b")] .done) Obj.new).2 = .error := by
  decide +kernel

/-- A value for `startDocument`: an error. -/
theorem C83_refuted_start_document :
    (parse (fun es => match es.getLast? with
        | some .startDocument => .yield 1
        | _ => .ok : Handler Nat) (fun _ => false) (s!! "d")
      (.calls [.start (s!! "b") [], .stop (s!! "b")] .done) Obj.new).2 = .error := by
  decide +kernel

/-- A value in an external entity: the generator ends with the entity, and the rest of the document is not read. -/
theorem C83_refuted_entity :
    (nexts atStart (fun _ => false) 4
      (parse atStart (fun _ => false) (s!! "d")
        (.calls [.start (s!! "a") []] <|
          .ext (s!! "e") (.calls [.start (s!! "b") [], .stop (s!! "b")] <| .edge .done) <|
          .calls [.start (s!! "c") [], .stop (s!! "c")] <| .calls [.stop (s!! "a")] .done) Obj.new).1).2
    = [.value 2, .value 3, .stop, .stop] := by
  decide +kernel

/-- After a generator has ended in a buffer that was not the last one, its context is left, and the root of the next
document gets an attribute `xml:base` that is not in the document. -/
theorem C83_refuted_stale_context :
    (parse (fun _ => .ok : Handler Nat) (fun _ => false) (s!! "2") (.calls [.start (s!! "b") [], .stop (s!! "b")] .done)
      (nexts atStart (fun _ => false) 2 (parse atStart (fun _ => false) (s!! "1")
        (.calls [.start (s!! "a") [], .stop (s!! "a")] <| .edge .done) Obj.new).1).1).1.run.sent
    = [.startDocument, .startElement (s!! "a") [], .endElement (s!! "a"),
       .startDocument, .startElement (s!! "b") [⟨s!! "xml:base", s!! "2"⟩], .endElement (s!! "b"), .endDocument] := by
  decide +kernel

/-- The borders of a CDATA section come before the character data that is before it and in it. -/
theorem C83_refuted_cdata :
    (parse (fun _ => .ok : Handler Nat) (fun _ => false) (s!! "d")
      (.calls [.start (s!! "a") []] <| .calls [.text (s!! "x")] <| .calls [.cdata] <| .calls [.text (s!! "y")] <|
        .calls [.endCdata] <| .calls [.stop (s!! "a")] .done) Obj.new).1.run.sent
    = [.startDocument, .startElement (s!! "a") [], .startCdata, .endCdata, .characters (s!! "xy"),
       .endElement (s!! "a"), .endDocument] := by
  decide +kernel

/-- `xml:space="preserve"` does not reach into an external entity: `<a xml:space="preserve">&e;</a>` where the entity is
`<b> </b>`. -/
theorem C83_refuted_space :
    (parse (fun _ => .ok : Handler Nat) (fun _ => true) (s!! "d")
      (.calls [.start (s!! "a") [⟨s!! "xml:space", s!! "preserve"⟩]] <|
        .ext (s!! "d") (.calls [.start (s!! "b") []] <| .calls [.text (s!! " ")] <| .calls [.stop (s!! "b")] .done) <|
        .calls [.stop (s!! "a")] .done) Obj.new).1.run.sent
    = [.startDocument, .startElement (s!! "a") [⟨s!! "xml:space", s!! "preserve"⟩],
       .startElement (s!! "b") [], .endElement (s!! "b"), .endElement (s!! "a"), .endDocument]
    ∧ report (fun _ => true)
      (.calls [.start (s!! "a") [⟨s!! "xml:space", s!! "preserve"⟩]] <|
        .ext (s!! "d") (.calls [.start (s!! "b") []] <| .calls [.text (s!! " ")] <| .calls [.stop (s!! "b")] .done) <|
        .calls [.stop (s!! "a")] .done)
    = [.startDocument, .startElement (s!! "a") [⟨s!! "xml:space", s!! "preserve"⟩],
       .startElement (s!! "b") [], .characters (s!! " "), .endElement (s!! "b"), .endElement (s!! "a"), .endDocument] := by
  decide +kernel

/-- Only the first element of an external entity gets the base URI of the entity, and it gets an empty `xml:lang` that
takes away the language which the document gives it. -/
theorem C83_refuted_base :
    (parse (fun _ => .ok : Handler Nat) (fun _ => false) (s!! "d")
      (.calls [.start (s!! "a") [⟨s!! "xml:lang", s!! "en"⟩]] <|
        .ext (s!! "e") (.calls [.start (s!! "b") [], .stop (s!! "b")] <|
          .calls [.start (s!! "c") [], .stop (s!! "c")] .done) <|
        .calls [.stop (s!! "a")] .done) Obj.new).1.run.sent
    = [.startDocument, .startElement (s!! "a") [⟨s!! "xml:lang", s!! "en"⟩],
       .startElement (s!! "b") [⟨s!! "xml:base", s!! "e"⟩, ⟨s!! "xml:lang", []⟩], .endElement (s!! "b"),
       .startElement (s!! "c") [], .endElement (s!! "c"), .endElement (s!! "a"), .endDocument] := by
  decide +kernel

/-- Reading two entities, one after the other, with the same reader crashes the interpreter. -/
theorem C83_refuted_entity_twice :
    (parseEntity (fun _ => .ok : Handler Nat) (fun _ => false) (s!! "2") .done
      (parseEntity (fun _ => .ok : Handler Nat) (fun _ => false) (s!! "1") .done Obj.new).1).2 = .crash := by
  decide +kernel

end Verif.Parse.Sax
