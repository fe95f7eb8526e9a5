import Verif.Template.PatternChain

/-
C58: XSLT patterns match the nodes that section 5.2 of XSLT 1.0 says.
-/
namespace Verif.Template
open Verif Verif.XPath Verif.Dom Verif.Dom.Spec Verif.Eval Verif.Eval.Spec
open Verif.Template.Spec (lstep anyBelow steps last front TestOk StepOk LastOk RelOk CallOk PatOk AllDouble AllSingle
  DoubleFirst NoBacktracking Selects)

variable {d : Doc} {root : Nat}

/-- The answer of `pattern.match(context, node)` is `b`. -/
def Answers (d : Doc) (p : Pat) (n : Nat) (c : Ctx) (b : Bool) : Prop := ∃ fuel c', p.match d fuel n c = .ok b c'

/-! The tests in front of a path -/

theorem document_iff (w : DocWF d root) {n : Nat} (hn : InDoc d root n) : d.h.kind n = .entity ↔ n = root := by
  constructor
  · intro h
    have := w.wf.entity_root _ h
    exact (root_unique hn.1 ⟨.inl rfl, this⟩).symm
  · rintro rfl; exact w.root

theorem document_decides (w : DocWF d root) : Decides d root .document (· = root) := by
  intro fuel n c b c' hn _ h
  simp only [CTest.match] at h
  cases h
  exact ⟨by rw [decide_eq_true_iff]; exact document_iff w hn, .refl⟩

theorem args_free {as : List Arg} (ha : ∀ a ∈ as, ∃ s, a = .mk .any (.lit false s)) {n p s n' p' s' : Nat}
    {vs : List EVal} (h : ArgsMean d as n p s vs) : ArgsMean d as n' p' s' vs := by
  induction as generalizing vs with
  | nil => rw [ArgsMean] at h ⊢; exact h
  | cons a as ih =>
    rw [ArgsMean] at h ⊢
    obtain ⟨v, vs', h1, h2, rfl⟩ := h
    obtain ⟨str, rfl⟩ := ha a (by simp)
    refine ⟨v, vs', ?_, ih (fun a h => ha a (by simp [h])) h2, rfl⟩
    simp only [ArgMeans, Means] at h1 ⊢
    exact h1

theorem call_free {fn : Expr} (h : CallOk d root fn) {n p s n' p' s' : Nat} {v : EVal} (hm : Means d fn n p s v) :
    Means d fn n' p' s' v := by
  obtain ⟨_, f, args, rfl, ha, _⟩ := h
  rw [Means] at hm ⊢
  obtain ⟨vs, h1, h2⟩ := hm
  exact ⟨vs, args_free ha h1, h2⟩

/-- The nodes that a call returns. -/
def InCall (d : Doc) (fn : Expr) (n : Nat) : Prop := ∃ l, Means d fn n 1 1 (.nodes l) ∧ n ∈ l

theorem call_decides (w : DocWF d root) {fn : Expr} (hf : CallOk d root fn) :
    Decides d root (.idKey fn) (InCall d fn) := by
  intro fuel n c b c' hn hc h
  simp only [CTest.match] at h
  obtain ⟨v, c1, h1, h2⟩ := bind_ok' h
  obtain ⟨⟨u, h3, h4⟩, g, hs⟩ := (sound w fuel).eval _ _ _ _ _ h1 hf.1 hc
  have h4 : v = u := h4
  subst h4
  cases v with
  | sc s => cases h2
  | nodes l =>
    cases h2
    refine ⟨?_, hs⟩
    have ht : ∀ x ∈ l, TreeNode d.h x := by
      obtain ⟨_, f, args, rfl, _, ht⟩ := hf
      rw [Means] at h3
      obtain ⟨vs, _, h5⟩ := h3
      exact ht _ _ h5
    rw [List.any_eq_true]
    constructor
    · rintro ⟨x, hx, hnx⟩
      rw [nodeEq_tree w hn (g.2 x hx) (ht x hx)] at hnx
      subst hnx
      exact ⟨l, call_free hf h3, hx⟩
    · rintro ⟨l', h5, h6⟩
      have := means_det w fn (call_free hf h3) h5
      cases this
      exact ⟨n, h6, (nodeEq_tree w hn (g.2 n h6) (ht n h6)).2 rfl⟩

/-! Whole patterns -/

/-- A pattern whose steps are those of `r`, with steps `pre` in front. -/
theorem matchPat_right (w : DocWF d root) (hae : AttrsOnElements d) {r : Rel} {l pre : List CPat} {ts : List SStep}
    {n fuel : Nat} {c c' : Ctx} {b : Bool} (hn : InDoc d root n) (hc : InDoc d root c.node)
    (hl : relOf d r = .ok l) (ho : RelOk d root r n) (hp : Reals d root pre.reverse ts)
    (h : matchPat d fuel (pre ++ l).reverse n c = .ok b c') :
    Same c c' ∧ (b = true → Holds d (last r) n ∧ Chain d (lefts d r ++ ts) n) ∧
    (Safe (lefts d r ++ ts) → Holds d (last r) n ∧ Chain d (lefts d r ++ ts) n → b = true) := by
  obtain ⟨k, x, rfl, hx, hk⟩ := relOf_right w hae hl ho.2
  have e : (pre ++ (k ++ [x])).reverse = x :: (k.reverse ++ pre.reverse) := by simp
  rw [e] at h
  simp only [matchPat] at h
  obtain ⟨b1, c1, h1, h2⟩ := bind_ok' h
  obtain ⟨hb, hs⟩ := step_decides w hae hx hn ho.1 h1
  cases b1 with
  | false =>
    simp only [Bool.false_eq_true, if_false] at h2
    cases h2
    refine ⟨hs, nofun, ?_⟩
    rintro _ ⟨h3, _⟩; exact hb.2 h3
  | true =>
    simp only [if_true] at h2
    obtain ⟨hs2, g1, g2⟩ := matchLoop_right w (hk.append hp) hn (same_inDoc hs hc) h2
    exact ⟨hs.trans hs2, fun h => ⟨hb.1 rfl, g1 h⟩, fun hs h => g2 hs h.2⟩

/-- A path goes down. -/
theorem reaches_anc (w : DocWF d root) {r : Rel} {y n : Nat} (h : Reaches d (steps r) y n) : Anc d.h y n := by
  induction r generalizing n with
  | one s => exact .parent ((reaches_one w).1 h).1
  | slash r s ih =>
    obtain ⟨m, h1, h2⟩ := reaches_append.1 h
    exact .step (ih h1) ((reaches_one w).1 h2).1
  | dslash r s ih =>
    obtain ⟨m, h1, h2⟩ := reaches_append.1 h
    obtain ⟨k, h3, h4⟩ := (reaches_append (a := [anyBelow])).1 h2
    refine .step (p := k) ?_ ((reaches_one w).1 h4).1
    rcases below_anc h3 with rfl | h5
    · exact ih h1
    · exact anc_trans (ih h1) h5

theorem chain_top {ts : List SStep} (ht : ∀ t ∈ ts, ∀ m, t.holds m → ∃ p, d.h.parent m = some p) {n : Nat}
    (hn : ∃ p, d.h.parent n = some p) (h : Chain d ts n) : Chain d (ts ++ [⟨fun _ => True, false⟩]) n := by
  induction ts generalizing n with
  | nil =>
    obtain ⟨p, hp⟩ := hn
    simp only [List.nil_append, Chain]
    exact ⟨p, hp, trivial, trivial⟩
  | cons t ts ih =>
    simp only [List.cons_append, Chain] at h ⊢
    cases ha : t.anc <;> simp only [ha, if_true, Bool.false_eq_true, if_false] at h ⊢
    · obtain ⟨m, h1, h2, h3⟩ := h
      exact ⟨m, h1, h2, ih (fun t ht' => ht t (by simp [ht'])) (ht t (by simp) m h2) h3⟩
    · obtain ⟨m, h1, h2, h3⟩ := h
      exact ⟨m, h1, h2, ih (fun t ht' => ht t (by simp [ht'])) (ht t (by simp) m h2) h3⟩

theorem chain_prefix {ts us : List SStep} {n : Nat} (h : Chain d (ts ++ us) n) : Chain d ts n := by
  induction ts generalizing n with
  | nil => trivial
  | cons t ts ih =>
    simp only [List.cons_append, Chain] at h ⊢
    cases ha : t.anc <;> simp only [ha, if_true, Bool.false_eq_true, if_false] at h ⊢
    · obtain ⟨m, h1, h2, h3⟩ := h; exact ⟨m, h1, h2, ih h3⟩
    · obtain ⟨m, h1, h2, h3⟩ := h; exact ⟨m, h1, h2, ih h3⟩

theorem lefts_parent {r : Rel} : ∀ t ∈ lefts d r, ∀ m, t.holds m → ∃ p, d.h.parent m = some p := by
  induction r with
  | one s => nofun
  | slash r s ih =>
    intro t ht m hm
    rcases List.mem_cons.1 ht with rfl | ht
    · obtain ⟨p, _, h, _⟩ := hm; exact ⟨p, h⟩
    · exact ih t ht m hm
  | dslash r s ih =>
    intro t ht m hm
    rcases List.mem_cons.1 ht with rfl | ht
    · obtain ⟨p, _, h, _⟩ := hm; exact ⟨p, h⟩
    · exact ih t ht m hm

/-- A path from anywhere. -/
theorem reaches_any (w : DocWF d root) {r : Rel} {n : Nat} (hn : InDoc d root n) :
    (∃ y, Reaches d (steps r) y n) ↔ Holds d (last r) n ∧ Chain d (lefts d r ++ []) n := by
  have := reaches_chain w (r := r) (B := fun _ => True) hn
  simp only [true_and] at this
  rw [this, List.append_nil]
  refine and_congr_right fun h => ⟨chain_prefix, chain_top lefts_parent ?_⟩
  obtain ⟨p, _, h, _⟩ := h; exact ⟨p, h⟩

theorem double_anc {r : Rel} (h : AllDouble r) : ∀ t ∈ lefts d r, t.anc = true := by
  induction r with
  | one s => nofun
  | slash r s ih => exact h.elim
  | dslash r s ih =>
    intro t ht
    rcases List.mem_cons.1 ht with rfl | ht
    · rfl
    · exact ih h t ht

theorem doubleFirst_safe {r : Rel} (h : DoubleFirst r) : Safe (lefts d r ++ []) := by
  rw [List.append_nil]
  induction r with
  | one s => trivial
  | slash r s ih => simp only [lefts, Safe, Bool.false_eq_true, if_false]; exact ih h
  | dslash r s ih => simp only [lefts, Safe, if_true]; exact double_anc h

theorem single_safe {r : Rel} (h : AllSingle r) (t : SStep) (ht : t.anc = false) : Safe (lefts d r ++ [t]) := by
  induction r with
  | one s => simp [lefts, Safe, ht]
  | slash r s ih => simp only [lefts, List.cons_append, Safe, Bool.false_eq_true, if_false]; exact ih h
  | dslash r s ih => exact h.elim

theorem root_of {n : Nat} (hn : InDoc d root n) {y z : Nat} (w : DocWF d root) (hy : AncS d.h y n) (hz : Root d.h z y) : z = root := by
  have : Root d.h root y := by
    rcases hy with rfl | hy
    · exact hn.1
    · exact (anc_inDoc w hn hy).1
  exact root_unique hz this

theorem withFirst_ok {t : CTest} {x : Except XErr (List CPat)} {l : List CPat} (h : withFirst t x = .ok l) :
    ∃ m, x = .ok m ∧ l = [⟨t, false⟩] ++ m := by
  cases x with
  | error e => cases h
  | ok m => cases h; exact ⟨m, rfl, rfl⟩

theorem pat_right (w : DocWF d root) (hae : AttrsOnElements d) {p : Pat} {n fuel : Nat} {c c' : Ctx} {b : Bool}
    (hn : InDoc d root n) (hc : InDoc d root c.node) (ho : PatOk d root p n) (h : p.match d fuel n c = .ok b c') :
    Same c c' ∧ (b = true → Spec.Matches d p n) ∧ (NoBacktracking p → Spec.Matches d p n → b = true) := by
  unfold Pat.match at h
  split at h
  · cases h
  rename_i l hl
  unfold compilePat at hl
  split at hl
  · cases hl
  rename_i m hm
  cases hl
  -- a path, with nothing in front of it
  have rel : ∀ r, relOf d r = .ok m → RelOk d root r n →
      Same c c' ∧ (b = true → ∃ y, Reaches d (steps r) y n) ∧ (DoubleFirst r → (∃ y, Reaches d (steps r) y n) → b = true) := by
    intro r hr ho
    obtain ⟨h0, h1, h2⟩ := matchPat_right (pre := []) w hae hn hc hr ho .nil h
    rw [reaches_any w hn]
    exact ⟨h0, h1, fun hd hy => h2 (doubleFirst_safe hd) hy⟩
  -- a path after a test
  have base : ∀ r t B, withFirst t (relOf d r) = .ok m → RelOk d root r n → Decides d root t B →
      Same c c' ∧ (b = true → ∃ y, B y ∧ Reaches d (steps r) y n) ∧
      (AllSingle r → (∃ y, B y ∧ Reaches d (steps r) y n) → b = true) := by
    intro r t B hr ho hB
    obtain ⟨m', hm', rfl⟩ := withFirst_ok hr
    obtain ⟨h0, h1, h2⟩ := matchPat_right w hae hn hc hm' ho (pre := [⟨t, false⟩]) (ts := [⟨B, false⟩])
      (.cons rfl hB .nil) h
    rw [reaches_chain w hn]
    exact ⟨h0, h1, fun hs hy => h2 (single_safe hs _ rfl) hy⟩
  -- a test alone
  have one : ∀ t B, m = [⟨t, false⟩] → Decides d root t B → Same c c' ∧ (b = true ↔ B n) := by
    rintro t B rfl hB
    simp only [List.reverse_cons, List.reverse_nil, List.nil_append, matchPat] at h
    obtain ⟨b1, c1, h1, h2⟩ := bind_ok' h
    obtain ⟨h3, h0⟩ := hB _ _ _ _ _ hn hc h1
    cases b1 <;> simp only [Bool.false_eq_true, if_false, if_true, matchLoop] at h2 <;> cases h2 <;> exact ⟨h0, h3⟩
  cases p with
  | root =>
    simp only [locOf] at hm
    cases hm
    obtain ⟨h0, h1⟩ := one .document _ rfl (document_decides w)
    rw [h1]
    refine ⟨h0, ?_, ?_⟩
    · rintro rfl; exact ⟨n, .inl rfl, .inl rfl, w.wf.entity_root _ w.root⟩
    · rintro _ ⟨y, hy, hz⟩; exact root_of hn w hy hz
  | abs r =>
    obtain ⟨h0, h1, h2⟩ := base r .document _ hm ho (document_decides w)
    refine ⟨h0, fun hb => ?_, fun hs => ?_⟩
    · obtain ⟨y, rfl, hy⟩ := h1 hb
      exact ⟨y, .inr (reaches_anc w hy), y, ⟨.inl rfl, w.wf.entity_root _ w.root⟩, hy⟩
    · rintro ⟨y, hy, z, hz, hr⟩
      exact h2 hs ⟨z, root_of hn w hy hz, hr⟩
  | rel r =>
    obtain ⟨h0, h1, h2⟩ := rel r hm ho
    refine ⟨h0, fun hb => ?_, fun hs => ?_⟩
    · obtain ⟨y, hy⟩ := h1 hb
      exact ⟨y, .inr (reaches_anc w hy), hy⟩
    · rintro ⟨y, hy, hr⟩
      exact h2 hs ⟨y, hr⟩
  | dabs r =>
    obtain ⟨h0, h1, h2⟩ := rel r hm ho
    refine ⟨h0, fun hb => ?_, fun hs => ?_⟩
    · obtain ⟨y, hy⟩ := h1 hb
      have ha := reaches_anc w hy
      have hyd := anc_inDoc w hn ha
      obtain ⟨q, hq⟩ : ∃ q, d.h.parent q = some y := by
        cases ha with
        | parent h => exact ⟨_, h⟩
        | step h1 h2 =>
          clear h2
          induction h1 with
          | parent h => exact ⟨_, h⟩
          | step _ _ ih => exact ih
      refine ⟨y, .inr ha, root, hyd.1, ?_⟩
      exact (reaches_append (a := [anyBelow])).2 ⟨y, reaches_below w
        ⟨⟨.inl rfl, w.wf.entity_root _ w.root⟩, .inl (by rw [TreeNode, w.root]; simp)⟩ hyd.1.1 (treeNode_parent w hq), hy⟩
    · rintro ⟨y, hy, z, hz, hr⟩
      obtain ⟨m, _, h3⟩ := (reaches_append (a := [anyBelow])).1 hr
      exact h2 hs ⟨m, h3⟩
  | idKey fn =>
    simp only [locOf] at hm
    cases hm
    obtain ⟨h0, h1⟩ := one (.idKey fn) _ rfl (call_decides w ho)
    rw [h1]
    refine ⟨h0, fun ⟨l, h1, h2⟩ => ⟨n, .inl rfl, l, h1, h2⟩, ?_⟩
    rintro _ ⟨y, hy, l, h1, h2⟩
    exact ⟨l, call_free ho h1, h2⟩
  | idKeySlash fn r =>
    obtain ⟨h0, h1, h2⟩ := base r (.idKey fn) _ hm ho.2 (call_decides w ho.1)
    refine ⟨h0, fun hb => ?_, fun hs => ?_⟩
    · obtain ⟨y, ⟨l, h3, h4⟩, hy⟩ := h1 hb
      exact ⟨y, .inr (reaches_anc w hy), l, y, h3, h4, hy⟩
    · rintro ⟨y, hy, l, z, h3, h4, hr⟩
      exact h2 hs ⟨z, ⟨l, call_free ho.1 h3, h4⟩, hr⟩
  | idKeyDslash fn r =>
    obtain ⟨h0, h1, h2⟩ := base r (.idKey fn) _ hm ho.2 (call_decides w ho.1)
    refine ⟨h0, fun hb => ?_, fun hs => hs.elim⟩
    obtain ⟨y, ⟨l, h3, h4⟩, hy⟩ := h1 hb
    have ha := reaches_anc w hy
    have hyd := anc_inDoc w hn ha
    obtain ⟨q, hq⟩ : ∃ q, d.h.parent q = some y := by
      cases ha with
      | parent h => exact ⟨_, h⟩
      | step h1 h2 =>
        clear h2
        induction h1 with
        | parent h => exact ⟨_, h⟩
        | step _ _ ih => exact ih
    exact ⟨y, .inr ha, l, y, h3, h4,
      (reaches_append (a := [anyBelow])).2 ⟨y, reaches_below w hyd (.inl rfl) (treeNode_parent w hq), hy⟩⟩

/-- C58, one direction: what the code accepts matches the pattern.  Missing: `node()` (which also matches the
root and attributes), processing-instruction tests, predicates on attributes, predicates that the XPath engine
evaluates wrongly (C26), see the refutations. -/
theorem C58_sound_partial (w : DocWF d root) (hae : AttrsOnElements d) {p : Pat} {n : Nat} {c : Ctx}
    (hn : InDoc d root n) (hc : InDoc d root c.node) (ho : PatOk d root p n) (h : Answers d p n c true) :
    Spec.Matches d p n := by
  obtain ⟨fuel, c', h⟩ := h
  exact (pat_right w hae hn hc ho h).2.1 rfl

/-- C58, both directions.  Missing in addition: patterns with a `/` (or `id()`, `key()`) to the left of a `//`,
for which the code would have to try more than the nearest ancestor. -/
theorem C58_exact_partial (w : DocWF d root) (hae : AttrsOnElements d) {p : Pat} {n : Nat} {c : Ctx}
    (hn : InDoc d root n) (hc : InDoc d root c.node) (ho : PatOk d root p n) (hb : NoBacktracking p) {b : Bool}
    (h : Answers d p n c b) : b = true ↔ Spec.Matches d p n := by
  obtain ⟨fuel, c', h⟩ := h
  have := (pat_right w hae hn hc ho h).2
  exact ⟨this.1, this.2 hb⟩

/-! Matching ends -/

theorem filterLoop_mono (ss : List Sel) (l : List Nat) (c : Ctx) : Mono fun k => filterLoop d k ss l c := by
  induction ss generalizing l c with
  | nil => exact mono_const
  | cons s ss ih =>
    exact (start_mono _ _ _).bind fun it c => (drain_mono _ _).bind fun l c => ih _ _

theorem filterLoop_halts {ss : List Sel} (hs : ∀ s ∈ ss, SelTot d s) (l : List Nat) (c : Ctx) :
    Halts fun k => filterLoop d k ss l c := by
  induction ss generalizing l c with
  | nil => exact halts_const (by simp)
  | cons s ss ih =>
    obtain ⟨h1, h2⟩ := start_halts (ss := [s]) (by simpa using hs s (by simp)) (tot_list l) c
    refine h1.bind (start_mono _ _ _) fun it c1 hx => ?_
    obtain ⟨k, hx⟩ := hx
    refine ⟨(drain_halts (h2 _ _ _ hx) c1).bind (drain_mono _ _) fun l c2 _ => ?_,
      (drain_mono _ _).bind fun l c => filterLoop_mono _ _ _⟩
    exact ⟨ih (fun s h => hs s (by simp [h])) _ _, filterLoop_mono _ _ _⟩

theorem predMatch_halts {ss : List Sel} (hs : ∀ s ∈ ss, SelTot d s) (a : PAxis) (t : NodeTest) (n : Nat) (c : Ctx) :
    (Halts fun k => predMatch d k a t ss n c) ∧ Mono fun k => predMatch d k a t ss n c := by
  unfold predMatch
  cases predMatch.siblings d a n with
  | error e => exact ⟨halts_const (by simp), mono_const⟩
  | ok o =>
    cases o with
    | none => exact ⟨halts_const (by simp), mono_const⟩
    | some l =>
      cases hf : testFilter d a.kind t l with
      | error e => simp only [hf]; exact ⟨halts_const (by simp), mono_const⟩
      | ok l =>
        simp only [hf, restore]
        have m1 : Mono fun k => (filterLoop d k ss l c).bind fun a c' =>
            Out.ok a { c' with node := c.node, position := c.position, size := c.size } :=
          (filterLoop_mono _ _ _).bind fun _ _ => mono_const
        have h1 : Halts fun k => (filterLoop d k ss l c).bind fun a c' =>
            Out.ok a { c' with node := c.node, position := c.position, size := c.size } :=
          (filterLoop_halts hs _ _).bind (filterLoop_mono _ _ _) fun _ _ _ => ⟨halts_const (by simp), mono_const⟩
        exact ⟨h1.bind m1 fun _ _ _ => ⟨halts_const (by simp), mono_const⟩, m1.bind fun _ _ => mono_const⟩

/-- Every test ends. -/
def TestTot (d : Doc) (t : CTest) : Prop :=
  ∀ n c, (Halts fun k => t.match d k n c) ∧ Mono fun k => t.match d k n c

theorem call_tot (w : WF d.h) (fn : Expr) : TestTot d (.idKey fn) := by
  intro n c
  simp only [CTest.match]
  have fin : ∀ (v : EVal) (c : Ctx), (Halts fun _ => (match v with
      | .nodes l => Out.ok (l.any (nodeEq d n)) c | .sc _ => .raise .typeError : Out Bool)) := by
    intro v c; cases v <;> exact halts_const (by simp)
  exact ⟨((term w fn).1 .any c).bind (eval_mono _ _ _) fun v c1 _ => ⟨fin v c1, mono_const⟩,
    (eval_mono _ _ _).bind fun _ _ => mono_const⟩

theorem document_tot : TestTot d .document := fun n c => by
  simp only [CTest.match]; exact ⟨halts_const (by simp), mono_const⟩

theorem step_tot (w : WF d.h) {s : PatStep} {x : CPat} (hx : stepOf d s = .ok x) : TestTot d x.test := by
  unfold stepOf at hx
  split at hx
  · cases hx
    intro n c
    simp only [CTest.match]
    exact ⟨halts_ret, mono_const⟩
  · split at hx
    · cases hx
    · rename_i ss hm
      cases hx
      intro n c
      simp only [CTest.match]
      exact predMatch_halts (mkSels_tot (fun e _ => ⟨(term w e).1, (term w e).2.2⟩) hm) _ _ _ _

theorem flagLast_tot {l : List CPat} (h : ∀ x ∈ l, TestTot d x.test) : ∀ x ∈ flagLast l, TestTot d x.test := by
  induction l with
  | nil => nofun
  | cons y l ih =>
    cases l with
    | nil =>
      intro x hx
      simp only [flagLast, List.mem_singleton] at hx
      subst hx; exact h y (by simp)
    | cons z l =>
      intro x hx
      simp only [flagLast, List.mem_cons] at hx
      rcases hx with rfl | hx
      · exact h _ (by simp)
      · exact ih (fun x hx => h x (by simp [List.mem_cons.1 hx])) x hx

theorem relOf_tot (w : WF d.h) {r : Rel} {l : List CPat} (h : relOf d r = .ok l) : ∀ x ∈ l, TestTot d x.test := by
  induction r generalizing l with
  | one s =>
    simp only [relOf] at h
    split at h <;> cases h
    rename_i x hx
    intro y hy
    rw [List.mem_singleton] at hy
    subst hy; exact step_tot w hx
  | slash r s ih =>
    simp only [relOf] at h
    split at h <;> cases h
    rename_i l' x h1 h2
    intro y hy
    rcases List.mem_append.1 hy with hy | hy
    · exact ih h1 y hy
    · rw [List.mem_singleton] at hy
      subst hy; exact step_tot w h2
  | dslash r s ih =>
    simp only [relOf] at h
    split at h <;> cases h
    rename_i l' x h1 h2
    intro y hy
    rcases List.mem_append.1 hy with hy | hy
    · exact flagLast_tot (ih h1) y hy
    · rw [List.mem_singleton] at hy
      subst hy; exact step_tot w h2

theorem locOf_tot (w : WF d.h) {p : Pat} {l : List CPat} (h : locOf d p = .ok l) : ∀ x ∈ l, TestTot d x.test := by
  have first : ∀ {t r}, TestTot d t → withFirst t (relOf d r) = .ok l → ∀ x ∈ l, TestTot d x.test := by
    intro t r ht h x hx
    obtain ⟨m, hm, rfl⟩ := withFirst_ok h
    rcases List.mem_append.1 hx with hx | hx
    · rw [List.mem_singleton] at hx; subst hx; exact ht
    · exact relOf_tot w hm x hx
  cases p with
  | root =>
    simp only [locOf] at h; cases h
    intro x hx; rw [List.mem_singleton] at hx; subst hx; exact document_tot
  | abs r => exact first document_tot h
  | dabs r => exact relOf_tot w h
  | rel r => exact relOf_tot w h
  | idKey fn =>
    simp only [locOf] at h; cases h
    intro x hx; rw [List.mem_singleton] at hx; subst hx; exact call_tot w fn
  | idKeySlash fn r => exact first (call_tot w fn) h
  | idKeyDslash fn r => exact first (call_tot w fn) h

theorem climbTo_mono {t : CTest} (ht : TestTot d t) (k : Nat) (o : Option Nat) (c : Ctx) :
    Mono fun f => climbTo d f t k o c := by
  induction k generalizing o c with
  | zero => cases o <;> exact mono_const
  | succ k ih =>
    cases o with
    | none => exact mono_const
    | some n =>
      simp only [climbTo]
      refine (ht n c).2.bind fun b c => ?_
      cases b
      · exact ih _ _
      · exact mono_const

theorem climbTo_halts {t : CTest} (ht : TestTot d t) {depth : Nat → Nat}
    (hd : ∀ x p, d.h.parent x = some p → depth x = depth p + 1) (k : Nat) (o : Option Nat) (c : Ctx)
    (hk : ∀ n, o = some n → depth n < k) : Halts fun f => climbTo d f t k o c := by
  induction k generalizing o c with
  | zero =>
    cases o with
    | none => exact halts_const (by simp)
    | some n => exact absurd (hk n rfl) (by omega)
  | succ k ih =>
    cases o with
    | none => exact halts_const (by simp)
    | some n =>
      simp only [climbTo]
      refine (ht n c).1.bind (ht n c).2 fun b c _ => ?_
      cases b
      · exact ⟨ih _ _ fun p hp => by have := hd n p hp; have := hk n rfl; omega, climbTo_mono ht _ _ _⟩
      · exact ⟨halts_const (by simp), mono_const⟩

/-- The rest of the loop after a climb. -/
def foundLoop (d : Doc) (fuel : Nat) (ss : List CPat) (m : Option Nat) (c : Ctx) : Out Bool :=
  match m with
  | none => .ok false c
  | some n => matchLoop d fuel ss n c

theorem matchLoop_halts (w : WF d.h) {ss : List CPat} (hs : ∀ x ∈ ss, TestTot d x.test) (n : Nat) (c : Ctx) :
    (Halts fun k => matchLoop d k ss n c) ∧ Mono fun k => matchLoop d k ss n c := by
  obtain ⟨depth, hd, _, hsz⟩ := exists_depth w
  induction ss generalizing n c with
  | nil => exact ⟨halts_const (by simp), mono_const⟩
  | cons s ss ih =>
    have hs1 := hs s (by simp)
    have ih := ih fun x hx => hs x (by simp [hx])
    simp only [matchLoop]
    split
    · have m1 := climbTo_mono hs1 (d.h.size + 1) (d.h.parent n) c
      have fin : ∀ (m : Option Nat) (c : Ctx), (Halts fun k => foundLoop d k ss m c) ∧ Mono fun k => foundLoop d k ss m c := by
        intro m c
        cases m with
        | none => exact ⟨halts_const (by simp), mono_const⟩
        | some m => exact ih m c
      exact ⟨(climbTo_halts hs1 hd _ _ c fun p _ => by have := hsz p; omega).bind m1 fun m c _ => fin m c,
        m1.bind fun m c => (fin m c).2⟩
    · split
      · exact ⟨halts_const (by simp), mono_const⟩
      · have fin : ∀ p b c, (Halts fun k => if b = true then matchLoop d k ss p c else .ok false c) ∧
            Mono fun k => if b = true then matchLoop d k ss p c else .ok false c := by
          intro p b c
          cases b
          · exact ⟨halts_const (by simp), mono_const⟩
          · exact ih p c
        exact ⟨(hs1 _ c).1.bind (hs1 _ c).2 fun b c _ => fin _ b c, (hs1 _ c).2.bind fun b c => (fin _ b c).2⟩

theorem pat_halts (w : WF d.h) (p : Pat) (n : Nat) (c : Ctx) :
    (Halts fun k => p.match d k n c) ∧ Mono fun k => p.match d k n c := by
  unfold Pat.match
  cases hl : compilePat d p with
  | error e => exact ⟨halts_const (by simp), mono_const⟩
  | ok l =>
    simp only
    have hl' : ∀ x ∈ l, TestTot d x.test := by
      unfold compilePat at hl
      split at hl
      · cases hl
      · rename_i m hm
        cases hl
        intro x hx
        exact locOf_tot w hm x (by simpa using hx)
    cases l with
    | nil => exact ⟨halts_const (by simp), mono_const⟩
    | cons s ss =>
      have hs1 := hl' s (by simp)
      have fin : ∀ b c, (Halts fun k => if b = true then matchLoop d k ss n c else .ok false c) ∧
          Mono fun k => if b = true then matchLoop d k ss n c else .ok false c := by
        intro b c
        cases b
        · exact ⟨halts_const (by simp), mono_const⟩
        · exact matchLoop_halts w (fun x hx => hl' x (by simp [hx])) n c
      simp only [matchPat]
      exact ⟨(hs1 _ c).1.bind (hs1 _ c).2 fun b c _ => fin b c, (hs1 _ c).2.bind fun b c => (fin b c).2⟩

/-- C58: matching ends, with an answer or an exception, and the answer is determined. -/
theorem C58_ends (w : WF d.h) (p : Pat) (n : Nat) (c : Ctx) :
    ((∃ b, Answers d p n c b) ∨ ∃ fuel e, p.match d fuel n c = .raise e) ∧
    ∀ b b', Answers d p n c b → Answers d p n c b' → b = b' := by
  obtain ⟨⟨k, hk⟩, hm⟩ := pat_halts w p n c
  refine ⟨?_, ?_⟩
  · cases h : p.match d k n c with
    | stuck => exact absurd h hk
    | raise e => exact .inr ⟨k, e, h⟩
    | ok b c' => exact .inl ⟨b, k, c', h⟩
  · rintro b b' ⟨f, c1, h1⟩ ⟨f', c2, h2⟩
    have e1 := hm.more (Nat.le_max_left f f') (by simp [h1])
    have e2 := hm.more (Nat.le_max_right f f') (by simp [h2])
    rw [e1] at e2
    have e2 : p.match d f n c = p.match d f' n c := e2
    rw [h1, h2] at e2
    cases e2; rfl

/-- C58: a list of alternatives `p | q | ...` matches the nodes that one of them matches. -/
theorem C58_alternatives_partial (w : DocWF d root) (hae : AttrsOnElements d) {ps : List Pat} {n fuel : Nat}
    {c c' : Ctx} {b : Bool} (hn : InDoc d root n) (hc : InDoc d root c.node)
    (ho : ∀ p ∈ ps, PatOk d root p n ∧ NoBacktracking p) (h : matchAny d fuel ps n c = .ok b c') :
    b = true ↔ ∃ p ∈ ps, Spec.Matches d p n := by
  induction ps generalizing c with
  | nil => cases h; simp
  | cons p ps ih =>
    simp only [matchAny] at h
    obtain ⟨b1, c1, h1, h2⟩ := bind_ok' h
    obtain ⟨g0, g1, g2⟩ := pat_right w hae hn hc (ho p (by simp)).1 h1
    cases b1 with
    | true => cases h2; exact ⟨fun _ => ⟨p, by simp, g1 rfl⟩, fun _ => rfl⟩
    | false =>
      rw [ih (same_inDoc g0 hc) (fun p hp => ho p (by simp [hp])) h2]
      constructor
      · rintro ⟨q, hq, hm⟩; exact ⟨q, by simp [hq], hm⟩
      · rintro ⟨q, hq, hm⟩
        rcases List.mem_cons.1 hq with rfl | hq
        · cases g2 (ho _ (by simp)).2 hm
        · exact ⟨q, hq, hm⟩

end Verif.Template
