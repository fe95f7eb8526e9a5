import Verif.Template.SelectProps
import Verif.Template.PatternRefute

/-
C59: cases that meet the hypotheses, and where the code and XSLT 1.0 disagree.
-/
namespace Verif.Template
open Verif Verif.XPath Verif.Dom Verif.Dom.Spec Verif.Eval Verif.Eval.Spec
open Verif.Template.Spec (lstep anyBelow steps last front TestOk StepOk LastOk RelOk CallOk PatOk AllDouble AllSingle
  DoubleFirst NoBacktracking Selects defaultPriority Applies priority Survives Chosen First lastStep OtherKind RuleOk
  PriorityOk SheetOk Info.le RuntimeOk)

variable {d : Doc} {root : Nat}

/-! A runtime for every stylesheet -/

/-- `Info.le`, decided. -/
def leb (a b : Info) : Bool :=
  a.prec < b.prec || (a.prec == b.prec && (decide (a.prio < b.prio) || (a.prio == b.prio && decide (a.pos ≤ b.pos))))

theorem leb_iff {a b : Info} : leb a b = true ↔ Info.le a b := by
  simp [leb, Info.le]

theorem le_total (a b : Info) : Info.le a b ∨ Info.le b a := by
  unfold Info.le
  rcases Nat.lt_trichotomy a.prec b.prec with h | h | h
  · exact .inl (.inl h)
  · rcases Rat.le_total (a := a.prio) (b := b.prio) with h2 | h2
    · rcases (Std.le_iff_lt_or_eq).1 h2 with h3 | h3
      · exact .inl (.inr ⟨h, .inl h3⟩)
      · rcases Nat.le_total a.pos b.pos with h4 | h4
        · exact .inl (.inr ⟨h, .inr ⟨h3, h4⟩⟩)
        · exact .inr (.inr ⟨h.symm, .inr ⟨h3.symm, h4⟩⟩)
    · rcases (Std.le_iff_lt_or_eq).1 h2 with h3 | h3
      · exact .inr (.inr ⟨h.symm, .inl h3⟩)
      · rcases Nat.le_total a.pos b.pos with h4 | h4
        · exact .inl (.inr ⟨h, .inr ⟨h3.symm, h4⟩⟩)
        · exact .inr (.inr ⟨h.symm, .inr ⟨h3, h4⟩⟩)
  · exact .inr (.inl h)

theorem le_trans {a b c : Info} (h1 : Info.le a b) (h2 : Info.le b c) : Info.le a c := by
  unfold Info.le at *
  rcases h1 with h1 | ⟨e1, h1⟩
  · rcases h2 with h2 | ⟨e2, _⟩ <;> left <;> omega
  · rcases h2 with h2 | ⟨e2, h2⟩
    · left; omega
    · refine .inr ⟨by omega, ?_⟩
      rcases h1 with h1 | ⟨e3, h1⟩
      · rcases h2 with h2 | ⟨e4, _⟩
        · exact .inl (by grind)
        · exact .inl (by grind)
      · rcases h2 with h2 | ⟨e4, h2⟩
        · exact .inl (by grind)
        · exact .inr ⟨by grind, by omega⟩

def insertDesc (i : Info) : List Info → List Info
  | [] => [i]
  | j :: l => if leb j i then i :: j :: l else j :: insertDesc i l

def sortDesc : List Info → List Info
  | [] => []
  | i :: l => insertDesc i (sortDesc l)

theorem insertDesc_mem {i j : Info} {l : List Info} : j ∈ insertDesc i l ↔ j = i ∨ j ∈ l := by
  induction l with
  | nil => simp [insertDesc]
  | cons k l ih =>
    rw [insertDesc]
    split
    · simp
    · simp only [List.mem_cons, ih]
      constructor
      · rintro (h | h | h) <;> simp [h]
      · rintro (h | h | h) <;> simp [h]

theorem sortDesc_mem {j : Info} {l : List Info} : j ∈ sortDesc l ↔ j ∈ l := by
  induction l with
  | nil => simp [sortDesc]
  | cons i l ih => rw [sortDesc, insertDesc_mem, ih]; simp

theorem insertDesc_sorted {i : Info} {l : List Info} (h : l.Pairwise fun a b => Info.le b a) :
    (insertDesc i l).Pairwise fun a b => Info.le b a := by
  induction l with
  | nil => simp [insertDesc]
  | cons k l ih =>
    rw [insertDesc]
    have h' := List.pairwise_cons.1 h
    split
    · rename_i hk
      rw [leb_iff] at hk
      refine List.pairwise_cons.2 ⟨?_, h⟩
      intro j hj
      rcases List.mem_cons.1 hj with rfl | hj
      · exact hk
      · exact le_trans (h'.1 j hj) hk
    · rename_i hk
      rw [leb_iff] at hk
      refine List.pairwise_cons.2 ⟨?_, ih h'.2⟩
      intro j hj
      rcases insertDesc_mem.1 hj with rfl | hj
      · exact (le_total _ _).resolve_right hk
      · exact h'.1 j hj

theorem sortDesc_sorted (l : List Info) : (sortDesc l).Pairwise fun a b => Info.le b a := by
  induction l with
  | nil => exact .nil
  | cons i l ih => exact insertDesc_sorted ih

/-- The keys that the alternatives can have. -/
def keysOf (d : Doc) : List Pat → List FKey
  | [] => []
  | p :: ps => (match compilePat d p with | .ok l => [patKey l] | .error _ => []) ++ keysOf d ps

/-- The keys that can be in the tables. -/
def allKeys (d : Doc) (ts : List Tmpl) : List FKey := .any :: .wild :: ts.flatMap fun t => keysOf d t.alts

theorem add_keys {tb : Table} {k k' : FKey} {i : Info} (h : tb.add k i k' ≠ none) :
    tb k' ≠ none ∨ k' = .wild ∨ k' = k := by
  have set : ∀ {tb : Table} {k l}, tb.set k l k' ≠ none → tb k' ≠ none ∨ k' = k := by
    intro tb k l h
    unfold Table.set at h
    split at h
    · exact .inr (by assumption)
    · exact .inl h
  cases k with
  | named n =>
    rcases set h with h | h
    · rcases set h with h | h
      · exact .inl h
      · exact .inr (.inl h)
    · exact .inr (.inr h)
  | any => exact (set h).imp_right .inr
  | kind k => exact (set h).imp_right .inr
  | wild => exact (set h).imp_right .inr

theorem addAlts_keys {t : Tmpl} {pos idx : Nat} {ps : List Pat} {tb tb' : Table}
    (h : addAlts d t pos idx ps tb = .ok tb') {k : FKey} (hk : tb' k ≠ none) :
    tb k ≠ none ∨ k = .wild ∨ k ∈ keysOf d ps := by
  induction ps generalizing tb with
  | nil => cases h; exact .inl hk
  | cons p ps ih =>
    simp only [addAlts] at h
    split at h
    · cases h
    rename_i steps hs
    simp only [keysOf, hs, List.cons_append, List.nil_append, List.mem_cons]
    rcases ih h with h | h | h
    · rcases add_keys h with h | h | h
      · exact .inl h
      · exact .inr (.inl h)
      · exact .inr (.inr (.inl h))
    · exact .inr (.inl h)
    · exact .inr (.inr (.inr h))

theorem buildFrom_keys {ts : List Tmpl} {n : Nat} {l : List (Tmpl × Nat)} {tbs tbs' : Tables}
    (hl : ∀ e ∈ l, e.1 ∈ ts) (h : buildFrom d n l tbs = .ok tbs')
    (h0 : ∀ m tb, tbs m = some tb → ∀ k, tb k ≠ none → k ∈ allKeys d ts) :
    ∀ m tb, tbs' m = some tb → ∀ k, tb k ≠ none → k ∈ allKeys d ts := by
  induction l generalizing n tbs with
  | nil => cases h; exact h0
  | cons e l ih =>
    obtain ⟨t, idx⟩ := e
    simp only [buildFrom] at h
    split at h
    · cases h
    rename_i tbs1 h1
    refine ih (fun e he => hl e (by simp [he])) h ?_
    unfold addTmpl at h1
    split at h1
    · cases h1; exact h0
    split at h1
    · cases h1
    rename_i tb1 ht
    cases h1
    intro m tb hm k hk
    by_cases e : m = t.mode
    · simp only [e, if_true] at hm
      cases hm
      rcases addAlts_keys ht hk with h | h | h
      · cases ho : tbs t.mode with
        | none => rw [ho] at h; simp [Table.empty] at h
        | some tb0 => rw [ho] at h; exact h0 _ _ ho k h
      · subst h; simp [allKeys]
      · simp only [allKeys, List.mem_cons, List.mem_flatMap]
        exact .inr (.inr ⟨t, hl (t, idx) (by simp), h⟩)
    · simp only [e, if_false] at hm
      exact h0 m tb hm k hk

/-- The keys of a table, in some order. -/
def keyOrder (d : Doc) (ts : List Tmpl) (m : Option Name) : List FKey :=
  match build d ts with
  | .error _ => []
  | .ok tbs => match tbs m with
    | none => []
    | some tb => (allKeys d ts).filter fun k => k == .any || (tb k).isSome

/-- A sort and an order of keys. -/
def plainRuntime (d : Doc) (ts : List Tmpl) : Runtime := ⟨sortDesc, keyOrder d ts⟩

/-- Every stylesheet has a runtime as the theorems assume. -/
theorem plain_ok (d : Doc) (ts : List Tmpl) : RuntimeOk (plainRuntime d ts) d ts where
  sort_mem := fun _ _ => sortDesc_mem
  sorted := sortDesc_sorted
  keys := by
    intro tbs hb m tb hm k
    have key := buildFrom_keys (ts := ts) (by
      rintro ⟨t, i⟩ he
      rw [List.mem_reverse] at he
      exact List.mem_of_getElem? (List.mem_zipIdx_iff_getElem?.1 he)) hb (by intro m tb h; cases h)
    simp only [plainRuntime, keyOrder, hb, hm, List.mem_filter, Bool.or_eq_true, beq_iff_eq]
    rw [← Option.isSome_iff_ne_none]
    constructor
    · exact fun h => h.2
    · intro h
      refine ⟨?_, h⟩
      rcases h with rfl | h
      · simp [allKeys]
      · exact key m tb hm k (Option.isSome_iff_ne_none.1 h)

/-! Cases that meet the hypotheses -/

/-- A template without priority and mode, of the main stylesheet. -/
def tmpl (alts : List Pat) : Tmpl := ⟨0, none, none, alts⟩

theorem matches_el {n p : Nat} {s : Str} (hn : n ≤ 7) (hp : sample.h.parent n = some p)
    (hk : sample.h.kind n = .element) (hs : sample.name n = (none, some s)) :
    Spec.Matches sample (.rel (.one (el s))) n :=
  ⟨p, .inr (.parent hp), (reaches_one sample_wf).2 ⟨hp, holds_el hn hp hk hs⟩⟩

/-- Four templates: `*`, `x | y` with import precedence 1, `y[1]`, and one for processing instructions. -/
def sheet : List Tmpl :=
  [tmpl [.rel (.one ⟨.child, .any, []⟩)],
   ⟨1, none, none, [.rel (.one (el (s!! "x"))), .rel (.one (el (s!! "y")))]⟩,
   tmpl [.rel (.one ⟨.child, named (s!! "y"), [num (s!! "1")]⟩)],
   tmpl [.rel (.one ⟨.child, .kind .pi, []⟩)]]

theorem sheet_ok : ∀ n, n ≤ 7 → SheetOk sample 0 sheet none n := by
  intro n hn t ht _ p hp
  simp only [sheet, tmpl, List.mem_cons, List.not_mem_nil, or_false] at ht
  have k : sample.h.kind n ≠ .pi := by
    match n, hn with
    | 0, _ | 1, _ | 2, _ | 3, _ | 4, _ | 5, _ | 6, _ | 7, _ => decide
  rcases ht with rfl | rfl | rfl | rfl
  · simp only [List.mem_cons, List.not_mem_nil, or_false] at hp
    subst hp
    exact ⟨.inl ⟨⟨.inl trivial, nofun⟩, trivial⟩, by intro _ s h; cases h⟩
  · simp only [List.mem_cons, List.not_mem_nil, or_false] at hp
    rcases hp with rfl | rfl <;> exact ⟨.inl ⟨⟨.inl trivial, nofun⟩, trivial⟩, by intro _ s h; cases h⟩
  · simp only [List.mem_cons, List.not_mem_nil, or_false] at hp
    subst hp
    refine ⟨.inl ⟨⟨.inl ⟨rfl, .inl trivial, ?_⟩, nofun⟩, trivial⟩, by intro _ s h; cases h⟩
    show GoodPreds sample 0 [num (s!! "1")]
    simp [GoodPreds, Good, predMode, PredOk, num, Expr.ty]
  · simp only [List.mem_cons, List.not_mem_nil, or_false] at hp
    subst hp
    exact ⟨.inr ⟨_, rfl, .inl ⟨rfl, .inl rfl, k⟩⟩, by intro _ s h; cases h⟩

/-- The hypotheses of `C59_chosen_partial` and its relatives are met: the second template is used for the inner `y`
because of its import precedence, the first one for `r`, the third one by `xsl:apply-imports`, none for texts. -/
example : SheetOk sample 0 sheet none 4 ∧ RuntimeOk (plainRuntime sample sheet) sample sheet ∧
    select sample 20 (plainRuntime sample sheet) sheet none 4 top = .ok (some 1) top ∧
    select sample 20 (plainRuntime sample sheet) sheet none 1 top = .ok (some 0) top ∧
    selectImport sample 20 (plainRuntime sample sheet) sheet none 1 4 top = .ok (some 2) top ∧
    select sample 20 (plainRuntime sample sheet) sheet none 6 top = .ok none top :=
  ⟨sheet_ok 4 (by omega), plain_ok _ _, by decide +kernel, by decide +kernel, by decide +kernel, by decide +kernel⟩

/-! Refutations -/

/-- C59 is false for conflicts: of two templates for `x` the first one is used, although the second one, which comes
later in the stylesheet, has the same import precedence and priority (5.5: "the XSLT processor must recover by
choosing, from amongst the template rules that are left, the one that occurs last in the stylesheet"). -/
theorem C59_refuted_conflict :
    let ts := [tmpl [.rel (.one (el (s!! "x")))], tmpl [.rel (.one (el (s!! "x")))]]
    select sample 20 (plainRuntime sample ts) ts none 3 top = .ok (some 0) top ∧
    Chosen sample ts none 3 (fun _ => True) (some 1) := by
  refine ⟨by decide +kernel, _, _, trivial, ⟨rfl, rfl, List.mem_singleton.2 rfl,
    matches_el (p := 1) (by omega) rfl rfl rfl⟩, ?_⟩
  rintro j u q _ ⟨h1, _, h2, _⟩
  have hu : u = tmpl [.rel (.one (el (s!! "x")))] := by
    have := List.mem_of_getElem? h1
    simpa using this
  subst hu
  have hq : q = .rel (.one (el (s!! "x"))) := by simpa [tmpl] using h2
  subst hq
  exact .inr ⟨rfl, Rat.le_refl⟩

/-- C59 is false for `//x`, which has the priority of `x`: a template for `x` with priority 1/4 is preferred. -/
theorem C59_refuted_priority :
    let ts := [⟨0, some (1/4), none, [.rel (.one (el (s!! "x")))]⟩, tmpl [.dabs (.one (el (s!! "x")))]]
    select sample 20 (plainRuntime sample ts) ts none 3 top = .ok (some 0) top ∧
    ¬ Chosen sample ts none 3 (fun _ => True) (some 0) := by
  refine ⟨by decide +kernel, ?_⟩
  rintro ⟨t, p, _, ⟨h1, _, h2, _⟩, h⟩
  cases h1
  have hm : Spec.Matches sample (.dabs (.one (el (s!! "x")))) 3 := by
    refine ⟨3, .inl rfl, 0, ⟨.inr (.step (.parent rfl) (show sample.h.parent 3 = some 1 from rfl)), rfl⟩, ?_⟩
    refine (reaches_append (a := [anyBelow])).2 ⟨1, reaches_below sample_wf (sample_inDoc (by omega))
      (.inr (.parent rfl)) ⟨by decide, by decide⟩, (reaches_one sample_wf).2 ⟨rfl, holds_el (p := 1) (by omega) rfl rfl rfl⟩⟩
  have := h 1 (tmpl [.dabs (.one (el (s!! "x")))]) _ trivial ⟨rfl, rfl, List.mem_singleton.2 rfl, hm⟩
  rcases this with h | ⟨_, h⟩
  · exact absurd h (by decide)
  · have : (1/2 : Rat) ≤ 1/4 := h
    exact absurd this (by decide +kernel)

/-- C59 is false for processing instructions, in every document: no template is found for them by their type. -/
theorem C59_refuted_pi (w : DocWF d root) (hae : AttrsOnElements d) {n : Nat} (hn : InDoc d root n)
    (hk : d.h.kind n = .pi) (c : Ctx) (fuel : Nat) :
    let ts := [tmpl [.rel (.one ⟨.child, .kind .pi, []⟩)]]
    select d fuel (plainRuntime d ts) ts none n c = .ok none c ∧
    Applies d ts none n 0 (tmpl [.rel (.one ⟨.child, .kind .pi, []⟩)]) (.rel (.one ⟨.child, .kind .pi, []⟩)) := by
  refine ⟨?_, rfl, rfl, List.mem_singleton.2 rfl, ((C58_refuted_pi w hae (c := c) hn).1 hk).2⟩
  have hm : (Pat.rel (.one ⟨.child, .kind .pi, []⟩)).match d fuel n c = .ok false c := by
    simp only [Pat.match, compilePat, locOf, relOf, stepOf, List.reverse_cons, List.reverse_nil, List.nil_append,
      matchPat, CTest.match, testMatch, PAxis.kind, ret, Out.bind, hk]
    rfl
  generalize htest : Pat.rel (.one ⟨.child, .kind .pi, []⟩) = p at *
  obtain ⟨steps, hs⟩ : ∃ steps, compilePat d p = .ok steps := by subst htest; exact ⟨_, rfl⟩
  obtain ⟨l, hl⟩ : ∃ l, rulesFor d (plainRuntime d [tmpl [p]]) [tmpl [p]] none n = .ok l := by
    subst htest; exact ⟨_, rfl⟩
  have hall := (rulesFor_right (plain_ok d _) hl).2.1
  simp only [select, hl]
  clear hl
  induction l with
  | nil => rfl
  | cons i l ih =>
    obtain ⟨t, q, hr, _⟩ := hall i (by simp)
    have ht : t = tmpl [p] := by simpa using List.mem_of_getElem? hr.idx
    subst ht
    have hq : q = p := by simpa [tmpl] using hr.alt
    subst hq
    have : matchPat d fuel i.steps n c = .ok false c := by
      simpa [Pat.match, hr.steps] using hm
    rw [findRule, this]
    exact ih fun j hj => hall j (by simp [hj])

/-- C59 is false for `node()`: its template is used for the root. -/
theorem C59_refuted_node :
    let ts := [tmpl [.rel (.one ⟨.child, .node, []⟩)]]
    select sample 20 (plainRuntime sample ts) ts none 0 top = .ok (some 0) top ∧
    Chosen sample ts none 0 (fun _ => True) none := by
  refine ⟨by decide +kernel, ?_⟩
  rintro j u q _ ⟨h1, _, h2, h3⟩
  have hu : u = tmpl [.rel (.one ⟨.child, .node, []⟩)] := by
    have := List.mem_of_getElem? h1
    simpa using this
  subst hu
  have hq : q = .rel (.one ⟨.child, .node, []⟩) := by simpa [tmpl] using h2
  subst hq
  exact (C58_refuted_node.1 0 (.inl rfl)).2 h3

end Verif.Template
