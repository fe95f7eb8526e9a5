import Verif.Template.SelectLemmas
import Verif.Eval.Sample

/-
C59: the template rule that is used for a node is the one that section 5.5 of XSLT 1.0 says.
-/
namespace Verif.Template
open Verif Verif.XPath Verif.Dom Verif.Dom.Spec Verif.Eval Verif.Eval.Spec
open Verif.Template.Spec (lstep anyBelow steps last front TestOk StepOk LastOk RelOk CallOk PatOk AllDouble AllSingle
  DoubleFirst NoBacktracking Selects defaultPriority Applies priority Survives Chosen First lastStep OtherKind RuleOk
  PriorityOk SheetOk Info.le RuntimeOk)

variable {d : Doc} {root : Nat}

/-- The entry `i` stands for the alternative `p` of the template `t`. -/
structure Rule (d : Doc) (ts : List Tmpl) (mode : Option Name) (i : Info) (t : Tmpl) (p : Pat) : Prop where
  idx : ts[i.tmpl]? = some t
  mode : t.mode = mode
  alt : p ∈ t.alts
  steps : compilePat d p = .ok i.steps
  prec : i.prec = t.prec
  prio : i.prio = t.priority.getD (patPriority i.steps)
  pos : i.pos + i.tmpl + 1 = ts.length

theorem rulesFor_right {rt : Runtime} {ts : List Tmpl} (hr : RuntimeOk rt d ts) {mode : Option Name} {n : Nat}
    {l : List Info} (h : rulesFor d rt ts mode n = .ok l) :
    l.Pairwise (fun a b => Info.le b a) ∧
    (∀ i ∈ l, ∃ t p, Rule d ts mode i t p ∧ Covers d n (patKey i.steps)) ∧
    ∀ idx t p, ts[idx]? = some t → t.mode = mode → p ∈ t.alts →
      ∃ steps, compilePat d p = .ok steps ∧
        (Covers d n (patKey steps) → ∃ i ∈ l, i.tmpl = idx ∧ Rule d ts mode i t p) := by
  unfold rulesFor at h
  split at h
  · cases h
  rename_i tbs htbs
  obtain ⟨h1, h2, h3⟩ := build_right htbs
  have comp : ∀ (idx : Nat) (t : Tmpl) p, ts[idx]? = some t → p ∈ t.alts → ∃ steps, compilePat d p = .ok steps :=
    fun idx t p h => h2 t (List.mem_of_getElem? h) p
  have rule : ∀ {i k}, InTables tbs mode k i → ∃ t p, Rule d ts mode i t p ∧ k = patKey i.steps := by
    intro i k hi
    obtain ⟨x, t, pos, g1, g2, g3, p, g4, steps, g5, g6, rfl⟩ := (h1 _ _ _).1 hi
    exact ⟨t, p, ⟨g1, g3, g4, g5, rfl, rfl, g2⟩, g6⟩
  have made : ∀ (idx : Nat) (t : Tmpl) p, ts[idx]? = some t → t.mode = mode → p ∈ t.alts → ∀ steps, compilePat d p = .ok steps →
      ∃ i, InTables tbs mode (patKey steps) i ∧ i.tmpl = idx ∧ Rule d ts mode i t p := by
    intro idx t p g1 g2 g3 steps g4
    have hl : idx < ts.length := by
      rcases Nat.lt_or_ge idx ts.length with h | h
      · exact h
      · rw [List.getElem?_eq_none h] at g1; cases g1
    refine ⟨entryOf t (ts.length - 1 - idx) idx steps, (h1 _ _ _).2 ⟨idx, t, ts.length - 1 - idx, g1, by omega, g2, p, g3,
      steps, g4, rfl, rfl⟩, rfl, g1, g2, g3, g4, rfl, rfl, ?_⟩
    show ts.length - 1 - idx + idx + 1 = ts.length
    omega
  split at h
  · rename_i tb htb
    cases h
    have hm : ∀ k i, InTables tbs mode k i ↔ i ∈ (tb k).getD [] := by intro k i; simp [InTables, htb]
    have hw : WildOk tb := by have := h3 mode; simpa [htb] using this
    obtain ⟨g1, g2⟩ := lookup_right (d := d) hr.sort_mem hr.sorted hw (hr.keys _ htbs _ _ htb) n
    refine ⟨g2, ?_, ?_⟩
    · intro i hi
      obtain ⟨k, hc, hk⟩ := (g1 i).1 hi
      obtain ⟨t, p, hr, rfl⟩ := rule ((hm _ _).2 hk)
      exact ⟨t, p, hr, hc⟩
    · intro idx t p e1 e2 e3
      obtain ⟨steps, hs⟩ := comp idx t p e1 e3
      refine ⟨steps, hs, fun hc => ?_⟩
      obtain ⟨i, hi, e4, e5⟩ := made idx t p e1 e2 e3 steps hs
      exact ⟨i, (g1 i).2 ⟨_, hc, (hm _ _).1 hi⟩, e4, e5⟩
  · rename_i htb
    cases h
    refine ⟨.nil, nofun, ?_⟩
    intro idx t p e1 e2 e3
    obtain ⟨steps, hs⟩ := comp idx t p e1 e3
    refine ⟨steps, hs, fun _ => ?_⟩
    obtain ⟨i, hi, _⟩ := made idx t p e1 e2 e3 steps hs
    simp [InTables, htb, Table.empty] at hi

theorem other_not_covers {p : Pat} {l : List CPat} {n : Nat} (hc : compilePat d p = .ok l) (h : OtherKind d p n) :
    ¬ Covers d n (patKey l) := by
  obtain ⟨s, hs, h⟩ := h
  rcases h with ⟨ha, ht, hk⟩ | ⟨ha, _, hk⟩
  · have : stepKey s = .kind .pi := by
      unfold stepKey; rw [ha]
      rcases ht with h | ⟨t, h⟩ <;> rw [h] <;> rfl
    rcases patKey_last hc hs with h | h <;> rw [h, this] <;> rintro ⟨h1, _⟩ <;> exact hk h1
  · have : stepKey s = .kind .attr := by unfold stepKey; rw [ha]
    rcases patKey_last hc hs with h | h <;> rw [h, this] <;> rintro ⟨h1, _⟩ <;> exact hk h1

theorem lastOk_test {s : PatStep} {n : Nat} (h : LastOk d root s n) : s.test ≠ .kind .element := by
  intro ht
  rcases h with h | ⟨_, h, _⟩
  · unfold StepOk at h
    split at h
    · rw [ht] at h
      cases ha : s.axis <;> rw [ha] at h
      · rcases h with h | h <;> cases h
      · exact h
    · rw [ht] at h
      rcases h.2.1 with h | h
      · rcases h with h | h <;> cases h
      · cases h
  · rw [ht] at h; cases h

theorem ruleOk_test {p : Pat} {n : Nat} (h : RuleOk d root p n) {s : PatStep} (hs : lastStep p = some s) :
    s.test ≠ .kind .element := by
  rcases h with ⟨h, _⟩ | ⟨s', h1, h2⟩
  · cases p with
    | root => cases hs
    | idKey fn => cases hs
    | abs r => cases hs; exact lastOk_test h.1
    | dabs r => cases hs; exact lastOk_test h.1
    | rel r => cases hs; exact lastOk_test h.1
    | idKeySlash fn r => cases hs; exact lastOk_test h.2.1
    | idKeyDslash fn r => cases hs; exact lastOk_test h.2.1
  · rw [hs] at h1; cases h1
    intro ht
    rcases h2 with ⟨_, h | ⟨t, h⟩, _⟩ | ⟨_, h, _⟩ <;> rw [ht] at h <;> cases h

theorem matches_covers (w : DocWF d root) (hae : AttrsOnElements d) {p : Pat} {l : List CPat} {n : Nat}
    (hn : InDoc d root n) (hc : compilePat d p = .ok l) (ho : RuleOk d root p n) (hm : Spec.Matches d p n) :
    Covers d n (patKey l) := by
  cases hs : lastStep p with
  | none =>
    cases p with
    | root =>
      cases hc
      obtain ⟨y, hy, hz⟩ := hm
      have : n = root := root_of hn w hy hz
      subst this
      exact ⟨w.root, by decide⟩
    | idKey fn => cases hc; trivial
    | abs r => cases hs
    | dabs r => cases hs
    | rel r => cases hs
    | idKeySlash fn r => cases hs
    | idKeyDslash fn r => cases hs
  | some s =>
    have := holds_covers w hae hn (matches_last w hn hm hs) (ruleOk_test ho hs)
    rcases patKey_last hc hs with h | h <;> rw [h]
    · exact this
    · exact covers_noName this

/-- The priority in the tables is the right one. -/
theorem priority_right {t : Tmpl} {p : Pat} {l : List CPat} (hc : compilePat d p = .ok l) (ho : PriorityOk t p) :
    t.priority.getD (patPriority l) = priority t p := by
  unfold priority
  cases ht : t.priority with
  | some x => rfl
  | none =>
    simp only [Option.getD_none]
    unfold compilePat at hc
    split at hc
    · cases hc
    rename_i m hm
    cases hc
    have long : ∀ {r : Rel} {t : CTest}, withFirst t (relOf d r) = .ok m → patPriority m.reverse = 1/2 := by
      intro r t h
      obtain ⟨m', hm', rfl⟩ := withFirst_ok h
      obtain ⟨k, x, rfl, _⟩ := relOf_last hm'
      have : ([(⟨t, false⟩ : CPat)] ++ (k ++ [x])).reverse = x :: (k.reverse ++ [⟨t, false⟩]) := by simp
      rw [this]
      cases k.reverse <;> rfl
    have more : ∀ {r s}, relOf d (.slash r s) = .ok m ∨ relOf d (.dslash r s) = .ok m →
        patPriority m.reverse = 1/2 := by
      intro r s h
      obtain ⟨k, x, hk, rfl⟩ : ∃ k x, k ≠ [] ∧ m = k ++ [x] := by
        rcases h with h | h
        · simp only [relOf] at h
          split at h
          · cases h
          · cases h
          · rename_i x h1 _
            cases h
            obtain ⟨k, y, rfl, _⟩ := relOf_last h1
            exact ⟨_, x, by simp, rfl⟩
        · simp only [relOf] at h
          split at h
          · cases h
          · cases h
          · rename_i x h1 _
            cases h
            obtain ⟨k, y, rfl, _⟩ := relOf_last h1
            exact ⟨_, x, by rw [flagLast_append]; simp, rfl⟩
      rw [List.reverse_append]
      cases hk' : k.reverse with
      | nil => exact absurd (List.reverse_eq_nil_iff.1 hk') hk
      | cons y ys => rfl
    have single : ∀ {s}, relOf d (.one s) = .ok m →
        patPriority m.reverse = if s.preds = [] then testPriority s.test else 1/2 := by
      intro s h
      simp only [relOf] at h
      split at h
      · cases h
      rename_i x hx
      cases h
      unfold stepOf at hx
      split at hx
      · rename_i hp; cases hx; rw [if_pos hp]; rfl
      · rename_i hp
        split at hx
        · cases hx
        · cases hx; rw [if_neg (fun h => hp h)]; rfl
    cases p with
    | root => cases hm; rfl
    | idKey fn => cases hm; rfl
    | abs r => exact long hm
    | idKeySlash fn r => exact long hm
    | idKeyDslash fn r => exact long hm
    | dabs r =>
      cases r with
      | one s => rw [single hm, if_neg (ho ht s rfl)]; rfl
      | slash r s => exact more (.inl hm)
      | dslash r s => exact more (.inr hm)
    | rel r =>
      cases r with
      | one s =>
        rw [single hm]
        obtain ⟨a, t, ps⟩ := s
        cases ps with
        | nil => cases t <;> rfl
        | cons e ps => rfl
      | slash r s => exact more (.inl hm)
      | dslash r s => exact more (.inr hm)

theorem filter_all {α : Type} {l : List α} : l.filter (fun _ => true) = l := by simp

/-- Whatever part of the rules is searched. -/
theorem find_right (w : DocWF d root) (hae : AttrsOnElements d) {rt : Runtime} {ts : List Tmpl}
    (hr : RuntimeOk rt d ts) {mode : Option Name} {n fuel : Nat} {c c' : Ctx} {r : Option Nat} (hn : InDoc d root n)
    (hc : InDoc d root c.node) (ho : SheetOk d root ts mode n) {l : List Info} (hl : rulesFor d rt ts mode n = .ok l)
    {q : Nat → Bool} (h : findRule d fuel (l.filter fun i => q i.prec) n c = .ok r c') :
    Chosen d ts mode n (fun t => q t.prec = true) r ∧
    ∀ i, r = some i → First d ts mode n (fun t => q t.prec = true) i := by
  obtain ⟨h1, h2, h3⟩ := rulesFor_right hr hl
  have good : ∀ {i t p}, Rule d ts mode i t p → RuleOk d root p n ∧ PriorityOk t p := fun hr =>
    ho _ (List.mem_of_getElem? hr.idx) hr.mode _ hr.alt
  have ok : ∀ {i t p}, i ∈ l → Rule d ts mode i t p → PatOk d root p n ∧ NoBacktracking p := by
    intro i t p hi hrule
    rcases (good hrule).1 with h | h
    · exact h
    · obtain ⟨_, _, _, hcov⟩ := h2 i hi
      exact absurd hcov (other_not_covers hrule.steps h)
  have key := findRule_right (d := d) (root := root) (n := n) (fuel := fuel)
    (D := fun i => ∃ t p, Rule d ts mode i t p ∧ Spec.Matches d p n)
    (l := l.filter fun i => q i.prec) (by
      intro i hi c b c' hc hm
      have hi' := (List.mem_filter.1 hi).1
      obtain ⟨t, p, hrule, _⟩ := h2 i hi'
      have run : ∀ {p}, compilePat d p = .ok i.steps → p.match d fuel n c = .ok b c' := by
        intro p hp; unfold Pat.match; rw [hp]; exact hm
      obtain ⟨g0, g1, _⟩ := pat_right w hae hn hc (ok hi' hrule).1 (run hrule.steps)
      refine ⟨⟨fun hb => ⟨t, p, hrule, g1 hb⟩, ?_⟩, g0⟩
      rintro ⟨t', p', hr', hm'⟩
      obtain ⟨_, _, g2⟩ := pat_right w hae hn hc (ok hi' hr').1 (run hr'.steps)
      exact g2 (ok hi' hr').2 hm') hc h
  have sorted : (l.filter fun i => q i.prec).Pairwise (fun a b => Info.le b a) := h1.filter _
  -- every rule that applies has an entry
  have entry : ∀ {j u p}, q u.prec = true → Applies d ts mode n j u p →
      ∃ i ∈ l.filter (fun i => q i.prec), i.tmpl = j ∧ Rule d ts mode i u p := by
    rintro j u p hq ⟨g1, g2, g3, g4⟩
    obtain ⟨steps, hs, hcov⟩ := h3 j u p g1 g2 g3
    obtain ⟨i, hi, g5, g6⟩ := hcov (matches_covers w hae hn hs (ho u (List.mem_of_getElem? g1) g2 p g3).1 g4)
    exact ⟨i, List.mem_filter.2 ⟨hi, by rw [g6.prec]; exact hq⟩, g5, g6⟩
  have prio : ∀ {i t p}, Rule d ts mode i t p → i.prio = priority t p := fun hr => by
    rw [hr.prio]; exact priority_right hr.steps (good hr).2
  cases r with
  | none =>
    refine ⟨?_, nofun⟩
    intro j u p hq ha
    obtain ⟨i, hi, _, hrule⟩ := entry hq ha
    exact key i hi ⟨u, p, hrule, ha.2.2.2⟩
  | some x =>
    obtain ⟨pre, i, post, e, rfl, ⟨t, p, hrule, hm⟩, hpre⟩ := key
    have hi : i ∈ l.filter (fun i => q i.prec) := by rw [e]; simp
    have hq : q t.prec = true := by rw [← hrule.prec]; exact (List.mem_filter.1 hi).2
    have ha : Applies d ts mode n i.tmpl t p := ⟨hrule.idx, hrule.mode, hrule.alt, hm⟩
    have le : ∀ {k u s}, k ∈ l.filter (fun i => q i.prec) → Rule d ts mode k u s → Spec.Matches d s n →
        Info.le k i := fun hk hu hs => first_le sorted e hpre hk ⟨_, _, hu, hs⟩
    refine ⟨⟨t, p, hq, ha, ?_⟩, ?_⟩
    · intro j u s hu hs
      obtain ⟨k, hk, _, hrk⟩ := entry hu hs
      have := le hk hrk hs.2.2.2
      unfold Survives
      rw [← prio hrule, ← prio hrk, ← hrule.prec, ← hrk.prec]
      rcases this with h | ⟨h, h' | ⟨h', _⟩⟩
      · exact .inl h
      · exact .inr ⟨h, Rat.le_of_lt h'⟩
      · exact .inr ⟨h, by rw [h']; exact Rat.le_refl⟩
    · rintro _ ⟨⟩ j ⟨u, s, hu, hs, hbest⟩
      obtain ⟨k, hk, rfl, hrk⟩ := entry hu hs
      have h1 := le hk hrk hs.2.2.2
      have h2 := hbest _ _ _ hq ha
      unfold Survives at h2
      rw [← prio hrule, ← prio hrk, ← hrule.prec, ← hrk.prec] at h2
      have p1 := hrule.pos
      have p2 := hrk.pos
      rcases h1 with h | ⟨h, h | ⟨h, h4⟩⟩
      · rcases h2 with h3 | ⟨h3, _⟩ <;> omega
      · rcases h2 with h3 | ⟨_, h3⟩
        · omega
        · exact absurd h3 (Rat.not_le.2 h)
      · omega

/-- C59.  The template that `apply_templates` instantiates is one that has, among all rules for the node, the
highest import precedence and, among those, the highest priority; the built-in rule is used if there is none.
Missing: stylesheets with patterns that are matched wrongly (C58), and `//a` without a priority. -/
theorem C59_chosen_partial (w : DocWF d root) (hae : AttrsOnElements d) {rt : Runtime} {ts : List Tmpl}
    (hr : RuntimeOk rt d ts) {mode : Option Name} {n fuel : Nat} {c c' : Ctx} {r : Option Nat} (hn : InDoc d root n)
    (hc : InDoc d root c.node) (ho : SheetOk d root ts mode n) (h : select d fuel rt ts mode n c = .ok r c') :
    Chosen d ts mode n (fun _ => True) r := by
  unfold select at h
  split at h
  · cases h
  rename_i l hl
  rw [← filter_all (l := l)] at h
  have := find_right w hae hr hn hc ho hl (q := fun _ => true) h
  simpa using this.1

/-- C59, conflicts: of several rules with the same import precedence and priority the first one in the stylesheet
is used.  (The recommendation: the last one, or an error.) -/
theorem C59_conflict_partial (w : DocWF d root) (hae : AttrsOnElements d) {rt : Runtime} {ts : List Tmpl}
    (hr : RuntimeOk rt d ts) {mode : Option Name} {n fuel i : Nat} {c c' : Ctx} (hn : InDoc d root n)
    (hc : InDoc d root c.node) (ho : SheetOk d root ts mode n) (h : select d fuel rt ts mode n c = .ok (some i) c') :
    First d ts mode n (fun _ => True) i := by
  unfold select at h
  split at h
  · cases h
  rename_i l hl
  rw [← filter_all (l := l)] at h
  have := find_right w hae hr hn hc ho hl (q := fun _ => true) h
  simpa using this.2 i rfl

/-- C59, `xsl:apply-imports`: the same among the rules with a lower import precedence.  Missing in addition: the
recommendation allows only rules that were imported into the stylesheet with the current rule. -/
theorem C59_imports_partial (w : DocWF d root) (hae : AttrsOnElements d) {rt : Runtime} {ts : List Tmpl}
    (hr : RuntimeOk rt d ts) {mode : Option Name} {n fuel below : Nat} {c c' : Ctx} {r : Option Nat}
    (hn : InDoc d root n) (hc : InDoc d root c.node) (ho : SheetOk d root ts mode n)
    (h : selectImport d fuel rt ts mode below n c = .ok r c') :
    Chosen d ts mode n (fun t => t.prec < below) r := by
  unfold selectImport at h
  split at h
  · cases h
  rename_i l hl
  have := find_right w hae hr hn hc ho hl (q := fun x => x < below) (findImport_rule h)
  simpa using this.1

/-! The search ends -/

theorem matchSteps_halts (w : WF d.h) {p : Pat} {steps : List CPat} (hp : compilePat d p = .ok steps) (n : Nat)
    (c : Ctx) : Halts (fun k => matchPat d k steps n c) ∧ Mono fun k => matchPat d k steps n c := by
  have := pat_halts w p n c
  unfold Pat.match at this
  rw [hp] at this
  exact this

def orElse (d : Doc) (fuel : Nat) (i : Info) (is : List Info) (n : Nat) (b : Bool) (c : Ctx) : Out (Option Nat) :=
  if b then .ok (some i.tmpl) c else findRule d fuel is n c

theorem findRule_halts (w : WF d.h) {l : List Info} (hl : ∀ i ∈ l, ∃ p, compilePat d p = .ok i.steps) (n : Nat)
    (c : Ctx) : Halts (fun k => findRule d k l n c) ∧ Mono fun k => findRule d k l n c := by
  induction l generalizing c with
  | nil => exact ⟨halts_const (by simp), mono_const⟩
  | cons i l ih =>
    obtain ⟨p, hp⟩ := hl i (by simp)
    have hm := fun c => matchSteps_halts w hp n c
    have e : (fun k => findRule d k (i :: l) n c) =
        fun k => (matchPat d k i.steps n c).bind (orElse d k i l n) := by
      funext k; simp only [findRule]; rfl
    rw [e]
    have ih' := fun c => ih (fun i h => hl i (by simp [h])) c
    have a : ∀ b c, Halts (fun k => orElse d k i l n b c) := by
      intro b c
      cases b
      · exact (ih' c).1
      · exact halts_const (by simp)
    have b : ∀ b c, Mono (fun k => orElse d k i l n b c) := by
      intro b c
      cases b
      · exact (ih' c).2
      · exact mono_const
    exact ⟨(hm c).1.bind (hm c).2 (fun x c' _ => ⟨a x c', b x c'⟩), (hm c).2.bind b⟩

/-- C59: the search for a template always ends. -/
theorem C59_ends (w : WF d.h) {rt : Runtime} {ts : List Tmpl} (hr : RuntimeOk rt d ts) (mode : Option Name) (n : Nat)
    (c : Ctx) : ∃ fuel, select d fuel rt ts mode n c ≠ .stuck := by
  cases hl : rulesFor d rt ts mode n with
  | error e => exact ⟨0, by simp [select, hl]⟩
  | ok l =>
    obtain ⟨⟨k, hk⟩, _⟩ := findRule_halts w (l := l) (by
      intro i hi
      obtain ⟨t, p, hp, _⟩ := (rulesFor_right hr hl).2.1 i hi
      exact ⟨p, hp.steps⟩) n c
    refine ⟨k, ?_⟩
    unfold select
    rw [hl]
    exact hk

end Verif.Template
