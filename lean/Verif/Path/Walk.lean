import Verif.Path.Full
/-
Lemmas for C93: the steps and the path that `abspath` writes.
-/
namespace Verif.Path
open Verif Verif.XPath Verif.Dom Verif.Dom.Spec Verif.Eval Verif.Eval.Spec Verif.Parse Verif.Parse.Spec Verif.Path.Spec

/-! ### Paths -/

/-- A path in the text: its tokens, what they stand for, and what this selects from the root. -/
def PathOK (d : Doc) (env : Env) (r n : Nat) (u : Prop) (len : Nat) (s : Str) : Prop :=
  ∃ w t steps ls, Is .slash t ∧
    (∀ rest trs, Tail rest → Lexes true rest trs → Lexes false (s ++ rest) (t :: w ++ trs)) ∧
    Says .relativeLocationPath w (.expr (.path false steps)) ∧ w.length + 1 ≤ len ∧
    resolveSteps d.R env steps = some ls ∧ Reaches d ls r n ∧ (u → ∀ x, Reaches d ls r x → x = n)

theorem slash_lexes (op : Bool) {d : Doc} {env : Env} {a n len : Nat} {u : Prop} {st : Str} (h : StepOK d env a n u len st)
    {rest : Str} {ts : List Tok} (hl : Lexes false (st ++ rest) ts) :
    Lexes op ('/' :: st ++ rest) (⟨Term.num .slash, ['/']⟩ :: ts) := by
  obtain ⟨c, cs, hs, hc⟩ := h.head
  refine Lexes.token (k := .slash) (w := ['/']) (.slash ?_) hl
  intro x xs hx
  rw [hs] at hx
  obtain ⟨rfl, _⟩ := List.cons.inj hx
  exact hc

theorem path_first {d : Doc} {env : Env} {r n len : Nat} {u : Prop} {st : Str} (h : StepOK d env r n u len st) :
    PathOK d env r n u (len + 1) ('/' :: st) := by
  obtain ⟨ts, s, l, h1, h2, h3, h4, ⟨k, h5, h6⟩, h7⟩ := h.ok
  refine ⟨ts, ⟨Term.num .slash, ['/']⟩, [s], [l], rfl, fun rest trs hr hx => ?_, .p3a h2, by omega, ?_, ?_, ?_⟩
  · exact slash_lexes false h (h1 rest trs hr hx)
  · simp [resolveSteps, h4]
  · simp only [Reaches]; exact ⟨k, n, h5, h6, rfl⟩
  · intro hu x hx
    simp only [Reaches] at hx
    obtain ⟨k', y, h8, h9, rfl⟩ := hx
    rw [h7 hu k' h8] at h9
    simpa using h9

theorem path_more {d : Doc} {env : Env} {r a n len1 len2 : Nat} {ua u : Prop} {s st : Str}
    (hp : PathOK d env r a ua len1 s) (h : StepOK d env a n u len2 st) :
    PathOK d env r n (ua ∧ u) (len1 + (len2 + 1)) (s ++ '/' :: st) := by
  obtain ⟨w, t, steps, ls, p1, p2, p3, p4, p5, p6, p7⟩ := hp
  obtain ⟨ts, sp, l, h1, h2, h3, h4, ⟨k, h5, h6⟩, h7⟩ := h.ok
  refine ⟨w ++ ⟨Term.num .slash, ['/']⟩ :: ts, t, steps ++ [sp], ls ++ [l], p1, fun rest trs hr hx => ?_, .p3b p3 rfl h2,
    by simp; omega, resolveSteps_snoc p5 h4, ?_, ?_⟩
  · have := p2 ('/' :: st ++ rest) _ (fun c cs hc => (List.cons.inj hc).1.symm) (slash_lexes true h (h1 rest trs hr hx))
    simpa [List.append_assoc] using this
  · rw [reaches_snoc]; exact ⟨a, p6, k, h5, h6⟩
  · intro hu x hx
    rw [reaches_snoc] at hx
    obtain ⟨y, h8, k', h9, h10⟩ := hx
    have := p7 hu.1 y h8
    subst this
    rw [h7 hu.2 k' h9] at h10
    simpa using h10

/-! ### Names -/

theorem findPrefix_some {ns p : Str} {l : List (Option Str × Str)} (h : findPrefix ns l = some p) :
    (some p, ns) ∈ l ∧ p ≠ [] := by
  induction l with
  | nil => cases h
  | cons x l ih =>
    obtain ⟨q, u⟩ := x
    rw [findPrefix] at h
    split at h
    · rename_i hc
      obtain ⟨rfl, h2⟩ := hc
      subst h
      refine ⟨by simp, ?_⟩
      rintro rfl
      simp [truthy] at h2
    · obtain ⟨h1, h2⟩ := ih h
      exact ⟨List.mem_cons_of_mem _ h1, h2⟩

theorem findPrefix_none {ns : Str} {l : List (Option Str × Str)} (h : findPrefix ns l = none) (p : Str) (hp : p ≠ []) :
    (some p, ns) ∉ l := by
  induction l with
  | nil => simp
  | cons x l ih =>
    obtain ⟨q, u⟩ := x
    rw [findPrefix] at h
    split at h
    · rename_i hc
      obtain ⟨rfl, h2⟩ := hc
      subst h
      simp [truthy] at h2
    · rename_i hc
      simp only [List.mem_cons, not_or]
      refine ⟨?_, ih h⟩
      intro he
      cases he
      apply hc
      refine ⟨rfl, ?_⟩
      cases p with
      | nil => exact absurd rfl hp
      | cons c cs => rfl

theorem mem_update {m : Names} {hints : List (Option Str × Str)} {n : Nat} {p : Option Str} {u : Str} :
    (p, u) ∈ update (m.nss n) hints ↔ Bound m hints n p u := by
  simp only [update, Bound, List.mem_append, List.mem_filter, Bool.not_eq_true', List.any_eq_false, decide_eq_true_eq]
  constructor
  · rintro (⟨h1, h2⟩ | h)
    · exact .inr ⟨fun v hv => h2 _ hv rfl, h1⟩
    · exact .inl h
  · rintro (h | ⟨h1, h2⟩)
    · exact .inr h
    · refine .inl ⟨h2, fun x hx he => ?_⟩
      obtain ⟨y, v⟩ := x
      simp only at he
      subst he
      exact h1 v hx

theorem ncName_ne {w : Str} (h : NCName w) : w ≠ [] := by
  obtain ⟨c, cs, rfl, _⟩ := h
  simp

variable {d : Doc} {m : Names} {hints : List (Option Str × Str)} {env : Env} {long : Bool} {n : Nat}
  {order : List (Option Str × Str) → List (Option Str × Str)}

theorem qname_prefixed {p l : Str} (hp : m.pre n = some p) (hne : p ≠ []) (hl : (d.name n).2 = some l) :
    qname d m n = p ++ ':' :: l := by
  cases p with
  | nil => exact absurd rfl hne
  | cons c cs => simp [qname, hp, hl]

theorem qname_plain {l : Str} (hp : m.pre n = none) (hl : (d.name n).2 = some l) : qname d m n = l := by
  simp [qname, hp, hl]

theorem nameTest_written (ho : ∀ l x, x ∈ order l ↔ x ∈ l) (hk : d.h.kind n = .element) (h : Named d m hints env long n) :
    ∃ l, (d.name n).2 = some l ∧
      ((∃ t, Written (nameTest d m hints order n) t ∧ resolveTest env t = some (.name (d.name n).1 l)) ∨
       (long = true ∧ Functions d env ∧ NCName l ∧ ∃ u, (d.name n).1 = some u ∧ u ≠ [] ∧ '"' ∉ u ∧
         nameTest d m hints order n = fullForm u l)) := by
  obtain ⟨l, hl, hnc⟩ := h.known
  cases hp : m.pre n with
  | some p =>
    obtain ⟨h1, u, h2, h3⟩ := h.pre p hp
    have hne := ncName_ne h1
    have ht : truthy (m.pre n) = true := by
      rw [hp]; cases p with
      | nil => exact absurd rfl hne
      | cons => rfl
    refine ⟨l, hl, .inl ⟨.qname p l, ?_, by simp [resolveTest, h3, h2]⟩⟩
    have e : nameTest d m hints order n = p ++ ':' :: l := by
      rw [nameTest]
      split
      · rw [if_pos ht, qname_prefixed hp hne hl]
      · rw [qname_prefixed hp hne hl]
    rw [e]
    exact .qname h1 hnc
  | none =>
    have ht : truthy (m.pre n) = false := by rw [hp]; rfl
    cases hu : (d.name n).1 with
    | none =>
      refine ⟨l, hl, .inl ⟨.name l, ?_, rfl⟩⟩
      rw [nameTest, hu]
      simp only
      rw [qname_plain hp hl]
      exact .name hnc
    | some u =>
      cases u with
      | nil => exact absurd hu h.ns
      | cons c u =>
        obtain ⟨hex, hall⟩ := h.default _ hk hp hu
        rw [nameTest, hu]
        simp only [ht, Bool.false_eq_true, if_false]
        cases hf : findPrefix (c :: u) (order (update (m.nss n) hints)) with
        | none =>
          rcases hex with ⟨p, hp1, hp2⟩ | ⟨e1, e2, e3⟩
          · refine absurd ?_ (findPrefix_none hf p hp1)
            rw [ho, mem_update]
            exact hp2
          · refine ⟨l, hl, .inr ⟨e1, e3, hnc, _, rfl, by simp, e2, ?_⟩⟩
            simp only [hl, Option.getD_some]
        | some q =>
          obtain ⟨h1, h2⟩ := findPrefix_some hf
          rw [ho, mem_update] at h1
          obtain ⟨h3, h4⟩ := hall q h2 h1
          refine ⟨l, hl, .inl ⟨.qname q l, ?_, by simp [resolveTest, h4]⟩⟩
          simp only
          rw [qname_plain hp hl]
          exact .qname h3 hnc

theorem attrTest_written (hk : d.h.kind n = .attr) (h : Named d m hints env long n) :
    ∃ t l, (d.name n).2 = some l ∧ Written (qname d m n) t ∧
      resolveTest env t = some (.name (d.name n).1 l) := by
  obtain ⟨l, hl, hnc⟩ := h.known
  cases hp : m.pre n with
  | some p =>
    obtain ⟨h1, u, h2, h3⟩ := h.pre p hp
    refine ⟨.qname p l, l, hl, ?_, by simp [resolveTest, h3, h2]⟩
    rw [qname_prefixed hp (ncName_ne h1) hl]
    exact .qname h1 hnc
  | none =>
    refine ⟨.name l, l, hl, ?_, by simp [resolveTest, h.attr hk hp]⟩
    rw [qname_plain hp hl]
    exact .name hnc

theorem passes_same {l : Str} (hl : (d.name n).2 = some l) :
    passes d .element (.name (d.name n).1 l) = sameName d n := by
  funext p
  rw [Bool.eq_iff_iff]
  simp only [passes, sameName, Bool.and_eq_true, decide_eq_true_eq, and_assoc, ← hl]
  constructor
  · rintro ⟨h1, h2, h3⟩; exact ⟨h1, Prod.ext h2 h3⟩
  · rintro ⟨h1, h2⟩; rw [h2]; exact ⟨h1, rfl, rfl⟩

/-! ### One step -/

/-- The condition for a step to select one node. -/
def Single (d : Doc) (n : Nat) : Prop := d.h.kind n = .element → Told d n

theorem stepOK_mono {a len len' : Nat} {u : Prop} {st : Str} (h : len ≤ len') (hs : StepOK d env a n u len st) :
    StepOK d env a n u len' st := by
  obtain ⟨h1, ts, s, l, h2, h3, h4, h5⟩ := hs
  exact ⟨h1, ts, s, l, h2, h3, by omega, h5⟩

theorem step_ok {r a : Nat} (w : DocWF d r) (ho : ∀ l x, x ∈ order l ↔ x ∈ l) (hf : Fit d m hints env long n)
    (hn : InDoc d r n) (hk : d.h.kind n ≠ .ns) (hp : d.h.parent n = some a) (ha : Root d.h r a) :
    ∃ st, step d m hints order n = .ok (st, some a) ∧
      StepOK d env a n (Single d n) (if d.h.kind n = .element then (if long then 17 else 4) else 6) st := by
  have split_kids : isChildKind (d.h.kind n) = true → ∃ before after, d.h.kids a = before ++ n :: after := by
    intro hc
    obtain ⟨b, c, h⟩ := List.append_of_mem (w.wf.parent_kids a n hp hc)
    exact ⟨b, c, h⟩
  have small : ∀ {before after : List Nat} (f : Nat → Bool), d.h.kids a = before ++ n :: after →
      1 + (before.filter f).length ≤ 2 ^ 53 := by
    intro before after f h
    have h1 := kids_length w.wf a
    rw [h] at h1
    simp at h1
    have h2 := List.length_filter_le f before
    have := hf.size
    omega
  have other : ∀ (f : Str) (t : RawTest), isChildKind (d.h.kind n) = true → d.h.kind n ≠ .element → d.h.kind n ≠ .attr →
      Typed (d.h.kind n) f t → otherNode (d.h.kind n) = some f → ∃ st, step d m hints order n = .ok (st, some a) ∧
      StepOK d env a n (Single d n) (if d.h.kind n = .element then (if long then 17 else 4) else 6) st := by
    intro f t hc hne hna hty hof
    obtain ⟨b, c, hl⟩ := split_kids hc
    rw [if_neg hne]
    refine ⟨_, ?_, step_other w ha hty rfl hl rfl (small _ hl)⟩
    rw [step]
    cases hkk : d.h.kind n <;> simp_all [otherNode]
    all_goals
      rw [count_eq w.wf _ hl]
  cases hkn : d.h.kind n with
  | element =>
    obtain ⟨b, c, hl⟩ := split_kids (by rw [hkn]; rfl)
    obtain ⟨l, h1, h23⟩ := nameTest_written ho hkn (hf.named n (.inl rfl) (.inl hkn))
    have hstep : step d m hints order n = .ok (nameTest d m hints order n ++
        (if 1 < 1 + (b.filter (sameName d n)).length then position (1 + (b.filter (sameName d n)).length) else []), some a) := by
      rw [step, hkn]
      simp only
      rw [count_eq w.wf _ hl]
      simp only [hp]
    have hU : Single d n → b.filter (sameName d n) = [] → c.filter (sameName d n) = [] := by
      intro hu hb
      rw [List.filter_eq_nil_iff] at hb ⊢
      have := hu hkn a b c hl (fun y hy hyk hyn => hb y hy (by simp [sameName, hyk, hyn]))
      intro y hy hsy
      simp only [sameName, Bool.and_eq_true, decide_eq_true_eq] at hsy
      exact this y hy hsy.1 hsy.2
    rw [if_pos rfl]
    refine ⟨_, hstep, ?_⟩
    rcases h23 with ⟨t, h2, h3⟩ | ⟨hlong, hfn, hnc, u, hu1, hu2, hu3, hnt⟩
    · have hs := passes_same (d := d) h1
      have hself : passes d .element (.name (d.name n).1 l) n = true := by rw [hs]; simp [sameName, hkn]
      have := step_element w (u := Single d n) ha h2 h3 hself hl rfl (small _ hl) (by rw [hs]; exact hU)
      rw [hs] at this
      exact stepOK_mono (by split <;> omega) this
    · rw [hnt, if_pos hlong]
      exact step_full w ha hfn hkn hu1 hu2 h1 hnc hu3 hl rfl (small _ hl) hU
  | attr =>
    rw [if_neg (by simp)]
    obtain ⟨t, l, h1, h2, h3⟩ := attrTest_written hkn (hf.named n (.inl rfl) (.inr hkn))
    have hm : n ∈ d.attrs a := by
      rcases hn.2 with ht | ⟨e, he | he⟩
      · exact absurd hkn ht.1
      · have := (w.attr e n he).2
        rw [hp] at this
        cases this
        exact he
      · exact absurd (w.ns e n he).1 hk
    refine ⟨_, by rw [step, hkn]; simp only [hp], step_attr w ha (hf.owner a n hm) h2 h3 hm ?_ ?_⟩
    · simp [passes, hkn, h1]
    · intro x hx hps
      simp only [passes, Bool.and_eq_true, decide_eq_true_eq, ← h1] at hps
      exact hf.names a x n hx hm (Prod.ext hps.1.2 hps.2)
  | ns => exact absurd hkn hk
  | entity => rw [w.wf.entity_root n hkn] at hp; cases hp
  | text => rw [← hkn]; exact other _ .text (by rw [hkn]; rfl) (by simp [hkn]) (by simp [hkn]) (by rw [hkn]; exact .text) (by rw [hkn]; rfl)
  | comment => rw [← hkn]; exact other _ .comment (by rw [hkn]; rfl) (by simp [hkn]) (by simp [hkn]) (by rw [hkn]; exact .comment) (by rw [hkn]; rfl)
  | pi => rw [← hkn]; exact other _ (.pi none) (by rw [hkn]; rfl) (by simp [hkn]) (by simp [hkn]) (by rw [hkn]; exact .pi) (by rw [hkn]; rfl)

/-! ### The whole path -/

theorem root_parent {r a : Nat} (hr : Root d.h r n) (hp : d.h.parent n = some a) : Root d.h r a := by
  obtain ⟨h1, h2⟩ := hr
  refine ⟨?_, h2⟩
  rcases h1 with rfl | h1
  · rw [h2] at hp; cases hp
  · cases h1 with
    | parent h => rw [hp] at h; cases h; exact .inl rfl
    | step h3 h => rw [hp] at h; cases h; exact .inr h3

theorem ancS_parent {a x : Nat} (hp : d.h.parent n = some a) (h : AncS d.h x a) : AncS d.h x n := by
  rcases h with rfl | h
  · exact .inr (.parent hp)
  · exact .inr (.step h hp)

theorem fit_parent {a : Nat} (hf : Fit d m hints env long n) (hp : d.h.parent n = some a) : Fit d m hints env long a :=
  ⟨hf.size, hf.owner, hf.names, fun x hx => hf.named x (ancS_parent hp hx)⟩

/-- Every step on the way selects one node. -/
def AllSingle (d : Doc) (n : Nat) : Prop := ∀ x, AncS d.h x n → Single d x

theorem pathOK_weaken {r len : Nat} {u u' : Prop} {s : Str} (h : u' → u) (hp : PathOK d env r n u len s) :
    PathOK d env r n u' len s := by
  obtain ⟨w, t, steps, ls, p1, p2, p3, p4, p5, p6, p7⟩ := hp
  exact ⟨w, t, steps, ls, p1, p2, p3, p4, p5, p6, fun hu => p7 (h hu)⟩

theorem path_ok {r : Nat} (w : DocWF d r) (ho : ∀ l x, x ∈ order l ↔ x ∈ l) (k : Nat) :
    ∀ n, Level d.h (k + 1) n → Fit d m hints env long n → InDoc d r n → d.h.kind n ≠ .ns →
      ∃ s, (∀ fuel, k + 1 ≤ fuel → abspathFuel d m hints order fuel n = .ok s) ∧
        PathOK d env r n (AllSingle d n) ((if long then 18 else 5) * k + (if d.h.kind n = .element then (if long then 18 else 5) else 7)) s := by
  induction k with
  | zero =>
    intro n hlv hf hn hk
    cases hlv with
    | child hp hl =>
      rename_i a
      have ha := root_parent hn.1 hp
      have hpa : d.h.parent a = none := by cases hl with | root h => exact h
      obtain ⟨st, h1, h2⟩ := step_ok w ho hf hn hk hp ha
      refine ⟨'/' :: st, fun fuel hfu => ?_, ?_⟩
      · obtain ⟨fuel, rfl⟩ : ∃ f, fuel = f + 1 := ⟨fuel - 1, by omega⟩
        rw [abspathFuel, h1]
        simp only [hpa]
      · have : a = r := by
          rcases ha.1 with h | h
          · exact h.symm
          · cases h with
            | parent h => rw [hpa] at h; cases h
            | step _ h => rw [hpa] at h; cases h
        subst this
        have := path_first h2
        refine pathOK_weaken (fun hu => hu n (.inl rfl)) ?_
        by_cases he : d.h.kind n = .element
        · rw [if_pos he] at this ⊢
          cases long <;> simpa using this
        · rw [if_neg he] at this ⊢
          simpa using this
  | succ k ih =>
    intro n hlv hf hn hk
    cases hlv with
    | child hp hl =>
      rename_i a
      have ha := root_parent hn.1 hp
      have hpa : ∃ b, d.h.parent a = some b := by cases hl with | child h _ => exact ⟨_, h⟩
      obtain ⟨b, hpa⟩ := hpa
      have hka : d.h.kind a = .element := by
        have h1 := w.wf.parent_kind _ _ hp
        cases hkk : d.h.kind a with
        | element => rfl
        | entity => rw [w.wf.entity_root a hkk] at hpa; cases hpa
        | _ => rw [hkk] at h1; cases h1
      obtain ⟨s, i1, i2⟩ := ih a hl (fit_parent hf hp) ⟨ha, .inl ⟨by simp [hka], by simp [hka]⟩⟩ (by simp [hka])
      obtain ⟨st, h1, h2⟩ := step_ok w ho hf hn hk hp ha
      refine ⟨s ++ '/' :: st, fun fuel hfu => ?_, ?_⟩
      · obtain ⟨fuel, rfl⟩ : ∃ f, fuel = f + 1 := ⟨fuel - 1, by omega⟩
        rw [abspathFuel, h1]
        simp only [hpa]
        rw [i1 fuel (by omega)]
      · have := path_more i2 h2
        rw [if_pos hka] at this
        have := pathOK_weaken (u' := AllSingle d n)
          (fun hu => ⟨fun x hx => hu x (ancS_parent hp hx), hu n (.inl rfl)⟩) this
        by_cases he : d.h.kind n = .element
        · rw [if_pos he] at this ⊢
          cases long
          · simp only [Bool.false_eq_true, if_false] at this ⊢; exact this
          · simp only [if_true] at this ⊢; exact this
        · rw [if_neg he] at this ⊢
          cases long
          · simp only [Bool.false_eq_true, if_false] at this ⊢; exact this
          · simp only [if_true] at this ⊢; exact this

theorem level_le {h : Heap} (w : WF h) {k n : Nat} (hl : Level h k n) : k ≤ h.size := by
  obtain ⟨depth, h1, h2, h3⟩ := exists_depth w
  have key : ∀ k n, Level h k n → depth n = k := by
    intro k
    induction k with
    | zero => intro n hl; cases hl with | root h => exact h2 n h
    | succ k ih => intro n hl; cases hl with | child hp hl => rw [h1 _ _ hp, ih _ hl]
  rw [← key k n hl]
  exact h3 n

end Verif.Path
