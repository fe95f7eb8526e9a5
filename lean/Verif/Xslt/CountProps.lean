import Verif.Xslt.CountLemmas
import Verif.Dom.EditProps
/-
C68: the numbers of `xsl:number`.
-/
namespace Verif.Xslt.Count
open Verif.Dom Verif.Dom.Spec Verif.Xslt.Count.Spec

variable {d : Doc} {n : NodeId} {count from_ : Option Pattern}

theorem froms_eq : Froms from_ = fun x => starts from_ x = true := by
  funext x
  cases from_ with
  | none => simp [Froms, starts]
  | some f => rfl

/-- The code's pattern, but for processing instructions, is the one of the recommendation. -/
theorem counts_eq (hc : count = none → d.h.kind n ≠ .pi) :
    Counts d n count = fun x => count.getD (defaultCount d n) x = true := by
  funext x
  cases count with
  | some c => rfl
  | none =>
    have hk := hc rfl
    simp only [Counts, Default, Option.getD_none, defaultCount, eq_iff_iff]
    split
    · rename_i he; simp [he, hk]
    · rename_i he; simp [he, hk]

/-- C68, determinism: there is at most one result. -/
theorem C68_deterministic {level : Level} {o o' : Out} (h1 : Computes d n level count from_ o)
    (h2 : Computes d n level count from_ o') : o = o' := ends_det h1 h2

/-- C68, `level="multiple"`: at every element, text, comment and root node, and at processing
instructions if `count` is given, the list is the one of the recommendation.  What is missing:
processing instructions with the default `count` (`C68_refuted_target`) and attributes
(`C68_refuted_attribute`). -/
theorem C68_multiple_partial (w : WF d.h) (ht : TreeNode d.h n) (hc : count = none → d.h.kind n ≠ .pi) :
    ∃ l, IsMultiple d.h (Counts d n count) (Froms from_) n l ∧ Computes d n .multiple count from_ (.ok l) := by
  obtain ⟨ms, l, h1, h2⟩ := outer_ok (n := n) (C := count.getD (defaultCount d n)) (F := from_) w n ht []
  rw [List.append_nil] at h2
  refine ⟨l, ?_, h2⟩
  rw [counts_eq hc, froms_eq]
  exact ⟨ms, h1⟩

/-- C68, `level="any"`: if `from` does not match the current node, the number is the one of the
recommendation; 0 is a TypeError.  What is missing: see `C68_refuted_from`, `C68_refuted_zero`,
`C68_refuted_target` and `C68_refuted_attribute`. -/
theorem C68_any_partial (w : WF d.h) (ht : TreeNode d.h n) (hc : count = none → d.h.kind n ≠ .pi)
    (hf : ¬ Froms from_ n) :
    ∃ k, IsAny d.h (Counts d n count) (Froms from_) n k ∧
      Computes d n .any count from_ (if k = 0 then .error .type else .ok [k]) := by
  obtain ⟨l, h1, h2⟩ := any_ok (n := n) (C := count.getD (defaultCount d n)) (F := from_) w n ht 0
  rw [Nat.zero_add] at h2
  refine ⟨l.length, ⟨l, ⟨h1.1, fun x => ?_⟩, rfl⟩, h2⟩
  rw [h1.2, counts_eq hc]
  rw [froms_eq] at hf ⊢
  constructor
  · rintro ⟨h3, h4, h5, h6⟩
    exact ⟨h3, h4, h5, fun y hy hb => h6 y hy (.inr hb)⟩
  · rintro ⟨h3, h4, h5, h6⟩
    refine ⟨h3, h4, h5, ?_⟩
    rintro y hy (rfl | hb) hq
    · exact absurd hq hf
    · exact h6 y hy hb hq

theorem searched_all (h : Heap) (P : NodeId → Prop) (hP : ∀ s, Anc h s n → ¬ P s) {m : NodeId} :
    Searched h P n m ↔ AncS h m n :=
  ⟨fun h1 => h1.1, fun h1 => ⟨h1, fun s hs => absurd hs.2.1 (hP s hs.1)⟩⟩

/-- The result of the climb from the node. -/
theorem single_ok {C : Pattern} {Q : NodeId → Prop} (w : WF d.h) (ht : TreeNode d.h n) (start : Option NodeId)
    (hs : ∀ s, start = some s → Anc d.h s n ∨ d.h.parent n = none)
    (hq : ∀ m, C m = true → (Searched d.h Q n m ↔ AncS d.h m n ∧ (m = n ∨ ∀ s, start = some s → Anc d.h s m))) :
    ∃ l, IsSingle d.h (fun x => C x = true) Q n l ∧
      Ends d n C from_ (.inl (.climb n start .format)) (if l = [] then .error .type else .ok l) := by
  rcases climb_ok (n := n) (C := C) (F := from_) w start .format n hs with ⟨m, h1, h2, h3, h4, h5⟩ | ⟨h1, h2⟩
  · obtain ⟨v, hv, h6⟩ := tally_ok (n := n) (C := C) (F := from_) w (treeNode_up w ht h1) .format
    refine ⟨[v], .inl ⟨m, v, (hq m h2).2 ⟨h1, h4⟩, h2, fun m' hm hc => h3 m' hm.1 hc, hv, rfl⟩, ?_⟩
    have := h5 _ (h6 _ (back_format v))
    simpa [finish, place_pos hv] using this
  · refine ⟨[], .inr ⟨fun m hm hc => ?_, rfl⟩, ?_⟩
    · obtain ⟨h3, h4⟩ := (hq m hc).1 hm
      obtain ⟨h5, s, h6, h7⟩ := h1 m h3 hc
      rcases h4 with h4 | h4
      · exact h5 h4
      · exact w.acyclic m (h7.anc (h4 s h6))
    · have := h2 _ (back_format 0)
      simpa [finish] using this

/-- C68, `level="single"`: with `count`, where it does not match the root node (unless there is `from`,
or the root node is the current node), and for elements without `count` and `from`, the number is
the one of the recommendation; no number is a TypeError.  What is missing: see the refutations. -/
theorem C68_single_partial (w : WF d.h) (ht : TreeNode d.h n)
    (hc : count = none → from_ = none ∧ d.h.kind n = .element)
    (hr : from_ = none → ∀ m, Anc d.h m n → d.h.kind m = .entity → ¬ Counts d n count m) :
    ∃ l, IsSingle d.h (Counts d n count) (Froms from_) n l ∧
      Computes d n .single count from_ (if l = [] then .error .type else .ok l) := by
  cases count with
  | some c =>
    have hcc : Counts d n (some c) = fun x => c x = true := rfl
    cases from_ with
    | none =>
      obtain ⟨start, h1, h2, h3⟩ := root_ok (n := n) (C := c) (F := none) w n .format n
      have hs : ∀ s, start = some s → Anc d.h s n ∨ d.h.parent n = none := by
        intro s he
        rcases (h1 s he).2 with h4 | h4
        · subst h4; exact .inr (w.entity_root s (h1 s he).1)
        · exact .inl h4
      obtain ⟨l, h4, h5⟩ := single_ok (C := c) (Q := Froms none) (from_ := none) w ht start hs (by
        intro m hm
        rw [searched_all d.h (Froms none) (fun _ _ h => h)]
        refine ⟨fun h4 => ⟨h4, ?_⟩, fun h4 => h4.1⟩
        rcases h4 with h4 | h4
        · exact .inl h4
        · right
          intro s he
          have hne : d.h.kind m ≠ .entity := fun hk => hr rfl m h4 hk hm
          rcases AncS.comparable (h1 s he).2 (.inr h4) with h5 | h5
          · rcases h5 with rfl | h5
            · exact absurd (h1 s he).1 hne
            · exact h5
          · rcases h5 with rfl | h5
            · exact absurd (h1 m he).1 hne
            · obtain ⟨q, hq, _⟩ := anc_iff.1 h5
              simp [w.entity_root s (h1 s he).1] at hq)
      exact ⟨l, h4, h3 _ h5⟩
    | some f =>
      have hF : ∀ s, Froms (some f) s ↔ starts (some f) s = true := fun s => Iff.rfl
      cases hp : d.h.parent n with
      | none =>
        obtain ⟨l, h4, h5⟩ := single_ok (C := c) (Q := Froms (some f)) (from_ := some f) w ht none nofun (by
          intro m _
          rw [searched_root hp]
          refine ⟨fun h => ⟨.inl h, .inl h⟩, ?_⟩
          rintro ⟨h1 | h1, _⟩
          · exact h1
          · obtain ⟨q, hq, _⟩ := anc_iff.1 h1; simp [hp] at hq)
        refine ⟨l, h4, ?_⟩
        show Ends d n c (some f) (.inl (.find (d.h.parent n) n)) _
        rw [hp]
        exact ends_next rfl h5
      | some p =>
        have hup : ∀ t, Anc d.h t n → AncS d.h t p := by
          intro t h1
          obtain ⟨q, hq, h3⟩ := anc_iff.1 h1
          rw [hp] at hq; cases hq; exact h3
        have key : ∃ start, (∀ s, start = some s → Anc d.h s n ∨ d.h.parent n = none) ∧
            (∀ m, c m = true → (Searched d.h (Froms (some f)) n m ↔
              AncS d.h m n ∧ (m = n ∨ ∀ s, start = some s → Anc d.h s m))) ∧
            ∀ o, Ends d n c (some f) (.inl (.climb n start .format)) o →
              Ends d n c (some f) (.inl (.find (d.h.parent n) n)) o := by
          rw [hp]
          rcases find_ok (n := n) (C := c) (F := some f) w n p with ⟨s, h1, h2, h3, h4⟩ | ⟨h1, h2⟩
          · have hsn : Anc d.h s n := anc_iff.2 ⟨p, hp, h1⟩
            have hne : Nearest d.h (Froms (some f)) n s := ⟨hsn, h2, fun t ht hft => h3 t (hup t ht) hft⟩
            refine ⟨some s, by rintro t ⟨⟩; exact .inl hsn, fun m _ => ⟨?_, ?_⟩, h4⟩
            · rintro ⟨h5, h6⟩
              refine ⟨h5, .inr ?_⟩
              rintro t ⟨⟩; exact h6 s hne
            · rintro ⟨h5, h6⟩
              refine ⟨h5, fun t hnt => ?_⟩
              rcases h6 with rfl | h6
              · exact hnt.1
              · exact (h3 t (hup t hnt.1) hnt.2.1).anc (h6 s rfl)
          · refine ⟨none, nofun, fun m _ => ?_, h2⟩
            rw [searched_all d.h _ (fun s hs hfs => by
              have := h1 s (hup s hs); rw [(hF s).1 hfs] at this; cases this)]
            exact ⟨fun h => ⟨h, .inr nofun⟩, fun h => h.1⟩
        obtain ⟨start, h1, h2, h3⟩ := key
        obtain ⟨l, h4, h5⟩ := single_ok (C := c) (Q := Froms (some f)) (from_ := some f) w ht start h1 h2
        exact ⟨l, h4, h3 _ h5⟩
  | none =>
    obtain ⟨rfl, hk⟩ := hc rfl
    have hself : Default d n n := ⟨rfl, fun _ => rfl, fun _ => rfl⟩
    have hal : ∀ x, alike d n x = true ↔ Default d n x := by
      intro x; simp [alike, Default, hk]
    have single : ∀ k, Place d.h (Default d n) n k → IsSingle d.h (Default d n) (Froms none) n [k] := by
      intro k hk
      exact .inl ⟨n, k, (searched_all d.h _ (fun _ _ h => h)).2 AncS.refl, hself, fun m hm _ => hm.1, hk, rfl⟩
    show ∃ l, IsSingle d.h (Default d n) (Froms none) n l ∧ Ends d n (defaultCount d n) none _ _
    cases hp : d.h.parent n with
    | none =>
      refine ⟨[1], single 1 ⟨[], lists_nil ?_, rfl⟩, ?_⟩
      · rintro x ⟨⟨p, i, j, hi, _⟩, _⟩
        have := kid_parent w hi; simp [hp] at this
      · simp only [init, precedingSibling, hp, hk]
        exact ends_next rfl (.done _)
    | some p =>
      obtain ⟨pre, post, hl⟩ := kids_split w hp ht
      refine ⟨[1 + (pre.filter (alike d n)).length], single _ ⟨pre.filter (alike d n), ⟨?_, ?_⟩, rfl⟩, ?_⟩
      · have := w.nodup p; rw [hl, List.nodup_append] at this
        exact this.1.filter _
      · intro x; dsimp only; rw [onAxis_split w hl, List.mem_filter, hal]
      · simp only [init, precedingSibling_eq w hl, hk]
        exact simple_ok w pre (n :: post) hl 1

/-! A document, and what is wrong. -/

/-- Root 0 with element 1, which has elements 2, 3 and 4, and the processing instructions 6 and 7;
3 has the element 5, 4 has the text 8, and 9 is an attribute of 1. -/
def sampleHeap : Heap :=
  let h := (((((((((Heap.empty.alloc .entity).alloc .element).alloc .element).alloc .element).alloc .element).alloc
    .element).alloc .pi).alloc .pi).alloc .text).alloc .attr
  let h := ((Edit.append 0 1).run h).heap
  let h := ((Edit.append 1 2).run h).heap
  let h := ((Edit.append 1 3).run h).heap
  let h := ((Edit.append 1 4).run h).heap
  let h := ((Edit.append 3 5).run h).heap
  let h := ((Edit.append 1 6).run h).heap
  let h := ((Edit.append 1 7).run h).heap
  let h := ((Edit.append 4 8).run h).heap
  h.setOwner 1 9

theorem sample_reach : Reach sampleHeap := by
  unfold sampleHeap
  refine .owner (Reach.do (Reach.do (Reach.do (Reach.do (Reach.do (Reach.do (Reach.do (Reach.do
    (.new _ (.new _ (.new _ (.new _ (.new _ (.new _ (.new _ (.new _ (.new _ (.new _ .empty))))))))))
    (.append 0 1) ⟨by decide, by decide, by decide⟩ rfl)
    (.append 1 2) ⟨by decide, by decide, by decide⟩ rfl)
    (.append 1 3) ⟨by decide, by decide, by decide⟩ rfl)
    (.append 1 4) ⟨by decide, by decide, by decide⟩ rfl)
    (.append 3 5) ⟨by decide, by decide, by decide⟩ rfl)
    (.append 1 6) ⟨by decide, by decide, by decide⟩ rfl)
    (.append 1 7) ⟨by decide, by decide, by decide⟩ rfl)
    (.append 4 8) ⟨by decide, by decide, by decide⟩ rfl)
    (by decide) (by decide) (by decide) (by decide)

/-- `<r z=""><a/><a><a/></a><b>..</b><?x ..?><?y ..?></r>` -/
def sample : Doc where
  h := sampleHeap
  name n := (none, match n with
    | 1 => s!! "r"
    | 2 | 3 | 5 => s!! "a"
    | 4 => s!! "b"
    | _ => s!! "z")
  target n := if n = 6 then s!! "x" else s!! "y"

/-- The pattern `a`. -/
def isA : Pattern := fun x => sample.h.kind x = .element && (sample.name x).2 = s!! "a"

theorem run_ends {C : Pattern} {F : Option Pattern} {o : Out} (k : Nat) (s : St ⊕ Out) (h : run d n C F k s = some o) :
    Ends d n C F s o := by
  induction k generalizing s with
  | zero =>
    cases s with
    | inl s => cases h
    | inr o' => simp only [run, Option.some.injEq] at h; subst h; exact .done _
  | succ k ih =>
    cases s with
    | inl s => exact .step (ih _ h)
    | inr o' => simp only [run, Option.some.injEq] at h; subst h; exact .done _

theorem computes_of_run {level : Level} {o : Out} (k : Nat)
    (h : run d n (count.getD (defaultCount d n)) from_ k (init d n level count from_) = some o) :
    Computes d n level count from_ o := run_ends k _ h

/-- Non-vacuity: the numbers of the inner `a`, and of the `b`. -/
example : WF sample.h ∧ TreeNode sample.h 5 ∧ Computes sample 5 .multiple (some isA) none (.ok [2, 1]) ∧
    Computes sample 5 .any (some isA) none (.ok [3]) ∧ Computes sample 5 .single (some isA) none (.ok [1]) ∧
    Computes sample 3 .single none none (.ok [2]) ∧ Computes sample 4 .any (some isA) (some fun x => x = 3) (.ok [1]) ∧
    Computes sample 5 .multiple (some isA) (some fun x => x = 3) (.ok [1]) ∧
    Computes sample 8 .single (some fun x => x = 4 || x = 3) (some isA) (.ok [2]) :=
  ⟨C13_partial sample_reach, ⟨by decide, by decide⟩, computes_of_run 100 (by decide +kernel),
    computes_of_run 100 (by decide +kernel), computes_of_run 100 (by decide +kernel),
    computes_of_run 100 (by decide +kernel), computes_of_run 100 (by decide +kernel),
    computes_of_run 100 (by decide +kernel), computes_of_run 100 (by decide +kernel)⟩

/-- C68 is refuted: with `count="/"` the root node is not found from below. -/
theorem C68_refuted_root : ∃ d n c, Reach d.h ∧ TreeNode d.h n ∧
    IsSingle d.h (Counts d n (some c)) (Froms none) n [1] ∧ Computes d n .single (some c) none (.error .type) := by
  refine ⟨sample, 2, fun x => x = 0, sample_reach, ⟨by decide, by decide⟩, .inl ⟨0, 1, ?_, rfl, ?_, ?_, rfl⟩,
    computes_of_run 100 (by decide +kernel)⟩
  · exact (searched_all sample.h (Froms none) (fun _ _ h => h)).2
      (.inr (.step (p := 1) (.parent (by decide)) (by decide)))
  · intro m _ hm
    have : m = 0 := by simpa [Counts] using hm
    exact .inl this
  · refine ⟨[], lists_nil ?_, rfl⟩
    rintro x ⟨⟨p, i, j, hi, _⟩, _⟩
    have := kid_parent (C13_partial sample_reach) hi
    have h0 : sampleHeap.parent 0 = none := by decide
    rw [h0] at this; cases this

/-- C68 is refuted: if nothing matches there should be no number, or 0; it is a TypeError. -/
theorem C68_refuted_zero : ∃ d n c, Reach d.h ∧ TreeNode d.h n ∧
    IsSingle d.h (Counts d n (some c)) (Froms none) n [] ∧ Computes d n .single (some c) none (.error .type) ∧
    IsAny d.h (Counts d n (some c)) (Froms none) n 0 ∧ Computes d n .any (some c) none (.error .type) := by
  refine ⟨sample, 2, fun _ => false, sample_reach, ⟨by decide, by decide⟩, .inr ⟨fun m _ hm => ?_, rfl⟩,
    computes_of_run 100 (by decide +kernel), ⟨[], lists_nil ?_, rfl⟩, computes_of_run 100 (by decide +kernel)⟩
  · cases hm
  · rintro x ⟨_, _, hm, _⟩
    cases hm

/-- C68 is refuted: for `level="any"` and a current node that matches `from` nothing is counted. -/
theorem C68_refuted_from : ∃ d n c f, Reach d.h ∧ TreeNode d.h n ∧
    IsAny d.h (Counts d n (some c)) (Froms (some f)) n 1 ∧ Computes d n .any (some c) (some f) (.error .type) := by
  have w := C13_partial sample_reach
  refine ⟨sample, 2, isA, fun x => x = 2, sample_reach, ⟨by decide, by decide⟩,
    ⟨[2], ⟨by simp, fun x => ?_⟩, rfl⟩, computes_of_run 100 (by decide +kernel)⟩
  rw [List.mem_singleton]
  constructor
  · rintro rfl
    refine ⟨⟨by decide, by decide⟩, .inl rfl, (by decide +kernel : isA 2 = true), fun y _ hb hf => ?_⟩
    exact hb
  · rintro ⟨ht, rfl | hb, hc, _⟩
    · rfl
    · have hl : sample.h.kids 1 = [] ++ 2 :: [3, 4, 6, 7] := by decide +kernel
      rcases (before_child w hl ht).1 hb with ⟨_, h1, _⟩ | rfl | h1
      · cases h1
      · exact absurd hc (by simp [Counts]; decide +kernel)
      · have hl0 : sample.h.kids 0 = [] ++ 1 :: [] := by decide +kernel
        rcases (before_child w hl0 ht).1 h1 with ⟨_, h1, _⟩ | rfl | h1
        · cases h1
        · exact absurd hc (by simp [Counts]; decide +kernel)
        · exact absurd h1 (not_before_root w (by decide))

/-- C68 is refuted: the default `count` takes processing instructions with other targets, too. -/
theorem C68_refuted_target : ∃ d n, Reach d.h ∧ TreeNode d.h n ∧ IsMultiple d.h (Counts d n none) (Froms none) n [1] ∧
    Computes d n .multiple none none (.ok [2]) := by
  have w := C13_partial sample_reach
  have hl : sample.h.kids 1 = [2, 3, 4, 6] ++ 7 :: [] := by decide +kernel
  refine ⟨sample, 7, sample_reach, ⟨by decide, by decide⟩, ⟨[7], by simp, fun m => ?_, rfl, ?_⟩,
    computes_of_run 100 (by decide +kernel)⟩
  · rw [List.mem_singleton, searched_all sample.h (Froms none) (fun _ _ h => h)]
    constructor
    · rintro rfl; exact ⟨AncS.refl, rfl, fun _ => rfl, fun _ => rfl⟩
    · rintro ⟨h1 | h1, h2⟩
      · exact h1
      · exfalso
        have := anc_container w h1
        have hk : sampleHeap.kind m = .pi := h2.1
        rw [hk] at this; cases this
  · intro i m k hi hk
    cases i with
    | succ i => simp at hi
    | zero =>
      simp only [List.getElem?_cons_zero, Option.some.injEq] at hi hk
      subst hi; subst hk
      refine ⟨[], lists_nil ?_, rfl⟩
      rintro x ⟨h1, h2⟩
      rw [onAxis_split w hl] at h1
      simp only [List.mem_cons, List.not_mem_nil, or_false] at h1
      rcases h1 with rfl | rfl | rfl | rfl
      · exact absurd h2.1 (by decide)
      · exact absurd h2.1 (by decide)
      · exact absurd h2.1 (by decide)
      · exact absurd (h2.2.2 (by decide)) (by decide +kernel)

/-- C68 is refuted: `<xsl:number from="..."/>` is a NameError at every element, and an AttributeError at
every text, comment, processing instruction and root node. -/
theorem C68_refuted_default (f : Pattern) : Computes d n .single none (some f)
    (.error (if d.h.kind n = .element ∨ d.h.kind n = .attr then .name else .attribute)) := by
  by_cases hk : d.h.kind n = .element ∨ d.h.kind n = .attr
  · simp only [Computes, init, if_pos hk]; exact .done _
  · simp only [Computes, init, if_neg hk]; exact .done _

/-- C68 is refuted: `<xsl:number/>` is an AttributeError at every text, comment, processing instruction
and root node. -/
theorem C68_refuted_text (w : WF d.h) (ht : TreeNode d.h n) (hk : d.h.kind n ≠ .element) :
    Computes d n .single none none (.error .attribute) := by
  have hk' : ¬ (d.h.kind n = .element ∨ d.h.kind n = .attr) := by simp [hk, ht.1]
  have : ∃ s, precedingSibling d.h n = .ok s := by
    cases hp : d.h.parent n with
    | none => exact ⟨none, by simp [precedingSibling, hp]⟩
    | some p =>
      obtain ⟨pre, post, hl⟩ := kids_split w hp ht
      exact ⟨_, precedingSibling_eq w hl⟩
  obtain ⟨s, hs⟩ := this
  simp only [Computes, init, hs, if_neg hk']
  exact .done _

example : WF sample.h ∧ TreeNode sample.h 8 ∧ sample.h.kind 8 ≠ .element :=
  ⟨C13_partial sample_reach, ⟨by decide, by decide⟩, by decide⟩

/-- C68 is refuted: with an attribute of an element as current node, and without `count`, every level
is an InvalidStateErr. -/
theorem C68_refuted_attribute (w : WF d.h) {e : NodeId} (hk : d.h.kind n = .attr) (he : d.h.parent n = some e)
    (level : Level) : Computes d n level none none (.error .invalidState) := by
  have hp : precedingSibling d.h n = .error .invalidState := by
    have : (d.h.kids e).idxOf? n = none := by
      rw [List.idxOf?_eq_none_iff]
      intro hm
      have := w.child_kind _ _ hm
      rw [hk] at this; cases this
    simp [precedingSibling, he, this]
  have hd : defaultCount d n n = true := by simp [defaultCount, hk]
  cases level with
  | single => simp only [Computes, init, hp]; exact .done _
  | any =>
    refine ends_next (t := .inr (.error .invalidState)) ?_ (.done _)
    simp [step, starts, hp]
  | multiple =>
    refine ends_next (t := .inl (.root n n (.insert n []))) (by simp [step, hd]) ?_
    obtain ⟨st, _, _, h3⟩ := root_ok (n := n) (C := defaultCount d n) (F := none) w n (.insert n []) n
    refine h3 _ (ends_next (t := .inl (.tally (some n) 0 (.insert n []))) (by simp [step, hd]) ?_)
    exact ends_next (t := .inr (.error .invalidState)) (by simp [step, before, hp]) (.done _)

example : WF sample.h ∧ sample.h.kind 9 = .attr ∧ sample.h.parent 9 = some 1 :=
  ⟨C13_partial sample_reach, by decide, by decide⟩

end Verif.Xslt.Count
