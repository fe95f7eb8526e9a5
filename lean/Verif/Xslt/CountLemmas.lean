import Verif.Xslt.CountSpec
/-
What the loops of `xsl:number` compute.
-/
namespace Verif.Xslt.Count
open Verif.Dom Verif.Dom.Spec Verif.Xslt.Count.Spec

variable {d : Doc} {n : NodeId} {C : Pattern} {F : Option Pattern}

theorem ends_det {s : St ⊕ Out} {o o' : Out} (h1 : Ends d n C F s o) (h2 : Ends d n C F s o') : o = o' := by
  induction h1 with
  | done o => cases h2; rfl
  | step _ ih => cases h2 with | step h2 => exact ih h2

/-- One step. -/
theorem ends_next {s : St} {t : St ⊕ Out} {o : Out} (hs : step d n C F s = t) (h : Ends d n C F t o) :
    Ends d n C F (.inl s) o := .step (hs ▸ h)

theorem lists_nil {P : NodeId → Prop} (h : ∀ x, ¬ P x) : Lists [] P := ⟨List.nodup_nil, fun x => by simp [h x]⟩

theorem concat_of_ne {l : List NodeId} {k : Nat} (hl : l.length = k + 1) : ∃ q c, l = q ++ [c] := by
  rcases List.eq_nil_or_concat l with h1 | ⟨q, a, h1⟩
  · simp [h1] at hl
  · exact ⟨q, a, by simpa using h1⟩

/-- The loop over the preceding siblings. -/
theorem skip_ok (w : WF d.h) {p : NodeId} (k : Then) (o : Out) (pre post : List NodeId) (hl : d.h.kids p = pre ++ post)
    (v : Nat) (ho : Ends d n C F (.inl (.back (v + (pre.filter C).length) k)) o) :
    Ends d n C F (.inl (.skip pre.getLast? v k)) o := by
  induction hn : pre.length generalizing pre post v with
  | zero =>
    rw [List.length_eq_zero_iff] at hn; subst hn
    exact ends_next rfl (ends_next rfl ho)
  | succ j ih =>
    obtain ⟨qre, c, rfl⟩ := concat_of_ne hn
    have hl' : d.h.kids p = qre ++ c :: post := by simp [hl]
    have ps := precedingSibling_eq w hl'
    simp only [List.getLast?_append, List.getLast?_singleton, Option.some_or]
    by_cases hc : C c = true
    · refine ends_next (t := .inl (.tally (some c) v k)) (by simp [step, hc]) ?_
      refine ends_next (t := .inl (.skip qre.getLast? (v + 1) k)) (by simp [step, before, ps]) ?_
      refine ih qre (c :: post) hl' (v + 1) ?_ (by simpa using hn)
      have : v + 1 + (qre.filter C).length = v + ((qre ++ [c]).filter C).length := by
        simp [List.filter_append, hc]; omega
      rw [this]; exact ho
    · refine ends_next (t := .inl (.skip qre.getLast? v k)) (by simp [step, before, ps, hc]) ?_
      refine ih qre (c :: post) hl' v ?_ (by simpa using hn)
      have : (qre.filter C).length = ((qre ++ [c]).filter C).length := by
        simp [List.filter_append, hc]
      rw [this]; exact ho

theorem onAxis_split (w : WF d.h) {p m x : NodeId} {pre post : List NodeId} (hl : d.h.kids p = pre ++ m :: post) :
    OnAxis d.h m x .precedingSibling ↔ x ∈ pre := by
  have hp : d.h.parent m = some p := w.kids_parent _ _ (by rw [hl]; simp)
  have hm : (d.h.kids p)[pre.length]? = some m := by rw [hl]; simp
  constructor
  · rintro ⟨q, i, j, hi, hj, hij⟩
    have hq : q = p := by have := kid_parent w hi; rw [hp] at this; simpa using this.symm
    subst hq
    have := kid_index w hi hm
    subst this
    rw [hl, List.getElem?_append_left hij] at hj
    exact List.mem_of_getElem? hj
  · intro hx
    obtain ⟨j, hj⟩ := List.getElem?_of_mem hx
    have hlt : j < pre.length := (List.getElem?_eq_some_iff.1 hj).1
    exact ⟨p, pre.length, j, hm, by rw [hl, List.getElem?_append_left hlt]; exact hj, hlt⟩

/-- Counting a node and its preceding siblings gives its place. -/
theorem tally_ok (w : WF d.h) {m : NodeId} (ht : TreeNode d.h m) (k : Then) :
    ∃ v, Place d.h (fun x => C x = true) m v ∧
      ∀ o, Ends d n C F (.inl (.back v k)) o → Ends d n C F (.inl (.tally (some m) 0 k)) o := by
  cases hp : d.h.parent m with
  | none =>
    refine ⟨1, ⟨[], lists_nil ?_, rfl⟩, fun o ho => ?_⟩
    · rintro x ⟨⟨p, i, j, hi, _⟩, _⟩
      have := kid_parent w hi; simp [hp] at this
    · refine ends_next (t := .inl (.skip none 1 k)) (by simp [step, before, precedingSibling, hp]) ?_
      exact ends_next rfl (ends_next rfl ho)
  | some p =>
    obtain ⟨pre, post, hl⟩ := kids_split w hp ht
    refine ⟨1 + (pre.filter C).length, ⟨pre.filter C, ⟨?_, ?_⟩, rfl⟩, fun o ho => ?_⟩
    · have := w.nodup p; rw [hl, List.nodup_append] at this
      exact this.1.filter _
    · intro x; dsimp only; rw [onAxis_split w hl, List.mem_filter]
    · refine ends_next (t := .inl (.skip pre.getLast? 1 k))
        (by simp [step, before, precedingSibling_eq w hl]) ?_
      exact skip_ok w k o pre (m :: post) hl 1 ho

/-- `node.xml_root` -/
theorem root_ok (w : WF d.h) (node : NodeId) (k : Then) (x : NodeId) :
    ∃ start, (∀ s, start = some s → d.h.kind s = .entity ∧ AncS d.h s x) ∧
      (start = none → ∀ s, AncS d.h s x → d.h.kind s ≠ .entity) ∧
      ∀ o, Ends d n C F (.inl (.climb node start k)) o → Ends d n C F (.inl (.root x node k)) o := by
  obtain ⟨depth, hd, _, _⟩ := exists_depth w
  induction hn : depth x using Nat.strongRecOn generalizing x with
  | _ j ih =>
    by_cases he : d.h.kind x = .entity
    · exact ⟨some x, by rintro s ⟨⟩; exact ⟨he, AncS.refl⟩, nofun, fun o ho => ends_next (by simp [step, he]) ho⟩
    · cases hp : d.h.parent x with
      | none =>
        refine ⟨none, nofun, fun _ s hs hk => ?_, fun o ho => ends_next (by simp [step, he, hp]) ho⟩
        rcases hs with rfl | hs
        · exact he hk
        · obtain ⟨q, hq, _⟩ := anc_iff.1 hs; simp [hp] at hq
      | some p =>
        obtain ⟨st, h1, h2, h3⟩ := ih (depth p) (by have := hd _ _ hp; omega) p rfl
        refine ⟨st, fun s hs => ⟨(h1 s hs).1, (h1 s hs).2.trans (.inr (.parent hp))⟩, fun hs s hsx hk => ?_,
          fun o ho => ends_next (t := .inl (.root p node k)) (by simp [step, he, hp]) (h3 o ho)⟩
        rcases hsx with rfl | hsx
        · exact he hk
        · obtain ⟨q, hq, h4⟩ := anc_iff.1 hsx
          rw [hp] at hq; cases hq
          exact h2 hs s h4 hk

/-- The nearest of a node and its ancestors that matches `from`. -/
theorem find_ok (w : WF d.h) (node : NodeId) (y : NodeId) :
    (∃ s, AncS d.h s y ∧ starts F s = true ∧ (∀ t, AncS d.h t y → starts F t = true → AncS d.h t s) ∧
      ∀ o, Ends d n C F (.inl (.climb node (some s) .format)) o → Ends d n C F (.inl (.find (some y) node)) o) ∨
    ((∀ s, AncS d.h s y → starts F s = false) ∧
      ∀ o, Ends d n C F (.inl (.climb node none .format)) o → Ends d n C F (.inl (.find (some y) node)) o) := by
  obtain ⟨depth, hd, _, _⟩ := exists_depth w
  induction hn : depth y using Nat.strongRecOn generalizing y with
  | _ j ih =>
    by_cases hf : starts F y = true
    · exact .inl ⟨y, AncS.refl, hf, fun t ht _ => ht, fun o ho => ends_next (by simp [step, hf]) ho⟩
    · cases hp : d.h.parent y with
      | none =>
        refine .inr ⟨fun s hs => ?_, fun o ho => ends_next (t := .inl (.find none node)) (by simp [step, hf, hp])
          (ends_next rfl ho)⟩
        rcases hs with rfl | hs
        · simpa using hf
        · obtain ⟨q, hq, _⟩ := anc_iff.1 hs; simp [hp] at hq
      | some p =>
        have hup : ∀ t, AncS d.h t y → starts F t = true → AncS d.h t p := by
          rintro t (rfl | ht) h1
          · exact absurd h1 hf
          · obtain ⟨q, hq, h4⟩ := anc_iff.1 ht
            rw [hp] at hq; cases hq; exact h4
        have hst : step d n C F (.find (some y) node) = .inl (.find (some p) node) := by simp [step, hf, hp]
        rcases ih (depth p) (by have := hd _ _ hp; omega) p rfl with ⟨s, h1, h2, h3, h4⟩ | ⟨h1, h2⟩
        · exact .inl ⟨s, h1.trans (.inr (.parent hp)), h2, fun t ht hft => h3 t (hup t ht hft) hft,
            fun o ho => ends_next hst (h4 o ho)⟩
        · refine .inr ⟨fun s hs => ?_, fun o ho => ends_next hst (h2 o ho)⟩
          cases hsf : starts F s with
          | false => rfl
          | true => rw [h1 s (hup s hs hsf)] at hsf; cases hsf

/-- The climb to the first match, up to `start`. -/
theorem climb_ok (w : WF d.h) (start : Option NodeId) (k : Then) (x : NodeId)
    (hs : ∀ s, start = some s → Anc d.h s x ∨ d.h.parent x = none) :
    (∃ m, AncS d.h m x ∧ C m = true ∧ (∀ m', AncS d.h m' x → C m' = true → AncS d.h m' m) ∧
      (m = x ∨ ∀ s, start = some s → Anc d.h s m) ∧
      ∀ o, Ends d n C F (.inl (.tally (some m) 0 k)) o → Ends d n C F (.inl (.climb x start k)) o) ∨
    ((∀ m, AncS d.h m x → C m = true → m ≠ x ∧ ∃ s, start = some s ∧ AncS d.h m s) ∧
      ∀ o, Ends d n C F (.inl (.back 0 k)) o → Ends d n C F (.inl (.climb x start k)) o) := by
  obtain ⟨depth, hd, _, _⟩ := exists_depth w
  induction hn : depth x using Nat.strongRecOn generalizing x with
  | _ j ih =>
    by_cases hc : C x = true
    · exact .inl ⟨x, AncS.refl, hc, fun _ h _ => h, .inl rfl, fun o ho => ends_next (by simp [step, hc]) ho⟩
    · cases hp : d.h.parent x with
      | none =>
        refine .inr ⟨fun m hm hcm => ?_, fun o ho => ends_next (by simp [step, hc, hp]) ho⟩
        rcases hm with rfl | hm
        · exact absurd hcm hc
        · obtain ⟨q, hq, _⟩ := anc_iff.1 hm; simp [hp] at hq
      | some p =>
        have hup : ∀ t, AncS d.h t x → C t = true → t ≠ x ∧ AncS d.h t p := by
          rintro t (rfl | ht) h1
          · exact absurd h1 hc
          · obtain ⟨q, hq, h4⟩ := anc_iff.1 ht
            rw [hp] at hq; cases hq
            exact ⟨fun he => w.acyclic x (he ▸ ht), h4⟩
        by_cases hps : some p = start
        · exact .inr ⟨fun m hm hcm => ⟨(hup m hm hcm).1, p, hps.symm, (hup m hm hcm).2⟩,
            fun o ho => ends_next (t := .inl (.back 0 k)) (by simp [step, hc, hp, ← hps]) ho⟩
        · have hst : step d n C F (.climb x start k) = .inl (.climb p start k) := by simp [step, hc, hp, hps]
          have hsp : ∀ s, start = some s → Anc d.h s p := by
            intro s he
            rcases hs s he with h1 | h1
            · obtain ⟨q, hq, h4⟩ := anc_iff.1 h1
              rw [hp] at hq; cases hq
              rcases h4 with rfl | h4
              · exact absurd he.symm hps
              · exact h4
            · simp [hp] at h1
          rcases ih (depth p) (by have := hd _ _ hp; omega) p (fun s he => .inl (hsp s he)) rfl with
            ⟨m, h1, h2, h3, h4, h5⟩ | ⟨h1, h2⟩
          · refine .inl ⟨m, h1.trans (.inr (.parent hp)), h2, fun m' hm hcm => h3 m' (hup m' hm hcm).2 hcm, .inr ?_,
              fun o ho => ends_next hst (h5 o ho)⟩
            intro s he
            rcases h4 with rfl | h4
            · exact hsp s he
            · exact h4 s he
          · exact .inr ⟨fun m hm hcm => ⟨(hup m hm hcm).1, (h1 m (hup m hm hcm).2 hcm).2⟩,
              fun o ho => ends_next hst (h2 o ho)⟩

theorem place_pos {h : Heap} {P : NodeId → Prop} {m k : Nat} (hp : Place h P m k) : k ≠ 0 := by
  obtain ⟨_, _, rfl⟩ := hp; omega

theorem back_format (v : Nat) : Ends d n C F (.inl (.back v .format)) (finish v) := .step (.done _)

/-! `level="multiple"` -/

theorem searched_root {h : Heap} {P : NodeId → Prop} {x m : NodeId} (hp : h.parent x = none) :
    Searched h P x m ↔ m = x := by
  constructor
  · rintro ⟨rfl | h1, _⟩
    · rfl
    · obtain ⟨q, hq, _⟩ := anc_iff.1 h1; simp [hp] at hq
  · rintro rfl
    refine ⟨AncS.refl, fun s hs => ?_⟩
    obtain ⟨q, hq, _⟩ := anc_iff.1 hs.1; simp [hp] at hq

theorem searched_from {h : Heap} (w : WF h) {P : NodeId → Prop} {x p m : NodeId} (hp : h.parent x = some p) (hf : P p) :
    Searched h P x m ↔ m = x := by
  constructor
  · rintro ⟨h1, h2⟩
    have : Anc h p m := h2 p ⟨.parent hp, hf, fun t ht _ => by
      obtain ⟨q, hq, h3⟩ := anc_iff.1 ht
      rw [hp] at hq; cases hq; exact h3⟩
    rcases h1 with rfl | h1
    · rfl
    · obtain ⟨q, hq, h3⟩ := anc_iff.1 h1
      rw [hp] at hq; cases hq
      exact absurd (h3.anc this) (w.acyclic m)
  · rintro rfl
    exact ⟨AncS.refl, fun s hs => hs.1⟩

theorem nearest_up {h : Heap} {P : NodeId → Prop} {x p s : NodeId} (hp : h.parent x = some p) (hf : ¬ P p) :
    Nearest h P x s ↔ Nearest h P p s := by
  have hup : ∀ t, P t → (Anc h t x ↔ Anc h t p) := by
    intro t ht
    constructor
    · intro h1
      obtain ⟨q, hq, h3⟩ := anc_iff.1 h1
      rw [hp] at hq; cases hq
      rcases h3 with rfl | h3
      · exact absurd ht hf
      · exact h3
    · exact fun h1 => .step h1 hp
  constructor
  · rintro ⟨h1, h2, h3⟩
    exact ⟨(hup s h2).1 h1, h2, fun t ht hpt => h3 t ((hup t hpt).2 ht) hpt⟩
  · rintro ⟨h1, h2, h3⟩
    exact ⟨(hup s h2).2 h1, h2, fun t ht hpt => h3 t ((hup t hpt).1 ht) hpt⟩

theorem searched_up {h : Heap} {P : NodeId → Prop} {x p m : NodeId} (hp : h.parent x = some p) (hf : ¬ P p) :
    Searched h P x m ↔ m = x ∨ Searched h P p m := by
  constructor
  · rintro ⟨h1, h2⟩
    rcases h1 with rfl | h1
    · exact .inl rfl
    · obtain ⟨q, hq, h3⟩ := anc_iff.1 h1
      rw [hp] at hq; cases hq
      exact .inr ⟨h3, fun s hs => h2 s ((nearest_up hp hf).2 hs)⟩
  · rintro (rfl | ⟨h1, h2⟩)
    · exact ⟨AncS.refl, fun s hs => hs.1⟩
    · exact ⟨h1.trans (.inr (.parent hp)), fun s hs => h2 s ((nearest_up hp hf).1 hs)⟩

/-- `IsMultiple` with the nodes. -/
def Chain (h : Heap) (P Q : NodeId → Prop) (x : NodeId) (ms : List NodeId) (l : List Nat) : Prop :=
  ms.Pairwise (Before h) ∧ (∀ m, m ∈ ms ↔ Searched h Q x m ∧ P m) ∧
    l.length = ms.length ∧ ∀ (i : Nat) m k, ms[i]? = some m → l[i]? = some k → Place h P m k

/-- One more node at the end of the list. -/
theorem chain_add {h : Heap} {P Q R : NodeId → Prop} {x : NodeId} {ms : List NodeId} {l : List Nat} {v : Nat}
    (h1 : ms.Pairwise (Before h)) (h2 : ∀ m, m ∈ ms ↔ R m ∧ P m) (h3 : l.length = ms.length)
    (h4 : ∀ (i : Nat) m k, ms[i]? = some m → l[i]? = some k → Place h P m k)
    (hs : ∀ m, Searched h Q x m ↔ m = x ∨ R m) (hR : ∀ m, R m → Before h m x) (hx : P x) (hv : Place h P x v) :
    Chain h P Q x (ms ++ [x]) (l ++ [v]) := by
  refine ⟨?_, ?_, by simp [h3], ?_⟩
  · rw [List.pairwise_append]
    refine ⟨h1, by simp, ?_⟩
    intro a ha b hb
    rw [List.mem_singleton] at hb; subst hb
    exact hR a ((h2 a).1 ha).1
  · intro m
    rw [List.mem_append, List.mem_singleton, h2, hs]
    constructor
    · rintro (⟨ha, hb⟩ | rfl)
      · exact ⟨.inr ha, hb⟩
      · exact ⟨.inl rfl, hx⟩
    · rintro ⟨rfl | ha, hb⟩
      · exact .inr rfl
      · exact .inl ⟨ha, hb⟩
  · intro i m k hi hk
    by_cases hlt : i < ms.length
    · rw [List.getElem?_append_left hlt] at hi
      rw [List.getElem?_append_left (by omega)] at hk
      exact h4 i m k hi hk
    · have hi' := (List.getElem?_eq_some_iff.1 hi).1
      simp only [List.length_append, List.length_singleton] at hi'
      have he : i = ms.length := by omega
      subst he
      rw [← h3] at hk
      simp only [List.getElem?_concat_length, Option.some.injEq] at hi hk
      subst hi; subst hk; exact hv

theorem chain_skip {h : Heap} {P Q R : NodeId → Prop} {x : NodeId} {ms : List NodeId} {l : List Nat}
    (h1 : ms.Pairwise (Before h)) (h2 : ∀ m, m ∈ ms ↔ R m ∧ P m) (h3 : l.length = ms.length)
    (h4 : ∀ (i : Nat) m k, ms[i]? = some m → l[i]? = some k → Place h P m k)
    (hs : ∀ m, Searched h Q x m ↔ m = x ∨ R m) (hx : ¬ P x) :
    Chain h P Q x ms l := by
  refine ⟨h1, fun m => ?_, h3, h4⟩
  rw [h2, hs]
  constructor
  · exact fun ⟨a, b⟩ => ⟨.inr a, b⟩
  · rintro ⟨rfl | a, b⟩
    · exact absurd b hx
    · exact ⟨a, b⟩

theorem starts_false_of (hf : ¬ starts F n = true) : starts F n = false := by simpa using hf

/-- The end of the loop body when there is no more to search. -/
theorem upwards_stop {x : NodeId} {values : List Nat}
    (hx : d.h.parent x = none ∨ ∃ p, d.h.parent x = some p ∧ starts F p = true) :
    Ends d n C F (upwards d.h F x values) (.ok values) := by
  rcases hx with hp | ⟨p, hp, hf⟩
  · simp only [upwards, hp]; exact ends_next rfl (.done _)
  · cases F with
    | none => cases hf
    | some f =>
      have hf : f p = true := hf
      simp only [upwards, hp, hf, if_true]; exact .done _

theorem upwards_go {x p : NodeId} {values : List Nat} (hp : d.h.parent x = some p) (hf : ¬ starts F p = true) :
    upwards d.h F x values = .inl (.outer (some p) values) := by
  cases F with
  | none => simp [upwards, hp]
  | some f =>
    have hf : ¬ f p = true := hf
    simp [upwards, hp, hf]

/-- What is done at one node of the loop. -/
theorem outer_visit (w : WF d.h) {x : NodeId} (ht : TreeNode d.h x) (values : List Nat) :
    (C x = false ∧ step d n C F (.outer (some x) values) = upwards d.h F x values) ∨
    (C x = true ∧ ∃ v, Place d.h (fun x => C x = true) x v ∧
      ∀ o, Ends d n C F (upwards d.h F x (v :: values)) o → Ends d n C F (.inl (.outer (some x) values)) o) := by
  cases hc : C x with
  | false => exact .inl ⟨rfl, by simp [step, hc]⟩
  | true =>
    obtain ⟨start, h1, _, h3⟩ := root_ok (n := n) (C := C) (F := F) w x (.insert x values) x
    obtain ⟨v, hv, h5⟩ := tally_ok (n := n) (C := C) (F := F) w ht (.insert x values)
    refine .inr ⟨rfl, v, hv, fun o ho => ?_⟩
    refine ends_next (t := .inl (.root x x (.insert x values))) (by simp [step, hc]) (h3 o ?_)
    refine ends_next (t := .inl (.tally (some x) 0 (.insert x values))) (by simp [step, hc]) (h5 o ?_)
    exact ends_next rfl ho

theorem outer_ok (w : WF d.h) (x : NodeId) (ht : TreeNode d.h x) (values : List Nat) :
    ∃ ms l, Chain d.h (fun x => C x = true) (fun x => starts F x = true) x ms l ∧
      Ends d n C F (.inl (.outer (some x) values)) (.ok (l ++ values)) := by
  obtain ⟨depth, hd, _, _⟩ := exists_depth w
  induction hn : depth x using Nat.strongRecOn generalizing x values with
  | _ j ih =>
    by_cases hx : d.h.parent x = none ∨ ∃ p, d.h.parent x = some p ∧ starts F p = true
    · have hs : ∀ m, Searched d.h (fun x => starts F x = true) x m ↔ m = x ∨ False := by
        intro m
        rw [or_false]
        rcases hx with hp | ⟨p, hp, hf⟩
        · exact searched_root hp
        · exact searched_from w (P := fun x => starts F x = true) hp hf
      rcases outer_visit (n := n) (C := C) (F := F) w ht values with ⟨hc, h1⟩ | ⟨hc, v, hv, h1⟩
      · exact ⟨[], [], chain_skip (R := fun _ => False) .nil (by simp) rfl (by simp) hs (by simp [hc]),
          ends_next h1 (upwards_stop hx)⟩
      · exact ⟨[x], [v], chain_add (ms := []) (l := []) (R := fun _ => False) .nil (by simp) rfl (by simp) hs nofun hc hv,
          h1 _ (upwards_stop hx)⟩
    · cases hp : d.h.parent x with
      | none => exact absurd (.inl hp) hx
      | some p =>
        have hf : ¬ starts F p = true := fun hf => hx (.inr ⟨p, hp, hf⟩)
        have hs : ∀ m, Searched d.h (fun x => starts F x = true) x m ↔
            m = x ∨ Searched d.h (fun x => starts F x = true) p m :=
          fun m => searched_up (P := fun x => starts F x = true) hp hf
        have htp := treeNode_up w ht (.inr (.parent hp))
        rcases outer_visit (n := n) (C := C) (F := F) w ht values with ⟨hc, h1⟩ | ⟨hc, v, hv, h1⟩
        · obtain ⟨ms, l, ⟨c1, c2, c3, c4⟩, h2⟩ := ih (depth p) (by have := hd _ _ hp; omega) p htp values rfl
          refine ⟨ms, l, chain_skip c1 c2 c3 c4 hs (by simp [hc]), ends_next h1 ?_⟩
          rw [upwards_go hp hf]; exact h2
        · obtain ⟨ms, l, ⟨c1, c2, c3, c4⟩, h2⟩ := ih (depth p) (by have := hd _ _ hp; omega) p htp (v :: values) rfl
          refine ⟨ms ++ [x], l ++ [v], chain_add c1 c2 c3 c4 hs ?_ hc hv, ?_⟩
          · exact fun m hm => .anc (anc_iff.2 ⟨p, hp, hm.1⟩)
          · refine h1 _ ?_
            rw [upwards_go hp hf]; simpa using h2

/-! `level="any"` -/

/-- `e` is the node before `x` in document order. -/
def Pred (h : Heap) (x e : NodeId) : Prop := TreeNode h e ∧ ∀ y, TreeNode h y → (Before h y x ↔ y = e ∨ Before h y e)

/-- The last node in a subtree. -/
def LastIn (h : Heap) (s e : NodeId) : Prop := AncS h s e ∧ TreeNode h e ∧ ∀ y, TreeNode h y → AncS h s y → y = e ∨ Before h y e

theorem lastChild_eq {h : Heap} (w : WF h) (x : NodeId) : lastChild h x = (h.kids x).getLast? := by
  unfold lastChild
  split
  · rfl
  · rename_i hn; rw [kids_nil w (by simpa using hn)]; rfl

theorem last_ok (w : WF d.h) (s : NodeId) (ht : TreeNode d.h s) (v : Nat) :
    ∃ e, LastIn d.h s e ∧ ∀ o, Ends d n C F (.inl (.any (some e) v)) o → Ends d n C F (.inl (.last s v)) o := by
  obtain ⟨depth, hd, _, hsz⟩ := exists_depth w
  induction hn : d.h.size - depth s using Nat.strongRecOn generalizing s with
  | _ j ih =>
    cases hk : d.h.kids s with
    | nil =>
      refine ⟨s, ⟨AncS.refl, ht, ?_⟩, fun o ho => ends_next (by simp [step, lastChild_eq w, hk]) ho⟩
      rintro y hty (rfl | hy)
      · exact .inl rfl
      · have := (below_kids w s y).2 ⟨hy, hty⟩
        rw [hk] at this
        obtain ⟨_, h1, _⟩ := this; cases h1
    | cons a as =>
      obtain ⟨qre, c, hq⟩ := concat_of_ne (l := a :: as) (k := as.length) rfl
      have hk' : d.h.kids s = qre ++ [c] := by rw [hk, hq]
      have hc : d.h.parent c = some s := w.kids_parent _ _ (by rw [hk']; simp)
      obtain ⟨e, ⟨h1, h2, h3⟩, h4⟩ := ih (d.h.size - depth c)
        (by have := hd _ _ hc; have := hsz c; omega) c
        (childKind_tree (w.child_kind s c (by rw [hk']; simp))) rfl
      refine ⟨e, ⟨.inr (anc_cons hc h1), h2, ?_⟩, fun o ho =>
        ends_next (t := .inl (.last c v)) (by simp [step, lastChild_eq w, hk']) (h4 o ho)⟩
      rintro y hty (rfl | hy)
      · exact .inr (.anc (anc_cons hc h1))
      · obtain ⟨b, hb, hby, _⟩ := (below_kids w s y).2 ⟨hy, hty⟩
        rw [hk', List.mem_append, List.mem_singleton] at hb
        rcases hb with hb | rfl
        · right
          obtain ⟨q1, q2, rfl⟩ := List.append_of_mem hb
          exact before_of_split (p := s) (pre := q1) (c := b) (post := q2 ++ [c]) (by simp [hk']) (by simp) hby h1
        · exact h3 y hty hby

/-- Before a child are the trees of its preceding siblings, its parent, and what is before that. -/
theorem before_child {h : Heap} (w : WF h) {p x y : NodeId} {pre post : List NodeId} (hl : h.kids p = pre ++ x :: post)
    (hy : TreeNode h y) : Before h y x ↔ Below h pre y ∨ y = p ∨ Before h y p := by
  have hp : h.parent x = some p := w.kids_parent _ _ (by rw [hl]; simp)
  constructor
  · intro hb
    by_cases ha : Anc h y x
    · obtain ⟨q, hq, h3⟩ := anc_iff.1 ha
      rw [hp] at hq; cases hq
      rcases h3 with h3 | h3
      · exact .inr (.inl h3)
      · exact .inr (.inr (.anc h3))
    · rcases (prec_split w hl).1 ⟨hy, hb, ha⟩ with h1 | h1
      · exact .inl h1
      · exact .inr (.inr h1.2.1)
  · rintro (h1 | rfl | h1)
    · exact ((prec_split w hl).2 (.inl h1)).2.1
    · exact .anc (.parent hp)
    · exact before_trans w h1 (.anc (.parent hp))

theorem pred_first {h : Heap} (w : WF h) {p x : NodeId} {post : List NodeId} (ht : TreeNode h x) (hl : h.kids p = x :: post) :
    Pred h x p := by
  have hp : h.parent x = some p := w.kids_parent _ _ (by rw [hl]; simp)
  refine ⟨treeNode_up w ht (.inr (.parent hp)), fun y hy => ?_⟩
  rw [before_child w (pre := []) hl hy]
  constructor
  · rintro (⟨_, h1, _⟩ | h1)
    · cases h1
    · exact h1
  · exact .inr

theorem pred_sibling {h : Heap} (w : WF h) {p s x e : NodeId} {pre post : List NodeId} (hl : h.kids p = pre ++ s :: x :: post)
    (he : LastIn h s e) : Pred h x e := by
  have hs : h.parent s = some p := w.kids_parent _ _ (by rw [hl]; simp)
  have hex : Before h e x := before_of_split hl (by simp) he.1 AncS.refl
  refine ⟨he.2.1, fun y hy => ⟨fun hb => ?_, ?_⟩⟩
  · rcases (before_child w (p := p) (pre := pre ++ [s]) (post := post) (by simp [hl]) hy).1 hb with h1 | h1 | h1
    · rcases below_append.1 h1 with ⟨b, hb, hby, _⟩ | ⟨b, hb, hby, _⟩
      · obtain ⟨q1, q2, rfl⟩ := List.append_of_mem hb
        exact .inr (before_of_split (p := p) (pre := q1) (c := b) (post := q2 ++ s :: x :: post) (by simp [hl]) (by simp) hby he.1)
      · rw [List.mem_singleton] at hb; subst hb
        exact he.2.2 y hy hby
    · subst h1; exact .inr (.anc (anc_cons hs he.1))
    · exact .inr (before_trans w h1 (.anc (anc_cons hs he.1)))
  · rintro (rfl | h1)
    · exact hex
    · exact before_trans w h1 hex

theorem before_bounded {h : Heap} (w : WF h) {a b : NodeId} (hb : Before h a b) : a < h.size := by
  cases hb with
  | anc h1 => obtain ⟨c, hc, _⟩ := h1.child; exact (w.bounded _ _ hc).2
  | sib p i j c e hi _ _ h1 _ =>
    rcases h1 with rfl | h1
    · exact (w.bounded _ _ (kid_parent w hi)).1
    · obtain ⟨q, hq, _⟩ := anc_iff.1 h1; exact (w.bounded _ _ hq).1

theorem filter_lt {l : List Nat} {p q : Nat → Bool} (hpq : ∀ x, p x = true → q x = true) {a : Nat} (ha : a ∈ l)
    (hq : q a = true) (hp : p a = false) : (l.filter p).length < (l.filter q).length := by
  have le : ∀ l : List Nat, (l.filter p).length ≤ (l.filter q).length := by
    intro l
    induction l with
    | nil => exact Nat.le_refl _
    | cons b l ih =>
      cases hb : p b with
      | true => simp [hb, hpq b hb, ih]
      | false => cases hb' : q b <;> simp [hb, hb'] <;> omega
  induction l with
  | nil => cases ha
  | cons b l ih =>
    rcases List.mem_cons.1 ha with rfl | ha
    · simp only [List.filter_cons, hp, hq, if_true, Bool.false_eq_true, if_false, List.length_cons]
      have := le l; omega
    · have := ih ha
      cases hb : p b with
      | true => simp [hb, hpq b hb, this]
      | false => cases hb' : q b <;> simp [hb, hb'] <;> omega

/-- Document order is well-founded. -/
theorem exists_rank {h : Heap} (w : WF h) : ∃ rank : NodeId → Nat, ∀ a b, Before h a b → rank a < rank b := by
  classical
  refine ⟨fun b => ((List.range h.size).filter fun a => decide (Before h a b)).length, fun a b hab => ?_⟩
  refine filter_lt (a := a) ?_ (List.mem_range.2 (before_bounded w hab)) (by simpa using hab) ?_
  · intro x hx
    simp only [decide_eq_true_eq] at hx ⊢
    exact before_trans w hx hab
  · simpa using before_irrefl w

/-- The nodes that are counted from a node on, backwards. -/
def Counted (h : Heap) (P Q : NodeId → Prop) (x y : NodeId) : Prop :=
  TreeNode h y ∧ (y = x ∨ Before h y x) ∧ P y ∧ ∀ z, TreeNode h z → (z = x ∨ Before h z x) → Q z → Before h z y

theorem counted_step {h : Heap} {P Q : NodeId → Prop} {x e y : NodeId} (ht : TreeNode h x) (hq : ¬ Q x)
    (he : Pred h x e) : Counted h P Q x y ↔ (y = x ∧ P x) ∨ Counted h P Q e y := by
  constructor
  · rintro ⟨h1, rfl | h2, h3, h4⟩
    · exact .inl ⟨rfl, h3⟩
    · exact .inr ⟨h1, (he.2 y h1).1 h2, h3, fun z hz hzx hqz => h4 z hz (.inr ((he.2 z hz).2 hzx)) hqz⟩
  · rintro (⟨rfl, h1⟩ | ⟨h1, h2, h3, h4⟩)
    · refine ⟨ht, .inl rfl, h1, ?_⟩
      rintro z hz (rfl | hzx) hqz
      · exact absurd hqz hq
      · exact hzx
    · refine ⟨h1, .inr ((he.2 y h1).2 h2), h3, ?_⟩
      rintro z hz (rfl | hzx) hqz
      · exact absurd hqz hq
      · exact h4 z hz ((he.2 z hz).1 hzx) hqz

theorem counted_from {h : Heap} (w : WF h) {P Q : NodeId → Prop} {x y : NodeId} (ht : TreeNode h x) (hq : Q x) :
    ¬ Counted h P Q x y := by
  rintro ⟨_, h2, _, h4⟩
  have := h4 x ht (.inl rfl) hq
  rcases h2 with rfl | h2
  · exact before_irrefl w this
  · exact before_asymm w this h2

theorem not_before_root {h : Heap} (w : WF h) {x y : NodeId} (hp : h.parent x = none) : ¬ Before h y x := by
  intro hb
  cases hb with
  | anc h1 => obtain ⟨q, hq, _⟩ := anc_iff.1 h1; simp [hp] at hq
  | sib p i j c e hi hj hij h1 h2 =>
    rcases h2 with rfl | h2
    · have := kid_parent w hj; simp [hp] at this
    · obtain ⟨q, hq, _⟩ := anc_iff.1 h2; simp [hp] at hq

/-- The list with a node in front, if it is counted. -/
theorem lists_cons {h : Heap} (w : WF h) {Q : NodeId → Prop} {x : NodeId} {l : List NodeId} {R : NodeId → Prop}
    (hl : Lists l R) (hR : ∀ y, R y → Before h y x) (v : Nat)
    (hs : ∀ y, Counted h (fun x => C x = true) Q x y ↔ (y = x ∧ C x = true) ∨ R y) :
    ∃ l', Lists l' (Counted h (fun x => C x = true) Q x) ∧
      v + l'.length = (if C x = true then v + 1 else v) + l.length := by
  cases hc : C x with
  | true =>
    refine ⟨x :: l, ⟨List.nodup_cons.2 ⟨fun hx => before_irrefl w (hR x ((hl.2 x).1 hx)), hl.1⟩, fun y => ?_⟩,
      by simp; omega⟩
    rw [hs, List.mem_cons, hl.2]; simp [hc]
  | false => exact ⟨l, ⟨hl.1, fun y => by rw [hs, hl.2]; simp [hc]⟩, by simp⟩

theorem any_ok (w : WF d.h) (x : NodeId) (ht : TreeNode d.h x) (v : Nat) :
    ∃ l, Lists l (Counted d.h (fun x => C x = true) (fun x => starts F x = true) x) ∧
      Ends d n C F (.inl (.any (some x) v)) (finish (v + l.length)) := by
  obtain ⟨rank, hrank⟩ := exists_rank w
  induction hn : rank x using Nat.strongRecOn generalizing x v with
  | _ j ih =>
    by_cases hf : starts F x = true
    · exact ⟨[], lists_nil fun y => counted_from w ht hf, ends_next (t := .inr (finish v)) (by simp [step, hf]) (.done _)⟩
    · -- the step to the node before
      have go : ∀ e, Pred d.h x e →
          (∀ o, Ends d n C F (.inl (.any (some e) (if C x = true then v + 1 else v))) o →
            Ends d n C F (.inl (.any (some x) v)) o) →
          ∃ l, Lists l (Counted d.h (fun x => C x = true) (fun x => starts F x = true) x) ∧
            Ends d n C F (.inl (.any (some x) v)) (finish (v + l.length)) := by
        intro e he hgo
        have hex : Before d.h e x := (he.2 e he.1).2 (.inl rfl)
        obtain ⟨l, hl, h1⟩ := ih (rank e) (by have := hrank e x hex; omega) e he.1
          (if C x = true then v + 1 else v) rfl
        obtain ⟨l', hl', h2⟩ := lists_cons w (x := x) (Q := fun x => starts F x = true) hl
          (fun y hy => (he.2 y hy.1).2 hy.2.1) v
          (fun y => counted_step (Q := fun x => starts F x = true) ht hf he)
        exact ⟨l', hl', by rw [h2]; exact hgo _ h1⟩
      cases hp : d.h.parent x with
      | none =>
        obtain ⟨l', hl', h2⟩ := lists_cons (h := d.h) (C := C) w (x := x) (l := []) (R := fun _ => False)
          (Q := fun x => starts F x = true) (lists_nil fun _ h => h) nofun v (by
            intro y
            rw [or_false]
            constructor
            · rintro ⟨_, rfl | h2, h3, _⟩
              · exact ⟨rfl, h3⟩
              · exact absurd h2 (not_before_root w hp)
            · rintro ⟨rfl, h1⟩
              refine ⟨ht, .inl rfl, h1, ?_⟩
              rintro z _ (rfl | hz) hqz
              · exact absurd hqz hf
              · exact absurd hz (not_before_root w hp))
        refine ⟨l', hl', ?_⟩
        rw [h2]
        refine ends_next (t := .inl (.any none (if C x = true then v + 1 else v)))
          (by simp [step, hf, precedingSibling, hp]) ?_
        exact ends_next rfl (.done _)
      | some p =>
        obtain ⟨pre, post, hl⟩ := kids_split w hp ht
        have ps := precedingSibling_eq w hl
        cases hpre : pre.length with
        | zero =>
          rw [List.length_eq_zero_iff] at hpre; subst hpre
          exact go p (pred_first w ht hl) fun o ho => ends_next (t := .inl (.any (some p) (if C x = true then v + 1 else v)))
            (by simp only [step, ps, hp, List.getLast?_nil]; simp [hf]) ho
        | succ i =>
          obtain ⟨qre, s, rfl⟩ := concat_of_ne hpre
          have hl' : d.h.kids p = qre ++ s :: x :: post := by simp [hl]
          have hts : TreeNode d.h s := childKind_tree (w.child_kind p s (by rw [hl']; simp))
          obtain ⟨e, he, h4⟩ := last_ok (n := n) (C := C) (F := F) w s hts (if C x = true then v + 1 else v)
          exact go e (pred_sibling w hl' he) fun o ho => ends_next (t := .inl (.last s (if C x = true then v + 1 else v)))
            (by simp [step, hf, ps]) (h4 o ho)

/-! `level="single"` without patterns -/

theorem simple_ok (w : WF d.h) {p : NodeId} (pre post : List NodeId) (hl : d.h.kids p = pre ++ post) (v : Nat) :
    Ends d n C F (.inl (.simple pre.getLast? v)) (.ok [v + (pre.filter (alike d n)).length]) := by
  induction hn : pre.length generalizing pre post v with
  | zero =>
    rw [List.length_eq_zero_iff] at hn; subst hn
    exact ends_next rfl (.done _)
  | succ j ih =>
    obtain ⟨qre, c, rfl⟩ := concat_of_ne hn
    have hl' : d.h.kids p = qre ++ c :: post := by simp [hl]
    have ps := precedingSibling_eq w hl'
    simp only [List.getLast?_append, List.getLast?_singleton, Option.some_or]
    refine ends_next (t := .inl (.simple qre.getLast? (if alike d n c then v + 1 else v)))
      (by simp [step, before, ps]) ?_
    have h1 := ih qre (c :: post) hl' (if alike d n c then v + 1 else v) (by simpa using hn)
    have : (if alike d n c = true then v + 1 else v) + (qre.filter (alike d n)).length =
        v + ((qre ++ [c]).filter (alike d n)).length := by
      cases ha : alike d n c <;> simp [List.filter_append, ha]; omega
    rw [← this]; exact h1

end Verif.Xslt.Count
