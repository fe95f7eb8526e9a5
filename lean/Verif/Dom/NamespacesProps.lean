import Verif.Dom.Namespaces
import Verif.Dom.TableProps
import Verif.Dom.EditProps

/-
C17: prefixes and namespaces.
-/
namespace Verif.Dom.Spec
open Verif Verif.Dom

/-- The declarations of a document: only elements have them, and an element declares a prefix once. -/
structure Declared (h : Heap) (d : Decls) : Prop where
  element : ∀ e, h.kind e ≠ .element → d.nodes e = []
  once : ∀ e, ((d.nodes e).map d.name).Nodup

/-- The element `e` carries the declaration `xmlns:p="u"` (`xmlns="u"` if `p` is `none`).  Namespaces in
XML 1.0 does not allow an empty `u` for `xmlns:p`; it is not a declaration. -/
def Declares (d : Decls) (e : NodeId) (p : Option Str) (u : Str) : Prop :=
  ∃ x ∈ d.nodes e, d.name x = p ∧ d.value x = u ∧ (p = none ∨ u ≠ [])

/-- The declaration of `p` that is in force at `n` (Namespaces in XML 1.0, 6.1 and 6.2): the one of the
nearest ancestor-or-self element that has one. -/
def InForce (h : Heap) (d : Decls) (n : NodeId) (p : Option Str) (u : Str) : Prop :=
  ∃ e, AncS h e n ∧ Declares d e p u ∧
    ∀ e', AncS h e' n → Anc h e e' → ¬ ∃ u', Declares d e' p u'

/-- The namespace that a prefix (or, for `none`, its absence) stands for at `n`. -/
inductive Resolves (h : Heap) (d : Decls) (n : NodeId) (p : Option Str) : Option Str → Prop
  | declared {u : Str} : InForce h d n p u → u ≠ [] → Resolves h d n p (some u)
  | undone : InForce h d n p [] → Resolves h d n p none
  | default : p = none → (∀ u, ¬ InForce h d n p u) → Resolves h d n p none
  | xml : p = some (s!! "xml") → (∀ u, ¬ InForce h d n p u) →
      Resolves h d n p (some (s!! "http://www.w3.org/XML/1998/namespace"))

/-- No prefix is declared on two of the ancestor-or-self elements of `n`. -/
def NoShadowing (h : Heap) (d : Decls) (n : NodeId) : Prop :=
  ∀ e e' p u u', AncS h e n → AncS h e' n → Declares d e p u → Declares d e' p u' → e = e'

/-- The prefix `xml` is not bound to another namespace (Namespaces in XML 1.0, 3). -/
def XmlKept (h : Heap) (d : Decls) (n : NodeId) : Prop :=
  ∀ e u, AncS h e n → Declares d e (some (s!! "xml")) u → u = s!! "http://www.w3.org/XML/1998/namespace"

end Verif.Dom.Spec

namespace Verif.Dom
open Verif Spec

variable {h : Heap} {d : Decls}

/-- The nodes visited, grouped by element from the inside out. -/
theorem visited_spec (w : WF h) (hd : Declared h d) (n : NodeId) (hn : h.kind n = .element) :
    ∃ es : List NodeId, visited h d (h.size + 1) n = some (es.flatMap d.nodes) ∧
      es.Pairwise (fun a b => Anc h b a) ∧ (∀ e ∈ es, AncS h e n) ∧
      (∀ e, AncS h e n → e ∉ es → d.nodes e = []) := by
  obtain ⟨depth, hdp, hd0, hsz⟩ := exists_depth w
  suffices ∀ fuel n, h.kind n = .element → depth n < fuel →
      ∃ es : List NodeId, visited h d fuel n = some (es.flatMap d.nodes) ∧
      es.Pairwise (fun a b => Anc h b a) ∧ (∀ e ∈ es, AncS h e n) ∧
      (∀ e, AncS h e n → e ∉ es → d.nodes e = []) from this _ n hn (by have := hsz n; omega)
  intro fuel
  induction fuel with
  | zero => intro n _ hf; omega
  | succ fuel ih =>
    intro n hn hf
    cases hp : h.parent n with
    | none =>
      refine ⟨[n], by simp [visited, hp], by simp, by simp [AncS.refl], ?_⟩
      intro e he hne
      rcases he with rfl | he
      · simp at hne
      · obtain ⟨q, hq, _⟩ := anc_iff.1 he; simp [hp] at hq
    | some p =>
      by_cases hk : h.kind p = .element
      · have := hdp n p hp
        obtain ⟨es, h1, h2, h3, h4⟩ := ih p hk (by omega)
        refine ⟨n :: es, by simp [visited, hp, hk, h1], ?_, ?_, ?_⟩
        · rw [List.pairwise_cons]
          exact ⟨fun e he => anc_iff.2 ⟨p, hp, h3 e he⟩, h2⟩
        · intro e he
          rcases List.mem_cons.1 he with rfl | he
          · exact .refl
          · exact .inr (anc_iff.2 ⟨p, hp, h3 e he⟩)
        · intro e he hne
          rcases he with rfl | he
          · simp at hne
          · obtain ⟨q, hq, hq'⟩ := anc_iff.1 he
            rw [hp] at hq; simp at hq; subst hq
            exact h4 e hq' (fun hm => hne (by simp [hm]))
      · refine ⟨[n], by simp [visited, hp, hk], by simp, by simp [AncS.refl], ?_⟩
        intro e he hne
        rcases he with rfl | he
        · simp at hne
        · obtain ⟨q, hq, hq'⟩ := anc_iff.1 he
          rw [hp] at hq; simp at hq; subst hq
          rcases hq' with rfl | hq'
          · exact hd.element _ hk
          · exfalso
            have hcont := w.parent_kind p n hp
            have hent : h.kind p = .entity := by
              revert hcont hk; cases h.kind p <;> simp [isContainer]
            obtain ⟨q, hq, _⟩ := anc_iff.1 hq'
            rw [w.entity_root p hent] at hq; simp at hq

/-- A node counts as a declaration of `p`. -/
def Hit (d : Decls) (p : Option Str) (x : NodeId) : Prop := d.name x = p ∧ (p = none ∨ d.value x ≠ [])

theorem findNamespace_cases (d : Decls) (p : Option Str) (l : List NodeId) :
    (findNamespace d p l = none ∧ ∀ x ∈ l, ¬ Hit d p x) ∨
    ∃ pre x post, l = pre ++ x :: post ∧ (∀ y ∈ pre, ¬ Hit d p y) ∧ Hit d p x ∧
      findNamespace d p l = some (if d.value x = [] then none else some (d.value x)) := by
  induction l with
  | nil => exact .inl ⟨rfl, by simp⟩
  | cons x xs ih =>
    by_cases hx : Hit d p x
    · refine .inr ⟨[], x, xs, rfl, by simp, hx, ?_⟩
      obtain ⟨h1, h2⟩ := hx
      simp only [findNamespace]
      by_cases hv : d.value x = []
      · rcases h2 with rfl | h2
        · simp [hv, h1]
        · exact absurd hv h2
      · simp [hv, h1]
    · have hskip : findNamespace d p (x :: xs) = findNamespace d p xs := by
        simp only [findNamespace]
        by_cases hv : d.value x = []
        · by_cases hnm : d.name x = none
          · have : p ≠ d.name x := fun e => hx ⟨e.symm, .inl (e.trans hnm)⟩
            rw [if_pos hv, if_pos hnm, if_neg this]
          · rw [if_pos hv, if_neg hnm]
        · have : p ≠ d.name x := fun e => hx ⟨e.symm, .inr hv⟩
          rw [if_neg hv, if_neg this]
      rw [hskip]
      rcases ih with ⟨h1, h2⟩ | ⟨pre, y, post, h1, h2, h3, h4⟩
      · exact .inl ⟨h1, fun y hy => by
          rcases List.mem_cons.1 hy with rfl | hy
          · exact hx
          · exact h2 y hy⟩
      · refine .inr ⟨x :: pre, y, post, by rw [h1]; rfl, ?_, h3, h4⟩
        intro z hz
        rcases List.mem_cons.1 hz with rfl | hz
        · exact hx
        · exact h2 z hz

theorem declares_iff {e : NodeId} {p : Option Str} : (∃ u, Declares d e p u) ↔ ∃ x ∈ d.nodes e, Hit d p x := by
  constructor
  · rintro ⟨u, x, h1, h2, rfl, h4⟩; exact ⟨x, h1, h2, h4⟩
  · rintro ⟨x, h1, h2, h3⟩; exact ⟨_, x, h1, h2, rfl, h3⟩

/-- Splitting a concatenation at an element. -/
theorem flatMap_split {α β : Type} (f : α → List β) (es : List α) (pre post : List β) (x : β)
    (he : es.flatMap f = pre ++ x :: post) :
    ∃ es1 e es2 l1 l2, es = es1 ++ e :: es2 ∧ f e = l1 ++ x :: l2 ∧ pre = es1.flatMap f ++ l1 := by
  induction es generalizing pre with
  | nil => simp at he
  | cons e es ih =>
    rw [List.flatMap_cons, List.append_eq_append_iff] at he
    rcases he with ⟨l, h1, h2⟩ | ⟨l, h1, h2⟩
    · obtain ⟨es1, e', es2, l1, l2, h3, h4, h5⟩ := ih l h2
      exact ⟨e :: es1, e', es2, l1, l2, by rw [h3]; rfl, h4, by rw [h1, h5]; simp⟩
    · cases l with
      | nil =>
        simp at h2
        obtain ⟨es1, e', es2, l1, l2, h3, h4, h5⟩ := ih [] (by simpa using h2.symm)
        refine ⟨e :: es1, e', es2, l1, l2, by rw [h3]; rfl, h4, ?_⟩
        rw [List.flatMap_cons, List.append_assoc, ← h5, h1]; simp
      | cons y l =>
        simp at h2
        exact ⟨[], e, es, pre, l, rfl, by rw [h1, h2.1], by simp⟩

/-- The nodes visited, and the declarations in force. -/
theorem visited_inForce (w : WF h) (hd : Declared h d) (n : NodeId) (hn : h.kind n = .element) :
    ∃ l, visited h d (h.size + 1) n = some l ∧
      (∀ x ∈ l, ∃ e, AncS h e n ∧ x ∈ d.nodes e) ∧ (∀ e x, AncS h e n → x ∈ d.nodes e → x ∈ l) ∧
      ∀ p u, InForce h d n p u ↔ ∃ pre x post, l = pre ++ x :: post ∧ (∀ y ∈ pre, ¬ Hit d p y) ∧
        Hit d p x ∧ d.value x = u := by
  obtain ⟨es, h1, h2, h3, h4⟩ := visited_spec w hd n hn
  have hmem : ∀ e x, AncS h e n → x ∈ d.nodes e → e ∈ es := by
    intro e x he hx
    refine Classical.byContradiction fun hne => ?_
    rw [h4 e he hne] at hx; simp at hx
  refine ⟨_, h1, ?_, ?_, ?_⟩
  · intro x hx
    obtain ⟨e, he, hx⟩ := List.mem_flatMap.1 hx
    exact ⟨e, h3 e he, hx⟩
  · intro e x he hx
    exact List.mem_flatMap.2 ⟨e, hmem e x he hx, hx⟩
  · intro p u
    constructor
    · rintro ⟨e, he, ⟨x, hx, hnm, hv, hp⟩, hmin⟩
      obtain ⟨es1, es2, rfl⟩ := List.append_of_mem (hmem e x he hx)
      obtain ⟨l1, l2, hl⟩ := List.append_of_mem hx
      refine ⟨es1.flatMap d.nodes ++ l1, x, l2 ++ es2.flatMap d.nodes, ?_, ?_, ⟨hnm, hv ▸ hp⟩, hv⟩
      · rw [List.flatMap_append, List.flatMap_cons, hl]; simp
      · intro y hy
        rcases List.mem_append.1 hy with hy | hy
        · obtain ⟨e', he', hy⟩ := List.mem_flatMap.1 hy
          have hanc : Anc h e e' := by
            rw [List.pairwise_append] at h2
            exact h2.2.2 e' he' e (by simp)
          intro hh
          exact hmin e' (h3 e' (by simp [he'])) hanc (declares_iff.2 ⟨y, hy, hh⟩)
        · intro hh
          have := hd.once e
          rw [hl, List.map_append, List.map_cons] at this
          rw [List.nodup_append] at this
          exact this.2.2 (d.name y) (List.mem_map.2 ⟨y, hy, rfl⟩) (d.name x) (by simp) (by rw [hh.1, hnm])
    · rintro ⟨pre, x, post, hl, hpre, hx, hv⟩
      obtain ⟨es1, e, es2, l1, l2, a1, a2, a3⟩ := flatMap_split d.nodes es pre post x hl
      subst a1
      refine ⟨e, h3 e (by simp), ⟨x, by rw [a2]; simp, hx.1, hv, hv ▸ hx.2⟩, ?_⟩
      intro e' he' hanc hdec
      obtain ⟨y, hy, hh⟩ := declares_iff.1 hdec
      have hm := hmem e' y he' hy
      have hin : e' ∈ es1 := by
        rcases List.mem_append.1 hm with hm | hm
        · exact hm
        · exfalso
          rcases List.mem_cons.1 hm with rfl | hm
          · exact w.acyclic _ hanc
          · rw [List.pairwise_append, List.pairwise_cons] at h2
            exact w.acyclic _ (hanc.trans (h2.2.1.1 e' hm))
      exact hpre y (by rw [a3]; exact List.mem_append_left _ (List.mem_flatMap.2 ⟨e', hin, hy⟩)) hh

theorem inForce_unique (w : WF h) (hd : Declared h d) {n : NodeId} (hn : h.kind n = .element) {p : Option Str}
    {u v : Str} (h1 : InForce h d n p u) (h2 : InForce h d n p v) : u = v := by
  obtain ⟨l, _, _, _, h3⟩ := visited_inForce w hd n hn
  obtain ⟨pre, x, post, a1, a2, a3, a4⟩ := (h3 p u).1 h1
  obtain ⟨pre', x', post', b1, b2, b3, b4⟩ := (h3 p v).1 h2
  have : ∀ (pre pre' post post' : List NodeId), (∀ y ∈ pre, ¬ Hit d p y) → (∀ y ∈ pre', ¬ Hit d p y) →
      pre ++ x :: post = pre' ++ x' :: post' → x = x' := by
    intro pre
    induction pre with
    | nil =>
      intro pre' post post' _ hp' he
      cases pre' with
      | nil => simp at he; exact he.1
      | cons y pre' => simp at he; exact absurd a3 (he.1 ▸ hp' y (by simp))
    | cons z pre ih =>
      intro pre' post post' hp hp' he
      cases pre' with
      | nil => simp at he; exact absurd b3 (he.1 ▸ hp z (by simp))
      | cons y pre' =>
        simp at he
        exact ih pre' post post' (fun y hy => hp y (by simp [hy])) (fun y hy => hp' y (by simp [hy])) he.2
  have := this pre pre' post post' a2 b2 (a1.symm.trans b1)
  rw [← a4, ← b4, this]

/-- C17.  In every document, the namespace found for a prefix is the one that Namespaces in XML gives
it; the lookup fails exactly for prefixes that stand for nothing. -/
theorem C17_lookup (w : WF h) (hd : Declared h d) (n : NodeId) (hn : h.kind n = .element) (p : Option Str) :
    (∀ v, lookupNamespace h d n p = .found v ↔ Resolves h d n p v) ∧
    (lookupNamespace h d n p = .undeclared ↔ ∀ v, ¬ Resolves h d n p v) := by
  obtain ⟨l, h1, _, _, h2⟩ := visited_inForce w hd n hn
  suffices hex : (∃ v, lookupNamespace h d n p = .found v ∧ ∀ v', Resolves h d n p v' ↔ v' = v) ∨
      (lookupNamespace h d n p = .undeclared ∧ ∀ v, ¬ Resolves h d n p v) by
    rcases hex with ⟨v, a1, a2⟩ | ⟨a1, a2⟩
    · rw [a1]
      refine ⟨fun v' => ?_, ?_⟩
      · rw [a2]; simp [eq_comm]
      · simp only [reduceCtorEq, false_iff, a2]
        exact fun hall => hall v rfl
    · rw [a1]
      exact ⟨fun v => by simp [a2 v], by simp [a2]⟩
  simp only [lookupNamespace, h1]
  rcases findNamespace_cases d p l with ⟨a1, a2⟩ | ⟨pre, x, post, a1, a2, a3, a4⟩
  · have hno : ∀ u, ¬ InForce h d n p u := by
      intro u hu
      obtain ⟨pre, x, post, rfl, _, b2, _⟩ := (h2 p u).1 hu
      exact a2 x (by simp) b2
    rw [a1]
    dsimp only
    by_cases hp : p = none
    · rw [if_pos hp]
      refine .inl ⟨none, rfl, fun v' => ⟨fun hr => ?_, fun e => e ▸ .default hp hno⟩⟩
      cases hr with
      | declared hu _ => exact absurd hu (hno _)
      | undone hu => rfl
      | default => rfl
      | xml hx => rw [hp] at hx; simp at hx
    · rw [if_neg hp]
      by_cases hx : p = some xmlPrefix
      · rw [if_pos hx]
        refine .inl ⟨_, rfl, fun v' => ⟨fun hr => ?_, fun e => e ▸ .xml hx hno⟩⟩
        cases hr with
        | declared hu _ => exact absurd hu (hno _)
        | undone hu => exact absurd hu (hno _)
        | default hp' => exact absurd hp' hp
        | xml => rfl
      · rw [if_neg hx]
        refine .inr ⟨rfl, fun v hr => ?_⟩
        cases hr with
        | declared hu _ => exact absurd hu (hno _)
        | undone hu => exact absurd hu (hno _)
        | default hp' => exact absurd hp' hp
        | xml hx' => exact hx hx'
  · have hu : InForce h d n p (d.value x) := (h2 p _).2 ⟨pre, x, post, a1, a2, a3, rfl⟩
    rw [a4]
    refine .inl ⟨_, rfl, fun v' => ⟨fun hr => ?_, ?_⟩⟩
    · cases hr with
      | declared hu' hne =>
        have := inForce_unique w hd hn hu hu'
        rw [this, if_neg hne]
      | undone hu' =>
        have := inForce_unique w hd hn hu hu'
        rw [if_pos this]
      | default _ hno => exact absurd hu (hno _)
      | xml _ hno => exact absurd hu (hno _)
    · rintro rfl
      by_cases hv : d.value x = []
      · rw [if_pos hv]; exact .undone (hv ▸ hu)
      · rw [if_neg hv]; exact .declared hu hv

/-- A document for the examples: entity 0, elements 1, 2, 3 in each other; namespace nodes 4 (`xmlns:p="u"`)
and 5 (`xmlns="v"`) of 1, 6 (`xmlns:p="w"`) of 2 and 7 (`xmlns=""`) of 3. -/
def sampleNs : Heap :=
  let h := ((((((((Heap.empty.alloc .entity).alloc .element).alloc .element).alloc .element).alloc .ns).alloc
    .ns).alloc .ns).alloc .ns)
  let h := ((((h.setOwner 1 4).setOwner 1 5).setOwner 2 6).setOwner 3 7)
  let h := ((Edit.append 0 1).run h).heap
  let h := ((Edit.append 1 2).run h).heap
  ((Edit.append 2 3).run h).heap

def sampleDecls : Decls where
  nodes := fun e => match e with | 1 => [4, 5] | 2 => [6] | 3 => [7] | _ => []
  name := fun x => match x with | 4 => some (s!! "p") | 6 => some (s!! "p") | _ => none
  value := fun x => match x with | 4 => s!! "u" | 5 => s!! "v" | 6 => s!! "w" | _ => []

theorem sampleNs_reach : Reach sampleNs := by
  have hr : Reach ((((((((Heap.empty.alloc .entity).alloc .element).alloc .element).alloc .element).alloc
      .ns).alloc .ns).alloc .ns).alloc .ns) :=
    .new _ (.new _ (.new _ (.new _ (.new _ (.new _ (.new _ (.new _ .empty)))))))
  have hr := Reach.owner (e := 1) (a := 4) hr (by decide) (by decide) (by decide) (by decide)
  have hr := Reach.owner (e := 1) (a := 5) hr (by decide) (by decide) (by decide) (by decide)
  have hr := Reach.owner (e := 2) (a := 6) hr (by decide) (by decide) (by decide) (by decide)
  have hr := Reach.owner (e := 3) (a := 7) hr (by decide) (by decide) (by decide) (by decide)
  have e : ∀ (h : Heap) s c, s < h.size → c < h.size → h.parent c = none → Legal h (.append s c) :=
    fun h s c h1 h2 h3 => ⟨h1, h2, by simp [h3]⟩
  have h1 := Reach.do hr (.append 0 1) (e _ _ _ (by decide) (by decide) rfl) rfl
  have h2 := Reach.do h1 (.append 1 2) (e _ _ _ (by decide) (by decide) rfl) rfl
  exact Reach.do h2 (.append 2 3) (e _ _ _ (by decide) (by decide) rfl) rfl

theorem sampleDecls_declared : Declared sampleNs sampleDecls := by
  constructor
  · intro e he
    simp only [sampleDecls]
    split
    · exact absurd rfl he
    · exact absurd rfl he
    · exact absurd rfl he
    · rfl
  · intro e
    simp only [sampleDecls]
    split <;> decide

/-- The hypotheses of C17 hold of a document with shadowing and an undone default. -/
example : WF sampleNs ∧ Declared sampleNs sampleDecls ∧ sampleNs.kind 3 = .element ∧
    lookupNamespace sampleNs sampleDecls 3 (some (s!! "p")) = .found (some (s!! "w")) ∧
    lookupNamespace sampleNs sampleDecls 3 none = .found none ∧
    lookupNamespace sampleNs sampleDecls 2 none = .found (some (s!! "v")) ∧
    lookupNamespace sampleNs sampleDecls 3 (some (s!! "q")) = .undeclared :=
  ⟨C13_partial sampleNs_reach, sampleDecls_declared, by decide, by decide, by decide, by decide, by decide⟩

/-! ### The other direction: a prefix for a namespace -/

def PHit (d : Decls) (u : Str) (x : NodeId) : Prop := d.value x = u ∧ ¬ (d.value x = [] ∧ d.name x = none)

theorem findPrefix_cases (d : Decls) (u : Str) (l : List NodeId) :
    (findPrefix d (some u) l = none ∧ ∀ x ∈ l, ¬ PHit d u x) ∨
    ∃ x ∈ l, PHit d u x ∧ findPrefix d (some u) l = some (d.name x) := by
  induction l with
  | nil => exact .inl ⟨rfl, by simp⟩
  | cons x xs ih =>
    by_cases hx : PHit d u x
    · exact .inr ⟨x, by simp, hx, by simp only [findPrefix, if_neg hx.2, if_pos (congrArg some hx.1.symm)]⟩
    · have hskip : findPrefix d (some u) (x :: xs) = findPrefix d (some u) xs := by
        simp only [findPrefix]
        by_cases hc : d.value x = [] ∧ d.name x = none
        · rw [if_pos hc]
        · rw [if_neg hc, if_neg]
          intro e; simp at e; exact hx ⟨e.symm, hc⟩
      rw [hskip]
      rcases ih with ⟨h1, h2⟩ | ⟨y, h1, h2, h3⟩
      · exact .inl ⟨h1, fun y hy => by
          rcases List.mem_cons.1 hy with rfl | hy
          · exact hx
          · exact h2 y hy⟩
      · exact .inr ⟨y, by simp [h1], h2, h3⟩

/-- C17, looking for a prefix (setting `xml_namespace`, adding attributes by namespace): it fails only
if no prefix stands for the namespace. -/
theorem C17_prefix_complete (w : WF h) (hd : Declared h d) (n : NodeId) (hn : h.kind n = .element) (u : Str)
    (hf : lookupPrefix h d n (some u) = .undeclared) (p : Option Str) : ¬ Resolves h d n p (some u) := by
  obtain ⟨l, h1, _, _, h2⟩ := visited_inForce w hd n hn
  simp only [lookupPrefix, h1] at hf
  rcases findPrefix_cases d u l with ⟨a1, a2⟩ | ⟨x, _, _, a3⟩
  · rw [a1] at hf
    intro hr
    cases hr with
    | declared hu hne =>
      obtain ⟨pre, x, post, rfl, _, b2, b3⟩ := (h2 p u).1 hu
      exact a2 x (by simp) ⟨b3, fun hc => hne (b3 ▸ hc.1)⟩
    | xml => simp [xmlNamespace] at hf
  · rw [a3] at hf; simp at hf

/-- C17, looking for a prefix, what does hold: the prefix found stands for the namespace, if no prefix
is declared twice on the way to the root.  Missing: shadowed prefixes, and asking for `None` where a
default namespace is declared (`C17_prefix_refuted`). -/
theorem C17_prefix_partial (w : WF h) (hd : Declared h d) (n : NodeId) (hn : h.kind n = .element) (u : Str)
    (hu : u ≠ []) (hs : NoShadowing h d n) (hx : XmlKept h d n) (p : Option Str)
    (hf : lookupPrefix h d n (some u) = .found p) : Resolves h d n p (some u) := by
  obtain ⟨l, h1, h1', _, h2⟩ := visited_inForce w hd n hn
  simp only [lookupPrefix, h1] at hf
  rcases findPrefix_cases d u l with ⟨a1, a2⟩ | ⟨x, a1, a2, a3⟩
  · rw [a1] at hf
    dsimp only at hf
    rw [if_neg (by simp)] at hf
    split at hf
    · rename_i e
      simp at e hf
      subst hf; subst e
      refine .xml rfl (fun v hv => ?_)
      obtain ⟨e, b1, b2, _⟩ := hv
      have hv := hx e v b1 b2
      obtain ⟨pre, x, post, rfl, _, c2, c3⟩ := (h2 _ v).1 ⟨e, b1, b2, by assumption⟩
      exact a2 x (by simp) ⟨c3.trans hv, fun hc => by rw [c3, hv] at hc; simp at hc⟩
    · simp at hf
  · rw [a3] at hf
    simp at hf
    obtain ⟨e, b1, b2⟩ := h1' x a1
    refine .declared ⟨e, b1, ⟨x, b2, hf, a2.1, .inr hu⟩, ?_⟩ hu
    rintro e' he' hanc ⟨u', hu'⟩
    have := hs e e' p u u' b1 he' ⟨x, b2, hf, a2.1, .inr hu⟩ hu'
    subst this
    exact w.acyclic _ hanc

/-- Its hypotheses hold at element 1 of the sample. -/
example : NoShadowing sampleNs sampleDecls 1 ∧ XmlKept sampleNs sampleDecls 1 ∧
    lookupPrefix sampleNs sampleDecls 1 (some (s!! "u")) = .found (some (s!! "p")) := by
  refine ⟨?_, ?_, by decide⟩
  · have hanc : ∀ e, AncS sampleNs e 1 → e = 1 ∨ e = 0 := by
      intro e he
      rcases he with rfl | he
      · exact .inl rfl
      · obtain ⟨q, hq, hq'⟩ := anc_iff.1 he
        have : q = 0 := by
          have e0 : sampleNs.parent 1 = some 0 := rfl
          rw [e0] at hq; simpa using hq.symm
        subst this
        rcases hq' with rfl | hq'
        · exact .inr rfl
        · obtain ⟨q, hq, _⟩ := anc_iff.1 hq'
          have e0 : sampleNs.parent 0 = none := rfl
          rw [e0] at hq; simp at hq
    intro e e' p u u' he he' h1 h2
    have hz : ∀ p u, ¬ Declares sampleDecls 0 p u := by
      rintro p u ⟨x, hx, _⟩; simp [sampleDecls] at hx
    rcases hanc e he with rfl | rfl
    · rcases hanc e' he' with rfl | rfl
      · rfl
      · exact absurd h2 (hz _ _)
    · exact absurd h1 (hz _ _)
  · rintro e u _ ⟨x, hx, hnm, _⟩
    exfalso
    revert hnm
    simp only [sampleDecls]
    split <;> simp

/-- C17, looking for a prefix, does not hold in general.  In the sample, `p` is found for `u` at element
2, where it stands for `w`; and for "no namespace" no prefix is found at element 2, where unprefixed
names are in `v`. -/
theorem C17_prefix_refuted : ∃ h d n, Reach h ∧ Declared h d ∧ h.kind n = .element ∧
    (∃ p, lookupPrefix h d n (some (s!! "u")) = .found p ∧ ¬ Resolves h d n p (some (s!! "u"))) ∧
    (∃ p, lookupPrefix h d n none = .found p ∧ ¬ Resolves h d n p none) := by
  have hw := C13_partial sampleNs_reach
  refine ⟨sampleNs, sampleDecls, 2, sampleNs_reach, sampleDecls_declared, by decide,
    ⟨some (s!! "p"), by decide, ?_⟩, ⟨none, by decide, ?_⟩⟩
  · rw [← (C17_lookup hw sampleDecls_declared 2 (by decide) _).1]; decide
  · rw [← (C17_lookup hw sampleDecls_declared 2 (by decide) _).1]; decide

/-! ### All namespaces in scope -/

/-- The value of the first node named `p`. -/
def firstOf (d : Decls) (p : Option Str) : List NodeId → Option Str
  | [] => none
  | x :: xs => if d.name x = p then some (d.value x) else firstOf d p xs

open Table in
theorem inscopeLoop_spec {wd limit : Nat} {H : Option Str → Nat} (hw : 3 ≤ wd) (hH : ∀ x, H x < 2 ^ wd)
    (hlim : limit ≤ 2 ^ wd) (d : Decls) (self : NodeId) (l : List NodeId) (hist : List (Option Str × Str))
    (m : Map (Option Str) Str) (h : Heap) (hm : (Map.new : Map (Option Str) Str).sets wd limit H hist = .ok m) :
    (inscopeLoop wd limit H d self l (m, h) = .noMemory ∧ limit < 3 * (hist.length + l.length)) ∨
    ∃ m' h' hist', inscopeLoop wd limit H d self l (m, h) = .ok (m', h') ∧
      (Map.new : Map (Option Str) Str).sets wd limit H hist' = .ok m' ∧
      (h'.size = h.size ∧ h'.kind = h.kind ∧ h'.kids = h.kids ∧ ∀ y, y ∉ l → h'.parent y = h.parent y) ∧
      ((∀ x ∈ l, d.value x ≠ []) → ∀ p, Table.Spec.lastStored hist' p =
        match Table.Spec.lastStored hist p with
        | some v => some v
        | none => firstOf d p l) := by
  induction l generalizing hist m h with
  | nil =>
    refine .inr ⟨m, h, hist, rfl, hm, ⟨rfl, rfl, rfl, fun _ _ => rfl⟩, fun _ p => ?_⟩
    cases Table.Spec.lastStored hist p <;> rfl
  | cons x xs ih =>
    simp only [inscopeLoop]
    have hget := C16_lookup hw hH hlim hist m hm (d.name x)
    by_cases hc : d.value x = [] ∧ d.name x = none
    · rw [if_pos hc]
      rcases ih hist m h hm with ⟨a1, a2⟩ | ⟨m', h', hist', a1, a2, a3, a4⟩
      · exact .inl ⟨a1, by simp; omega⟩
      · refine .inr ⟨m', h', hist', a1, a2, ⟨a3.1, a3.2.1, a3.2.2.1, fun y hy => a3.2.2.2 y (fun hh => hy (by simp [hh]))⟩, ?_⟩
        intro hne
        exact absurd hc.1 (hne x (by simp))
    · rw [if_neg hc, hget]
      cases hl : Table.Spec.lastStored hist (d.name x) with
      | some v =>
        dsimp only
        rcases ih hist m h hm with ⟨a1, a2⟩ | ⟨m', h', hist', a1, a2, a3, a4⟩
        · exact .inl ⟨a1, by simp; omega⟩
        · refine .inr ⟨m', h', hist', a1, a2, ⟨a3.1, a3.2.1, a3.2.2.1, fun y hy => a3.2.2.2 y (fun hh => hy (by simp [hh]))⟩, ?_⟩
          intro hne p
          rw [a4 (fun y hy => hne y (by simp [hy])) p]
          by_cases hp : d.name x = p
          · subst hp; rw [hl]
          · simp only [firstOf, if_neg hp]
      | none =>
        dsimp only
        have hs := sets_append wd limit H (Map.new : Map (Option Str) Str) hist (d.name x) (d.value x)
        rw [hm] at hs
        dsimp only at hs
        have ht := C16_insert_total hw hH hlim (hist ++ [(d.name x, d.value x)])
        cases hset : m.set wd limit H (d.name x) (d.value x) with
        | noMemory =>
          rw [hset] at hs
          refine .inl ⟨rfl, ?_⟩
          refine Classical.byContradiction fun hc => ?_
          obtain ⟨m2, hm2⟩ := ht.2 (by simp at hc ⊢; omega)
          rw [hs] at hm2; simp at hm2
        | loops => rw [hset] at hs; exact absurd hs ht.1
        | ok m1 =>
          rw [hset] at hs
          dsimp only
          rcases ih _ m1 (h.setParent x (some self)) hs with ⟨a1, a2⟩ | ⟨m', h', hist', a1, a2, a3, a4⟩
          · exact .inl ⟨a1, by simp at a2 ⊢; omega⟩
          · refine .inr ⟨m', h', hist', a1, a2, ⟨a3.1, a3.2.1, a3.2.2.1, fun y hy => ?_⟩, ?_⟩
            · rw [a3.2.2.2 y (fun hh => hy (by simp [hh]))]
              have : y ≠ x := fun e => hy (by simp [e])
              simp [Heap.setParent, this]
            · intro hne p
              rw [a4 (fun y hy => hne y (by simp [hy])) p, lastStored_append]
              by_cases hp : d.name x = p
              · subst hp; simp [firstOf, hl]
              · simp only [firstOf, if_neg hp]

theorem firstOf_iff (d : Decls) (p : Option Str) (l : List NodeId) (hne : ∀ x ∈ l, d.value x ≠ []) (u : Str) :
    firstOf d p l = some u ↔ ∃ pre x post, l = pre ++ x :: post ∧ (∀ y ∈ pre, ¬ Hit d p y) ∧
      Hit d p x ∧ d.value x = u := by
  induction l with
  | nil => simp [firstOf]
  | cons x xs ih =>
    have ih := ih (fun y hy => hne y (by simp [hy]))
    simp only [firstOf]
    have hx := hne x (by simp)
    by_cases hp : d.name x = p
    · rw [if_pos hp]
      constructor
      · intro e; simp at e
        exact ⟨[], x, xs, rfl, by simp, ⟨hp, .inr hx⟩, e⟩
      · rintro ⟨pre, y, post, h1, h2, h3, h4⟩
        cases pre with
        | nil => simp at h1; rw [h1.1, h4]
        | cons z pre => simp at h1; exact absurd ⟨hp, .inr hx⟩ (h1.1 ▸ h2 z (by simp))
    · rw [if_neg hp, ih]
      constructor
      · rintro ⟨pre, y, post, h1, h2, h3, h4⟩
        refine ⟨x :: pre, y, post, by rw [h1]; rfl, ?_, h3, h4⟩
        intro z hz
        rcases List.mem_cons.1 hz with rfl | hz
        · exact fun hh => hp hh.1
        · exact h2 z hz
      · rintro ⟨pre, y, post, h1, h2, h3, h4⟩
        cases pre with
        | nil => simp at h1; exact absurd h3.1 (h1.1 ▸ hp)
        | cons z pre =>
          simp at h1
          exact ⟨pre, y, post, h1.2, fun z hz => h2 z (by simp [hz]), h3, h4⟩

/-- What `inscope` builds. -/
theorem inscope_spec {wd limit : Nat} {H : Option Str → Nat} (hw : 3 ≤ wd) (hH : ∀ x, H x < 2 ^ wd)
    (hlim : limit ≤ 2 ^ wd) (w : WF h) (hd : Declared h d) (n : NodeId) (hn : h.kind n = .element) :
    ∃ l, visited h d (h.size + 1) n = some l ∧
    ((inscope wd limit H h d n = .noMemory ∧ limit < 3 * (1 + l.length)) ∨
    ∃ m' h' hist', inscope wd limit H h d n = .ok (m', h') ∧
      (Table.Map.new : Table.Map (Option Str) Str).sets wd limit H hist' = .ok m' ∧
      (h'.size = h.size ∧ h'.kind = h.kind ∧ h'.kids = h.kids ∧ ∀ y, y ∉ l → h'.parent y = h.parent y) ∧
      ((∀ x ∈ l, d.value x ≠ []) → ∀ p, Table.Spec.lastStored hist' p =
        if some xmlPrefix = p then some xmlNamespace else firstOf d p l)) := by
  obtain ⟨l, h1, _, _, _⟩ := visited_inForce w hd n hn
  refine ⟨l, h1, ?_⟩
  have ht := Table.C16_insert_total hw hH hlim [((some xmlPrefix : Option Str), xmlNamespace)]
  have hs : (Table.Map.new : Table.Map (Option Str) Str).sets wd limit H [(some xmlPrefix, xmlNamespace)] =
      (Table.Map.new : Table.Map (Option Str) Str).set wd limit H (some xmlPrefix) xmlNamespace :=
    Table.sets_append wd limit H Table.Map.new [] _ _
  simp only [inscope, ← hs, h1]
  cases hm : (Table.Map.new : Table.Map (Option Str) Str).sets wd limit H [(some xmlPrefix, xmlNamespace)] with
  | loops => exact absurd hm ht.1
  | noMemory =>
    refine .inl ⟨rfl, Classical.byContradiction fun hc => ?_⟩
    obtain ⟨m, hm'⟩ := ht.2 (by simp; omega)
    rw [hm] at hm'; simp at hm'
  | ok m =>
    dsimp only
    rcases inscopeLoop_spec hw hH hlim d n l _ m h hm with ⟨a1, a2⟩ | ⟨m', h', hist', a1, a2, a3, a4⟩
    · exact .inl ⟨a1, by simpa using a2⟩
    · refine .inr ⟨m', h', hist', a1, a2, a3, fun hne p => ?_⟩
      rw [a4 hne p]
      simp only [Table.Spec.lastStored]
      by_cases hp : some xmlPrefix = p <;> simp [hp]

/-- C17, the `xml_namespaces` of an element, what does hold: reading them succeeds, and they are the
prefixes that stand for a namespace, each with its namespace.  Missing: declarations `xmlns=""`
(`C17_inscope_refuted`), and `xmlns:p=""`, which is not legal. -/
theorem C17_inscope_partial {wd limit : Nat} {H : Option Str → Nat} (hw : 3 ≤ wd) (hH : ∀ x, H x < 2 ^ wd)
    (hlim : limit ≤ 2 ^ wd) (w : WF h) (hd : Declared h d) (n : NodeId) (hn : h.kind n = .element)
    (hx : XmlKept h d n) (hne : ∀ e x, AncS h e n → x ∈ d.nodes e → d.value x ≠ [])
    (m : Table.Map (Option Str) Str) (h' : Heap) (hm : inscope wd limit H h d n = .ok (m, h'))
    (p : Option Str) (u : Str) :
    m.get wd H p = .ok (some u) ↔ Resolves h d n p (some u) := by
  obtain ⟨l, h1, h2, _, h3⟩ := visited_inForce w hd n hn
  have hne' : ∀ x ∈ l, d.value x ≠ [] := fun x hx => by
    obtain ⟨e, he, hxe⟩ := h2 x hx; exact hne e x he hxe
  obtain ⟨l', h1', h4⟩ := inscope_spec hw hH hlim w hd n hn
  rw [h1] at h1'; simp at h1'; subst h1'
  rcases h4 with ⟨a1, _⟩ | ⟨m', h'', hist', a1, a2, _, a4⟩
  · rw [a1] at hm; simp at hm
  · rw [a1] at hm
    simp at hm
    obtain ⟨rfl, rfl⟩ := hm
    rw [Table.C16_lookup hw hH hlim hist' m' a2 p, a4 hne' p]
    by_cases hp : some xmlPrefix = p
    · subst hp
      simp only [if_true]
      constructor
      · intro e
        simp at e; subst e
        by_cases hin : ∃ v, InForce h d n (some xmlPrefix) v
        · obtain ⟨v, hv⟩ := hin
          obtain ⟨e, b1, b2, b3⟩ := hv
          have hv := hx e v b1 b2
          subst hv
          exact .declared ⟨e, b1, b2, b3⟩ (by decide)
        · exact .xml rfl (fun v hv => hin ⟨v, hv⟩)
      · intro hr
        cases hr with
        | declared hu _ =>
          obtain ⟨e, b1, b2, _⟩ := hu
          rw [hx e u b1 b2]; rfl
        | xml => rfl
    · rw [if_neg hp]
      simp only [Table.Res.ok.injEq]
      rw [firstOf_iff d p l hne' u, ← h3]
      constructor
      · intro hu
        obtain ⟨pre, x, post, rfl, _, _, b3⟩ := (h3 p u).1 hu
        exact .declared hu (b3 ▸ hne' x (by simp))
      · intro hr
        cases hr with
        | declared hu _ => exact hu
        | xml hx' => exact absurd hx'.symm hp

/-- C17, the `xml_namespaces` property does not loop, and does not fail while the memory for three
table slots per declaration (and `xml`) is there. -/
theorem C17_inscope_total {wd limit : Nat} {H : Option Str → Nat} (hw : 3 ≤ wd) (hH : ∀ x, H x < 2 ^ wd)
    (hlim : limit ≤ 2 ^ wd) (w : WF h) (hd : Declared h d) (n : NodeId) (hn : h.kind n = .element) :
    inscope wd limit H h d n ≠ .loops ∧
    ∃ l, visited h d (h.size + 1) n = some l ∧
      (3 * (1 + l.length) ≤ limit → ∃ r, inscope wd limit H h d n = .ok r) := by
  obtain ⟨l, h1, h4⟩ := inscope_spec hw hH hlim w hd n hn
  rcases h4 with ⟨a1, a2⟩ | ⟨m', h'', hist', a1, _⟩
  · exact ⟨by rw [a1]; simp, l, h1, fun hc => by omega⟩
  · exact ⟨by rw [a1]; simp, l, h1, fun _ => ⟨_, a1⟩⟩

/-- The hypotheses of C17_inscope_partial hold at element 2 of the sample, with colliding hashes for the
prefixes; reading them there gives `p`, the default namespace and `xml`. -/
example : ∃ m h', inscope 32 (2 ^ 30) (fun _ => 7) sampleNs sampleDecls 2 = .ok (m, h') ∧
    m.get 32 (fun _ => 7) (some (s!! "p")) = .ok (some (s!! "w")) ∧
    m.get 32 (fun _ => 7) none = .ok (some (s!! "v")) ∧
    m.get 32 (fun _ => 7) (some xmlPrefix) = .ok (some xmlNamespace) ∧ m.len = 3 :=
  ⟨_, _, rfl, by decide, by decide, by decide, by decide⟩

/-- C17, `xml_namespaces`, does not hold in general: at element 3 of the sample unprefixed names are in no
namespace, because of `xmlns=""`, but `xml_namespaces` says that they are in `v`. -/
theorem C17_inscope_refuted : ∃ h d n m h', Reach h ∧ Declared h d ∧ h.kind n = .element ∧
    inscope 32 (2 ^ 30) (fun _ => 7) h d n = .ok (m, h') ∧
    m.get 32 (fun _ => 7) none = .ok (some (s!! "v")) ∧ Resolves h d n none none ∧
    ¬ Resolves h d n none (some (s!! "v")) := by
  have hw := C13_partial sampleNs_reach
  refine ⟨sampleNs, sampleDecls, 3, _, _, sampleNs_reach, sampleDecls_declared, by decide, rfl, by decide, ?_, ?_⟩
  · rw [← (C17_lookup hw sampleDecls_declared 3 (by decide) _).1]; decide
  · rw [← (C17_lookup hw sampleDecls_declared 3 (by decide) _).1]; decide

/-! ### C48: reading does not change the tree -/

/-- C48, what does hold: reading `xml_namespaces` changes neither the children nor the parent of any node
that is not a namespace node.  Missing: the parents of the namespace nodes (`C48_refuted`). -/
theorem C48_partial {wd limit : Nat} {H : Option Str → Nat} (hw : 3 ≤ wd) (hH : ∀ x, H x < 2 ^ wd)
    (hlim : limit ≤ 2 ^ wd) (w : WF h) (hd : Declared h d) (hk : ∀ e x, x ∈ d.nodes e → h.kind x = .ns)
    (n : NodeId) (hn : h.kind n = .element)
    (m : Table.Map (Option Str) Str) (h' : Heap) (hm : inscope wd limit H h d n = .ok (m, h')) :
    h'.size = h.size ∧ h'.kind = h.kind ∧ h'.kids = h.kids ∧
    ∀ y, h.kind y ≠ .ns → h'.parent y = h.parent y := by
  obtain ⟨l, h1, h2, _, _⟩ := visited_inForce w hd n hn
  obtain ⟨l', h1', h4⟩ := inscope_spec hw hH hlim w hd n hn
  rw [h1] at h1'; simp at h1'; subst h1'
  rcases h4 with ⟨a1, _⟩ | ⟨m', h'', hist', a1, a2, a3, _⟩
  · rw [a1] at hm; simp at hm
  · rw [a1] at hm
    simp at hm
    obtain ⟨rfl, rfl⟩ := hm
    refine ⟨a3.1, a3.2.1, a3.2.2.1, fun y hy => a3.2.2.2 y (fun hl => ?_)⟩
    obtain ⟨e, _, hye⟩ := h2 y hl
    exact hy (hk e y hye)

example : ∀ e x, x ∈ sampleDecls.nodes e → sampleNs.kind x = .ns := by
  intro e x hx
  simp only [sampleDecls] at hx
  split at hx
  · simp at hx; rcases hx with rfl | rfl <;> rfl
  · simp at hx; subst hx; rfl
  · simp at hx; subst hx; rfl
  · simp at hx

/-- C48 does not hold in general: reading `xml_namespaces` of element 3 makes it the parent of the
namespace node 5, which belongs to element 1. -/
theorem C48_refuted : ∃ h d n m h', Reach h ∧ Declared h d ∧ h.kind n = .element ∧
    inscope 32 (2 ^ 30) (fun _ => 7) h d n = .ok (m, h') ∧ 5 ∈ d.nodes 1 ∧
    h.parent 5 = some 1 ∧ h'.parent 5 = some 3 :=
  ⟨sampleNs, sampleDecls, 3, _, _, sampleNs_reach, sampleDecls_declared, by decide, rfl, by decide, rfl, rfl⟩

end Verif.Dom
