import Verif.Dom.NodeId
import Verif.Dom.NamespacesProps
import Verif.Dom.OrderLemmas
import Verif.XPath.FmtLemmas

/-
C49: `xml_nodeid` identifies nodes.
-/
namespace Verif.Dom.Spec
open Verif Verif.Dom

/-- Attributes and namespace nodes are in the map of the element that is their parent. -/
structure Owned (h : Heap) (maps : Maps) : Prop where
  attr : ∀ x e, h.kind x = .attr → h.parent x = some e →
    h.kind e = .element ∧ ∃ t, maps.attrs e = some t ∧ some x ∈ t
  ns : ∀ x e, h.kind x = .ns → h.parent x = some e →
    h.kind e = .element ∧ ∃ t, maps.nss e = some t ∧ some x ∈ t

/-- The creation index tells entities apart. -/
def IndexOk (h : Heap) (index : NodeId → Nat) : Prop :=
  ∀ a b, h.kind a = .entity → h.kind b = .entity → a < h.size → b < h.size → index a = index b → a = b

end Verif.Dom.Spec

namespace Verif.Dom
open Verif Spec

variable {h : Heap}

/-- A type code with a number. -/
def tokStr (t : Char × Nat) : Str := t.1 :: XPath.decimal t.2

theorem decimal_inj {m n : Nat} (he : XPath.decimal m = XPath.decimal n) : m = n := by
  have h1 := (XPath.decimal_spec m).2.2.1
  have h2 := (XPath.decimal_spec n).2.2.1
  rw [he] at h1; rw [← h1, h2]

/-- Digits followed by something that does not begin with a digit. -/
theorem digits_split (a b r s : Str) (ha : ∀ c ∈ a, XPath.Spec.Digit c) (hb : ∀ c ∈ b, XPath.Spec.Digit c)
    (hr : ∀ c, r.head? = some c → ¬ XPath.Spec.Digit c) (hs : ∀ c, s.head? = some c → ¬ XPath.Spec.Digit c)
    (he : a ++ r = b ++ s) : a = b ∧ r = s := by
  induction a generalizing b with
  | nil =>
    cases b with
    | nil => exact ⟨rfl, he⟩
    | cons y b =>
      simp at he
      exact absurd (hb y (by simp)) (hr y (by rw [he]; rfl))
  | cons x a ih =>
    cases b with
    | nil =>
      simp at he
      exact absurd (ha x (by simp)) (hs x (by rw [← he]; rfl))
    | cons y b =>
      simp at he
      obtain ⟨h1, h2⟩ := ih b (fun c hc => ha c (by simp [hc])) (fun c hc => hb c (by simp [hc])) he.2
      exact ⟨by rw [he.1, h1], h2⟩

theorem toks_inj (a b : List (Char × Nat)) (ha : ∀ t ∈ a, ¬ XPath.Spec.Digit t.1)
    (hb : ∀ t ∈ b, ¬ XPath.Spec.Digit t.1) (he : a.flatMap tokStr = b.flatMap tokStr) : a = b := by
  have hhead : ∀ l : List (Char × Nat), (∀ t ∈ l, ¬ XPath.Spec.Digit t.1) →
      ∀ c, (l.flatMap tokStr).head? = some c → ¬ XPath.Spec.Digit c := by
    intro l hl c hc
    cases l with
    | nil => simp at hc
    | cons t l => simp [tokStr] at hc; exact hc ▸ hl t (by simp)
  induction a generalizing b with
  | nil =>
    cases b with
    | nil => rfl
    | cons t b => simp [tokStr] at he
  | cons t a ih =>
    cases b with
    | nil => simp [tokStr] at he
    | cons u b =>
      simp only [List.flatMap_cons, tokStr, List.cons_append, List.cons.injEq] at he
      obtain ⟨h1, h2⟩ := digits_split _ _ _ _ (XPath.decimal_spec t.2).1 (XPath.decimal_spec u.2).1
        (hhead a (fun t ht => ha t (by simp [ht]))) (hhead b (fun t ht => hb t (by simp [ht]))) he.2
      have := ih b (fun t ht => ha t (by simp [ht])) (fun t ht => hb t (by simp [ht])) h2
      have h3 := decimal_inj h1
      rw [this]
      congr 1
      exact Prod.ext he.1 h3

theorem typecode_inj {k l : Kind} (he : typecode k = typecode l) : k = l := by
  revert he; cases k <;> cases l <;> decide

theorem typecode_letter (k : Kind) : ¬ XPath.Spec.Digit (typecode k) := by
  cases k <;> simp [typecode, XPath.Spec.Digit] <;> decide

/-- The tokens of an id. -/
inductive Toks (h : Heap) (maps : Maps) (index : NodeId → Nat) : NodeId → List (Char × Nat) → Prop
  | root {n : NodeId} : h.parent n = none → Toks h maps index n [(typecode (h.kind n), rootPos h index n)]
  | child {n p : NodeId} {l : List (Char × Nat)} {i : Nat} : h.parent n = some p → Toks h maps index p l →
      nodePos h maps p n = some i → Toks h maps index n (l ++ [(typecode (h.kind n), i)])

theorem toks_ne {maps : Maps} {index : NodeId → Nat} {n : NodeId} {l : List (Char × Nat)}
    (ht : Toks h maps index n l) : l ≠ [] := by
  cases ht <;> simp

theorem toks_letters {maps : Maps} {index : NodeId → Nat} {n : NodeId} {l : List (Char × Nat)}
    (ht : Toks h maps index n l) : ∀ t ∈ l, ¬ XPath.Spec.Digit t.1 := by
  induction ht with
  | root => intro t ht; simp at ht; subst ht; exact typecode_letter _
  | child _ _ _ ih =>
    intro t ht
    rcases List.mem_append.1 ht with ht | ht
    · exact ih t ht
    · simp at ht; subst ht; exact typecode_letter _

theorem slotPos_inj {t : List (Option NodeId)} {x y : NodeId} (hx : some x ∈ t) (hy : some y ∈ t)
    (he : slotPos t x = slotPos t y) : x = y := by
  have hget : ∀ z, some z ∈ t → ∃ i, t.idxOf? (some z) = some i ∧ t[i]? = some (some z) := by
    intro z hz
    cases hi : t.idxOf? (some z) with
    | none => rw [List.idxOf?_eq_none_iff] at hi; exact absurd hz hi
    | some i =>
      refine ⟨i, rfl, ?_⟩
      rw [List.idxOf?_eq_some_iff] at hi
      obtain ⟨hi, h1, _⟩ := hi
      rw [List.getElem?_eq_getElem hi]
      exact congrArg some (by simpa using h1)
  obtain ⟨i, a1, a2⟩ := hget x hx
  obtain ⟨j, b1, b2⟩ := hget y hy
  simp only [slotPos, a1, b1] at he
  have : i = j := by omega
  subst this
  rw [a2] at b2
  simpa using b2

theorem idxOf?_inj {l : List NodeId} {x y : NodeId} {i : Nat} (hx : l.idxOf? x = some i)
    (hy : l.idxOf? y = some i) : x = y := by
  rw [List.idxOf?_eq_some_iff] at hx hy
  obtain ⟨h1, h2, _⟩ := hx
  obtain ⟨_, h4, _⟩ := hy
  exact (by simpa using h2 : l[i] = x).symm.trans (by simpa using h4)

theorem nodePos_inj {maps : Maps} (ho : Owned h maps) {p a b : NodeId} {i : Nat} (hk : h.kind a = h.kind b)
    (ha : h.parent a = some p) (hb : h.parent b = some p)
    (h1 : nodePos h maps p a = some i) (h2 : nodePos h maps p b = some i) : a = b := by
  simp only [nodePos] at h1 h2
  rw [← hk] at h2
  split at h1
  · rename_i hp
    rw [if_pos hp] at h2
    split at h1
    · rename_i hka
      rw [if_pos hka] at h2
      obtain ⟨_, t, ht, hma⟩ := ho.attr a p hka ha
      obtain ⟨_, t', ht', hmb⟩ := ho.attr b p (hk ▸ hka) hb
      rw [ht] at ht' h1 h2
      simp at ht' h1 h2
      subst ht'
      exact slotPos_inj hma hmb (h1.trans h2.symm)
    · rename_i hka
      rw [if_neg hka] at h2
      split at h1
      · rename_i hkn
        rw [if_pos hkn] at h2
        obtain ⟨_, t, ht, hma⟩ := ho.ns a p hkn ha
        obtain ⟨_, t', ht', hmb⟩ := ho.ns b p (hk ▸ hkn) hb
        rw [ht] at ht' h1 h2
        simp at ht' h1 h2
        subst ht'
        exact slotPos_inj hma hmb (h1.trans h2.symm)
      · rename_i hkn
        rw [if_neg hkn] at h2
        exact idxOf?_inj h1 h2
  · rename_i hp
    rw [if_neg hp] at h2
    exact idxOf?_inj h1 h2

theorem toks_det_node {maps : Maps} {index : NodeId → Nat} (w : WF h) (ho : Owned h maps) (hi : IndexOk h index)
    {a : NodeId} {l : List (Char × Nat)} (ha : Toks h maps index a l) (hsa : a < h.size) {b : NodeId}
    (hb : Toks h maps index b l) (hsb : b < h.size) : a = b := by
  induction ha generalizing b with
  | root hp =>
    rename_i n
    generalize hl : [(typecode (h.kind n), rootPos h index n)] = l at hb
    cases hb with
    | root hp' =>
      simp at hl
      have hk := typecode_inj hl.1
      have hpos := hl.2
      simp only [rootPos, ← hk] at hpos
      split at hpos
      · rename_i he; exact hi _ _ he (hk ▸ he) hsa hsb hpos
      · exact hpos
    | child hp1 ht hp2 =>
      rename_i l' _
      have := toks_ne ht
      cases l' with
      | nil => exact absurd rfl this
      | cons x xs => simp at hl
  | child hp ht hpos ih =>
    rename_i n p l i
    generalize hl : l ++ [(typecode (h.kind n), i)] = l2 at hb
    cases hb with
    | root hp' =>
      have := toks_ne ht
      cases l with
      | nil => exact absurd rfl this
      | cons x xs => simp at hl
    | child hp' ht' hpos' =>
      rename_i q l' j
      have hl' := List.append_inj' hl rfl
      obtain ⟨rfl, hlast⟩ := hl'
      simp at hlast
      have hpq := ih (w.bounded _ _ hp).2 ht' (w.bounded _ _ hp').2
      subst hpq
      obtain ⟨hc, rfl⟩ := hlast
      exact nodePos_inj ho (typecode_inj hc) hp hp' hpos hpos'

theorem nodePos_some {maps : Maps} (w : WF h) (ho : Owned h maps) {p n : NodeId} (hp : h.parent n = some p) :
    ∃ i, nodePos h maps p n = some i := by
  have hkid : h.kind n ≠ .attr → h.kind n ≠ .ns → ∃ i, (h.kids p).idxOf? n = some i := by
    intro h1 h2
    have hm := w.parent_kids p n hp (childKind_of w hp ⟨h1, h2⟩)
    cases hi : (h.kids p).idxOf? n with
    | none => rw [List.idxOf?_eq_none_iff] at hi; exact absurd hm hi
    | some i => exact ⟨i, rfl⟩
  simp only [nodePos]
  by_cases ha : h.kind n = .attr
  · obtain ⟨h1, t, h2, _⟩ := ho.attr n p ha hp
    exact ⟨_, by rw [if_pos h1, if_pos ha, h2]; rfl⟩
  · by_cases hn : h.kind n = .ns
    · obtain ⟨h1, t, h2, _⟩ := ho.ns n p hn hp
      exact ⟨_, by rw [if_pos h1, if_neg ha, if_pos hn, h2]; rfl⟩
    · obtain ⟨i, hi⟩ := hkid ha hn
      refine ⟨i, ?_⟩
      rw [if_neg ha, if_neg hn, hi]; simp

theorem generateId_toks {maps : Maps} {index : NodeId → Nat} (w : WF h) (ho : Owned h maps) (n : NodeId) :
    ∃ l, Toks h maps index n l ∧ nodeId h maps index n = some (l.flatMap tokStr) := by
  obtain ⟨depth, hdp, hd0, hsz⟩ := exists_depth w
  suffices ∀ fuel n, depth n < fuel → ∃ l, Toks h maps index n l ∧
      (generateId h maps index fuel n).map List.flatten = some (l.flatMap tokStr) from
    this _ n (by have := hsz n; omega)
  intro fuel
  induction fuel with
  | zero => intro n hf; omega
  | succ fuel ih =>
    intro n hf
    cases hp : h.parent n with
    | none => exact ⟨_, .root hp, by simp [generateId, hp, tokStr]⟩
    | some p =>
      have := hdp n p hp
      obtain ⟨l, h1, h2⟩ := ih p (by omega)
      obtain ⟨i, hi⟩ := nodePos_some w ho hp
      refine ⟨_, .child hp h1 hi, ?_⟩
      simp only [generateId, hp]
      cases hg : generateId h maps index fuel p with
      | none => rw [hg] at h2; simp at h2
      | some buffer =>
        rw [hg] at h2
        simp at h2
        simp [hi, h2, tokStr]

/-- C49, what does hold: in every forest whose attributes and namespace nodes are in the map of their
parent, every node has an id, and different nodes have different ids.  Missing: namespace nodes that have
been moved by reading `xml_namespaces` (`C49_refuted`). -/
theorem C49_nodeid_partial {maps : Maps} {index : NodeId → Nat} (w : WF h) (ho : Owned h maps) (hi : IndexOk h index)
    (a b : NodeId) (ha : a < h.size) (hb : b < h.size) :
    (∃ s, nodeId h maps index a = some s) ∧
    (nodeId h maps index a = nodeId h maps index b → a = b) := by
  obtain ⟨l, h1, h2⟩ := generateId_toks (index := index) w ho a
  obtain ⟨m, h3, h4⟩ := generateId_toks (index := index) w ho b
  refine ⟨⟨_, h2⟩, fun he => ?_⟩
  rw [h2, h4] at he
  have := toks_inj l m (toks_letters h1) (toks_letters h3) (by simpa using he)
  subst this
  exact toks_det_node w ho hi h1 ha h3 hb

/-- The maps of the sample of C17: the declarations of element 1 are in slots 3 and 6. -/
def sampleMaps : Maps where
  attrs := fun _ => none
  nss := fun e => match e with
    | 1 => some [none, none, none, some 4, none, none, some 5, none]
    | 2 => some [none, some 6, none, none, none, none, none, none]
    | 3 => some [some 7, none, none, none, none, none, none, none]
    | _ => none

/-- Its hypotheses hold of the sample. -/
example : WF sampleNs ∧ Owned sampleNs sampleMaps ∧ IndexOk sampleNs id ∧
    nodeId sampleNs sampleMaps id 5 = some (s!! "r0e0n7") := by
  refine ⟨C13_partial sampleNs_reach, ⟨?_, ?_⟩, fun a b _ _ _ _ h => h, by decide⟩
  · intro x e hx hp
    have hs := ((C13_partial sampleNs_reach).bounded e x hp).1
    have hsz : sampleNs.size = 8 := rfl
    have : x = 0 ∨ x = 1 ∨ x = 2 ∨ x = 3 ∨ x = 4 ∨ x = 5 ∨ x = 6 ∨ x = 7 := by omega
    rcases this with rfl | rfl | rfl | rfl | rfl | rfl | rfl | rfl <;> exact absurd hx (by decide)
  · intro x e hx hp
    have hs := ((C13_partial sampleNs_reach).bounded e x hp).1
    have hsz : sampleNs.size = 8 := rfl
    have : x = 0 ∨ x = 1 ∨ x = 2 ∨ x = 3 ∨ x = 4 ∨ x = 5 ∨ x = 6 ∨ x = 7 := by omega
    rcases this with rfl | rfl | rfl | rfl | rfl | rfl | rfl | rfl
    · exact absurd hx (by decide)
    · exact absurd hx (by decide)
    · exact absurd hx (by decide)
    · exact absurd hx (by decide)
    · have : sampleNs.parent 4 = some 1 := rfl
      rw [this] at hp; simp at hp; subst hp; exact ⟨by decide, _, rfl, by decide⟩
    · have : sampleNs.parent 5 = some 1 := rfl
      rw [this] at hp; simp at hp; subst hp; exact ⟨by decide, _, rfl, by decide⟩
    · have : sampleNs.parent 6 = some 2 := rfl
      rw [this] at hp; simp at hp; subst hp; exact ⟨by decide, _, rfl, by decide⟩
    · have : sampleNs.parent 7 = some 3 := rfl
      rw [this] at hp; simp at hp; subst hp; exact ⟨by decide, _, rfl, by decide⟩

/-- C49 does not hold for all histories, because of C48: after reading `xml_namespaces` of element 3, the
namespace nodes 5 (`xmlns="v"` of element 1) and 6 (`xmlns:p="w"` of element 2) have the same id. -/
theorem C49_refuted : ∃ h d maps m h', Reach h ∧ Declared h d ∧
    nodeId h maps id 5 ≠ nodeId h maps id 6 ∧
    inscope 32 (2 ^ 30) (fun _ => 7) h d 3 = .ok (m, h') ∧
    nodeId h' maps id 5 = nodeId h' maps id 6 ∧ (∃ s, nodeId h' maps id 5 = some s) :=
  ⟨sampleNs, sampleDecls, sampleMaps, _, _, sampleNs_reach, sampleDecls_declared, by decide, rfl, by decide,
    _, rfl⟩

end Verif.Dom
