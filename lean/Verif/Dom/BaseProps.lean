import Verif.Dom.Base
import Verif.Dom.NamespacesProps

/-
C50: base URIs.
-/
namespace Verif.Dom.Spec
open Verif Verif.Dom

/-- XML Base, 4.2: the base URI of a node. -/
inductive BaseOf (h : Heap) (xmlBase : NodeId → Option Str) (docUri : NodeId → Str) : NodeId → Str → Prop
  | own {n : NodeId} {v : Str} : h.kind n = .element → xmlBase n = some v → Iri.isAbsolute v = true →
      BaseOf h xmlBase docUri n v
  | resolved {n p : NodeId} {v pb b : Str} : h.kind n = .element → xmlBase n = some v →
      Iri.isAbsolute v = false → h.parent n = some p → BaseOf h xmlBase docUri p pb →
      Iri.absolutize v pb = .ok b → BaseOf h xmlBase docUri n b
  | inherited {n p : NodeId} {b : Str} : (h.kind n = .element → xmlBase n = none) → h.parent n = some p →
      BaseOf h xmlBase docUri p b → BaseOf h xmlBase docUri n b
  | document {n : NodeId} : h.kind n = .entity → Iri.isAbsolute (docUri n) = true →
      BaseOf h xmlBase docUri n (docUri n)

end Verif.Dom.Spec

namespace Verif.Dom
open Verif Spec

variable {h : Heap} {xmlBase : NodeId → Option Str} {docUri : NodeId → Str}

theorem baseUri_spec (w : WF h) (n : NodeId)
    (hr : ∀ r, AncS h r n → h.parent r = none → h.kind r = .element → xmlBase r = none) :
    (∀ b, getBase h xmlBase docUri n = .uri (some b) ↔ BaseOf h xmlBase docUri n b) ∧
    getBase h xmlBase docUri n ≠ .loops := by
  obtain ⟨depth, hdp, hd0, hsz⟩ := exists_depth w
  suffices ∀ fuel n, depth n < fuel →
      (∀ r, AncS h r n → h.parent r = none → h.kind r = .element → xmlBase r = none) →
      (∀ b, baseUri h xmlBase docUri fuel n = .uri (some b) ↔ BaseOf h xmlBase docUri n b) ∧
      baseUri h xmlBase docUri fuel n ≠ .loops from this _ n (by have := hsz n; omega) hr
  intro fuel
  induction fuel with
  | zero => intro n hf; omega
  | succ fuel ih =>
    intro n hf hr
    cases hp : h.parent n with
    | none =>
      simp only [baseUri, hp]
      by_cases he : h.kind n = .entity
      · by_cases ha : Iri.isAbsolute (docUri n) = true
        · rw [if_pos he, if_pos ha]
          refine ⟨fun b => ⟨fun e => ?_, fun hb => ?_⟩, by simp⟩
          · simp at e; subst e; exact .document he ha
          · cases hb with
            | own h1 => rw [he] at h1; simp at h1
            | resolved h1 => rw [he] at h1; simp at h1
            | inherited _ h2 => rw [hp] at h2; simp at h2
            | document => rfl
        · rw [if_pos he, if_neg ha]
          refine ⟨fun b => ⟨fun e => by simp at e, fun hb => ?_⟩, by simp⟩
          cases hb with
          | own h1 => rw [he] at h1; simp at h1
          | resolved h1 => rw [he] at h1; simp at h1
          | inherited _ h2 => rw [hp] at h2; simp at h2
          | document _ h2 => exact absurd h2 ha
      · rw [if_neg he]
        refine ⟨fun b => ⟨fun e => by simp at e, fun hb => ?_⟩, by simp⟩
        cases hb with
        | own h1 h2 => rw [hr n .refl hp h1] at h2; simp at h2
        | resolved h1 h2 => rw [hr n .refl hp h1] at h2; simp at h2
        | inherited _ h2 => rw [hp] at h2; simp at h2
        | document h1 => exact absurd h1 he
    | some p =>
      have hdep := hdp n p hp
      have hne : h.kind n ≠ .entity := fun he => by rw [w.entity_root n he] at hp; simp at hp
      obtain ⟨ih1, ih2⟩ := ih p (by omega) (fun r hr1 => hr r (hr1.trans (.inr (.parent hp))))
      simp only [baseUri, hp]
      cases hb : (if h.kind n = .element then xmlBase n else none) with
      | none =>
        have hno : h.kind n = .element → xmlBase n = none := fun hk => by rw [if_pos hk] at hb; exact hb
        refine ⟨fun b => ?_, ih2⟩
        rw [ih1]
        refine ⟨fun h1 => .inherited hno hp h1, fun h1 => ?_⟩
        cases h1 with
        | own h1 h2 => rw [hno h1] at h2; simp at h2
        | resolved h1 h2 => rw [hno h1] at h2; simp at h2
        | inherited _ h2 h3 => rw [hp] at h2; simp at h2; subst h2; exact h3
        | document h1 => exact absurd h1 hne
      | some v =>
        have hk : h.kind n = .element := by
          refine Classical.byContradiction fun hk => ?_
          rw [if_neg hk] at hb; simp at hb
        rw [if_pos hk] at hb
        dsimp only
        by_cases ha : Iri.isAbsolute v = true
        · rw [if_pos ha]
          refine ⟨fun b => ⟨fun e => ?_, fun h1 => ?_⟩, by simp⟩
          · simp at e; subst e; exact .own hk hb ha
          · cases h1 with
            | own _ h2 => rw [hb] at h2; simp at h2; rw [h2]
            | resolved _ h2 h3 => rw [hb] at h2; simp at h2; subst h2; rw [ha] at h3; simp at h3
            | inherited h2 => rw [h2 hk] at hb; simp at hb
            | document h1 => exact absurd h1 hne
        · rw [if_neg ha]
          have ha' : Iri.isAbsolute v = false := by simpa using ha
          refine ⟨fun b => ⟨fun e => ?_, fun h1 => ?_⟩, ?_⟩
          · cases hq : baseUri h xmlBase docUri fuel p with
            | loops => exact absurd hq ih2
            | raised e' => rw [hq] at e; simp at e
            | uri pb =>
              rw [hq] at e
              cases pb with
              | none => simp at e
              | some pb =>
                dsimp only at e
                cases hab : Iri.absolutize v pb with
                | error e' => rw [hab] at e; simp at e
                | ok r =>
                  rw [hab] at e; simp at e; subst e
                  exact .resolved hk hb ha' hp ((ih1 pb).1 hq) hab
          · cases h1 with
            | own _ h2 h3 => rw [hb] at h2; simp at h2; subst h2; exact absurd h3 ha
            | resolved _ h2 h3 h4 h5 h6 =>
              rw [hb] at h2; simp at h2; subst h2
              rw [hp] at h4; simp at h4; subst h4
              rw [(ih1 _).2 h5]
              dsimp only
              rw [h6]
            | inherited h2 => rw [h2 hk] at hb; simp at hb
            | document h1 => exact absurd h1 hne
          · cases hq : baseUri h xmlBase docUri fuel p with
            | loops => exact absurd hq ih2
            | raised e' => simp
            | uri pb =>
              cases pb with
              | none => simp
              | some pb =>
                dsimp only
                cases Iri.absolutize v pb <;> simp

/-- C50, what does hold: in every tree whose top is not an element with `xml:base`, in particular in
every document, `xml_base` is the base URI according to XML Base; it is `None` (or `absolutize` raises)
only if there is none.  Missing: `xml:base` of an element without a parent (`C50_refuted`). -/
theorem C50_base_partial (w : WF h) (n : NodeId)
    (hr : ∀ r, AncS h r n → h.parent r = none → h.kind r = .element → xmlBase r = none) (b : Str) :
    getBase h xmlBase docUri n = .uri (some b) ↔ BaseOf h xmlBase docUri n b :=
  (baseUri_spec w n hr).1 b

/-- C50: reading `xml_base` ends. -/
theorem C50_base_total (w : WF h) (n : NodeId)
    (hr : ∀ r, AncS h r n → h.parent r = none → h.kind r = .element → xmlBase r = none) :
    getBase h xmlBase docUri n ≠ .loops := (baseUri_spec w n hr).2

/-- Base URIs for the sample document of C17: element 1 has a relative `xml:base`, element 3 too. -/
def sampleBase : NodeId → Option Str
  | 1 => some (s!! "b/c")
  | 3 => some (s!! "../x")
  | _ => none

/-- The hypotheses of C50 hold in the sample, and two relative `xml:base` are resolved. -/
example : WF sampleNs ∧
    (∀ r, AncS sampleNs r 3 → sampleNs.parent r = none → sampleNs.kind r = .element → sampleBase r = none) ∧
    getBase sampleNs sampleBase (fun _ => s!! "http://h/a/d") 3 = .uri (some (s!! "http://h/a/x")) ∧
    getBase sampleNs sampleBase (fun _ => s!! "http://h/a/d") 2 = .uri (some (s!! "http://h/a/b/c")) ∧
    getBase sampleNs sampleBase (fun _ => s!! "d") 2 = .uri none := by
  refine ⟨C13_partial sampleNs_reach, ?_, by decide, by decide, by decide⟩
  intro r hr hp _
  simp only [sampleBase]
  split
  · exact absurd hp (by decide)
  · exact absurd hp (by decide)
  · rfl

/-- C50 does not hold for an element without a parent: its own absolute `xml:base` is ignored. -/
theorem C50_refuted : ∃ h xmlBase docUri n b, Reach h ∧ BaseOf h xmlBase docUri n b ∧
    getBase h xmlBase docUri n = .uri none :=
  ⟨Heap.empty.alloc .element, fun _ => some (s!! "http://h/"), fun _ => [], 0, s!! "http://h/",
    .new _ .empty, .own (by decide) rfl (by decide), by decide⟩

end Verif.Dom
