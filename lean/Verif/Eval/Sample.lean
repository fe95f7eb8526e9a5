import Verif.Eval.Sound
import Verif.Dom.EditProps

/-
A small document for the examples and refutations:

    <r><y><y>1</y><x>2</x></y><x p="" q=""/></r>

with the nodes 0 (root), 1 (r), 2 (outer y), 3 (x with attributes 8 and 9), 4 (inner y), 5 (inner x),
6 and 7 (texts).
-/
namespace Verif.Eval
open Verif Verif.XPath Verif.Dom Verif.Dom.Spec Verif.Eval.Spec

def sampleHeap : Heap :=
  let h := Heap.empty.alloc .entity
  let h := ((((h.alloc .element).alloc .element).alloc .element).alloc .element).alloc .element
  let h := (((h.alloc .text).alloc .text).alloc .attr).alloc .attr
  let h := ((Edit.append 0 1).run h).heap
  let h := ((Edit.append 1 2).run h).heap
  let h := ((Edit.append 1 3).run h).heap
  let h := ((Edit.append 2 4).run h).heap
  let h := ((Edit.append 2 5).run h).heap
  let h := ((Edit.append 4 6).run h).heap
  let h := ((Edit.append 5 7).run h).heap
  (h.setOwner 3 8).setOwner 3 9

theorem sample_reach : Reach sampleHeap := by
  unfold sampleHeap
  refine .owner (.owner (Reach.do (Reach.do (Reach.do (Reach.do (Reach.do (Reach.do (Reach.do
    (.new _ (.new _ (.new _ (.new _ (.new _ (.new _ (.new _ (.new _ (.new _ (.new _ .empty))))))))))
    (.append 0 1) ⟨by decide, by decide, by decide⟩ rfl)
    (.append 1 2) ⟨by decide, by decide, by decide⟩ rfl)
    (.append 1 3) ⟨by decide, by decide, by decide⟩ rfl)
    (.append 2 4) ⟨by decide, by decide, by decide⟩ rfl)
    (.append 2 5) ⟨by decide, by decide, by decide⟩ rfl)
    (.append 4 6) ⟨by decide, by decide, by decide⟩ rfl)
    (.append 5 7) ⟨by decide, by decide, by decide⟩ rfl)
    (by decide) (by decide) (by decide) (by decide)) (by decide) (by decide) (by decide) (by decide)

/-- The sample; numbers are not rounded. -/
def sample : Doc where
  h := sampleHeap
  val := fun n => if n = 6 then s!! "1" else if n = 7 then s!! "2" else []
  index := id
  name := fun n => (none, match n with
    | 1 => some (s!! "r") | 2 | 4 => some (s!! "y") | 3 | 5 => some (s!! "x")
    | 8 => some (s!! "p") | 9 => some (s!! "q") | _ => none)
  attrs := fun n => if n = 3 then [8, 9] else []
  nss := fun _ => []
  R := ⟨fun q => .fin q, fun _ _ => rfl, fun _ => by simp⟩

theorem sample_wf : DocWF sample 0 where
  wf := C13_partial sample_reach
  root := rfl
  attr := by
    intro e a ha
    simp only [sample] at ha
    split at ha
    · subst e
      simp only [List.mem_cons, List.not_mem_nil, or_false] at ha
      rcases ha with rfl | rfl <;> exact ⟨rfl, rfl⟩
    · simp at ha
  ns := by intro e a ha; simp [sample] at ha
  attr_nodup := by intro e; simp only [sample]; split <;> simp
  ns_nodup := by intro e; simp [sample]

theorem sample_inDoc {n : Nat} (hn : n ≤ 7) : InDoc sample 0 n := by
  have p1 : sample.h.parent 1 = some 0 := rfl
  have p2 : sample.h.parent 2 = some 1 := rfl
  have p3 : sample.h.parent 3 = some 1 := rfl
  have p4 : sample.h.parent 4 = some 2 := rfl
  have p5 : sample.h.parent 5 = some 2 := rfl
  have p6 : sample.h.parent 6 = some 4 := rfl
  have p7 : sample.h.parent 7 = some 5 := rfl
  have a1 : Anc sample.h 0 1 := .parent p1
  have a2 : Anc sample.h 0 2 := .step a1 p2
  have tree : TreeNode sample.h n := by
    match n, hn with
    | 0, _ | 1, _ | 2, _ | 3, _ | 4, _ | 5, _ | 6, _ | 7, _ => exact ⟨by decide, by decide⟩
  refine ⟨⟨?_, rfl⟩, .inl tree⟩
  match n, hn with
  | 0, _ => exact .inl rfl
  | 1, _ => exact .inr a1
  | 2, _ => exact .inr a2
  | 3, _ => exact .inr (.step a1 p3)
  | 4, _ => exact .inr (.step a2 p4)
  | 5, _ => exact .inr (.step a2 p5)
  | 6, _ => exact .inr (.step (.step a2 p4) p6)
  | 7, _ => exact .inr (.step (.step a2 p5) p7)

/-- The context in which expressions are evaluated by default. -/
def top : Ctx := ⟨0, 1, 1, 0⟩

/-- `descendant::t` -/
def desc (t : NodeTest) (preds : List Expr := []) : LStep := .mk (.tree .descendant) t preds
/-- `..` -/
def up : LStep := .mk (.tree .parent) .node []
/-- `*[..]` -/
def kids (preds : List Expr := []) : LStep := .mk (.tree .child) .any preds
/-- `name` -/
def named (s : Str) : NodeTest := .name none s
/-- A numeric literal. -/
def num (s : Str) : Expr := .lit true s

end Verif.Eval
