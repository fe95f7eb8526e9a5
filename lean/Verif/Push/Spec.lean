import Verif.Push.Model

/-
What a pattern selects (XPath 1.0, sections 2.1 to 2.3 and 2.5), independently of the NFA.
-/
namespace Verif.Push.Spec
open Verif.Push

/-- Name tests: a name without a prefix stands for a name in no namespace (XPath 1.0, 2.3). -/
def Matches : SrcTest → QN → Prop
  | .name ln, n => n = (none, ln)
  | .qname ns ln, n => n = (some ns, ln)
  | .nsAny ns, n => n.1 = some ns
  | .any, _ => True

/-- A node of the document: the document itself (the empty place) or an element, or an attribute. -/
inductive Node
  | tree (p : Pos)
  | attr (p : Pos) (n : QN)

def name : Elem → QN
  | .mk n _ _ => n
def attrs : Elem → List QN
  | .mk _ as _ => as
def children : Elem → List Elem
  | .mk _ _ cs => cs

/-- The element at a place; the list holds the children of the document. -/
def elemAt : List Elem → Pos → Option Elem
  | _, [] => none
  | es, i :: p => match es[i]? with
    | none => none
    | some e => if p = [] then some e else elemAt (children e) p

/-- The axes. -/
inductive OnAxis (doc : List Elem) : Axis → Node → Node → Prop
  | child {p : Pos} {i : Nat} : OnAxis doc .child (.tree p) (.tree (p ++ [i]))
  | descendant {p q : Pos} (h : q ≠ []) : OnAxis doc .descendant (.tree p) (.tree (p ++ q))
  | attribute {p : Pos} {n : QN} : OnAxis doc .attribute (.tree p) (.attr p n)

/-- The node exists and has this name. -/
def HasName (doc : List Elem) : Node → QN → Prop
  | .tree p, n => ∃ e, elemAt doc p = some e ∧ name e = n
  | .attr p a, n => ∃ e, elemAt doc p = some e ∧ a ∈ attrs e ∧ a = n

/-- A step leads from `x` to `y`. -/
def StepSel (doc : List Elem) (s : SrcStep) (x y : Node) : Prop :=
  OnAxis doc s.axis x y ∧ ∃ n, HasName doc y n ∧ Matches s.test n

/-- `y` is `x` or a descendant of `x`: the axis of the step that `//` abbreviates. -/
def DescendantOrSelf (doc : List Elem) (x y : Node) : Prop := y = x ∨ OnAxis doc .descendant x y

/-- `y` is selected by a relative path for the context node `x`. -/
def RelSel (doc : List Elem) : Rel → Node → Node → Prop
  | .one s, x, y => StepSel doc s x y
  | .slash r s, x, y => ∃ z, RelSel doc r x z ∧ StepSel doc s z y
  | .dslash r s, x, y => ∃ z w, RelSel doc r x z ∧ DescendantOrSelf doc z w ∧ StepSel doc s w y

/-- The path selects the node: an absolute path from the document, a relative one from some node (this is how
patterns are read in XSLT and by pushtree). -/
def Selects (doc : List Elem) : Loc → Node → Prop
  | .root, y => y = .tree []
  | .abs r, y => RelSel doc r (.tree []) y
  | .rel r, y => ∃ x, RelSel doc r x y
  | .dabs r, y => ∃ w, DescendantOrSelf doc (.tree []) w ∧ RelSel doc r w y

open Classical in
/-- The truth value of a proposition. -/
noncomputable def truth (p : Prop) : Bool := decide p

mutual
/-- The elements for which the target has to be called, in order: for each selected attribute its element when
the element starts, and each selected element when it ends. -/
def expected (sel : Node → Bool) : Elem → Pos → List Pos
  | .mk _ as cs, p =>
    as.flatMap (fun a => if sel (.attr p a) then [p] else []) ++ expectedAll sel cs p 0 ++
      (if sel (.tree p) then [p] else [])
def expectedAll (sel : Node → Bool) : List Elem → Pos → Nat → List Pos
  | [], _, _ => []
  | c :: cs, p, i => expected sel c (p ++ [i]) ++ expectedAll sel cs p (i + 1)
end

/-- The tests of a path with their axes. -/
def relSteps : Rel → List SrcStep
  | .one s => [s]
  | .slash r s => relSteps r ++ [s]
  | .dslash r s => relSteps r ++ [s]

def steps : Loc → List SrcStep
  | .root => []
  | .abs r | .rel r | .dabs r => relSteps r

/-- No `//` and no `descendant::` after the beginning; the first step is for an element. -/
def Simple : Rel → Prop
  | .one s => s.axis = .child
  | .slash r s => Simple r ∧ s.axis ≠ .descendant
  | .dslash _ _ => False

/-- Only elements; `//` only before a step of the axis `child`. -/
def Downward : Rel → Prop
  | .one s => s.axis ≠ .attribute
  | .slash r s => Downward r ∧ s.axis ≠ .attribute
  | .dslash r s => Downward r ∧ s.axis = .child

/-- The paths that pushtree supports. -/
def Supported : Loc → Prop
  | .root => True
  | .abs r => Downward r
  | .rel r => Simple r
  | .dabs r => Simple r

mutual
/-- The names of all elements. -/
def elemNames : Elem → List QN
  | .mk n _ cs => n :: elemNamesAll cs
def elemNamesAll : List Elem → List QN
  | [] => []
  | c :: cs => elemNames c ++ elemNamesAll cs
end

mutual
/-- The names of all attributes. -/
def attrNames : Elem → List QN
  | .mk _ as cs => as ++ attrNamesAll cs
def attrNamesAll : List Elem → List QN
  | [] => []
  | c :: cs => attrNames c ++ attrNamesAll cs
end

/-- The names in a document that a step is tested against. -/
def namesFor (doc : Elem) : Axis → List QN
  | .attribute => attrNames doc
  | _ => elemNames doc

/-- The names without a prefix in the pattern do not occur with a namespace in the document. -/
def Plain (doc : Elem) (ss : List SrcStep) : Prop :=
  ∀ s ∈ ss, ∀ n ∈ namesFor doc s.axis, ∀ ln, s.test = .name ln → n.2 = ln → n.1 = none

/-- No name in the document satisfies two different tests of the pattern. -/
def Separate (doc : Elem) (ss : List SrcStep) : Prop :=
  ∀ s ∈ ss, ∀ s' ∈ ss, (s.axis = .attribute ↔ s'.axis = .attribute) →
    ∀ n ∈ namesFor doc s.axis, Matches s.test n → Matches s'.test n → s.test = s'.test

/-- A path `/a/b/...` with elements only. -/
def Ladder : Rel → Prop
  | .one s => s.axis = .child
  | .slash r s => Ladder r ∧ s.axis = .child
  | .dslash _ _ => False

end Verif.Push.Spec
