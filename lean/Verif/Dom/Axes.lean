import Verif.Dom.Heap

/-
The axis iterators: lib/xpath/src/axes.c and the Python generators of
lib/xpath/locationpaths/axisspecifiers.py that have no C version (following, parent, preceding,
preceding-sibling, self).  They are modelled as transition systems: a state, and a step that yields a
node, does something silently, ends, or raises.

`while node:` tests the truth value of a node; plain tree nodes (`amara.tree`) are always true.
Bindery elements define `__len__` (lib/bindery/nodes.py:564), which is not modelled.
-/
namespace Verif.Dom

/-- One step of an iterator. -/
inductive Step (σ : Type)
  | yield (n : NodeId) (s : σ)
  | tau (s : σ)
  | done
  | raise (e : Err)

/-- The iterator in state `s` produces the nodes `l` and ends. -/
inductive Yields {σ : Type} (step : σ → Step σ) : σ → List NodeId → Prop
  | done {s : σ} : step s = .done → Yields step s []
  | tau {s s' : σ} {l : List NodeId} : step s = .tau s' → Yields step s' l → Yields step s l
  | yield {s s' : σ} {n : NodeId} {l : List NodeId} : step s = .yield n s' → Yields step s' l →
      Yields step s (n :: l)

/-- The iterator in state `s` ends with an exception, whatever it produced before. -/
inductive Raises {σ : Type} (step : σ → Step σ) (e : Err) : σ → Prop
  | raise {s : σ} : step s = .raise e → Raises step e s
  | tau {s s' : σ} : step s = .tau s' → Raises step e s' → Raises step e s
  | yield {s s' : σ} {n : NodeId} : step s = .yield n s' → Raises step e s' → Raises step e s

/-- `get_following_sibling` (node.c:542-572): `raise` when a node is not among the children of its
parent. -/
def followingSibling (h : Heap) (n : NodeId) : Except Err (Option NodeId) :=
  match h.parent n with
  | none => .ok none
  | some p => match (h.kids p).idxOf? n with
    | none => .error .invalidState
    | some i => .ok ((h.kids p)[i + 1]?)

/-- `get_preceding_sibling` (node.c:512-540). -/
def precedingSibling (h : Heap) (n : NodeId) : Except Err (Option NodeId) :=
  match h.parent n with
  | none => .ok none
  | some p => match (h.kids p).idxOf? n with
    | none => .error .invalidState
    | some 0 => .ok none
    | some (i + 1) => .ok ((h.kids p)[i]?)

/-- `child_axis_init`, `get_child_axis` (axes.c:289-297, 384-391): the children still to come. -/
def childIter (h : Heap) (n : NodeId) : List NodeId :=
  if isContainer (h.kind n) then h.kids n else []

/-- `ancestor_axis_next` (axes.c:53-63); the state is the node to be returned next. -/
def ancestorStep (h : Heap) : Option NodeId → Step (Option NodeId)
  | none => .done
  | some n => .yield n (h.parent n)

/-- `child_axis_next` (axes.c:323-339). -/
def childStep : List NodeId → Step (List NodeId)
  | [] => .done
  | n :: rest => .yield n rest

/-- `descendant_axis_next` (axes.c:437-474): the stack of child iterators, innermost first; exhausted
ones are left, an element that is returned puts its own on the stack. -/
def descendantNext (h : Heap) : List (List NodeId) → Option (NodeId × List (List NodeId))
  | [] => none
  | [] :: stack => descendantNext h stack
  | (n :: rest) :: stack =>
    some (n, if h.kind n = .element then childIter h n :: rest :: stack else rest :: stack)

/-- `descendant_axis` as an iterator. -/
def descendantStep (h : Heap) (stack : List (List NodeId)) : Step (List (List NodeId)) :=
  match descendantNext h stack with
  | none => .done
  | some (n, stack') => .yield n stack'

/-- `descendant_axis_new` (axes.c:402-430). -/
def descendantInit (h : Heap) (n : NodeId) : List (List NodeId) := [childIter h n]

/-- The state of `descendant_or_self_axis`: the node itself, or the stack (axes.c:520-576). -/
inductive DosState
  | self (n : NodeId)
  | stack (s : List (List NodeId))

/-- `descendant_self_axis_next` (axes.c:538-556). -/
def dosStep (h : Heap) : DosState → Step DosState
  | .self n => .yield n (.stack (descendantInit h n))
  | .stack s => match descendantNext h s with
    | none => .done
    | some (n, s') => .yield n (.stack s')

/-- `followingsibling_axis_new` (axes.c:585-617): the children behind the node; none at all if it is
not found. -/
def followingSiblingInit (h : Heap) (n : NodeId) : List NodeId :=
  match h.parent n with
  | none => []
  | some p => match (h.kids p).idxOf? n with
    | none => []
    | some i => (h.kids p).drop (i + 1)

/-- The state of `following_axis.select` (axisspecifiers.py:141-155): at the test of the outer loop;
at the test of the inner loop; or in the loop over the descendants of `sibling`. -/
inductive FollowState
  | outer (node : Option NodeId)
  | inner (node : NodeId) (sibling : Option NodeId)
  | descend (node sibling : NodeId) (stack : List (List NodeId))

/-- `following_axis.select` (axisspecifiers.py:141-155). -/
def followStep (h : Heap) : FollowState → Step FollowState
  | .outer none => .done
  | .outer (some n) => match followingSibling h n with
    | .ok s => .tau (.inner n s)
    | .error e => .raise e
  | .inner n none => .tau (.outer (h.parent n))
  | .inner n (some s) => .yield s (.descend n s (descendantInit h s))
  | .descend n s stack => match descendantNext h stack with
    | some (x, stack') => .yield x (.descend n s stack')
    | none => match followingSibling h s with
      | .ok s' => .tau (.inner n s')
      | .error e => .raise e

/-- A frame of the recursive generator `preceding` (axisspecifiers.py:210-219): at the loop test, or
after the nested generator has ended. -/
inductive PrecFrame
  | test (node : Option NodeId)
  | after (node : NodeId)

/-- The state of `preceding_axis.select` (axisspecifiers.py:204-224): the node of the outer loop and
the frames of the nested generators. -/
structure PrecState where
  node : Option NodeId
  frames : List PrecFrame

/-- `preceding_axis.select` (axisspecifiers.py:204-224).  With no frame the outer loop starts one for
the sibling before `node`, and moves `node` to the parent when that frame is done.  (The sibling that
follows a yielded node is looked up at once; the tree does not change in between.) -/
def precStep (h : Heap) (st : PrecState) : Step PrecState :=
  match st.frames with
  | [] => match st.node with
    | none => .done
    | some n => match precedingSibling h n with
      | .ok s => .tau ⟨h.parent n, [.test s]⟩
      | .error e => .raise e
  | .test none :: fs => .tau ⟨st.node, fs⟩
  | .test (some n) :: fs =>
    if h.kind n = .element then
      match (h.kids n).getLast? with
      | some c => .tau ⟨st.node, .test (some c) :: .after n :: fs⟩
      | none => .tau ⟨st.node, .after n :: fs⟩
    else .tau ⟨st.node, .after n :: fs⟩
  | .after n :: fs => match precedingSibling h n with
    | .ok s => .yield n ⟨st.node, .test s :: fs⟩
    | .error e => .raise e

/-- `preceding_sibling_axis.select` (axisspecifiers.py:229-235) without its first lookup. -/
def precSibStep (h : Heap) : Option NodeId → Step (Option NodeId)
  | none => .done
  | some n => match Dom.precedingSibling h n with
    | .ok s => .yield n s
    | .error e => .raise e

/-- The axes of XPath 1.0 that reach tree nodes. -/
inductive Axis
  | self | child | parent | ancestor | ancestorOrSelf | descendant | descendantOrSelf
  | following | followingSibling | preceding | precedingSibling
  deriving DecidableEq, Repr

/-- `axis_specifier.reverse` (axisspecifiers.py:16 and the subclasses). -/
def Axis.reverse : Axis → Bool
  | .parent | .ancestor | .ancestorOrSelf | .preceding | .precedingSibling => true
  | _ => false

/-- `axis.select(n)` produces the nodes `l` and ends (axisspecifiers.py:52-241): each axis with the
initial state of its iterator. -/
def Axis.Selects (h : Heap) (n : NodeId) : Axis → List NodeId → Prop
  | .self => Yields childStep [n]
  | .child => Yields childStep (childIter h n)
  | .parent => Yields childStep (h.parent n).toList
  | .ancestor => Yields (ancestorStep h) (h.parent n)
  | .ancestorOrSelf => Yields (ancestorStep h) (some n)
  | .descendant => Yields (descendantStep h) (descendantInit h n)
  | .descendantOrSelf => Yields (dosStep h) (.self n)
  | .following => Yields (followStep h) (.outer (some n))
  | .followingSibling => Yields childStep (followingSiblingInit h n)
  | .preceding => Yields (precStep h) ⟨some n, []⟩
  | .precedingSibling => fun l => ∃ s, Dom.precedingSibling h n = .ok s ∧ Yields (precSibStep h) s l

/-- `axis.select(n)` raises an exception. -/
def Axis.Fails (h : Heap) (n : NodeId) (e : Err) : Axis → Prop
  | .following => Raises (followStep h) e (.outer (some n))
  | .preceding => Raises (precStep h) e ⟨some n, []⟩
  | .precedingSibling => Dom.precedingSibling h n = .error e ∨
      ∃ s, Dom.precedingSibling h n = .ok s ∧ Raises (precSibStep h) e s
  | _ => False

end Verif.Dom
