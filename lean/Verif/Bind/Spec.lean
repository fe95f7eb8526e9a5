import Verif.Bind.Model
import Verif.Dom.HeapSpec
/-
What bindery names should give, in terms of the tree only, and the programs that
use bindery documents.
-/
namespace Verif.Bind.Spec
open Verif.Dom Verif.Dom.Spec Verif.Bind

/-- A Python identifier: letters, digits and underscores, not starting with a digit. -/
def Identifier (p : Str) : Prop :=
  (∀ c ∈ p, c.isAlphanum ∨ c = '_') ∧ ∃ c cs, p = c :: cs ∧ ¬ c.isDigit

/-- `c` is an element with the expanded name `n`. -/
def Named (st : State) (n : Name) (c : Nat) : Prop := st.h.kind c = .element ∧ st.name c = n

/-- `c` is the first child of `e` with this name. -/
def FirstNamed (st : State) (e : Nat) (n : Name) (c : Nat) : Prop :=
  ∃ l1 l2, st.h.kids e = l1 ++ c :: l2 ∧ Named st n c ∧ ∀ x ∈ l1, ¬ Named st n x

/-- Names of attributes that the objects have for other reasons: what starts with `xml` (in any case) or
with two underscores, and what the code itself uses. -/
def Internal (p : Str) : Prop :=
  (∃ x m l r, p = x :: m :: l :: r ∧ (x = 'x' ∨ x = 'X') ∧ (m = 'm' ∨ m = 'M') ∧ (l = 'l' ∨ l = 'L')) ∨
  (∃ r, p = '_' :: '_' :: r) ∨
  p ∈ ["factory_entity".toList, "_eclasses".toList, "_class_names".toList, "_names".toList,
    "eclass".toList]

mutual
/-- All that a document puts below elements of each class is in the vocabulary. -/
def Uses (U : Cls → Desc → Prop) (ent : Nat) : Xml → Prop
  | .text _ => True
  | .elem ns q as ks =>
    (∀ n v, (n, v) ∈ as → U (ent, some ⟨ns, localOf q⟩) (.attr n)) ∧
      UsesAll U ent (ent, some ⟨ns, localOf q⟩) ks
def UsesAll (U : Cls → Desc → Prop) (ent : Nat) (c : Cls) : Xmls → Prop
  | .nil => True
  | .cons k ks => Below U c k ∧ Uses U ent k ∧ UsesAll U ent c ks
/-- The node may be below elements of the class. -/
def Below (U : Cls → Desc → Prop) (c : Cls) : Xml → Prop
  | .text _ => True
  | .elem ns q _ _ => U c (.elem ⟨ns, localOf q⟩)
end

/-- The node that an edit inserts is in the vocabulary of its new parent. -/
def Inserts (U : Cls → Desc → Prop) (st : State) : Edit → Prop
  | .append s c => st.h.kind c = .element → U (st.cls s) (.elem (st.name c))
  | .insert s _ c => st.h.kind c = .element → U (st.cls s) (.elem (st.name c))
  | .remove _ _ => True
  | .replace s _ n => st.h.kind n = .element → U (st.cls s) (.elem (st.name n))

/-- No objects. -/
def start (exclude : List Str) : State :=
  ⟨Heap.empty, fun _ => [], fun _ => [], fun _ => ⟨none, []⟩, fun _ => [], fun _ => (0, none),
    fun _ => [], fun _ => [], exclude⟩

/-- The states that programs reach in which the elements of each class have only children and
attributes that are in the vocabulary `U` of the class.  (The edits are those for which C13 is proved.) -/
inductive Reach (U : Cls → Desc → Prop) : State → Prop
  | start (exclude) : Reach U (start exclude)
  | entity {st} : Reach U st → Reach U (newEntity st).1
  | text {st} (s) : Reach U st → Reach U (newText st s).1
  | element {st ent ns q st' n} : Reach U st → ent < st.h.size → st.h.kind ent = .entity →
      newElement st ent ns q = .ok (st', n) → Reach U st'
  | attribute {st e n} (v) : Reach U st → e < st.h.size → st.h.kind e = .element →
      U (st.cls e) (.attr n) → Reach U (setAttribute st e n v)
  | edit {st st' ed} : Reach U st → Legal st.h ed → Inserts U st ed →
      edit st ed = .ok st' → Reach U st'
  | parse {st ks st' n} : Reach U st → UsesAll U st.h.size (st.h.size, none) ks →
      parse st ks = .ok (st', n) → Reach U st'
  | assign {st e p s st'} : Reach U st → e < st.h.size → isContainer (st.h.kind e) = true →
      setAttr st e p s = .ok st' → Reach U st'
  | delete {st e p st'} : Reach U st → delAttr st e p = .ok st' → Reach U st'

/-- Different things that a class has in its vocabulary have different Python names. -/
def NoClash (U : Cls → Desc → Prop) (exclude : List Str) : Prop :=
  ∀ c d d', U c d → U c d' →
    pythonName exclude d.name.loc = pythonName exclude d'.name.loc → d = d'

end Verif.Bind.Spec
