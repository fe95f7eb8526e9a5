/-
What it means that a document follows an example.
-/
import Verif.Eg.Model

namespace Verif.Eg.Spec
open Verif.Write (UStr)
open Verif.Eg (Name Ex Doc Nss)

/-- How often an element may occur, by the value of `eg:occurs`: `?` at most
once, `+` at least once, `*` any number of times, otherwise exactly once. -/
def Allowed (occurs : Option UStr) (n : Nat) : Prop :=
  if occurs = some (u!! "?") then n ≤ 1
  else if occurs = some (u!! "+") then 1 ≤ n
  else if occurs = some (u!! "*") then True
  else n = 1

instance (o : Option UStr) (n : Nat) : Decidable (Allowed o n) := by
  unfold Allowed
  infer_instance

/-- Number of elements of a given name. -/
def occurrences (n : Name) (ks : List Doc) : Nat :=
  (ks.filter fun d => d.name = n).length

/-- Children `ks` are as the children `xs` of the example: each element of
the example occurs as often as it may, and there are no others. -/
structure Like (xs : List Ex) (ks : List Doc) : Prop where
  counts : ∀ x ∈ xs, Allowed x.occurs (occurrences x.name ks)
  known : ∀ d ∈ ks, ∃ x ∈ xs, x.name = d.name

/-- `x` is an element of the example at any depth below `xs`. -/
inductive InEx : List Ex → Ex → Prop where
  | here {xs x} : x ∈ xs → InEx xs x
  | deeper {xs x y} : x ∈ xs → InEx x.kids y → InEx xs y

/-- `d` is an element of the document at any depth below `ks`. -/
inductive InDoc : List Doc → Doc → Prop where
  | here {ks d} : d ∈ ks → InDoc ks d
  | deeper {ks d e} : d ∈ ks → InDoc d.kids e → InDoc ks e

/-- A document with top elements `ks` follows the example with top elements
`xs`: the top elements are like those of the example, and every element is
like every element of the example that has its name. -/
structure Follows (xs : List Ex) (ks : List Doc) : Prop where
  top : Like xs ks
  inner : ∀ d, InDoc ks d → ∀ x, InEx xs x → x.name = d.name → Like x.kids d.kids

/-- The part of namespaces the code gets right: in the example no prefix is
bound to the namespace of an element (they are in no namespace or in a
default namespace), and namespaces are not empty. -/
structure Plain (xs : List Ex) : Prop where
  prefixes : ∀ x, InEx xs x → ∀ u, x.name.ns = some u → ∀ y, InEx xs y → ∀ p, (some p, u) ∉ y.nss
  nonempty : ∀ x, InEx xs x → x.name.ns ≠ some []

/-- The same for the document, none of whose elements has a prefix. -/
structure PlainDoc (xs : List Ex) (ks : List Doc) : Prop where
  noPrefix : ∀ d, InDoc ks d → d.pre = none
  prefixes : ∀ x, InEx xs x → ∀ u, x.name.ns = some u → ∀ d, InDoc ks d → ∀ p, (some p, u) ∉ d.nss

/-- No element of the example is optional. -/
def NoOptional (xs : List Ex) : Prop := ∀ x, InEx xs x → x.occurs ≠ some (u!! "?")

mutual
/-- The example read as a document: the same elements, without prefixes. -/
def asDoc : Ex → Doc
  | .elem n _ nss kids => .elem none n nss (asDocs kids)
def asDocs : List Ex → List Doc
  | [] => []
  | e :: es => asDoc e :: asDocs es
end

/-- Elements of one name have the same children's names everywhere in the
example. -/
def Consistent (xs : List Ex) : Prop :=
  ∀ x y, InEx xs x → InEx xs y → x.name = y.name → x.kids.map Ex.name = y.kids.map Ex.name

/-- Elements that must occur once do so in the example. -/
def OnceEach (xs : List Ex) : Prop :=
  (∀ x ∈ xs, Allowed x.occurs (xs.filter fun y => y.name = x.name).length) ∧
  ∀ e, InEx xs e → ∀ x ∈ e.kids, Allowed x.occurs (e.kids.filter fun y => y.name = x.name).length

mutual
/-- The elements of a subtree in document order. -/
def docOrder : Doc → List Doc
  | .elem p n nss ks => .elem p n nss ks :: docOrders ks
def docOrders : List Doc → List Doc
  | [] => []
  | d :: ds => docOrder d ++ docOrders ds
end

end Verif.Eg.Spec
