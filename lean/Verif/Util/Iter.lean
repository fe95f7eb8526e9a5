import Verif.Py

/-
`readbysep` and `element_subtree_iter` (lib/lib/util.py).
-/
namespace Verif.Util
open Verif

/-- `s.split(sep)` for a non-empty separator: `acc` holds the characters since the last separator, in
reverse.  Each turn consumes a character, so as many turns as characters suffice. -/
def splitLoop (sep : Str) : Nat → Str → Str → List Str
  | _, acc, [] => [acc.reverse]
  | 0, acc, _ => [acc.reverse]
  | fuel + 1, acc, c :: cs =>
    if sep.isPrefixOf (c :: cs) then acc.reverse :: splitLoop sep fuel [] ((c :: cs).drop sep.length)
    else splitLoop sep fuel (c :: acc) cs

/-- Python's `s.split(sep)`; `none` is ValueError (empty separator). -/
def pySplit (s sep : Str) : Option (List Str) :=
  if sep = [] then none else some (splitLoop sep s.length [] s)

/-- What the calls of `f.read(buffersize)` return, up to the first empty string, for a file with the given
contents.  A negative size reads everything.  Each turn but the last reads a character. -/
def reads (buffersize : Int) : Nat → Str → List Str
  | 0, _ => []
  | fuel + 1, s =>
    if buffersize < 0 then (if s = [] then [] else [s])
    else
      let next := s.take buffersize.toNat
      if next = [] then [] else next :: reads buffersize fuel (s.drop buffersize.toNat)

/-- The loop of `readbysep` (util.py:328-336) over the strings that are read before the first empty one. -/
def sepLoop (sep : Str) : Str → List Str → Option (List Str)
  | leftover, [] => some [leftover]
  | leftover, next :: more =>
    match pySplit (leftover ++ next) sep with
    | none => none
    | some chunks =>
      match sepLoop sep (chunks.getLastD []) more with
      | none => none
      | some rest => some (chunks.dropLast ++ rest)

/-- `list(readbysep(f, sep, buffersize))` (util.py:305-337). -/
def readbysep (contents sep : Str) (buffersize : Int) : Option (List Str) :=
  sepLoop sep [] (reads buffersize (contents.length + 1) contents)

/-- A node, as far as `element_subtree_iter` looks at it: an identity, whether it is an element, whether it
is an entity, and its children. -/
inductive Nd
  | mk (id : Nat) (isElement isEntity : Bool) (children : List Nd)

namespace Nd
def id : Nd → Nat | mk i _ _ _ => i
def isElement : Nd → Bool | mk _ e _ _ => e
def isEntity : Nd → Bool | mk _ _ e _ => e
def children : Nd → List Nd | mk _ _ _ cs => cs
end Nd

/-- `(ch for ch in e.xml_children if isinstance(ch, tree.element))`. -/
def elementChildren (n : Nd) : List Nd := n.children.filter Nd.isElement

/-- The loop (util.py:27-31): the stack's top is the first item; an iterator is used up before the next one
is popped, and meanwhile the iterators over the children of its items are pushed. `fuel` bounds the number
of iterators popped. -/
def iterLoop : Nat → List (List Nd) → List Nd
  | 0, _ => []
  | _ + 1, [] => []
  | fuel + 1, curr :: stack => curr ++ iterLoop fuel ((curr.map elementChildren).reverse ++ stack)

mutual
/-- The number of nodes of a tree. -/
def size : Nd → Nat
  | .mk _ _ _ cs => 1 + sizes cs
def sizes : List Nd → Nat
  | [] => 0
  | c :: cs => size c + sizes cs
end

/-- `list(element_subtree_iter(node, include_root))` (util.py:17-32).  One iterator is popped for each
element and one at the start. -/
def elementSubtreeIter (node : Nd) (includeRoot : Bool) : List Nd :=
  let start := if node.isElement || (includeRoot && node.isEntity) then [node] else elementChildren node
  iterLoop (size node + 1) [start]

end Verif.Util
