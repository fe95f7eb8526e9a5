import Verif.Dom.HeapSpec
import Verif.Dom.Build

/-
What a program sees of a tree that is built while it looks: lists of children and parents, nothing of arrays.
-/
namespace Verif.Dom.Spec
open Verif.Dom Verif.Dom.Build

/-- The tree, and the elements that are not complete, innermost first. -/
structure Partial where
  heap : Heap
  opened : List NodeId

/-- `c` becomes the last child of `p`. -/
def addChild (h : Heap) (p c : NodeId) : Heap := (h.setKids p (h.kids p ++ [c])).setParent c (some p)

/-- The node that an edit gives a new place. -/
def moved : Edit → Option NodeId
  | .append _ c => some c
  | .insert _ _ c => some c
  | .remove _ _ => none
  | .replace _ _ n => some n

/-- An edit is done, or refused and nothing happens.  It is one of those for which the editing methods are right
(C13, C14), and it gives no new place to an element that is not complete. -/
inductive Edited (opened : List NodeId) (h : Heap) (e : Edit) : Heap → Prop
  | done {h'} : Legal h e → (∀ n, moved e = some n → n ∉ opened) → e.run h = .ok h' → Edited opened h e h'
  | refused {err} : Legal h e → (∀ n, moved e = some n → n ∉ opened) → e.run h = .raised err → Edited opened h e h

inductive Editeds (opened : List NodeId) : Heap → List Edit → Heap → Prop
  | nil {h} : Editeds opened h [] h
  | cons {h h' h'' e es} : Edited opened h e h' → Editeds opened h' es h'' → Editeds opened h (e :: es) h''

/-- What the parser's events mean: a text, comment or processing instruction is added to the innermost element; a
start tag opens a new element; at its end tag the element is added to the one it is in.  `custom`: for which kinds
there is a factory.  The callback of a start tag leaves the new element empty and free. -/
inductive Next (custom : Kind → Bool) : Partial → Step → Partial → Prop
  | leaf {h top rest k} : k = .text ∨ (k = .comment ∨ k = .pi) ∧ custom k = false →
      Next custom ⟨h, top :: rest⟩ (.leaf k) ⟨addChild (h.alloc k) top h.size, top :: rest⟩
  | start {h h' opened es} : Editeds opened (h.alloc .element) es h' → h'.kids h.size = [] →
      h'.parent h.size = none → Next custom ⟨h, opened⟩ (.start es) ⟨h', h.size :: opened⟩
  | stop {h e p rest} : Next custom ⟨h, e :: p :: rest⟩ .stop ⟨addChild h p e, p :: rest⟩
  | edit {h h' opened e} : Edited opened h e h' → Next custom ⟨h, opened⟩ (.edit e) ⟨h', opened⟩
  | new {h opened k} : Next custom ⟨h, opened⟩ (.new k) ⟨h.alloc k, opened⟩

inductive Nexts (custom : Kind → Bool) : Partial → List Step → Partial → Prop
  | nil {t} : Nexts custom t [] t
  | cons {t t' t'' s ss} : Next custom t s t' → Nexts custom t' ss t'' → Nexts custom t (s :: ss) t''

/-- What a program does means this for its trees.  A parse begins with a new document and ends when all elements are
complete. -/
inductive Acts (custom : Kind → Bool) : Heap → List Act → Heap → Prop
  | nil {h} : Acts custom h [] h
  | new {h h' k as} : Acts custom (h.alloc k) as h' → Acts custom h (.new k :: as) h'
  | edit {h h' h'' e as} : Edited [] h e h' → Acts custom h' as h'' → Acts custom h (.edit e :: as) h''
  | parse {h h' h'' ss as} : Nexts custom ⟨h.alloc .entity, [h.size]⟩ ss ⟨h', [h.size]⟩ → Acts custom h' as h'' →
      Acts custom h (.parse ss :: as) h''

/-- The program sees these trees. -/
structure Shows (m : Mem) (h : Heap) : Prop where
  size : m.size = h.size
  kind : ∀ n, (m.node n).kind = h.kind n
  parent : ∀ n, (m.node n).parent = h.parent n
  children : ∀ n, m.children n = some (h.kids n)

/-- The content of a document. -/
inductive Content
  | leaf (k : Kind)
  | elem (content : List Content)

mutual
/-- The events for it. -/
def Content.events : Content → List Step
  | .leaf k => [.leaf k]
  | .elem cs => .start [] :: (contents cs ++ [.stop])
def contents : List Content → List Step
  | [] => []
  | c :: cs => c.events ++ contents cs
end

mutual
/-- The nodes that a document needs. -/
def Content.nodes : Content → Nat
  | .leaf _ => 1
  | .elem cs => 1 + nodesOf cs
def nodesOf : List Content → Nat
  | [] => 0
  | c :: cs => c.nodes + nodesOf cs
end

mutual
/-- The content contains only what documents can. -/
def Content.Ok (custom : Kind → Bool) : Content → Prop
  | .leaf k => k = .text ∨ (k = .comment ∨ k = .pi) ∧ custom k = false
  | .elem cs => OkAll custom cs
def OkAll (custom : Kind → Bool) : List Content → Prop
  | [] => True
  | c :: cs => c.Ok custom ∧ OkAll custom cs
end

mutual
/-- The node `n`, seen through its kind, its children and their parents, is this content; the nodes were made in
document order, beginning with `n`. -/
inductive Is (m : Mem) : NodeId → Content → Prop
  | leaf {n k} : (m.node n).kind = k → m.children n = some [] → Is m n (.leaf k)
  | elem {n cs ns} : (m.node n).kind = .element → m.children n = some ns → Are m n (n + 1) ns cs → Is m n (.elem cs)
inductive Are (m : Mem) : NodeId → NodeId → List NodeId → List Content → Prop
  | nil {p n} : Are m p n [] []
  | cons {p n ns c cs} : (m.node n).parent = some p → Is m n c → Are m p (n + c.nodes) ns cs →
      Are m p n (n :: ns) (c :: cs)
end

end Verif.Dom.Spec
