import Verif.Dom.Axes
import Verif.Py

/-
The commands of XUpdate (lib/xupdate/commands.py) on the trees of Verif.Dom: append, insert-before,
insert-after, remove, update, rename, if, and a list of them.

`select` is any function from the state to a list of nodes (XPath is the subject of Verif.Eval), and
the instructions inside of a command are given by what they write, also a function of the state: the
items for a tree writer, the text for a string writer, a name.  An exception loses the state; in the
program the changes made before it stay.
-/
namespace Verif.XUpdate
open Verif Verif.Dom

/-- Expanded names: namespace and local name. -/
abbrev Name := Option Str × Str

/-- A document: the tree, the names of elements and attributes and targets of processing
instructions, the values of leaves and attributes, and the attribute nodes of elements. -/
structure St where
  h : Heap
  name : NodeId → Name
  val : NodeId → Str
  attrs : NodeId → List NodeId

/-- Exceptions: XUpdateError.INVALID_SELECT, AttributeError, NameError, IndexError,
NotImplementedError, ValueError, and those of the tree functions; `undefined` as in `Res`. -/
inductive Err
  | invalidSelect | attribute | name | index | notImplemented | value | dom (e : Dom.Err) | undefined
  deriving DecidableEq, Repr

/-- What is written to a tree writer. -/
inductive Tree
  | node (kind : Kind) (name : Name) (val : Str) (attrs : List (Name × Str)) (kids : List Tree)

/-- What the instructions directly in a command write. -/
inductive Item
  | tree (t : Tree)
  | attr (name : Name) (val : Str)

/-- The result of an edit as a state. -/
def lift (s : St) : Res → Except Err St
  | .ok h => .ok { s with h := h }
  | .raised e => .error (.dom e)
  | .undefined => .error .undefined

/-- A new node: `Element_New`, `Text_New`, ... -/
def St.new (s : St) (k : Kind) (nm : Name) (v : Str) : St :=
  { h := s.h.alloc k
    name := fun n => if n = s.h.size then nm else s.name n
    val := fun n => if n = s.h.size then v else s.val n
    attrs := fun n => if n = s.h.size then [] else s.attrs n }

/-- `Element_AddAttribute` (element.c) for a name that the element does not have. -/
def St.addAttr (s : St) (e : NodeId) (nm : Name) (v : Str) : St :=
  let s1 := s.new .attr nm v
  { s1 with
    h := s1.h.setOwner e s.h.size
    attrs := fun n => if n = e then s1.attrs n ++ [s.h.size] else s1.attrs n }

/-- Several attributes. -/
def St.addAttrs (s : St) (e : NodeId) : List (Name × Str) → St
  | [] => s
  | (nm, v) :: l => (s.addAttr e nm v).addAttrs e l

/-! ### The tree writer -/

mutual
/-- The tree writer (lib/writers/src/treewriter.c:126-540) on one node: it is created and appended to
the current node `p`, then come its attributes and its content. -/
def write (s : St) (p : NodeId) : Tree → Except Err St
  | .node k nm v as ts =>
    match lift (s.new k nm v) (containerAppend (s.new k nm v).h p s.h.size) with
    | .error e => .error e
    | .ok s1 => writeAll (s1.addAttrs s.h.size as) s.h.size ts
/-- The content of the current node. -/
def writeAll (s : St) (p : NodeId) : List Tree → Except Err St
  | [] => .ok s
  | t :: ts => match write s p t with
    | .error e => .error e
    | .ok s1 => writeAll s1 p ts
end

/-- The trees among the items: an attribute on the document node of a tree writer is ignored
(treewriter.c:336-337). -/
def trees : List Item → List Tree
  | [] => []
  | .tree t :: l => t :: trees l
  | .attr _ _ :: l => trees l

/-- `context.push_tree_writer(...)`, the instructions, `writer.get_result()` (commands.py:71-75): the
new document node is the next address. -/
def fragment (s : St) (items : List Item) : Except Err St :=
  writeAll (s.new .entity (none, []) []) s.h.size (trees items)

/-- `while tr.xml_first_child: ...` (commands.py:91-97); `undefined` if it does not end. -/
def moveAll (place : Heap → NodeId → Res) (tr : NodeId) : Nat → St → Except Err St
  | 0, _ => .error .undefined
  | f + 1, s =>
    match s.h.kids tr with
    | [] => .ok s
    | c :: _ => match lift s (place s.h c) with
      | .error e => .error e
      | .ok s1 => moveAll place tr f s1

/-- `target.xml_insert(target.xml_index(refnode), node)` (commands.py:93-94) or, without a reference
node, `target.xml_append(node)` (96). -/
def insertAt (p : NodeId) (ref : Option NodeId) (h : Heap) (c : NodeId) : Res :=
  match ref with
  | none => containerAppend h p c
  | some r => match (h.kids p).idxOf? r with
    | none => .raised .value
    | some i => containerInsert h p i c

/-- `for target in targets`. -/
def forEach (f : St → NodeId → Except Err St) : List NodeId → St → Except Err St
  | [], s => .ok s
  | t :: ts, s => match f s t with
    | .error e => .error e
    | .ok s1 => forEach f ts s1

/-! ### The commands -/

/-- What a `select` attribute selects. -/
abbrev Select := St → Except Err (List NodeId)
/-- What the instructions write to a tree writer. -/
abbrev Content := St → Except Err (List Item)

/-- `targets = ...` and the test for an empty node-set (commands.py:65-68). -/
def required (sel : Select) (s : St) : Except Err (List NodeId) :=
  match sel s with
  | .error e => .error e
  | .ok [] => .error .invalidSelect
  | .ok l => .ok l

/-- `target.xml_children[position]` for `position < size` (commands.py:85-88): a Python index. -/
def childAt (l : List NodeId) (i : Int) : Except Err (Option NodeId) :=
  if i < l.length then
    if 0 ≤ i then .ok l[i.toNat]?
    else if 0 ≤ i + l.length then .ok l[(i + l.length).toNat]?
    else .error .index
  else .ok none

/-- The node that the content goes in front of (commands.py:76-90); `child` is the value of the
`child` attribute for a target, as an integer. -/
def refNode (child : Option (St → NodeId → Except Err Int)) (s : St) (t : NodeId) :
    Except Err (Option NodeId) :=
  match child with
  | none => .ok none
  | some f => match f s t with
    | .error e => .error e
    | .ok i => childAt (s.h.kids t) i

/-- One target of `append_command.instantiate` (commands.py:70-97).  (Leaves and attributes have no
`xml_children` and no `xml_append`; the model raises the exception of `Container_Append`.) -/
def appendTo (content : Content) (child : Option (St → NodeId → Except Err Int)) (s : St) (t : NodeId) :
    Except Err St :=
  match content s with
  | .error e => .error e
  | .ok items => match fragment s items with
    | .error e => .error e
    | .ok s1 => match refNode child s1 t with
      | .error e => .error e
      | .ok ref => moveAll (insertAt t ref) s.h.size ((s1.h.kids s.h.size).length + 1) s1

/-- `append_command.instantiate` (commands.py:63-98). -/
def append (sel : Select) (content : Content) (child : Option (St → NodeId → Except Err Int)) (s : St) :
    Except Err St :=
  match required sel s with
  | .error e => .error e
  | .ok ts => forEach (appendTo content child) ts s

/-- A command for the children of the parent of a target: the parent has to exist. -/
def beside (content : Content) (ref : Heap → NodeId → Except Err (Option NodeId)) (s : St) (t : NodeId) :
    Except Err St :=
  match content s with
  | .error e => .error e
  | .ok items => match fragment s items with
    | .error e => .error e
    | .ok s1 => match ref s1.h t with
      | .error e => .error e
      | .ok r => match s1.h.parent t with
        | none => if s1.h.kids s.h.size = [] then .ok s1 else .error .attribute
        | some p => moveAll (insertAt p r) s.h.size ((s1.h.kids s.h.size).length + 1) s1

/-- `insert_before_command.instantiate` (commands.py:158-170). -/
def insertBefore (sel : Select) (content : Content) (s : St) : Except Err St :=
  match sel s with
  | .error e => .error e
  | .ok ts => forEach (beside content fun _ t => .ok (some t)) ts s

/-- `target.xml_following_sibling` (commands.py:194). -/
def after (h : Heap) (t : NodeId) : Except Err (Option NodeId) :=
  match followingSibling h t with
  | .error e => .error (.dom e)
  | .ok r => .ok r

/-- `insert_after_command.instantiate` (commands.py:185-201). -/
def insertAfter (sel : Select) (content : Content) (s : St) : Except Err St :=
  match sel s with
  | .error e => .error e
  | .ok ts => forEach (beside content after) ts s

/-- `del parent.xml_attributes[target]` (commands.py:261): the attribute of that name. -/
def delAttr (s : St) (e a : NodeId) : St :=
  { s with
    h := s.h.setParent a none
    attrs := fun n => if n = e then (s.attrs n).filter (· ≠ a) else s.attrs n }

/-- One target of `remove_command.instantiate` (commands.py:257-263). -/
def removeOne (s : St) (t : NodeId) : Except Err St :=
  match s.h.parent t with
  | none => .ok s
  | some p => if s.h.kind t = .attr then .ok (delAttr s p t) else lift s (containerRemove s.h p t)

/-- `remove_command.instantiate` (commands.py:255-264). -/
def remove (sel : Select) (s : St) : Except Err St :=
  match sel s with
  | .error e => .error e
  | .ok ts => forEach removeOne ts s

/-- `while target.xml_first_child: target.xml_remove(target.xml_first_child)` (commands.py:227-228). -/
def clear (t : NodeId) : Nat → St → Except Err St
  | 0, _ => .error .undefined
  | f + 1, s =>
    match s.h.kids t with
    | [] => .ok s
    | c :: _ => match lift s (containerRemove s.h t c) with
      | .error e => .error e
      | .ok s1 => clear t f s1

/-- `target.xml_value = value`. -/
def St.setVal (s : St) (t : NodeId) (v : Str) : St := { s with val := fun n => if n = t then v else s.val n }

/-- One target of `update_command.instantiate` (commands.py:220-245): elements get new children;
attributes, text and comments a new value, empty text is removed; processing instructions have no
attribute `xml_value` (processinginstruction.c:91). -/
def updateOne (content : Content) (str : St → Except Err Str) (s : St) (t : NodeId) : Except Err St :=
  match s.h.kind t with
  | .element => match content s with
    | .error e => .error e
    | .ok items => match fragment s items with
      | .error e => .error e
      | .ok s1 => match clear t ((s1.h.kids t).length + 1) s1 with
        | .error e => .error e
        | .ok s2 => moveAll (insertAt t none) s.h.size ((s2.h.kids s.h.size).length + 1) s2
  | .attr | .comment => match str s with
    | .error e => .error e
    | .ok v => .ok (s.setVal t v)
  | .text => match str s with
    | .error e => .error e
    | .ok [] => match s.h.parent t with
      | none => .error .attribute
      | some p => lift s (containerRemove s.h p t)
    | .ok v => .ok (s.setVal t v)
  | .pi => match str s with
    | .error e => .error e
    | .ok _ => .error .attribute
  | .entity | .ns => .ok s

/-- `update_command.instantiate` (commands.py:215-246). -/
def update (sel : Select) (content : Content) (str : St → Except Err Str) (s : St) : Except Err St :=
  match required sel s with
  | .error e => .error e
  | .ok ts => forEach (updateOne content str) ts s

/-- `parent.xml_attributes[namespace, name] = value` (attributemap.c:688-730): the attribute of that
name gets the value, or there is a new one. -/
def setAttr (s : St) (e : NodeId) (nm : Name) (v : Str) : St :=
  match (s.attrs e).find? fun a => decide (s.name a = nm) with
  | some a => s.setVal a v
  | none => s.addAttr e nm v

/-- The attributes copied to the new element (commands.py:136-138). -/
def copyAttrs (s : St) (n t : NodeId) : St :=
  s.addAttrs n ((s.attrs t).map fun a => (s.name a, s.val a))

/-- One target of `rename_command.instantiate` (commands.py:124-142).  `parent.xml_replace-child(...)`
for a processing instruction is a subtraction with the undefined name `child`. -/
def renameOne (nm : Name) (s : St) (t : NodeId) : Except Err St :=
  match s.h.kind t with
  | .attr => match s.h.parent t with
    | none => .error .attribute
    | some p => .ok (setAttr s p nm (s.val t))
  | .pi => match s.h.parent t with
    | none => .error .attribute
    | some _ => .error .name
  | .element =>
    let s1 := copyAttrs (s.new .element nm []) s.h.size t
    match moveAll (insertAt s.h.size none) t ((s1.h.kids t).length + 1) s1 with
    | .error e => .error e
    | .ok s2 => match s2.h.parent t with
      | none => .error .attribute
      | some p => lift s2 (containerReplace s2.h p t s.h.size)
  | _ => .ok s

/-- `rename_command.instantiate` (commands.py:108-143). -/
def rename (sel : Select) (nm : St → Except Err Name) (s : St) : Except Err St :=
  match nm s with
  | .error e => .error e
  | .ok nm => match required sel s with
    | .error e => .error e
    | .ok ts => forEach (renameOne nm) ts s

/-- The commands. -/
inductive Command
  | append (sel : Select) (content : Content) (child : Option (St → NodeId → Except Err Int))
  | insertBefore (sel : Select) (content : Content)
  | insertAfter (sel : Select) (content : Content)
  | remove (sel : Select)
  | update (sel : Select) (content : Content) (str : St → Except Err Str)
  | rename (sel : Select) (nm : St → Except Err Name)
  | cond

/-- `command.instantiate(ctx)`; `if_command` does not have the method (commands.py:300-316), and the
one it inherits raises NotImplementedError (xupdate/__init__.py:68-71). -/
def Command.run : Command → St → Except Err St
  | .append sel c ch => XUpdate.append sel c ch
  | .insertBefore sel c => XUpdate.insertBefore sel c
  | .insertAfter sel c => XUpdate.insertAfter sel c
  | .remove sel => XUpdate.remove sel
  | .update sel c v => XUpdate.update sel c v
  | .rename sel n => XUpdate.rename sel n
  | .cond => fun _ => .error .notImplemented

/-- `modifications_list.apply_updates` (commands.py:37-41): one after the other, in the order of the
request. -/
def applyUpdates : List Command → St → Except Err St
  | [], s => .ok s
  | c :: cs, s => match c.run s with
    | .error e => .error e
    | .ok s1 => applyUpdates cs s1

end Verif.XUpdate
