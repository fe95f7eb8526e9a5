import Verif.Py
import Verif.Dom.Heap
/-
The bindery nodes (lib/bindery/nodes.py): Python attributes that stand for child elements and
attributes.

The nodes are those of Verif.Dom.Heap.  Every element object belongs to a class made for its expanded
name by the entity that created it; the descriptors (`bound_element`, `bound_attribute`) live in the
dictionary of that class.  Not modelled: content models (`xml_model`; that of an element
is taken to be empty, as it is unless a model document is used), changes of names after creation
(`xml_namespace = ...`, for which there is `xml_fixup`), `structwriter` values.
-/
namespace Verif.Bind
open Verif.Dom

/-- An expanded name: `xml_name`. -/
structure Name where
  ns : Option Str
  loc : Str
  deriving DecidableEq, Repr

/-- A descriptor (nodes.py 107-166). -/
inductive Desc
  | elem (n : Name)
  | attr (n : Name)
  deriving DecidableEq, Repr

def Desc.name : Desc → Name
  | .elem n => n
  | .attr n => n

/-- A class: the entity that made it (`factory_entity`), and the name of the elements, or none for
the class of the entity itself (nodes.py 576-582, 619-634). -/
abbrev Cls := Nat × Option Name

/-- The objects of a program. -/
structure State where
  h : Heap
  /-- the text of text nodes -/
  val : Nat → Str
  /-- `xml_qname` -/
  qname : Nat → Str
  /-- `xml_name` -/
  name : Nat → Name
  /-- `xml_attributes` -/
  attrs : Nat → List (Name × Str)
  /-- `__class__` -/
  cls : Nat → Cls
  /-- the descriptors in `__class__.__dict__` -/
  dict : Cls → List (Str × Desc)
  /-- `__class__.xml_pname_cache` -/
  cache : Cls → List (Name × Str)
  /-- `xml_exclude_pnames` (nodes.py 173) -/
  exclude : List Str

/-- `keyword.kwlist` of Python 2, and `RESERVED_NAMES` (nodes.py 31-38). -/
def reserved : List Str :=
  ["and".toList, "as".toList, "assert".toList, "break".toList, "class".toList, "continue".toList,
   "def".toList, "del".toList, "elif".toList, "else".toList, "except".toList, "exec".toList,
   "finally".toList, "for".toList, "from".toList, "global".toList, "if".toList, "import".toList,
   "in".toList, "is".toList, "lambda".toList, "not".toList, "or".toList, "pass".toList,
   "print".toList, "raise".toList, "return".toList, "try".toList, "while".toList, "with".toList,
   "yield".toList,
   "__class__".toList, "__delattr__".toList, "__dict__".toList, "__doc__".toList,
   "__getattribute__".toList, "__getitem__".toList, "__hash__".toList, "__init__".toList,
   "__iter__".toList, "__module__".toList, "__new__".toList, "__reduce__".toList,
   "__reduce_ex__".toList, "__repr__".toList, "__setattr__".toList, "__str__".toList,
   "__unicode__".toList, "__weakref__".toList, "locals".toList, "None".toList]

/-- `[a-zA-Z0-9_]` -/
def isWord (c : Char) : Bool :=
  (65 ≤ c.toNat && c.toNat ≤ 90) || (97 ≤ c.toNat && c.toNat ≤ 122) ||
    (48 ≤ c.toNat && c.toNat ≤ 57) || c = '_'

/-- `XML_PY_REPLACE_PAT.sub('_', local.encode('utf-8'))` (nodes.py 171, 235): every byte that is no
letter, digit or underscore becomes an underscore. -/
def underscores (l : Str) : Str :=
  l.flatMap fun c => if isWord c then [c] else List.replicate c.utf8Size '_'

/-- `while pname in RESERVED_NAMES or pname in self.xml_exclude_pnames: pname += '_'` (nodes.py
238-239); more rounds than `bad` has members are not needed. -/
def avoid (bad : List Str) : Nat → Str → Str
  | 0, p => p
  | k + 1, p => if p ∈ bad then avoid bad k (p ++ ['_']) else p

/-- The Python name computed for a local name (nodes.py 235-239). -/
def pythonName (exclude : List Str) (l : Str) : Str :=
  avoid (reserved ++ exclude) (reserved ++ exclude).length (underscores l)

/-- A dictionary lookup. -/
def get {α β : Type} [DecidableEq α] (k : α) : List (α × β) → Option β
  | [] => none
  | (k', v) :: l => if k = k' then some v else get k l

/-- Assignment to one place of a function. -/
def upd {α β : Type} [DecidableEq α] (f : α → β) (a : α) (b : β) : α → β :=
  fun x => if x = a then b else f x

/-- The first half of `xml_new_pname_mapping`: the name, from the cache of the class if it is
there (nodes.py 226-242; the loop at 244-251 has the condition `not True`). -/
def mapping (st : State) (c : Cls) (n : Name) : State × Str :=
  match get n (st.cache c) with
  | some p => (st, p)
  | none =>
    ({ st with cache := upd st.cache c ((n, pythonName st.exclude n.loc) :: st.cache c) },
      pythonName st.exclude n.loc)

/-- What is in the dictionary of the class apart from descriptors. -/
def classKeys : List Str :=
  ["__module__".toList, "__doc__".toList, "xml_child_pnames".toList, "xml_model_".toList,
   "xml_pname_cache".toList]

/-- The second half: a descriptor, unless the class has something of this name (nodes.py 253-262). -/
def bind (st : State) (c : Cls) (d : Desc) (p : Str) : State :=
  if p ∈ classKeys ∨ (get p (st.dict c)).isSome then st
  else { st with dict := upd st.dict c ((p, d) :: st.dict c) }

/-- `xml_new_pname_mapping` with `update_class` (nodes.py 213-263). -/
def newMapping (st : State) (c : Cls) (d : Desc) : State :=
  bind (mapping st c d.name).1 c d (mapping st c d.name).2

/-- `xml_child_inserted` (nodes.py 265-271). -/
def childInserted (st : State) (s c : Nat) : State :=
  if st.h.kind c = .element then newMapping st (st.cls s) (.elem (st.name c)) else st

/-- `splitqname` -/
def localOf : Str → Str
  | [] => []
  | q => match q.dropWhile (· ≠ ':') with
    | _ :: l => l
    | [] => q

/-- Exceptions. -/
inductive Err
  | dom (e : Dom.Err)       -- from the node methods
  | undefined               -- see Verif.Dom.Res
  | attribute | index | key | type
  deriving DecidableEq, Repr

/-- `entity_base(uri)` (nodes.py 576-602). -/
def newEntity (st : State) : State × Nat :=
  ({ st with
      h := st.h.alloc .entity
      attrs := upd st.attrs st.h.size []
      cls := upd st.cls st.h.size (st.h.size, none)
      dict := upd st.dict (st.h.size, none) []
      cache := upd st.cache (st.h.size, none) [] },
    st.h.size)

/-- `tree.text(s)` -/
def newText (st : State) (s : Str) : State × Nat :=
  ({ st with h := st.h.alloc .text, val := upd st.val st.h.size s }, st.h.size)

/-- `xml_element_factory(ns, qname)` (nodes.py 616-634).  Every new element empties the cache of its
class (nodes.py 176-177).  The assignment `e.factory_entity = self` goes to a descriptor if there is
one of that name, which raises an exception. -/
def newElement (st : State) (ent : Nat) (ns : Option Str) (qname : Str) :
    Except Err (State × Nat) :=
  let n : Name := ⟨ns, localOf qname⟩
  let st := (mapping st (ent, none) n).1
  let st := { st with
    h := st.h.alloc .element
    qname := upd st.qname st.h.size qname
    name := upd st.name st.h.size n
    attrs := upd st.attrs st.h.size []
    cls := upd st.cls st.h.size (ent, some n)
    cache := upd st.cache (ent, some n) [] }
  if (get "factory_entity".toList (st.dict (ent, some n))).isSome then .error .attribute
  else .ok (st, st.h.size - 1)

/-- The value of an attribute is set (replaced, or added at the end). -/
def put (n : Name) (v : Str) : List (Name × Str) → List (Name × Str)
  | [] => [(n, v)]
  | (n', v') :: l => if n = n' then (n, v) :: l else (n', v') :: put n v l

/-- An attribute is set, and `xml_attribute_added` is called (attributemap.c 288-346, nodes.py
533-538). -/
def setAttribute (st : State) (e : Nat) (n : Name) (v : Str) : State :=
  newMapping { st with attrs := upd st.attrs e (put n v (st.attrs e)) } (st.cls e) (.attr n)

/-- The result of an edit of the tree. -/
def edited (st : State) : Res → Except Err State
  | .ok h => .ok { st with h := h }
  | .raised e => .error (.dom e)
  | .undefined => .error .undefined

/-- `xml_append`, `xml_insert`, `xml_remove`, `xml_replace` with their events (container.c 319-493). -/
def edit (st : State) (e : Edit) : Except Err State :=
  match edited st (e.run st.h) with
  | .error x => .error x
  | .ok st' =>
    match e with
    | .append s c => .ok (childInserted st' s c)
    | .insert s _ c => .ok (childInserted st' s c)
    | .remove _ _ => .ok st'
    | .replace s o n => if o = n then .ok st' else .ok (childInserted st' s n)

/-- `xml_append(u'...')` (nodes.py 304-305). -/
def appendText (st : State) (s : Nat) (t : Str) : Except Err State :=
  edit (newText st t).1 (.append s (newText st t).2)

/-! ### Parsing -/

mutual
/-- A document as the parser reports it. -/
inductive Xml
  | elem (ns : Option Str) (qname : Str) (attrs : List (Name × Str)) (kids : Xmls)
  | text (s : Str)
inductive Xmls
  | nil
  | cons (x : Xml) (xs : Xmls)
end

/-- `Element_AddAttribute` for all attributes (builder.c 488-500). -/
def addAttributes (st : State) (e : Nat) : List (Name × Str) → State
  | [] => st
  | (n, v) :: l => addAttributes (setAttribute st e n v) e l

/-- `_Container_FastAppend` (container.c 282-317). -/
def fastAppend (st : State) (s c : Nat) : State :=
  { st with h := (st.h.setKids s (st.h.kids s ++ [c])).setParent c (some s) }

/-- The loop at the end of `_Container_FreezeChildren` (container.c 220-225). -/
def insertedAll (st : State) (s : Nat) : List Nat → State
  | [] => st
  | c :: l => insertedAll (childInserted st s c) s l

mutual
/-- The handlers of builder.c (415-560) for one node and all that is in it. -/
def parseNode (st : State) (ent : Nat) : Xml → Except Err (State × Nat)
  | .text s => .ok (newText st s)
  | .elem ns q as ks =>
    match newElement st ent ns q with
    | .error x => .error x
    | .ok (st, e) =>
      match parseKids (addAttributes st e as) ent e ks with
      | .error x => .error x
      | .ok st => .ok (insertedAll st e (st.h.kids e), e)
def parseKids (st : State) (ent e : Nat) : Xmls → Except Err State
  | .nil => .ok st
  | .cons k ks =>
    match parseNode st ent k with
    | .error x => .error x
    | .ok (st, n) => parseKids (fastAppend st e n) ent e ks
end

/-- `bindery.parse` (bindery/__init__.py 13-21). -/
def parse (st : State) (ks : Xmls) : Except Err (State × Nat) :=
  match parseKids (newEntity st).1 (newEntity st).2 (newEntity st).2 ks with
  | .error x => .error x
  | .ok st' => .ok (insertedAll st' (newEntity st).2 (st'.h.kids (newEntity st).2), (newEntity st).2)

/-! ### Reading -/

/-- `child.xml_type == ELEMENT_TYPE and child.xml_name == name` -/
def isNamed (st : State) (n : Name) (c : Nat) : Bool :=
  st.h.kind c = .element && st.name c = n

/-- `xml_find_named_child` (nodes.py 280-294). -/
def findChild (st : State) (e : Nat) (n : Name) : Option Nat :=
  (st.h.kids e).find? (isNamed st n)

/-- What `getattr` gives. -/
inductive Got
  | missing                 -- AttributeError, or something that is not bound
  | none
  | node (c : Nat)
  | value (v : Str)
  deriving DecidableEq, Repr

/-- `getattr(e, p)` for a name that the class does not inherit (nodes.py 115-121, 148-153). -/
def getAttr (st : State) (e : Nat) (p : Str) : Got :=
  match get p (st.dict (st.cls e)) with
  | none => .missing
  | some (.elem n) =>
    match findChild st e n with
    | some c => .node c
    | none => .none
  | some (.attr n) =>
    match get n (st.attrs e) with
    | some v => .value v
    | none => .none

/-- `list(element_iterator(parent, ns, local))` (nodes.py 80-95). -/
def iterNamed (st : State) (p : Nat) (n : Name) : List Nat :=
  (st.h.kids p).filter (isNamed st n)

/-- `list(e)` (nodes.py 561-562); `None.xml_children` is an AttributeError. -/
def elements (st : State) (e : Nat) : Except Err (List Nat) :=
  match st.h.parent e with
  | none => .error .attribute
  | some p => .ok (iterNamed st p (st.name e))

/-- `len(e)` (nodes.py 564-567): the qualified name is used as local name. -/
def len (st : State) (e : Nat) : Except Err Nat :=
  match st.h.parent e with
  | none => .error .attribute
  | some p => .ok (iterNamed st p ⟨(st.name e).ns, st.qname e⟩).length

/-- `l[k]` for a list. -/
def pyIndex (l : List Nat) (k : Int) : Option Nat :=
  if 0 ≤ k then l[k.toNat]?
  else if 0 ≤ k + l.length then l[(k + l.length).toNat]?
  else none

/-- `e[k]` for a number (nodes.py 328-332). -/
def item (st : State) (e : Nat) (k : Int) : Except Err Nat :=
  match st.h.parent e with
  | none => .error .attribute
  | some p =>
    match pyIndex (iterNamed st p ⟨(st.name e).ns, st.qname e⟩) k with
    | some c => .ok c
    | none => .error .index

/-- The types that a key may ask for. -/
inductive Force
  | any | attribute | element | other
  deriving DecidableEq, Repr

/-- `e[ns, local]`, `e[type, ns, local]` (nodes.py 333-347). -/
def itemNamed (st : State) (e : Nat) (f : Force) (n : Name) : Except Err Got :=
  match (if f = .any ∨ f = .attribute then get n (st.attrs e) else none) with
  | some v => .ok (.value v)
  | none =>
    if f = .any ∨ f = .element then
      match findChild st e n with
      | some c => .ok (.node c)
      | none => .ok .none
    else .error .key

/-! ### Writing -/

/-- `for child in target.xml_children: target.xml_remove(child)` -/
def removeAll (st : State) (t : Nat) : List Nat → Except Err State
  | [] => .ok st
  | c :: l =>
    match edit st (.remove t c) with
    | .error x => .error x
    | .ok st => removeAll st t l

/-- The content of an element is replaced by a text (nodes.py 125-128, 456-460). -/
def replaceContent (st : State) (t : Nat) (s : Str) : Except Err State :=
  match removeAll st t (st.h.kids t) with
  | .error x => .error x
  | .ok st => appendText st t s

/-- A new element with a text is appended (nodes.py 129-132). -/
def appendNew (st : State) (e : Nat) (n : Name) (s : Str) : Except Err State :=
  match newElement st (st.cls e).1 n.ns n.loc with
  | .error x => .error x
  | .ok (st, c) =>
    match appendText st c s with
    | .error x => .error x
    | .ok st => edit st (.append e c)

/-- `bound_element.__set__` with a text (nodes.py 123-133). -/
def setElement (st : State) (e : Nat) (n : Name) (s : Str) : Except Err State :=
  match findChild st e n with
  | some t => replaceContent st t s
  | none => appendNew st e n s

/-- `setattr(e, p, s)`; without a descriptor the tree is not involved.  Entities have no
`xml_attributes`. -/
def setAttr (st : State) (e : Nat) (p s : Str) : Except Err State :=
  match get p (st.dict (st.cls e)) with
  | none => .ok st
  | some (.elem n) => setElement st e n s
  | some (.attr n) => if st.h.kind e = .element then .ok (setAttribute st e n s) else .error .attribute

/-- Removal from a dictionary. -/
def drop (n : Name) (l : List (Name × Str)) : List (Name × Str) := l.filter (·.1 ≠ n)

/-- `delattr(e, p)` (nodes.py 135-138, 164-166); `xml_remove(None)` is a TypeError. -/
def delAttr (st : State) (e : Nat) (p : Str) : Except Err State :=
  match get p (st.dict (st.cls e)) with
  | none => .error .attribute
  | some (.elem n) =>
    match findChild st e n with
    | some t => edit st (.remove e t)
    | none => .error .type
  | some (.attr n) =>
    if (get n (st.attrs e)).isSome then .ok { st with attrs := upd st.attrs e (drop n (st.attrs e)) }
    else .error .key

/-- `del e[ns, local]`, `del e[type, ns, local]` (nodes.py 373-390): what is found among the
attributes is not used. -/
def delItem (st : State) (e : Nat) (f : Force) (n : Name) : Except Err State :=
  if f = .any ∨ f = .element then
    match findChild st e n with
    | some t => edit st (.remove e t)
    | none => .ok st
  else .error .key

/-- `e[ns, local] = s`, `e[type, ns, local] = s` (nodes.py 416-460). -/
def setItem (st : State) (e : Nat) (f : Force) (n : Name) (s : Str) : Except Err State :=
  if (f = .any ∨ f = .attribute) ∧ st.h.kind e = .element then .ok (setAttribute st e n s)
  else if f = .any ∨ f = .element then setElement st e n s
  else .error .key

/-- `xml_fixup()` (nodes.py 463-486): all children are removed and appended again. -/
def appendAll (st : State) (e : Nat) : List Nat → Except Err State
  | [] => .ok st
  | c :: l =>
    match edit st (.append e c) with
    | .error x => .error x
    | .ok st => appendAll st e l

def fixup (st : State) (e : Nat) : Except Err State :=
  match removeAll st e (st.h.kids e) with
  | .error x => .error x
  | .ok st' => appendAll st' e (st.h.kids e)

end Verif.Bind
