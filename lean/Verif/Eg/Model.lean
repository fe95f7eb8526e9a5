/-
Examplotron models: the constraints an example document sets up for the
documents bound with it, and `xml_validate`, which checks them
(`lib/bindery/model/__init__.py`, `lib/bindery/model/examplotron.py`,
`lib/bindery/nodes.py`).
-/
import Verif.Write.Stream

namespace Verif.Eg
open Verif.Write (UStr)

/-- A universal name: namespace (or None) and local part. -/
structure Name where
  ns : Option UStr
  loc : UStr
deriving DecidableEq, Repr

/-- The in-scope namespaces of a node, `xml_namespaces.items()`: prefix
(`none` for the default namespace) and URI, in the dictionary's order. -/
abbrev Nss := List (Option UStr × UStr)

/-- An element of an example document: its name, the value of its
`eg:occurs` attribute, its in-scope namespaces and its child elements.
Everything else in it is not looked at by the constraints. -/
inductive Ex where
  | elem (name : Name) (occurs : Option UStr) (nss : Nss) (kids : List Ex)
deriving Repr

/-- An element of a document bound with the model: its prefix, its name, its
in-scope namespaces and its child elements. -/
inductive Doc where
  | elem (pre : Option UStr) (name : Name) (nss : Nss) (kids : List Doc)
deriving Repr

@[inline] def Ex.name : Ex → Name | .elem n _ _ _ => n
@[inline] def Ex.occurs : Ex → Option UStr | .elem _ o _ _ => o
@[inline] def Ex.nss : Ex → Nss | .elem _ _ s _ => s
@[inline] def Ex.kids : Ex → List Ex | .elem _ _ _ k => k
@[inline] def Doc.pre : Doc → Option UStr | .elem p _ _ _ => p
@[inline] def Doc.name : Doc → Name | .elem _ n _ _ => n
@[inline] def Doc.nss : Doc → Nss | .elem _ _ s _ => s
@[inline] def Doc.kids : Doc → List Doc | .elem _ _ _ k => k

/-- The three shapes of node test `named_node_test` makes. -/
inductive Test where
  /-- `local` -/
  | plain (loc : UStr)
  /-- `prefix:local` -/
  | prefixed (pre loc : UStr)
  /-- `*[namespace-uri()="ns" and local-name()="local"]` -/
  | general (ns loc : UStr)
deriving DecidableEq, Repr

/-- lib/xpath/util.py:336-353 `named_node_test` with the default axis.  (The
text of the test is represented by its shape.) -/
def namedNodeTest (n : Name) (nss : Nss) : Test :=
  match n.ns with
  | none => .plain n.loc
  | some [] => .plain n.loc
  | some u =>
    match nss.find? (fun b => b.2 == u) with
    | some (some p, _) => if p = [] then .general u n.loc else .prefixed p n.loc
    | some (none, _) => .general u n.loc
    | none => .general u n.loc

/-- The constraints `setup_model` makes, by the form of the assertion. -/
inductive Con where
  /-- `child_element_constraint(ns, local)` without default
  (lib/bindery/model/__init__.py:96-107) -/
  | child (n : Name)
  /-- `count(test) = 1` -/
  | one (t : Test)
  /-- `count(t1|t2|…) = count(*)` -/
  | only (ts : List Test)
  /-- `not(*)` -/
  | empty
deriving DecidableEq, Repr

/-- Exceptions. -/
inductive Err where
  /-- `BinderyError.CONSTRAINT_VIOLATION`, with the constraint. -/
  | violation (c : Con)
  /-- XPath: a prefix of the assertion is not bound at the node. -/
  | undefinedPrefix (p : UStr)
  /-- `RuntimeError`: maximum recursion depth exceeded. -/
  | recursion
deriving DecidableEq, Repr

/-- The owner of a content model: the document (`none`) or an element class;
the classes are per universal name (lib/bindery/nodes.py `eclass`). -/
abbrev Key := Option Name

/-- lib/bindery/model/examplotron.py:60-66: the constraints one child
element of the example adds to the model of its parent. -/
def occursCons (parent : Key) (pnss : Nss) (n : Name) (occurs : Option UStr) : List (Key × Con) :=
  (if occurs = some (u!! "?") ∨ occurs = some (u!! "*") then [] else [(parent, Con.child n)]) ++
  (if occurs = some (u!! "+") ∨ occurs = some (u!! "*") then []
   else [(parent, Con.one (namedNodeTest n pnss))])

/-- lib/bindery/model/examplotron.py:128-135: the constraint added after the
children of `parent` have been looked at. -/
def lastCon (pnss : Nss) (kids : List Ex) : Con :=
  match kids with
  | [] => .empty
  | k :: ks => .only ((k :: ks).map fun e => namedNodeTest e.name pnss)

mutual
/-- lib/bindery/model/examplotron.py:55-126, the body of the loop for one
child element `e` of `parent` (the metadata cues are in
`Verif.Eg.Meta`). -/
def setupChild (parent : Key) (pnss : Nss) : Ex → List (Key × Con)
  | .elem n occurs nss kids =>
    occursCons parent pnss n occurs ++ (setupChildren (some n) nss kids ++ [(some n, lastCon nss kids)])
/-- The loop over the children. -/
def setupChildren (parent : Key) (pnss : Nss) : List Ex → List (Key × Con)
  | [] => []
  | e :: es => setupChild parent pnss e ++ setupChildren parent pnss es
end

/-- lib/bindery/model/examplotron.py:42-135 `setup_model` on one node: all
`add_constraint` calls, in order, with the model they are made on. -/
def setupModel (parent : Key) (pnss : Nss) (kids : List Ex) : List (Key × Con) :=
  setupChildren parent pnss kids ++ [(parent, lastCon pnss kids)]

/-- The constraints of the model of `k`. -/
def constraintsOf (added : List (Key × Con)) (k : Key) : List Con :=
  (added.filter fun a => a.1 = k).map (·.2)

/-- The child elements a node test selects, the in-scope namespaces of the
context node being `nss` (`SimpleEvaluate` takes the prefixes of the node).
The XPath evaluator itself is modelled elsewhere; here the three shapes of
test are given their meaning directly. -/
def select (nss : Nss) (kids : List Doc) : Test → Except Err (List Doc)
  | .plain l => .ok (kids.filter fun d => d.name = ⟨none, l⟩)
  | .prefixed p l =>
    match nss.find? (fun b => b.1 == some p) with
    | some b => .ok (kids.filter fun d => d.name = ⟨some b.2, l⟩)
    | none => .error (.undefinedPrefix p)
  | .general u l => .ok (kids.filter fun d => d.name = ⟨some u, l⟩)

/-- The children selected by a union of tests: those one of the tests
selects, each once; every test is evaluated. -/
def selectAny (nss : Nss) (kids : List Doc) : List Test → Except Err (Doc → Bool)
  | [] => .ok fun _ => false
  | .plain l :: ts => do
    let r ← selectAny nss kids ts
    .ok fun d => decide (d.name = ⟨none, l⟩) || r d
  | .general u l :: ts => do
    let r ← selectAny nss kids ts
    .ok fun d => decide (d.name = ⟨some u, l⟩) || r d
  | .prefixed p l :: ts =>
    match nss.find? (fun b => b.1 == some p) with
    | some b => do
      let r ← selectAny nss kids ts
      .ok fun d => decide (d.name = ⟨some b.2, l⟩) || r d
    | none => .error (.undefinedPrefix p)

/-- Whether the assertion of a constraint holds of a node with these
in-scope namespaces and child elements. -/
def holds (nss : Nss) (kids : List Doc) : Con → Except Err Bool
  | .child n =>
    match n.ns with
    | none => do let r ← select nss kids (.plain n.loc); .ok (!r.isEmpty)
    | some [] => do let r ← select nss kids (.plain n.loc); .ok (!r.isEmpty)
    | some u => do let r ← select nss kids (namedNodeTest ⟨some u, n.loc⟩ nss); .ok (!r.isEmpty)
  | .one t => do let r ← select nss kids t; .ok (r.length == 1)
  | .only ts => do let r ← selectAny nss kids ts; .ok ((kids.filter r).length == kids.length)
  | .empty => .ok kids.isEmpty

/-- lib/bindery/model/__init__.py:59-75 `constraint.validate`; none of the
constraints of an examplotron model has a fixup. -/
def checkCon (nss : Nss) (kids : List Doc) (c : Con) : Except Err Unit := do
  let r ← holds nss kids c
  if r then .ok () else .error (.violation c)

/-- lib/bindery/model/__init__.py:154-155: the loop over the constraints. -/
def checkAll (nss : Nss) (kids : List Doc) : List Con → Except Err Unit
  | [] => .ok ()
  | c :: cs => do checkCon nss kids c; checkAll nss kids cs

/-- A node met by `element_subtree_iter`: the document or an element. -/
inductive Node where
  | root (kids : List Doc)
  | el (d : Doc)

def Node.kids : Node → List Doc
  | .root ks => ks
  | .el d => d.kids

def Node.key : Node → Key
  | .root _ => none
  | .el d => some d.name

/-- The in-scope namespaces of the document are those of its element
(lib/bindery/nodes.py `entity_base.xml_namespaces`). -/
def Node.nss : Node → Nss
  | .root ks => ks.flatMap Doc.nss
  | .el d => d.nss

/-- `if node:` (lib/bindery/model/__init__.py:152).  An entity has no length
and is true.  The length of an element counts the siblings whose local name
is its *qualified* name (lib/bindery/nodes.py:564-567), so it is at least
one without prefix and zero with one. -/
def Node.truthy : Node → Bool
  | .root _ => true
  | .el d => d.pre.isNone

/-- lib/bindery/model/__init__.py:149-167 `content_model.validate(node)`.  A
node that is false is taken for `None`: all elements of the model's
documents that have this model are validated instead, this one among them,
which never ends.  (The properties set on the node class at line 157-160
exist already for the elements of the example.) -/
def validateNode (added : List (Key × Con)) (n : Node) : Except Err Unit :=
  if n.truthy then checkAll n.nss n.kids (constraintsOf added n.key)
  else .error .recursion

mutual
/-- Number of elements of a subtree. -/
def Doc.size : Doc → Nat
  | .elem _ _ _ ks => Doc.sizes ks + 1
def Doc.sizes : List Doc → Nat
  | [] => 0
  | d :: ds => d.size + Doc.sizes ds
end

/-- lib/lib/util.py:27-31, the loop of `element_subtree_iter`: the stack of
iterators still to be used up (the top first).  The first argument bounds
the number of turns and suffices when it is the number of elements and
iterators. -/
def drain : Nat → List (List Node) → List Node
  | 0, _ => []
  | _ + 1, [] => []
  | k + 1, it :: stack =>
    it ++ drain k ((it.map fun n => n.kids.map Node.el).reverse ++ stack)

/-- lib/lib/util.py:17-32 `element_subtree_iter(node, include_root=True)`. -/
def elementSubtreeIter : Node → List Node
  | .root ks => drain (Doc.sizes ks + 2) [[.root ks]]
  | .el d => drain (d.size + 1) [[.el d]]

/-- lib/bindery/nodes.py:194-195: the loop of `xml_validate`. -/
def validateAll (added : List (Key × Con)) : List Node → Except Err Unit
  | [] => .ok ()
  | n :: ns => do validateNode added n; validateAll added ns

/-- lib/bindery/nodes.py:192-196 `xml_validate`. -/
def xmlValidate (added : List (Key × Con)) (n : Node) : Except Err Unit :=
  validateAll added (elementSubtreeIter n)

/-- lib/bindery/model/examplotron.py:35-40: the model of an example document
with these top elements. -/
def exampleModel (kids : List Ex) : List (Key × Con) :=
  setupModel none (kids.flatMap Ex.nss) kids

end Verif.Eg
