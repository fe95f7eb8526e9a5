import Verif.XUpdate.Read
/-
The instructions of XUpdate (lib/xupdate/instructions.py) on the writers of the context (lib/xpath/__init__.py:105-206):
what they write to a tree writer (lib/writers/src/treewriter.c) or to a string writer (lib/writers/stringwriter.py).

Values of expressions and attribute value templates are parameters: functions of the namespaces of the context.  (The
document and the variables do not change while content is written.)  Simplifications: an element is put into its parent
when it ends; the flag for output escaping is left out, all text has it; and so is the ValueError for a prefix without
namespace (treewriter.c:206-213, 363-371), which the parser does not make.
-/
namespace Verif.XUpdate.Read
open Verif Verif.Content
open Verif.Write (UStr)
open Verif.Names (isQName isNCName splitQName)

/-- An attribute that is written: qualified name, namespace, value. -/
structure OAttr where
  qname : UStr
  ns : Option UStr
  value : UStr
  deriving DecidableEq, Repr

/-- The nodes that are written. -/
inductive Out
  | elem (qname : UStr) (ns : Option UStr) (decls : Nss) (attrs : List OAttr) (kids : List Out)
  | text (s : UStr)
  | pi (target data : UStr)
  | comment (s : UStr)

/-- The nodes that are copied. -/
inductive Src
  | elem (qname : UStr) (ns : Option UStr) (decls : Nss) (attrs : List OAttr) (kids : List Src)
  | attr (a : OAttr)
  | text (s : UStr)
  | pi (target data : UStr)
  | comment (s : UStr)
  | entity (kids : List Src)
  | namespace (p u : Option UStr)

/-- Values of expressions: node-sets and others, as strings. -/
inductive Val
  | nodes (l : List Src)
  | str (s : UStr)

/-- Exceptions: of an expression, XUpdateError.UNDEFINED_PREFIX, AttributeError (for error codes that XUpdateError does
not have), IndexError, RuntimeError of the tree writer, and NotImplementedError. -/
inductive IErr
  | eval (n : Nat) | undefinedPrefix (p : UStr) | attributeError | indexError | runtime | notImplemented
  deriving DecidableEq, Repr

/-- What expressions evaluate to. -/
structure Ev where
  /-- `avt_expression.evaluate_as_string` with these namespaces. -/
  avt : Nss → UStr → Except IErr UStr
  /-- `evaluate` with these namespaces. -/
  value : Nss → UStr → Except IErr Val

/-! ### The tree writer -/

/-- An element that is open. -/
structure Open where
  qname : UStr
  ns : Option UStr
  decls : Nss
  attrs : List OAttr
  kids : List Out

/-- The tree writer: the children of the document, the open elements, the innermost first, and the text that is not yet
a node. -/
structure TW where
  root : List Out
  stack : List Open
  buf : UStr

/-- `Container_Append(self->current_node, ...)`. -/
def TW.add (w : TW) (o : Out) : TW := match w.stack with
  | [] => { w with root := w.root ++ [o] }
  | t :: ts => { w with stack := { t with kids := t.kids ++ [o] } :: ts }

/-- `if (self->buffer_size && complete_text(self) < 0)` (treewriter.c:88-123, 185). -/
def TW.flush (w : TW) : TW := match w.buf with
  | [] => w
  | c :: cs => { w.add (.text (c :: cs)) with buf := [] }

/-- treewriter.c:164-247 `start_element`. -/
def TW.startElement (w : TW) (qname : UStr) (ns : Option UStr) (decls : Nss) : TW :=
  { w.flush with stack := ⟨qname, ns, decls, [], []⟩ :: w.flush.stack }

/-- treewriter.c:249-310 `end_element`. -/
def TW.endElement (w : TW) (qname : UStr) (ns : Option UStr) : Except IErr TW := match w.flush.stack with
  | [] => .error .runtime
  | t :: ts =>
    if t.qname = qname ∧ t.ns = ns then
      .ok ({ w.flush with stack := ts }.add (.elem t.qname t.ns t.decls t.attrs t.kids))
    else .error .runtime

/-- `Element_AddAttribute`: an attribute with the same namespace and local name is replaced. -/
def setAttr (a : OAttr) : List OAttr → List OAttr
  | [] => [a]
  | b :: l =>
    if b.ns = a.ns ∧ (splitQName b.qname).2 = (splitQName a.qname).2 then a :: l else b :: setAttr a l

/-- treewriter.c:312-382 `attribute`: ignored on the document, and on an element with children. -/
def TW.attribute (w : TW) (a : OAttr) : TW := match w.stack with
  | [] => w
  | t :: ts => if t.kids.isEmpty then { w with stack := { t with attrs := setAttr a t.attrs } :: ts } else w

/-- treewriter.c:384-444 `text`. -/
def TW.text (w : TW) (s : UStr) : TW := { w with buf := w.buf ++ s }

/-- treewriter.c:446-526 `processing_instruction`, `comment`. -/
def TW.node (w : TW) (o : Out) : TW := w.flush.add o

/-! ### The context -/

/-- A tree writer or a string writer (made with `errors=False`) with the text it has collected. -/
inductive Writer
  | tree (w : TW)
  | string (data : UStr)

/-- lib/writers/stringwriter.py:34-62: only `text` does something. -/
def Writer.startElement (q : UStr) (ns : Option UStr) (d : Nss) : Writer → Except IErr Writer
  | .tree w => .ok (.tree (w.startElement q ns d))
  | .string s => .ok (.string s)
def Writer.endElement (q : UStr) (ns : Option UStr) : Writer → Except IErr Writer
  | .tree w => match w.endElement q ns with
    | .error e => .error e
    | .ok w => .ok (.tree w)
  | .string s => .ok (.string s)
def Writer.attribute (a : OAttr) : Writer → Except IErr Writer
  | .tree w => .ok (.tree (w.attribute a))
  | .string s => .ok (.string s)
/-- lib/writers/stringwriter.py:30-32 `text`. -/
def Writer.text (t : UStr) : Writer → Except IErr Writer
  | .tree w => .ok (.tree (w.text t))
  | .string s => .ok (.string (s ++ t))
def Writer.node (o : Out) : Writer → Except IErr Writer
  | .tree w => .ok (.tree (w.node o))
  | .string s => .ok (.string s)

/-- The context: `namespaces` and `_writers`, the last first. -/
structure Ctx where
  nss : Nss
  writers : List Writer

/-- A call of the current writer.  (Without one the model raises; the instructions only run inside commands.) -/
def Ctx.write (c : Ctx) (f : Writer → Except IErr Writer) : Except IErr Ctx := match c.writers with
  | [] => .error .runtime
  | w :: ws => match f w with
    | .error e => .error e
    | .ok w => .ok { c with writers := w :: ws }

/-- lib/xpath/__init__.py:161-163 `push_string_writer`. -/
def Ctx.pushString (c : Ctx) : Ctx := { c with writers := .string [] :: c.writers }

/-- `context.pop_writer()`, `writer.get_result()` for a string writer. -/
def Ctx.popString (c : Ctx) : Except IErr (UStr × Ctx) := match c.writers with
  | .string s :: ws => .ok (s, { c with writers := ws })
  | _ => .error .runtime

/-- The attributes of an element, one after the other. -/
def writeAttrs (c : Ctx) : List OAttr → Except IErr Ctx
  | [] => .ok c
  | a :: l => match c.write (Writer.attribute a) with
    | .error e => .error e
    | .ok c => writeAttrs c l

mutual
/-- lib/xpath/__init__.py:182-206 `copy_node`. (`namespace` of the tree writer is the one of the base class and does
nothing.) -/
def copyNode (c : Ctx) : Src → Except IErr Ctx
  | .elem q ns d as ks => match c.write (Writer.startElement q ns d) with
    | .error e => .error e
    | .ok c => match writeAttrs c as with
      | .error e => .error e
      | .ok c => match copyNodes c ks with
        | .error e => .error e
        | .ok c => c.write (Writer.endElement q ns)
  | .attr a => c.write (Writer.attribute a)
  | .text s => c.write (Writer.text s)
  | .pi t d => c.write (Writer.node (.pi t d))
  | .comment s => c.write (Writer.node (.comment s))
  | .entity ks => copyNodes c ks
  | .namespace _ _ => .ok c
def copyNodes (c : Ctx) : List Src → Except IErr Ctx
  | [] => .ok c
  | s :: l => match copyNode c s with
    | .error e => .error e
    | .ok c => copyNodes c l
end

/-! ### The instructions -/

/-- `self.name.evaluate_as_string(context)` of a `qname_avt` (expressions.py:30-36). -/
def evalQName (ev : Ev) (c : Ctx) (name : UStr) : Except IErr UStr := match ev.avt c.nss name with
  | .error e => .error e
  | .ok n => if isQName n then .ok n else .error .attributeError

/-- The same for an `ncname_avt` (expressions.py:48-54). -/
def evalNCName (ev : Ev) (c : Ctx) (name : UStr) : Except IErr UStr := match ev.avt c.nss name with
  | .error e => .error e
  | .ok n => if isNCName n then .ok n else .error .attributeError

/-- The namespace of an element (instructions.py:44-51); `self.namespace` is always None, see `namespaceAttr`. -/
def elementNs (nss : Nss) (name : UStr) : Except IErr (Option UStr) :=
  match lookup (splitQName name).1 nss with
  | some u => .ok u
  | none => match (splitQName name).1 with
    | some (x :: p) => .error (.undefinedPrefix (x :: p))
    | _ => .error (.undefinedPrefix (u!! "#default"))

/-- The namespace of an attribute (instructions.py:82-91). -/
def attributeNs (nss : Nss) (name : UStr) : Except IErr (Option UStr) :=
  match (splitQName name).1 with
  | some (x :: p) => match lookup (some (x :: p)) nss with
    | some u => .ok u
    | none => .error (.undefinedPrefix (x :: p))
  | _ => .ok none

/-- `self[0]` of an `xupdate:text` (instructions.py:107). -/
def firstText : List Item → Except IErr UStr
  | .text s :: _ => .ok s
  | _ => .error .indexError

mutual
/-- `instantiate` of the instructions. -/
def inst (ev : Ev) : Item → Ctx → Except IErr Ctx
  -- instructions.py:191-194
  | .text s, c => c.write (Writer.text s)
  -- instructions.py:179-186
  | .node (.literal tag ns attrs) kids, c => match c.write (Writer.startElement tag ns []) with
    | .error e => .error e
    | .ok c => match writeAttrs c (attrs.map fun a => ⟨a.2.1, a.1, a.2.2⟩) with
      | .error e => .error e
      | .ok c => match instAll ev kids c with
        | .error e => .error e
        | .ok c => c.write (Writer.endElement tag ns)
  -- instructions.py:38-57
  | .node (.element nss name) kids, c => match evalQName ev { c with nss := nss } name with
    | .error e => .error e
    | .ok n => match elementNs nss n with
      | .error e => .error e
      | .ok ns => match ({ c with nss := nss } : Ctx).write (Writer.startElement n ns []) with
        | .error e => .error e
        | .ok c => match instAll ev kids c with
          | .error e => .error e
          | .ok c => c.write (Writer.endElement n ns)
  -- instructions.py:76-98
  | .node (.attribute nss name) kids, c => match evalQName ev { c with nss := nss } name with
    | .error e => .error e
    | .ok n => match attributeNs nss n with
      | .error e => .error e
      | .ok ns => match instAll ev kids ({ c with nss := nss } : Ctx).pushString with
        | .error e => .error e
        | .ok c => match c.popString with
          | .error e => .error e
          | .ok (v, c) => c.write (Writer.attribute ⟨n, ns, v⟩)
  -- instructions.py:106-107
  | .node .text kids, c => match firstText kids with
    | .error e => .error e
    | .ok s => c.write (Writer.text s)
  -- instructions.py:123-131
  | .node (.pi nss name) kids, c => match evalNCName ev { c with nss := nss } name with
    | .error e => .error e
    | .ok n => match instAll ev kids ({ c with nss := nss } : Ctx).pushString with
      | .error e => .error e
      | .ok c => match c.popString with
        | .error e => .error e
        | .ok (v, c) => c.write (Writer.node (.pi n v))
  -- instructions.py:139-145
  | .node .comment kids, c => match instAll ev kids c.pushString with
    | .error e => .error e
    | .ok c => match c.popString with
      | .error e => .error e
      | .ok (v, c) => c.write (Writer.node (.comment v))
  -- instructions.py:159-166
  | .node (.valueOf nss sel) _, c => match ev.value nss sel with
    | .error e => .error e
    | .ok (.nodes l) => copyNodes { c with nss := nss } l
    | .ok (.str s) => ({ c with nss := nss } : Ctx).write (Writer.text s)
  -- commands: the reader does not let them into content
  | .node _ _, _ => .error .notImplemented
/-- `for child in self: child.instantiate(context)`. -/
def instAll (ev : Ev) : List Item → Ctx → Except IErr Ctx
  | [], c => .ok c
  | i :: is, c => match inst ev i c with
    | .error e => .error e
    | .ok c => instAll ev is c
end

/-- `context.push_tree_writer(...)`, the content, `context.pop_writer()`, `writer.get_result()` (commands.py:71-75): the
children of the document, and the context. -/
def makeTree (ev : Ev) (items : List Item) (c : Ctx) : Except IErr (List Out × Ctx) :=
  match instAll ev items { c with writers := .tree ⟨[], [], []⟩ :: c.writers } with
  | .error e => .error e
  | .ok c => match c.writers with
    | .tree w :: ws => .ok (w.flush.root, { c with writers := ws })
    | _ => .error .runtime

/-- The same with a string writer (commands.py:109-113 and others). -/
def makeString (ev : Ev) (items : List Item) (c : Ctx) : Except IErr (UStr × Ctx) :=
  match instAll ev items c.pushString with
  | .error e => .error e
  | .ok c => c.popString

/-- The namespaces with which the `child` attribute of `append` is evaluated (commands.py:64-83): those that the context
has when the content has been written. -/
def childNss (ev : Ev) (nss : Nss) (items : List Item) (c : Ctx) : Except IErr Nss :=
  match makeTree ev items { c with nss := nss } with
  | .error e => .error e
  | .ok (_, c) => .ok c.nss

end Verif.XUpdate.Read
