import Verif.Py
import Verif.XPath.Num

/-
The choice of the output method (lib/xslt/proxywriter.py), and the use of the parameters of xsl:output by a
transformation (lib/xslt/result.py, lib/xslt/processor.py:520-543).

Objects are numbers: writers are indices into `World.objs`, objects for output parameters are indices into
`World.params`.  Of a writer of the chosen class only the calls are modelled that it gets, in their order.
-/
namespace Verif.Xslt.Output
open Verif

/-- The methods of writers (xpath/__init__.py:101-103 `_writer_methods`); all of them are proxy methods
(proxywriter.py:125-175). -/
inductive Meth
  | startDocument | endDocument | startElement | endElement | namespace | attribute | text | comment
  | processingInstruction
  deriving DecidableEq, Repr

/-- The arguments of a call: the first one, the second one (the namespace of start_element), and the rest. -/
structure Args where
  first : Str
  second : Option Str
  rest : Nat
  deriving DecidableEq, Repr

/-- A call. -/
structure Call where
  meth : Meth
  args : Args
  deriving DecidableEq, Repr

/-- An output method: namespace and local name. -/
abbrev Method := Option Str × Str

/-- `_TEXT_METHOD`, `_HTML_METHOD`, `_XML_METHOD` (proxywriter.py:17-19). -/
def textMethod : Method := (none, s!! "text")
def htmlMethod : Method := (none, s!! "html")
def xmlMethod : Method := (none, s!! "xml")

/-- An instance of `outputparameters` (writers/outputparameters.py); `cdata` says whether there are
`cdata_section_elements`, the other parameters are left out. -/
structure Params where
  method : Option Method
  cdata : Bool
  deriving DecidableEq, Repr

/-- The class of a writer. -/
inductive Cls | proxy | text | html | xml | cdata
  deriving DecidableEq, Repr

/-- Exceptions: `XsltError.UNKNOWN_OUTPUT_METHOD`, the AttributeError for `_stack` after it was deleted, and
the use of what does not exist (no behaviour of the code). -/
inductive Err | unknownMethod | attributeError | noSuchObject
  deriving DecidableEq, Repr

/-- `_lookup` (proxywriter.py:80-93). -/
def lookup (p : Params) : Except Err Cls :=
  match p.method with
  | none => .error .unknownMethod
  | some m =>
    if m = textMethod then .ok .text
    else if m = htmlMethod then .ok .html
    else if m = xmlMethod then (if p.cdata then .ok .cdata else .ok .xml)
    else .error .unknownMethod

/-- A writer: its `__class__`, its `output_parameters`, `_stack` (`none` after `del self._stack`), and the calls
that were carried out by methods of other classes than `proxywriter`. -/
structure Obj where
  cls : Cls
  params : Nat
  stack : Option (List Call)
  log : List (Cls × Call)
  deriving DecidableEq, Repr

/-- A bound method that `proxymethod.__get__` returned (proxywriter.py:52-60): its `im_self`, its name, and
the class whose function its `__call__` is bound to. -/
structure Proxy where
  self : Nat
  meth : Meth
  target : Cls
  deriving DecidableEq, Repr

/-- What a caller gets for `writer.method`: a proxy, or an ordinary bound method of the class. -/
inductive Handle
  | proxy (i : Nat)
  | bound (self : Nat) (cls : Cls) (meth : Meth)
  deriving DecidableEq, Repr

/-- All objects.  `refs` are the lists `_refs` of all proxy methods together; proxies are never given up here.
`handles` are the methods that callers have got. -/
structure World where
  params : List Params
  objs : List Obj
  refs : List Proxy
  handles : List Handle
  deriving Repr

/-- `proxywriter(output_parameters, stream)` (proxywriter.py:95-104). -/
def World.make (w : World) (p : Nat) : Except Err World :=
  match w.params[p]? with
  | none => .error .noSuchObject
  | some q =>
    match q.method with
    | some _ => match lookup q with
      | .error e => .error e
      | .ok c => .ok { w with objs := w.objs ++ [{ cls := c, params := p, stack := none, log := [] }] }
    | none => .ok { w with objs := w.objs ++ [{ cls := .proxy, params := p, stack := some [], log := [] }] }

/-- `writer.method`: `proxymethod.__get__` (proxywriter.py:52-60), or the method of another class. -/
def World.get (w : World) (o : Nat) (m : Meth) : Except Err World :=
  match w.objs[o]? with
  | none => .error .noSuchObject
  | some x =>
    if x.cls = .proxy then
      .ok { w with refs := w.refs ++ [{ self := o, meth := m, target := .proxy }],
                   handles := w.handles ++ [.proxy w.refs.length] }
    else .ok { w with handles := w.handles ++ [.bound o x.cls m] }

/-- `proxymethod.update` (proxywriter.py:31-50) of all proxy methods: the proxies of this object. -/
def updateRefs (o : Nat) (c : Cls) (refs : List Proxy) : List Proxy :=
  refs.map fun p => if p.self = o then { p with target := c } else p

/-- `output_parameters.setdefault('method', method)` (outputparameters.py:71-76). -/
def setdefault (p : Params) (m : Method) : Params :=
  match p.method with
  | some _ => p
  | none => { p with method := some m }

/-- `_finalize` (proxywriter.py:106-122) for the writer `o`, which is `x`. -/
def World.finalize (w : World) (o : Nat) (x : Obj) (m : Method) : Except Err World :=
  match w.params[x.params]? with
  | none => .error .noSuchObject
  | some p =>
    let p := setdefault p m
    match lookup p with
    | .error e => .error e
    | .ok c =>
      match x.stack with
      | none => .error .attributeError
      | some stack =>
        .ok { w with params := w.params.set x.params p,
                     refs := updateRefs o c w.refs,
                     objs := w.objs.set o { x with cls := c, stack := none,
                                                   log := x.log ++ stack.map fun k => (c, k) } }

/-- `name.lower()` for the letters of ASCII. -/
def lower (s : Str) : Str := s.map Char.toLower

/-- `isspace(s)` (src/xmlstring.c:113-127). -/
def isSpace (s : Str) : Bool := s.all XPath.isWs

/-- The methods of `proxywriter` (proxywriter.py:125-175): which output method the call decides on. -/
def decides (k : Call) : Option Method :=
  match k.meth with
  | .endDocument => some xmlMethod
  | .startElement =>
    if k.args.second = none ∧ lower k.args.first = s!! "html" then some htmlMethod else some xmlMethod
  | .text => if isSpace k.args.first then none else some xmlMethod
  | _ => none

/-- A call of the function of class `c` for the writer `o`. -/
def World.exec (w : World) (c : Cls) (o : Nat) (k : Call) : Except Err World :=
  match w.objs[o]? with
  | none => .error .noSuchObject
  | some x =>
    if c = .proxy then
      match x.stack with
      | none => .error .attributeError
      | some stack =>
        let x := { x with stack := some (stack ++ [k]) }
        let w := { w with objs := w.objs.set o x }
        match decides k with
        | none => .ok w
        | some m => w.finalize o x m
    else .ok { w with objs := w.objs.set o { x with log := x.log ++ [(c, k)] } }

/-- A call of a method that a caller has got. -/
def World.call (w : World) (h : Nat) (a : Args) : Except Err World :=
  match w.handles[h]? with
  | none => .error .noSuchObject
  | some (.bound o c m) => w.exec c o { meth := m, args := a }
  | some (.proxy i) => match w.refs[i]? with
    | none => .error .noSuchObject
    | some p => w.exec p.target p.self { meth := p.meth, args := a }

/-- What a program does with writers. -/
inductive Act
  | make (params : Nat)
  | get (writer : Nat) (meth : Meth)
  | call (handle : Nat) (args : Args)
  deriving DecidableEq, Repr

/-- One step. -/
def World.step (w : World) : Act → Except Err World
  | .make p => w.make p
  | .get o m => w.get o m
  | .call h a => w.call h a

/-- A program. -/
def World.run (w : World) : List Act → Except Err World
  | [] => .ok w
  | a :: as => match w.step a with
    | .error e => .error e
    | .ok w => w.run as

/-- There are output parameters, but nothing else. -/
def start (params : List Params) : World := { params := params, objs := [], refs := [], handles := [] }

/-! ## Transformations -/

/-- The calls of a transformation, by methods that are fetched before they are called (`context.push_writer`,
xpath/__init__.py:147-155; where they are fetched again later makes no difference). -/
def useWriter (o : Nat) (h : Nat) : List Call → List Act
  | [] => []
  | k :: ks => .get o k.meth :: .call h k.args :: useWriter o (h + 1) ks

/-- `processor.run` with a new result (processor.py:520-545, result.py:24-31): the writer is made with the
transform's own `output_parameters`, which are `p`.  The methods are fetched and called one after the other. -/
def World.transform (w : World) (p : Nat) (calls : List Call) : Except Err World :=
  match w.make p with
  | .error e => .error e
  | .ok w' => w'.run (useWriter w.objs.length w.handles.length calls)

/-- Transformations one after the other, each with its calls, with the same stylesheet. -/
def World.transforms (w : World) (p : Nat) : List (List Call) → Except Err World
  | [] => .ok w
  | ks :: rest => match w.transform p ks with
    | .error e => .error e
    | .ok w => w.transforms p rest

end Verif.Xslt.Output
