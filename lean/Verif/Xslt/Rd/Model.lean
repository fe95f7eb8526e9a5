import Verif.Xslt.Rd.Tables
/-
Model of the stylesheet reader (lib/xslt/reader/__init__.py) as a SAX content handler.

Simplifications:
* `startPrefixMapping` (reader/__init__.py:311-315) is folded into `startElementNS`: the declarations of an element come
  with its start;
* the parts of the reader that are not about what is accepted and about the tree are left out: base URIs and line
  numbers, `outputNamespaces` and the output attributes of literal result elements (literal_element.py), attributes in
  other namespaces (`setAttribute`);
* the second cache, `_extelement_cache`, is a cache of a pure look-up and is left out; `_element_cache` is modelled;
* combining stylesheets (`_combine_stylesheet`) is the test `combine`: whether the other stylesheet could be read.  What
  it contributes, and the import precedences, are modelled in Verif.Xslt.Import and Verif.Xslt.Globals: here the import
  precedence is constant while a document is read.
-/
namespace Verif.Xslt.Rd
open Verif.Content
open Verif.Write (UStr)
open Verif.Names (isQName splitQName)

/-- The element classes of extensions: their content is one of the models of content_model.py that the extension
elements of lib/xslt/exslt and lib/xslt/extensions have: `template`, `empty`, or `param`s before a template
(exslt/functions.py:17-20). -/
inductive ExtContent where
  | template | empty | params
deriving DecidableEq, Repr

def ExtContent.model : ExtContent → Content Tok
  | .template => Rd.template
  | .empty => Rd.empty
  | .params => mkSeq [mkRep (Rd.qname (u!! "param")), Rd.template]

/-- What the reader gets from elsewhere. `N` are the Python floats. -/
structure Hooks (N : Type) where
  /-- `float(value)`, `none` if it raises. -/
  float : UStr → Option N
  /-- `value == 1.0` -/
  one : N → Bool
  /-- `value == 0.0`: a float that is false. -/
  zero : N → Bool
  /-- `value.split()` -/
  words : UStr → List UStr
  /-- `parse_xpath` raises no SyntaxError. -/
  expression : UStr → Bool
  /-- `parse_xpattern` raises no error. -/
  pattern : UStr → Bool
  /-- the parser of attribute value templates accepts the value. -/
  avt : UStr → Bool
  /-- `_extelements` -/
  ext : Name → Option (ExtContent × Option (List (UStr × AttrInfo)))
  /-- `_combine_stylesheet` raises no error for the `href`. -/
  combine : UStr → Bool

/-- Values of attributes, as instances keep them. -/
inductive Value (N : Type) where
  | none
  | str (s : UStr)
  | bool (b : Bool)
  | number (n : N)
  | name (n : Name)
  | names (l : List Name)
  | raw (p : Option UStr) (l : UStr)
  | prefixes (l : List (Option UStr))
  | code (s : UStr)

inductive Err where
  | illegalElement | illegalChild | illegalText | missingAttr | illegalAttr | illegalXslAttr | badValue
  | undefinedPrefix | combine | missingElement | keyError | missingVersion | shadowing | duplicateVar
  | assertion | merge | type
deriving DecidableEq, Repr

/-- A dictionary of namespaces: prefix to URI. -/
abbrev Nss := List (Option UStr × Option UStr)

/-- The value of an attribute as it is given to `startElementNS`: a string, or (reader/__init__.py:549-550) a float. -/
inductive AVal (N : Type) where
  | str (s : UStr)
  | num (n : N)

variable {N : Type}

/-- attribute_types.py:225-245 `qname.prepare` for a string. -/
def prepareQName (nss : Nss) (v : UStr) : Except Err Name :=
  if isQName v then
    match splitQName v with
    | (some p, l) => match lookup (some p) nss with
      | some u => .ok (u, l)
      | none => .error .undefinedPrefix
    | (none, l) => .ok (none, l)
  else .error .badValue

/-- attribute_types.py:290-300 `prefix.prepare` for a string. -/
def preparePrefix (v : UStr) : Except Err (Option UStr) :=
  if v = [] then .error .badValue
  else if ':'.toNat ∈ v then .error .badValue
  else if v = u!! "#default" then .ok none
  else .ok (some v)

/-- `value[:value.rfind(':')]`, `none` if there is no colon. -/
def beforeLastColon (v : UStr) : Option UStr :=
  match v.reverse.dropWhile (· ≠ ':'.toNat) with
  | [] => none
  | _ :: r => some r.reverse

/-- attribute_types.py:356-372 `token.prepare`. -/
def prepareToken (nss : Nss) (v : UStr) : Except Err Name :=
  match beforeLastColon v with
  | none => .ok (none, v)
  | some p => match lookup (some p) nss with
    | some u => .ok (u, v.drop (p.length + 1))
    | none => .error .undefinedPrefix

/-- A loop that prepares every word of a list (attribute_types.py:477-484, 497-504, 517-524). -/
def prepareAll {α : Type} (f : UStr → Except Err α) : List UStr → Except Err (List α)
  | [] => .ok []
  | w :: ws => match f w with
    | .ok a => match prepareAll f ws with
      | .ok as => .ok (a :: as)
      | .error e => .error e
    | .error e => .error e

/-- `prepare` of a class of attribute_types.py for a string; `reprocess` of the AVT classes is `prepare` of the class
they extend. -/
def prepareStr (H : Hooks N) (nss : Nss) : AttrType → UStr → Except Err (Value N)
  | .id, v => if v = [] then .error .badValue else .ok (.str v)
  | .prefix, v => match preparePrefix v with
    | .ok p => .ok (.prefixes [p])
    | .error e => .error e
  | .prefixes, v => match prepareAll preparePrefix (H.words v) with
    | .ok l => .ok (.prefixes l)
    | .error e => .error e
  | .number, v => match H.float v with
    | some n => .ok (.number n)
    | none => .error .badValue
  | .qname, v => match prepareQName nss v with
    | .ok n => .ok (.name n)
    | .error e => .error e
  | .qnames, v => match prepareAll (prepareQName nss) (H.words v) with
    | .ok l => .ok (.names l)
    | .error e => .error e
  | .rawQname, v => if isQName v then .ok (.raw (splitQName v).1 (splitQName v).2) else .error .badValue
  | .tokens, v => match prepareAll (prepareToken nss) (H.words v) with
    | .ok l => .ok (.names l)
    | .error e => .error e
  | .uri, v => .ok (.str v)
  | .namespaceUri, v => if v = xmlNs ∨ v = xmlnsNs then .error .badValue else .ok (.str v)
  | .expression, v => if H.expression v then .ok (.code v) else .error .badValue
  | .pattern, v => if H.pattern v then .ok (.code v) else .error .badValue
  | .string, v => .ok (.str v)
  | .char, v => if v.length > 1 then .error .badValue else .ok (.str v)
  | .nmtoken, v => if v = [] then .error .badValue else .ok (.str v)
  | .ncname, v => if v = [] ∨ ':'.toNat ∈ v then .error .badValue else .ok (.str v)
  | .yesno, v => if v = u!! "yes" ∨ v = u!! "no" then .ok (.bool (v = u!! "yes")) else .error .badValue
  | .choice vs, v => if v ∈ vs then .ok (.str v) else .error .badValue
  | .avt t, v => if '{'.toNat ∈ v ∨ '}'.toNat ∈ v then (if H.avt v then .ok (.code v) else .error .badValue)
      else prepareStr H nss t v

/-- `prepare` when the attribute is not there (`value is None`): the default.  The default of an expression, a pattern
or a qname is parsed (attribute_types.py:226-229, 425-433, 461-466), the other defaults are kept as they are. -/
def prepareDefault (H : Hooks N) (nss : Nss) : AttrType → Option UStr → Except Err (Value N)
  | .prefixes, _ => .ok (.prefixes [])
  | .qnames, _ => .ok (.names [])
  | .tokens, _ => .ok (.names [])
  | .yesno, d => .ok (.bool (d = some (u!! "yes")))
  | .avt t, d => prepareDefault H nss t d
  | _, none => .ok .none
  | .expression, some d => prepareStr H nss .expression d
  | .pattern, some d => prepareStr H nss .pattern d
  | .qname, some d => prepareStr H nss .qname d
  | .rawQname, some d => prepareStr H nss .rawQname d
  | _, some d => .ok (.str d)

/-- `attr_info.prepare(instance, value)`.  A float is only ever given to a number (reader/__init__.py:549-550):
`float(value or self.default)` (attribute_types.py:169-171), where 0.0 is false and the default is None. -/
def prepare (H : Hooks N) (nss : Nss) (i : AttrInfo) : Option (AVal N) → Except Err (Value N)
  | none => prepareDefault H nss i.type i.default
  | some (.str s) => prepareStr H nss i.type s
  | some (.num n) => match i.type with
    | .number => if H.zero n then .error .badValue else .ok (.number n)
    | _ => .error .type

/-- The tree of the stylesheet: elements with their class, name and children, text, and the pseudo-nodes that save and
restore the variable bindings (reader/__init__.py:28-55). -/
inductive Tree where
  | elem (klass : Klass) (name : Name) (kids : List Tree)
  | text (s : UStr)
  | push
  | pop
deriving Repr

/-- A position in a content model: the dictionary `validation`. -/
abbrev Val := List (List (Tok × Nat)) × Nat

/-- `content_model.compile()` -/
def start_ (c : Content Tok) : Val := ((compile .fin c).getD [], 0)

/-- reader/__init__.py:114-150 `parse_state` with the fields of its node: `node` is the identity of the node,
`locals` the identity of the dictionary `localVariables`. -/
structure Frame (N : Type) where
  node : Nat
  klass : Klass
  name : Name
  attrs : List (UStr × Value N)
  version : Option N
  kids : List Tree
  val : Val
  locals : Nat
  fc : Bool
  cur : Nss
  ext : List (Option UStr)

/-- The reader (reader/__init__.py:152-186) with the cache that all readers share (`_element_cache`, line 320) and the
dictionaries of local variables. -/
structure Reader (N : Type) where
  stack : List (Frame N)
  dicts : List (List Name)
  cache : List (UStr × Class)
  sheet : Option Nat
  root : Option Nat
  docs : List (Option Nat)
  globals : List Name
  next : Nat

/-- A new reader (reader/__init__.py:160-173). -/
def Reader.new (cache : List (UStr × Class)) : Reader N :=
  { stack := [], dicts := [], cache, sheet := none, root := none, docs := [], globals := [], next := 0 }

/-- The result of an event: an exception leaves the reader as it is then. -/
abbrev Res (N : Type) := Except (Err × Reader N) (Reader N)

/-- One statement after the other. -/
def andThen (r : Res N) (k : Reader N → Res N) : Res N :=
  match r with
  | .ok rd => k rd
  | .error e => .error e

/-- The start of an element. -/
structure Start (N : Type) where
  name : Name
  decls : Nss
  attrs : List (Name × AVal N)

/-- The prefixes of an attribute value (reader/__init__.py:635-651): the namespaces they are bound to. -/
def prefixUris (nss : Nss) : List (Option UStr) → Except Err (List (Option UStr))
  | [] => .ok []
  | p :: ps => match lookup p nss with
    | some u => match prefixUris nss ps with
      | .ok us => .ok (u :: us)
      | .error e => .error e
    | none => .error .undefinedPrefix

/-- reader/__init__.py:629-675 `_handle_standard_attr`. -/
def standardAttr (H : Hooks N) (f : Frame N) (name : UStr) (value : Value N) : Except Err (Frame N) :=
  if name = u!! "extension-element-prefixes" then
    match value with
    | .prefixes ps => match prefixUris f.cur ps with
      | .ok us => .ok { f with ext := us ++ f.ext }
      | .error e => .error e
    | _ => .error .type
  else if name = u!! "exclude-result-prefixes" then
    match value with
    | .prefixes ps => match prefixUris f.cur ps with
      | .ok _ => .ok f
      | .error e => .error e
    | _ => .error .type
  else if name = u!! "version" then
    match value with
    | .number n => .ok { f with fc := !H.one n, version := some n }
    | _ => .error .type
  else .ok { f with attrs := f.attrs ++ [(name, value)] }

/-- reader/__init__.py:677-688 `_handle_result_element_attr`. -/
def resultAttr (H : Hooks N) (f : Frame N) (name : UStr) (value : AVal N) : Except Err (Frame N) :=
  match lookup name resultAttrs with
  | none => .error .illegalXslAttr
  | some i => match prepare H f.cur i (some value) with
    | .ok v => standardAttr H f name v
    | .error e => .error e

/-- reader/__init__.py:419-444 and 465-484: the attributes in no namespace that the class knows.  The attributes that
are left, and the frame. -/
def legalAttrs (H : Hooks N) (std : Bool) : List (UStr × AttrInfo) → List (Name × AVal N) → Frame N →
    Except Err (List (Name × AVal N) × Frame N)
  | [], as, f => .ok (as, f)
  | (a, i) :: ls, as, f =>
    let v := lookup (none, a) as
    if v.isNone && i.required then .error .missingAttr
    else match prepare H f.cur i v with
      | .error e => .error e
      | .ok value =>
        match (if std then standardAttr H f a value else .ok { f with attrs := f.attrs ++ [(a, value)] }) with
        | .error e => .error e
        | .ok f => legalAttrs H std ls (as.filter (fun x => x.1 ≠ (none, a))) f

/-- reader/__init__.py:446-459: the attributes that are left on an XSLT element. -/
def restXsl (fc : Bool) : List (Name × AVal N) → Except Err Unit
  | [] => .ok ()
  | ((none, _), _) :: as => if fc then restXsl fc as else .error .illegalAttr
  | ((some _, _), _) :: as => restXsl fc as

/-- reader/__init__.py:486-503: the attributes that are left on an extension element. -/
def restExt (H : Hooks N) (validate : Bool) : List (Name × AVal N) → Frame N → Except Err (Frame N)
  | [], f => .ok f
  | ((ns, l), v) :: as, f =>
    if validate && ns.isNone then .error .illegalAttr
    else if ns = some xslNs then
      match resultAttr H f l v with
      | .ok f => restExt H validate as f
      | .error e => .error e
    else restExt H validate as f

/-- reader/__init__.py:505-518: the attributes of a literal result element. -/
def restLiteral (H : Hooks N) : List (Name × AVal N) → Frame N → Except Err (Frame N)
  | [], f => .ok f
  | ((ns, l), v) :: as, f =>
    if ns = some xslNs then
      match resultAttr H f l v with
      | .ok f => restLiteral H as f
      | .error e => .error e
    else match prepare H f.cur { type := .avt .string } (some v) with
      | .ok _ => restLiteral H as f
      | .error e => .error e

/-- reader/__init__.py:344-391: the class of an element; the cache may grow. -/
def classify (H : Hooks N) (cache : List (UStr × Class)) (fc : Bool) (ext : List (Option UStr)) (name : Name) :
    Except Err (List (UStr × Class) × Class) :=
  if name.1 = some xslNs then
    match lookup name.2 cache with
    | some c => .ok (cache, c)
    | none => match elementClass name.2 with
      | some c => .ok ((name.2, c) :: cache, c)
      | none => if fc then .ok ((name.2, undefinedXslt) :: cache, undefinedXslt) else .error .illegalElement
  else if name.1 ∈ ext then
    match H.ext name with
    | some (c, as) => .ok (cache, { klass := .ext name, model := c.model, token := .result, attrs := as })
    | none => .ok (cache, undefinedExt)
  else .ok (cache, literal)

/-- The names of the elements with the standard attributes (reader/__init__.py:417). -/
def isSheet (l : UStr) : Bool := l = u!! "stylesheet" || l = u!! "transform"

/-- The elements that become `self._stylesheet` (reader/__init__.py:412, 432). -/
def sheetClass : Klass → Bool
  | .xsl l => isSheet l
  | _ => false

/-- reader/__init__.py:394-407: the place of the element in its parent. -/
def advance (p : Frame N) (t : Tok) : Except Err (Frame N) :=
  match transit p.val.1 p.val.2 t with
  | some q => .ok { p with val := (p.val.1, q) }
  | none => if p.klass = .undefinedExt then .ok p else .error .illegalChild

/-- reader/__init__.py:415-525: the attributes of the element, by the kind of its class.  `top`: the parent is the
stylesheet element. -/
def attributes (H : Hooks N) (c : Class) (top : Bool) (s : Start N) (f : Frame N) : Except Err (Frame N) :=
  match c.klass, c.attrs with
  | .literal, _ =>
    match restLiteral H s.attrs f with
    | .error e => .error e
    | .ok f => if top && s.name.1.isNone && !f.fc then .error .illegalChild else .ok f
  | .ext _, some ls =>
    match legalAttrs H false ls s.attrs f with
    | .error e => .error e
    | .ok (as, f) => restExt H true as f
  | .ext _, none => restExt H false s.attrs f
  | .undefinedExt, _ => restExt H false s.attrs f
  | _, ls =>
    match legalAttrs H (isSheet s.name.2) (ls.getD []) s.attrs f with
    | .error e => .error e
    | .ok (as, f) => match restXsl f.fc as with
      | .error e => .error e
      | .ok () =>
        if s.name.2 = u!! "import" ∨ s.name.2 = u!! "include" then
          match lookup (u!! "href") f.attrs with
          | some (.str h) => if H.combine h then .ok f else .error .combine
          | _ => .ok f
        else .ok f

/-- reader/__init__.py:317-526 `startElementNS`.  After an exception the frame of the element is on the stack; what the
attributes have already changed in it is not tracked. -/
def startElement (H : Hooks N) (s : Start N) (rd : Reader N) : Res N :=
  match rd.stack with
  | [] => .error (.type, rd)
  | p :: rest =>
    let f := { p with cur := s.decls ++ p.cur }
    match classify H rd.cache f.fc f.ext s.name with
    | .error e => .error (e, { rd with stack := f :: p :: rest })
    | .ok (cache, c) =>
      let f := { f with val := start_ c.model }
      match advance p c.token with
      | .error e => .error (e, { rd with stack := f :: p :: rest, cache })
      | .ok p' =>
        let f := { f with node := rd.next, klass := c.klass, name := s.name, attrs := [], version := none, kids := [] }
        let rd := { rd with next := rd.next + 1, cache,
                            sheet := if sheetClass c.klass then some rd.next else rd.sheet }
        match attributes H c (rd.sheet = some p.node) s f with
        | .error e => .error (e, { rd with stack := f :: p' :: rest })
        | .ok f => .ok { rd with stack := f :: p' :: rest }

/-- reader/__init__.py:573-609: `isinstance(element, _variable_element)`: the name is bound. -/
def bindVariable (f p : Frame N) (rest : List (Frame N)) (rd : Reader N) : Res N :=
  let fail := fun e => Except.error (e, { rd with stack := p :: rest })
  if f.klass = .xsl (u!! "variable") ∨ f.klass = .xsl (u!! "param") then
    match lookup (u!! "name") f.attrs with
    | some (.name n) =>
      if rd.sheet = some p.node then
        if n ∈ rd.globals then fail .duplicateVar
        else .ok { rd with stack := p :: rest, globals := n :: rd.globals }
      else
        let d := (rd.dicts[p.locals]?).getD []
        if n ∈ d then fail .shadowing
        else match rest with
          | [] => fail .type
          | g :: _ =>
            if p.locals = g.locals then
              .ok { rd with stack := { p with locals := rd.dicts.length } :: rest, dicts := rd.dicts ++ [n :: d] }
            else .ok { rd with stack := p :: rest, dicts := rd.dicts.set p.locals (n :: d) }
    | _ => fail .type
  else .ok { rd with stack := p :: rest }

/-- The element of a frame, with the pseudo-nodes (reader/__init__.py:538-545). -/
def Frame.element (f p : Frame N) : Tree :=
  .elem f.klass f.name (if f.locals = p.locals then f.kids else .push :: f.kids ++ [.pop])

/-- reader/__init__.py:528-536, 538-553, 571-609: `endElementNS` without the case of a literal result element as a
stylesheet. -/
def endPlain (rd : Reader N) : Res N :=
  match rd.stack with
  | f :: p :: rest =>
    match transit f.val.1 f.val.2 .fin with
    | none => .error (if f.name = (some xslNs, u!! "choose") then .missingElement else .keyError,
        { rd with stack := p :: rest })
    | some _ => bindVariable f { p with kids := p.kids ++ [f.element p] } rest rd
  | _ => .error (.type, rd)

/-- `node.appendChild(element)` for the node of the top of the stack. -/
def appendTop (t : Tree) (rd : Reader N) : Res N :=
  match rd.stack with
  | f :: rest => .ok { rd with stack := { f with kids := f.kids ++ [t] } :: rest }
  | [] => .error (.type, rd)

/-- reader/__init__.py:528-609 `endElementNS`. -/
def endElement (H : Hooks N) (rd : Reader N) : Res N :=
  match rd.stack with
  | f :: p :: rest =>
    if rd.sheet.isNone ∧ rd.root = some p.node then
      -- a literal result element as stylesheet
      match transit f.val.1 f.val.2 .fin with
      | none => .error (if f.name = (some xslNs, u!! "choose") then .missingElement else .keyError,
          { rd with stack := p :: rest })
      | some _ =>
        if f.klass ≠ .literal then .error (.assertion, { rd with stack := p :: rest })
        else match f.version with
          | none => .error (.missingVersion, { rd with stack := p :: rest })
          | some v =>
            andThen (startElement H { name := (some xslNs, u!! "stylesheet"), decls := [],
                                      attrs := [((none, u!! "version"), .num v)] }
              { rd with stack := { p with val := start_ rootModel } :: rest }) fun rd =>
            andThen (startElement H { name := (some xslNs, u!! "template"), decls := [],
                                      attrs := [((none, u!! "match"), .str (u!! "/"))] } rd) fun rd =>
            andThen (appendTop (f.element p) rd) fun rd =>
            andThen (endPlain rd) endPlain
    else endPlain rd
  | _ => .error (.type, rd)

/-- reader/__init__.py:611-639 `characters`. -/
def characters (s : UStr) (rd : Reader N) : Res N :=
  match rd.stack with
  | [] => .error (.type, rd)
  | f :: rest => match transit f.val.1 f.val.2 .text with
    | none => .error (.illegalText, rd)
    | some q => .ok { rd with stack := { f with val := (f.val.1, q), kids := f.kids ++ [.text s] } :: rest }

/-- A document of the SAX parser: elements with their declarations and attributes, and character data (white space that
the rules of reader/__init__.py:22-25 strip is already gone; comments and processing instructions have no handler). -/
inductive Doc where
  | elem (name : Name) (decls : Nss) (attrs : List (Name × UStr)) (kids : List Doc)
  | text (s : UStr)
deriving Repr

mutual
/-- The events of an element or of character data. -/
def run (H : Hooks N) : Doc → Reader N → Res N
  | .text s, rd => characters s rd
  | .elem name decls attrs kids, rd =>
    match startElement H { name, decls, attrs := attrs.map (fun a => (a.1, .str a.2)) } rd with
    | .error e => .error e
    | .ok rd => match runs H kids rd with
      | .error e => .error e
      | .ok rd => endElement H rd
def runs (H : Hooks N) : List Doc → Reader N → Res N
  | [], rd => .ok rd
  | d :: ds, rd => match run H d rd with
    | .error e => .error e
    | .ok rd => runs H ds rd
end

/-- reader/__init__.py:206-241 `setDocumentLocator`, `startDocument`. -/
def startDocument (rd : Reader N) : Reader N :=
  let root : Frame N :=
    { node := rd.next, klass := .root, name := (none, []), attrs := [], version := none, kids := [],
      val := start_ rootModel, locals := rd.dicts.length, fc := false,
      cur := [(some (u!! "xml"), some xmlNs), (none, none)], ext := [] }
  { rd with stack := root :: rd.stack, dicts := rd.dicts ++ [[]], docs := rd.sheet :: rd.docs, sheet := none,
            root := if rd.root.isNone then some rd.next else rd.root, next := rd.next + 1 }

/-- The document that has been read: a stylesheet of its own, or one that is merged into the stylesheet of the second
frame of the stack (reader/__init__.py:266-275). -/
inductive Read where
  | sheet (t : Option Tree)
  | merged (into : Nat)
deriving Repr

/-- reader/__init__.py:243-309 `endDocument`.  `sheet t` is `self._root.stylesheet` for the first document of a reader;
of the case of an additional stylesheet only the test for one is modelled. -/
def endDocument (rd : Reader N) : Except (Err × Reader N) (Reader N × Read) :=
  match rd.stack with
  | [] => .error (.type, rd)
  | r :: rest =>
    let rd' := { rd with stack := rest, sheet := (rd.docs.head?).getD none, docs := rd.docs.tail }
    match rest with
    | [] => if rd.sheet.isNone then .error (.merge, rd') else .ok (rd', .sheet r.kids.head?)
    | [_] => .error (.merge, rd')
    | _ :: s :: _ =>
      if rd.sheet.isNone ∨ s.klass = .root then .error (.merge, rd') else .ok (rd', .merged s.node)

/-- Read a document (reader/__init__.py:730-830 `parse`, `_parseSrc`). -/
def readDoc (H : Hooks N) (d : Doc) (rd : Reader N) : Except (Err × Reader N) (Reader N × Read) :=
  match run H d (startDocument rd) with
  | .error e => .error e
  | .ok rd => endDocument rd

/-- A new reader reads a stylesheet; `cache` is what other readers have left. -/
def read (H : Hooks N) (cache : List (UStr × Class)) (d : Doc) : Option Tree :=
  match readDoc H d (Reader.new cache) with
  | .ok (_, .sheet (some t)) => some t
  | _ => none

end Verif.Xslt.Rd
