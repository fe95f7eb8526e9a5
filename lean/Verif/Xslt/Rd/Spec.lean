import Verif.Xslt.Rd.Model
/-
What XSLT 1.0 says about the structure of a stylesheet, and what the tree of a stylesheet is.  The vocabulary
(`Doc`, `Tree`, `Klass`, `AttrType`, `Hooks`) is that of the model; no function of the reader is used.
-/
namespace Verif.Xslt.Rd.Spec
open Verif.Xslt.Rd
open Verif.Write (UStr)
open Verif.Names (isQName splitQName)

/-- A child of an element: an XSLT element, any other element, or character data. -/
inductive Item where
  | xsl (loc : UStr)
  | other
  | chars
deriving DecidableEq, Repr

/-- The kinds of content in the element syntax of XSLT 1.0. -/
inductive Rule where
  | template | sortsThenTemplate | paramsThenTemplate | empty | chars | sortsAndParams | withParams | choices
  | attributes | topLevel
  | anything
deriving DecidableEq, Repr

/-- XSLT 1.0: the elements with "Category: instruction". -/
def instructions : List UStr := [u!! "apply-imports", u!! "apply-templates", u!! "attribute", u!! "call-template",
  u!! "choose", u!! "comment", u!! "copy", u!! "copy-of", u!! "element", u!! "fallback", u!! "for-each", u!! "if",
  u!! "message", u!! "number", u!! "processing-instruction", u!! "text", u!! "value-of", u!! "variable"]

/-- XSLT 1.0: the elements with "Category: top-level-element". -/
def topLevels : List UStr := [u!! "attribute-set", u!! "decimal-format", u!! "include", u!! "key",
  u!! "namespace-alias", u!! "output", u!! "param", u!! "preserve-space", u!! "strip-space", u!! "template",
  u!! "variable"]

/-- What may stand in a template. -/
def inTemplate : Item → Bool
  | .xsl l => l ∈ instructions
  | .other => true
  | .chars => true

def atTop : Item → Bool
  | .xsl l => l ∈ topLevels
  | .other => true
  | .chars => false

/-- The sequences of children that a kind of content allows. -/
def allows : Rule → List Item → Bool
  | .template, w => w.all inTemplate
  | .sortsThenTemplate, w => (w.dropWhile (· = .xsl (u!! "sort"))).all inTemplate
  | .paramsThenTemplate, w => (w.dropWhile (· = .xsl (u!! "param"))).all inTemplate
  | .empty, w => w = []
  | .chars, w => w.all (· = .chars)
  | .sortsAndParams, w => w.all (fun i => i = .xsl (u!! "sort") || i = .xsl (u!! "with-param"))
  | .withParams, w => w.all (· = .xsl (u!! "with-param"))
  | .choices, w => w.head? = some (.xsl (u!! "when")) &&
      (w.dropWhile (· = .xsl (u!! "when")) = [] || w.dropWhile (· = .xsl (u!! "when")) = [.xsl (u!! "otherwise")])
  | .attributes, w => w.all (· = .xsl (u!! "attribute"))
  | .topLevel, w => (w.dropWhile (· = .xsl (u!! "import"))).all atTop
  | .anything, _ => true

/-- An attribute: its name, its type, and whether it must be there. -/
abbrev Attr := UStr × AttrType × Bool

/-- XSLT 1.0, appendix B: the elements, their content and their attributes. -/
def elements : List (UStr × Rule × List Attr) := [
  (u!! "apply-imports", .empty, []),
  (u!! "apply-templates", .sortsAndParams, [(u!! "select", .expression, false), (u!! "mode", .qname, false)]),
  (u!! "attribute", .template, [(u!! "name", .avt .rawQname, true), (u!! "namespace", .avt .namespaceUri, false)]),
  (u!! "attribute-set", .attributes, [(u!! "name", .qname, true), (u!! "use-attribute-sets", .qnames, false)]),
  (u!! "call-template", .withParams, [(u!! "name", .qname, true)]),
  (u!! "choose", .choices, []),
  (u!! "comment", .template, []),
  (u!! "copy", .template, [(u!! "use-attribute-sets", .qnames, false)]),
  (u!! "copy-of", .empty, [(u!! "select", .expression, true)]),
  (u!! "decimal-format", .empty, [(u!! "name", .qname, false), (u!! "decimal-separator", .char, false),
    (u!! "grouping-separator", .char, false), (u!! "infinity", .string, false), (u!! "minus-sign", .char, false),
    (u!! "NaN", .string, false), (u!! "percent", .char, false), (u!! "per-mille", .char, false),
    (u!! "zero-digit", .char, false), (u!! "digit", .char, false), (u!! "pattern-separator", .char, false)]),
  (u!! "element", .template, [(u!! "name", .avt .rawQname, true), (u!! "namespace", .avt .namespaceUri, false),
    (u!! "use-attribute-sets", .qnames, false)]),
  (u!! "fallback", .template, []),
  (u!! "for-each", .sortsThenTemplate, [(u!! "select", .expression, true)]),
  (u!! "if", .template, [(u!! "test", .expression, true)]),
  (u!! "import", .empty, [(u!! "href", .uri, true)]),
  (u!! "include", .empty, [(u!! "href", .uri, true)]),
  (u!! "key", .empty, [(u!! "name", .qname, true), (u!! "match", .pattern, true), (u!! "use", .expression, true)]),
  (u!! "message", .template, [(u!! "terminate", .yesno, false)]),
  (u!! "namespace-alias", .empty, [(u!! "stylesheet-prefix", .prefix, true), (u!! "result-prefix", .prefix, true)]),
  (u!! "number", .empty, [(u!! "level", .choice [u!! "single", u!! "multiple", u!! "any"], false),
    (u!! "count", .pattern, false), (u!! "from", .pattern, false), (u!! "value", .expression, false),
    (u!! "format", .avt .string, false), (u!! "lang", .avt .nmtoken, false),
    (u!! "letter-value", .avt (.choice [u!! "alphabetic", u!! "traditional"]), false),
    (u!! "grouping-separator", .avt .char, false), (u!! "grouping-size", .avt .number, false)]),
  (u!! "otherwise", .template, []),
  (u!! "output", .empty, [(u!! "method", .qname, false), (u!! "version", .nmtoken, false),
    (u!! "encoding", .string, false), (u!! "omit-xml-declaration", .yesno, false), (u!! "standalone", .yesno, false),
    (u!! "doctype-public", .string, false), (u!! "doctype-system", .string, false),
    (u!! "cdata-section-elements", .qnames, false), (u!! "indent", .yesno, false), (u!! "media-type", .string, false)]),
  (u!! "param", .template, [(u!! "name", .qname, true), (u!! "select", .expression, false)]),
  (u!! "preserve-space", .empty, [(u!! "elements", .tokens, true)]),
  (u!! "processing-instruction", .template, [(u!! "name", .avt .ncname, true)]),
  (u!! "sort", .empty, [(u!! "select", .expression, false), (u!! "lang", .avt .nmtoken, false),
    (u!! "data-type", .avt (.choice [u!! "text", u!! "number"]), false),
    (u!! "order", .avt (.choice [u!! "ascending", u!! "descending"]), false),
    (u!! "case-order", .avt (.choice [u!! "upper-first", u!! "lower-first"]), false)]),
  (u!! "strip-space", .empty, [(u!! "elements", .tokens, true)]),
  (u!! "stylesheet", .topLevel, [(u!! "id", .id, false), (u!! "extension-element-prefixes", .prefixes, false),
    (u!! "exclude-result-prefixes", .prefixes, false), (u!! "version", .number, true)]),
  (u!! "template", .paramsThenTemplate, [(u!! "match", .pattern, false), (u!! "name", .qname, false),
    (u!! "priority", .number, false), (u!! "mode", .qname, false)]),
  (u!! "text", .chars, [(u!! "disable-output-escaping", .yesno, false)]),
  (u!! "transform", .topLevel, [(u!! "id", .id, false), (u!! "extension-element-prefixes", .prefixes, false),
    (u!! "exclude-result-prefixes", .prefixes, false), (u!! "version", .number, true)]),
  (u!! "value-of", .empty, [(u!! "select", .expression, true), (u!! "disable-output-escaping", .yesno, false)]),
  (u!! "variable", .template, [(u!! "name", .qname, true), (u!! "select", .expression, false)]),
  (u!! "when", .template, [(u!! "test", .expression, true)]),
  (u!! "with-param", .template, [(u!! "name", .qname, true), (u!! "select", .expression, false)])]

/-- The first entry of a key. -/
def find {K V : Type} [DecidableEq K] (k : K) : List (K × V) → Option V
  | [] => none
  | (k', v) :: l => if k = k' then some v else find k l

/-- A string that is a prefix of a list of prefixes: not empty and without colon. -/
def isPrefix (w : UStr) : Bool := w ≠ [] && ':'.toNat ∉ w
/-- `#default` stands for the default namespace. -/
def prefixOf (w : UStr) : Option UStr := if w = u!! "#default" then none else some w

/-- A qualified name whose prefix is bound. -/
def boundQName (nss : Nss) (v : UStr) : Bool :=
  isQName v && (match (splitQName v).1 with | some p => (find (some p) nss).isSome | none => true)

/-- A name test: what stands before the last colon, if there is one, is a prefix that is bound. -/
def boundToken (nss : Nss) (v : UStr) : Bool :=
  ':'.toNat ∉ v || (find (some (v.reverse.dropWhile (· ≠ ':'.toNat)).tail.reverse) nss).isSome

/-- The values that an attribute of a type may have. -/
def valid {N : Type} (H : Hooks N) (nss : Nss) : AttrType → UStr → Bool
  | .id, v => v ≠ []
  | .prefix, v => isPrefix v
  | .prefixes, v => (H.words v).all isPrefix
  | .number, v => (H.float v).isSome
  | .qname, v => boundQName nss v
  | .qnames, v => (H.words v).all (boundQName nss)
  | .rawQname, v => isQName v
  | .tokens, v => (H.words v).all (boundToken nss)
  | .uri, _ => true
  | .namespaceUri, v => v ≠ xmlNs && v ≠ xmlnsNs
  | .expression, v => H.expression v
  | .pattern, v => H.pattern v
  | .string, _ => true
  | .char, v => v.length ≤ 1
  | .nmtoken, v => v ≠ []
  | .ncname, v => v ≠ [] && ':'.toNat ∉ v
  | .yesno, v => v = u!! "yes" || v = u!! "no"
  | .choice vs, v => v ∈ vs
  | .avt t, v => if '{'.toNat ∈ v || '}'.toNat ∈ v then H.avt v else valid H nss t v

/-- What is inherited in a stylesheet: forwards-compatible processing, the namespaces in scope, the namespaces of
extension elements, the variables that are visible, and whether the parent is the stylesheet element. -/
structure Ctx where
  fc : Bool
  cur : Nss
  ext : List (Option UStr)
  vis : List Name
  top : Bool

/-- What has been read: the global variables, and the unknown XSLT elements that have been met. -/
structure St where
  globals : List Name
  seen : List UStr

variable {N : Type}

/-- What an element is.  `none`: it is not known, and that is an error. -/
def kind (H : Hooks N) (c : Ctx) (seen : List UStr) (name : Name) : Option Klass :=
  if name.1 = some xslNs then
    if (find name.2 elements).isSome then some (.xsl name.2)
    else if c.fc || name.2 ∈ seen then some .undefinedXslt
    else none
  else if name.1 ∈ c.ext then
    if (H.ext name).isSome then some (.ext name) else some .undefinedExt
  else some .literal

def item : Klass → Item
  | .xsl l => .xsl l
  | _ => .other

/-- The content of an element: that of the XSLT element; of an extension element what it declares; anything in an
extension element that is not known; and a template in all others. -/
def rule (H : Hooks N) : Klass → Rule
  | .xsl l => match find l elements with
    | some (r, _) => r
    | none => .template
  | .ext n => match H.ext n with
    | some (.template, _) => .template
    | some (.empty, _) => .empty
    | some (.params, _) => .paramsThenTemplate
    | none => .template
  | .undefinedExt => .anything
  | _ => .template

/-- The element is `xsl:stylesheet` or `xsl:transform`. -/
def isSheet : Klass → Bool
  | .xsl l => l = u!! "stylesheet" || l = u!! "transform"
  | _ => false

/-- The namespace of the attributes `version`, `extension-element-prefixes` and `exclude-result-prefixes`: none on
`xsl:stylesheet`, XSLT on literal result elements and extension elements, and other elements do not have them. -/
def standard (k : Klass) (a : UStr) (attrs : List (Name × UStr)) : Option UStr :=
  if isSheet k then find (none, a) attrs
  else match k with
    | .literal => find (some xslNs, a) attrs
    | .ext _ => find (some xslNs, a) attrs
    | .undefinedExt => find (some xslNs, a) attrs
    | _ => none

/-- The version that an element declares. -/
def version (H : Hooks N) (k : Klass) (attrs : List (Name × UStr)) : Option N :=
  match standard k (u!! "version") attrs with
  | some v => H.float v
  | none => none

/-- The context inside an element (and of its attributes). -/
def inside (H : Hooks N) (c : Ctx) (k : Klass) (decls : Nss) (attrs : List (Name × UStr)) : Ctx :=
  { fc := match version H k attrs with
      | some n => !H.one n
      | none => c.fc
    cur := decls ++ c.cur
    ext := match standard k (u!! "extension-element-prefixes") attrs with
      | some v => (H.words v).filterMap (fun w => find (prefixOf w) (decls ++ c.cur)) ++ c.ext
      | none => c.ext
    vis := c.vis
    top := isSheet k }

/-- Every prefix in a list of prefixes is bound. -/
def prefixesBound (H : Hooks N) (nss : Nss) (v : UStr) : Bool :=
  (H.words v).all (fun w => (find (prefixOf w) nss).isSome)

/-- The attributes that an element declares: those that are there are valid, and those that must be are there. -/
def declared (H : Hooks N) (nss : Nss) (as : List Attr) (attrs : List (Name × UStr)) : Bool :=
  as.all (fun a => match find (none, a.1) attrs with
    | some v => valid H nss a.2.1 v
    | none => !a.2.2)

/-- An attribute of the XSLT namespace on an element that is not of XSLT. -/
def xslAttr (H : Hooks N) (nss : Nss) (a : UStr) (v : UStr) : Bool :=
  if a = u!! "version" then (H.float v).isSome
  else if a = u!! "use-attribute-sets" then (H.words v).all (boundQName nss)
  else if a = u!! "extension-element-prefixes" || a = u!! "exclude-result-prefixes" then
    (H.words v).all isPrefix && prefixesBound H nss v
  else false

def xslAttrs (H : Hooks N) (nss : Nss) (attrs : List (Name × UStr)) : Bool :=
  attrs.all (fun a => a.1.1 ≠ some xslNs || xslAttr H nss a.1.2 a.2)

/-- The attributes of an element are as XSLT says; `c` is the context inside the element, `top` whether the element is
a child of the stylesheet element. -/
def attrsOk (H : Hooks N) (c : Ctx) (top : Bool) (k : Klass) (name : Name) (attrs : List (Name × UStr)) : Bool :=
  match k with
  | .xsl l =>
    let as := (match find l elements with | some (_, as) => as | none => [])
    declared H c.cur as attrs
    && attrs.all (fun a => a.1.1.isSome || a.1.2 ∈ as.map Prod.fst || c.fc)
    && (!isSheet k || ((find (none, u!! "extension-element-prefixes") attrs).all (prefixesBound H c.cur)
        && (find (none, u!! "exclude-result-prefixes") attrs).all (prefixesBound H c.cur)))
    && (!(l = u!! "import" || l = u!! "include") || (find (none, u!! "href") attrs).all H.combine)
  | .undefinedXslt => attrs.all (fun a => a.1.1.isSome || c.fc)
  | .ext n =>
    (match H.ext n with
      | some (_, some as) => declared H c.cur (as.map (fun a => (a.1, a.2.type, a.2.required))) attrs
          && attrs.all (fun a => a.1.1.isSome || a.1.2 ∈ as.map Prod.fst)
      | _ => true)
    && xslAttrs H c.cur attrs
  | .undefinedExt => xslAttrs H c.cur attrs
  | .literal => xslAttrs H c.cur attrs
      && attrs.all (fun a => a.1.1 = some xslNs || valid H c.cur (.avt .string) a.2)
      && (!top || name.1.isSome || c.fc)
  | .root => false

/-- The expanded name that an element `xsl:variable` or `xsl:param` binds. -/
def binds (k : Klass) (nss : Nss) (attrs : List (Name × UStr)) : Option Name :=
  if k = .xsl (u!! "variable") ∨ k = .xsl (u!! "param") then
    match find (none, u!! "name") attrs with
    | some v => match splitQName v with
      | (some p, l) => some ((find (some p) nss).getD none, l)
      | (none, l) => some (none, l)
    | none => none
  else none

/-- A node of the stylesheet that has been read. -/
structure Node where
  item : Item
  tree : Tree
  binds : Option Name
  st : St

/-- The content of an element that has been read: `bound` says that it binds a local variable. -/
structure Content where
  items : List Item
  trees : List Tree
  bound : Bool
  st : St

mutual
/-- The tree of a node of a stylesheet, `none` if it is not as XSLT says. -/
def node (H : Hooks N) (c : Ctx) : Doc → St → Option Node
  | .text s, st => some { item := .chars, tree := .text s, binds := none, st }
  | .elem name decls attrs kids, st =>
    match kind H c st.seen name with
    | none => none
    | some k =>
      let c' := inside H c k decls attrs
      if attrsOk H c' c.top k name attrs then
        match content H c' kids { st with seen := if k = .undefinedXslt then name.2 :: st.seen else st.seen } with
        | none => none
        | some r =>
          if allows (rule H k) r.items then
            some { item := item k
                   tree := .elem k name (if r.bound then .push :: r.trees ++ [.pop] else r.trees)
                   binds := binds k c'.cur attrs
                   st := r.st }
          else none
      else none
/-- The content of an element.  A variable must not have the name of a variable that is visible; a global variable not
that of another one. -/
def content (H : Hooks N) (c : Ctx) : List Doc → St → Option Content
  | [], st => some { items := [], trees := [], bound := false, st }
  | d :: ds, st =>
    match node H c d st with
    | none => none
    | some n =>
      match n.binds with
      | none => (content H c ds n.st).map (fun r => { r with items := n.item :: r.items, trees := n.tree :: r.trees })
      | some v =>
        if c.top then
          if v ∈ n.st.globals then none
          else (content H c ds { n.st with globals := v :: n.st.globals }).map
            (fun r => { r with items := n.item :: r.items, trees := n.tree :: r.trees })
        else if v ∈ c.vis then none
        else (content H { c with vis := v :: c.vis } ds n.st).map
          (fun r => { r with items := n.item :: r.items, trees := n.tree :: r.trees, bound := true })
end

/-- The context of a document. -/
def outside : Ctx :=
  { fc := false, cur := [(some (u!! "xml"), some xmlNs), (none, none)], ext := [], vis := [], top := false }

/-- XSLT 2.3: a literal result element as a stylesheet stands for a stylesheet with one template for the root. -/
def simplified (t : Tree) : Tree :=
  .elem (.xsl (u!! "stylesheet")) (some xslNs, u!! "stylesheet")
    [.elem (.xsl (u!! "template")) (some xslNs, u!! "template") [t]]

/-- The tree of a stylesheet, `none` if it is not as XSLT says.  `seen` are the unknown XSLT elements that have been
met before. -/
def document (H : Hooks N) (seen : List UStr) : Doc → Option Tree
  | .text _ => none
  | .elem name decls attrs kids =>
    match node H outside (.elem name decls attrs kids) { globals := [], seen } with
    | none => none
    | some r =>
      match r.item with
      | .xsl l => if l = u!! "stylesheet" || l = u!! "transform" then some r.tree else none
      | _ => if name.1 = some xslNs then none
        else match version H .literal attrs with
          | some n => if H.zero n then none else some (simplified r.tree)
          | none => none

mutual
/-- A well-formed document: the attributes of an element have different names, and no local name has a colon.  There
is no stylesheet element inside (`inner`) the document. -/
def wf (inner : Bool) : Doc → Bool
  | .text _ => true
  | .elem name _ attrs kids =>
    (!inner || !(name.1 = some xslNs && (name.2 = u!! "stylesheet" || name.2 = u!! "transform")))
    && decide (attrs.map Prod.fst).Nodup && attrs.all (fun a => ':'.toNat ∉ a.1.2) && wfs kids
def wfs : List Doc → Bool
  | [] => true
  | d :: ds => wf true d && wfs ds
end

mutual
/-- The names in the XSLT namespace that XSLT 1.0 does not define, of the elements of a document. -/
def unknowns : Doc → List UStr
  | .text _ => []
  | .elem name _ _ kids =>
    if name.1 = some xslNs ∧ (find name.2 elements).isNone then name.2 :: unknownss kids else unknownss kids
def unknownss : List Doc → List UStr
  | [] => []
  | d :: ds => unknowns d ++ unknownss ds
end

end Verif.Xslt.Rd.Spec
