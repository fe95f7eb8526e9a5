import Verif.Content.Model
import Verif.Names.Xmlstring
import Verif.Write.Stream
/-
The tables of the stylesheet reader: the content models of lib/xslt/tree/content_model.py, and for every XSLT element
its content model and its attributes (the `content_model` and `attribute_types` of the classes of lib/xslt/tree, which
lib/xslt/reader/__init__.py:57-95 collects).
-/
namespace Verif.Xslt.Rd
open Verif.Content
open Verif.Write (UStr)

/-- lib/namespaces.py `XSL_NAMESPACE`. -/
def xslNs : UStr := u!! "http://www.w3.org/1999/XSL/Transform"
/-- lib/namespaces.py `XML_NAMESPACE`. -/
def xmlNs : UStr := u!! "http://www.w3.org/XML/1998/namespace"
/-- lib/namespaces.py `XMLNS_NAMESPACE`. -/
def xmlnsNs : UStr := u!! "http://www.w3.org/2000/xmlns/"

/-- An expanded name. -/
abbrev Name := Option UStr × UStr

/-- The tokens of the content models (lib/xslt/tree/content_model.py:11-14): the name of an XSLT element (all the
names in the models are in the XSLT namespace), `RESULT_ELEMENT`, `TEXT_NODE`, `EMPTY` and `END_ELEMENT`. -/
inductive Tok where
  | xsl (loc : UStr)
  | result
  | text
  | empty
  | fin
deriving DecidableEq, Repr

/-- lib/xslt/tree/content_model.py:16-25 `qname`, for a name in the XSLT namespace. -/
def qname (l : UStr) : Content Tok := .name (.xsl l) .none
/-- lib/xslt/tree/content_model.py:71-73 `empty`. -/
def empty : Content Tok := .name .empty .opt
/-- lib/xslt/tree/content_model.py:75-78 `text`. -/
def text : Content Tok := .name .text .rep
/-- lib/xslt/tree/content_model.py:80-84 `result_elements`. -/
def resultElements : Content Tok := .name .result .rep
/-- lib/xslt/tree/content_model.py:86-107 `instructions`. -/
def instructions : Content Tok := .alt [qname (u!! "apply-templates"), qname (u!! "call-template"),
  qname (u!! "apply-imports"), qname (u!! "for-each"), qname (u!! "value-of"), qname (u!! "copy-of"),
  qname (u!! "number"), qname (u!! "choose"), qname (u!! "if"), qname (u!! "text"), qname (u!! "copy"),
  qname (u!! "variable"), qname (u!! "message"), qname (u!! "fallback"), qname (u!! "processing-instruction"),
  qname (u!! "comment"), qname (u!! "element"), qname (u!! "attribute")] .rep
/-- lib/xslt/tree/content_model.py:109-113 `template`. -/
def template : Content Tok := .alt [text, instructions, resultElements] .rep
/-- lib/xslt/tree/content_model.py:115-132 `top_level_elements`. -/
def topLevelElements : Content Tok := .alt [qname (u!! "include"), qname (u!! "strip-space"),
  qname (u!! "preserve-space"), qname (u!! "output"), qname (u!! "key"), qname (u!! "decimal-format"),
  qname (u!! "attribute-set"), qname (u!! "variable"), qname (u!! "param"), qname (u!! "template"),
  qname (u!! "namespace-alias"), resultElements] .rep

/-- The classes of lib/xslt/tree/attribute_types.py that the elements use. `avt t` is the class `t_avt`. -/
inductive AttrType where
  | id | prefix | prefixes | number | qname | qnames | rawQname | tokens | uri | namespaceUri | expression | pattern
  | string | char | nmtoken | ncname | yesno
  | choice (values : List UStr)
  | avt (t : AttrType)
deriving DecidableEq, Repr

/-- lib/xslt/tree/attribute_types.py:25-35 `attribute_type`. -/
structure AttrInfo where
  type : AttrType
  required : Bool := false
  default : Option UStr := none
deriving DecidableEq, Repr

/-- What the reader looks up for an element (reader/__init__.py:346-391): its class, its content model, the token by
which it is known to the content model of its parent, and its attributes (`none` is `attribute_types = None`). -/
inductive Klass where
  | xsl (loc : UStr)
  | undefinedXslt
  | ext (name : Name)
  | undefinedExt
  | literal
  | root
deriving DecidableEq, Repr

structure Class where
  klass : Klass
  model : Content Tok
  token : Tok
  attrs : Option (List (UStr × AttrInfo))

/-- `content_model` and `attribute_types` of a class of lib/xslt/tree. -/
abbrev Entry := Content Tok × List (UStr × AttrInfo)

/-- declaration_elements.py:18-31: `xsl:import`, `xsl:include`. -/
def combining : Entry := (empty, [(u!! "href", { type := .uri, required := true })])
/-- declaration_elements.py:33-50: `xsl:strip-space`, `xsl:preserve-space`. -/
def whitespace : Entry := (empty, [(u!! "elements", { type := .tokens, required := true })])
/-- transform_element.py:177-187: `xsl:stylesheet`, `xsl:transform`. -/
def transform : Entry := (mkSeq [mkRep (qname (u!! "import")), topLevelElements],
  [(u!! "id", { type := .id }), (u!! "extension-element-prefixes", { type := .prefixes }),
   (u!! "exclude-result-prefixes", { type := .prefixes }), (u!! "version", { type := .number, required := true })])
/-- variable_elements.py:15-19, 44-48: `xsl:variable`, `xsl:param`. -/
def variable_ : Entry := (template, [(u!! "name", { type := .qname, required := true }),
  (u!! "select", { type := .expression })])

/-- The class of every XSLT element: reader/__init__.py:57-95 `ELEMENT_CLASSES`, with the content model and the
attributes of the class. -/
def elementClasses : List (UStr × Entry) := [
  -- apply_imports_element.py:11-12
  (u!! "apply-imports", (empty, [])),
  -- apply_templates_element.py:17-24
  (u!! "apply-templates", (mkRep (mkAlt [qname (u!! "sort"), qname (u!! "with-param")]),
    [(u!! "select", { type := .expression }), (u!! "mode", { type := .qname })])),
  -- attribute_element.py:12-16
  (u!! "attribute", (template, [(u!! "name", { type := .avt .rawQname, required := true }),
    (u!! "namespace", { type := .avt .namespaceUri })])),
  -- call_template_element.py:15-20
  (u!! "call-template", (mkRep (qname (u!! "with-param")), [(u!! "name", { type := .qname, required := true })])),
  -- choose_elements.py:26-31
  (u!! "choose", (mkSeq [mkRep1 (qname (u!! "when")), mkOpt (qname (u!! "otherwise"))], [])),
  -- choose_elements.py:21-23
  (u!! "otherwise", (template, [])),
  -- choose_elements.py:14-18
  (u!! "when", (template, [(u!! "test", { type := .expression, required := true })])),
  -- comment_element.py:13-14
  (u!! "comment", (template, [])),
  -- copy_element.py:15-18
  (u!! "copy", (template, [(u!! "use-attribute-sets", { type := .qnames })])),
  -- copy_of_element.py:14-17
  (u!! "copy-of", (empty, [(u!! "select", { type := .expression, required := true })])),
  -- element_element.py:12-17
  (u!! "element", (template, [(u!! "name", { type := .avt .rawQname, required := true }),
    (u!! "namespace", { type := .avt .namespaceUri }), (u!! "use-attribute-sets", { type := .qnames })])),
  -- fallback_elements.py:15-16
  (u!! "fallback", (template, [])),
  -- for_each_element.py:16-22
  (u!! "for-each", (mkSeq [mkRep (qname (u!! "sort")), template],
    [(u!! "select", { type := .expression, required := true })])),
  -- if_element.py:13-16
  (u!! "if", (template, [(u!! "test", { type := .expression, required := true })])),
  -- message_element.py:14-17
  (u!! "message", (template, [(u!! "terminate", { type := .yesno, default := some (u!! "no") })])),
  -- number_element.py:23-37
  (u!! "number", (empty, [
    (u!! "level", { type := .choice [u!! "single", u!! "multiple", u!! "any"], default := some (u!! "single") }),
    (u!! "count", { type := .pattern }), (u!! "from", { type := .pattern }), (u!! "value", { type := .expression }),
    (u!! "format", { type := .avt .string, default := some (u!! "1") }), (u!! "lang", { type := .avt .nmtoken }),
    (u!! "letter-value", { type := .avt (.choice [u!! "alphabetic", u!! "traditional"]),
                           default := some (u!! "traditional") }),
    (u!! "grouping-separator", { type := .avt .char }), (u!! "grouping-size", { type := .avt .number })])),
  -- processing_instruction_element.py:12-15
  (u!! "processing-instruction", (template, [(u!! "name", { type := .avt .ncname, required := true })])),
  (u!! "stylesheet", transform),
  (u!! "transform", transform),
  -- template_element.py:18-27
  (u!! "template", (mkSeq [mkRep (qname (u!! "param")), template],
    [(u!! "match", { type := .pattern }), (u!! "name", { type := .qname }), (u!! "priority", { type := .number }),
     (u!! "mode", { type := .qname })])),
  -- text_element.py:10-13
  (u!! "text", (text, [(u!! "disable-output-escaping", { type := .yesno, default := some (u!! "no") })])),
  -- value_of_element.py:11-15
  (u!! "value-of", (empty, [(u!! "select", { type := .expression, required := true }),
    (u!! "disable-output-escaping", { type := .yesno, default := some (u!! "no") })])),
  (u!! "variable", variable_),
  (u!! "param", variable_),
  -- sort_element.py:11-22
  (u!! "sort", (empty, [(u!! "select", { type := .expression, default := some (u!! ".") }),
    (u!! "lang", { type := .avt .nmtoken }),
    (u!! "data-type", { type := .avt (.choice [u!! "text", u!! "number"]), default := some (u!! "text") }),
    (u!! "order", { type := .avt (.choice [u!! "ascending", u!! "descending"]), default := some (u!! "ascending") }),
    (u!! "case-order", { type := .avt (.choice [u!! "upper-first", u!! "lower-first"]) })])),
  -- with_param_element.py:15-19
  (u!! "with-param", (template, [(u!! "name", { type := .qname, required := true }),
    (u!! "select", { type := .expression })])),
  (u!! "import", combining),
  (u!! "include", combining),
  (u!! "strip-space", whitespace),
  (u!! "preserve-space", whitespace),
  -- declaration_elements.py:54-71
  (u!! "output", (empty, [(u!! "method", { type := .qname }), (u!! "version", { type := .nmtoken }),
    (u!! "encoding", { type := .string }), (u!! "omit-xml-declaration", { type := .yesno }),
    (u!! "standalone", { type := .yesno }), (u!! "doctype-public", { type := .string }),
    (u!! "doctype-system", { type := .string }), (u!! "cdata-section-elements", { type := .qnames }),
    (u!! "indent", { type := .yesno }), (u!! "media-type", { type := .string }),
    (u!! "f:byte-order-mark", { type := .yesno }), (u!! "f:canonical-form", { type := .yesno })])),
  -- declaration_elements.py:86-93
  (u!! "key", (empty, [(u!! "name", { type := .qname, required := true }),
    (u!! "match", { type := .pattern, required := true }), (u!! "use", { type := .expression, required := true })])),
  -- declaration_elements.py:96-110
  (u!! "decimal-format", (empty, [(u!! "name", { type := .qname }),
    (u!! "decimal-separator", { type := .char, default := some (u!! ".") }),
    (u!! "grouping-separator", { type := .char, default := some (u!! ",") }),
    (u!! "infinity", { type := .string, default := some (u!! "Infinity") }),
    (u!! "minus-sign", { type := .char, default := some (u!! "-") }),
    (u!! "NaN", { type := .string, default := some (u!! "NaN") }),
    (u!! "percent", { type := .char, default := some (u!! "%") }),
    (u!! "per-mille", { type := .char, default := some [0x2030] }),
    (u!! "zero-digit", { type := .char, default := some (u!! "0") }),
    (u!! "digit", { type := .char, default := some (u!! "#") }),
    (u!! "pattern-separator", { type := .char, default := some (u!! ";") })])),
  -- declaration_elements.py:113-118
  (u!! "namespace-alias", (empty, [(u!! "stylesheet-prefix", { type := .prefix, required := true }),
    (u!! "result-prefix", { type := .prefix, required := true })])),
  -- declaration_elements.py:121-128
  (u!! "attribute-set", (mkRep (qname (u!! "attribute")), [(u!! "name", { type := .qname, required := true }),
    (u!! "use-attribute-sets", { type := .qnames })]))]

/-- The dictionary look-up `_element_classes[local]` with what the class says (reader/__init__.py:352-364). -/
def elementClass (l : UStr) : Option Class :=
  match lookup l elementClasses with
  | some (m, as) => some { klass := .xsl l, model := m, token := .xsl l, attrs := some as }
  | none => none

/-- fallback_elements.py:23-40 `undefined_xslt_element` (reader/__init__.py:359-360). -/
def undefinedXslt : Class := { klass := .undefinedXslt, model := template, token := .result, attrs := some [] }

/-- fallback_elements.py:43-46 `undefined_extension_element`. -/
def undefinedExt : Class := { klass := .undefinedExt, model := template, token := .result, attrs := none }

/-- reader/__init__.py:386-388: a literal result element. -/
def literal : Class := { klass := .literal, model := template, token := .result, attrs := none }

/-- reader/__init__.py:106-109 `_root_content_model`. -/
def rootModel : Content Tok := mkAlt [qname (u!! "stylesheet"), qname (u!! "transform"), resultElements]

/-- reader/__init__.py:97-103 `_RESULT_ELEMENT_XSL_ATTRS`. -/
def resultAttrs : List (UStr × AttrInfo) := [(u!! "exclude-result-prefixes", { type := .prefixes }),
  (u!! "extension-element-prefixes", { type := .prefixes }), (u!! "use-attribute-sets", { type := .qnames }),
  (u!! "version", { type := .number })]

end Verif.Xslt.Rd
