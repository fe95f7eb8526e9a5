import Verif.Write.Stream

/-
The XML printer (lib/writers/_xmlprinters.py): the calls it accepts, and what it writes for each; with
`_canonical_form` set, the printer for canonical XML.
-/
namespace Verif.Write
open Verif

/-- The entity maps of `xmlprinter` (_xmlprinters.py:324-345). -/
def textEntities : EntityMap :=
  [(60, u!! "&lt;"), (62, u!! "&gt;"), (38, u!! "&amp;"), (13, u!! "&#13;")]
def attrEntitiesQuot : EntityMap :=
  [(60, u!! "&lt;"), (38, u!! "&amp;"), (9, u!! "&#9;"), (10, u!! "&#10;"), (13, u!! "&#13;"),
   (34, u!! "&quot;")]
def attrEntitiesApos : EntityMap :=
  [(60, u!! "&lt;"), (38, u!! "&amp;"), (9, u!! "&#9;"), (10, u!! "&#10;"), (13, u!! "&#13;"),
   (39, u!! "&apos;")]

/-- The calls of the three stream methods; `fail` is an exception in the printer itself. -/
inductive Op
  | ascii (s : UStr)
  | encode (s : UStr)
  | escape (s : UStr) (entities : EntityMap)
  | fail (e : WErr)

/-- Perform one call. -/
def Op.run (wide : Bool) (st : Stream) : Op → Except WErr Stream
  | .ascii s => st.writeAscii s
  | .encode s => st.writeEncode s
  | .escape s m => st.writeEscape wide s m
  | .fail e => .error e

/-- Perform the calls of a list until one raises. -/
def runOps (wide : Bool) (st : Stream) : List Op → Except WErr Stream
  | [] => .ok st
  | op :: ops => match op.run wide st with
    | .error e => .error e
    | .ok st => runOps wide st ops

/-- The calls of printer methods. -/
inductive Call
  | startDocument (standalone : Option UStr)
  | endDocument
  | doctype (name : UStr) (publicId systemId : Option UStr)
  | startElement (name : UStr) (nsdecls : List (Option UStr × UStr)) (attrs : List (UStr × UStr))
  | endElement (name : UStr)
  | text (s : UStr)
  | rawText (s : UStr)                                -- text() with disable_escaping
  | cdata (s : UStr)
  | pi (target data : UStr)
  | comment (s : UStr)

/-- Python's truth of a string or None. -/
def truthy : Option UStr → Bool
  | none => false
  | some s => !s.isEmpty

/-- The state of a printer: `_element_name` is the element whose start-tag is not yet closed. -/
structure Printer where
  canonical : Bool
  encoding : UStr
  omitDeclaration : Bool
  elementName : Option UStr

/-- `if self._element_name: self.write_ascii('>'); self._element_name = None`. -/
def closeTag (p : Printer) : List Op × Printer :=
  if truthy p.elementName then ([.ascii (u!! ">")], { p with elementName := none }) else ([], p)

/-- The names under which namespace declarations are written (_xmlprinters.py:141-143, 171-173). -/
def nsAttr : Option UStr × UStr → UStr × UStr
  | (prefix_, uri) => ((if truthy prefix_ then u!! "xmlns:" ++ prefix_.getD [] else u!! "xmlns"), uri)

/-- Which quotes and entities to use for a value (_xmlprinters.py:201-208; canonical: 155-159). -/
def quoting (canonical : Bool) (value : UStr) : EntityMap × UStr :=
  if !canonical && value.contains 34 && !value.contains 39 then (attrEntitiesApos, u!! "'")
  else (attrEntitiesQuot, u!! "\"")

/-- An attribute (_xmlprinters.py:151-167, 176-212; the canonical printer writes `="` in one call).  Values
are strings (`None` is for HTML only). -/
def attrOps (canonical : Bool) (a : UStr × UStr) : List Op :=
  [.ascii (u!! " "), .encode a.1, .ascii (u!! "="), .ascii (quoting canonical a.2).2,
   .escape a.2 (quoting canonical a.2).1, .ascii (quoting canonical a.2).2]

/-- `<=` of two strings: by code units. -/
def strLe : UStr → UStr → Bool
  | [], _ => true
  | _ :: _, [] => false
  | a :: s, b :: t => a < b || (a = b && strLe s t)

/-- `<=` of two pairs of strings. -/
def pairLe (a b : UStr × UStr) : Bool :=
  if a.1 = b.1 then strLe a.2 b.2 else strLe a.1 b.1

/-- Insertion in front of the first pair that is not smaller. -/
def insertPair (x : UStr × UStr) : List (UStr × UStr) → List (UStr × UStr)
  | [] => [x]
  | y :: ys => if pairLe x y then x :: y :: ys else y :: insertPair x ys

/-- `sorted(pairs)` (as insertion sort). -/
def sortPairs : List (UStr × UStr) → List (UStr × UStr)
  | [] => []
  | x :: xs => insertPair x (sortPairs xs)

/-- The attributes that a start-tag has, in the order in which they are written
(_xmlprinters.py:137-175). -/
def tagAttrs (canonical : Bool) (nsdecls : List (Option UStr × UStr)) (attrs : List (UStr × UStr)) :
    List (UStr × UStr) :=
  if canonical then sortPairs (nsdecls.map nsAttr) ++ sortPairs attrs else nsdecls.map nsAttr ++ attrs

/-- `data.split(u']]>')` (CPython's `str.split`: leftmost occurrences, not overlapping).  `cur` is the
piece read so far. -/
def splitCdata : UStr → UStr → List UStr
  | cur, [] => [cur]
  | cur, [a] => [cur ++ [a]]
  | cur, [a, b] => [cur ++ [a, b]]
  | cur, a :: b :: c :: s =>
    if a = 93 ∧ b = 93 ∧ c = 62 then cur :: splitCdata [] s else splitCdata (cur ++ [a]) (b :: c :: s)

/-- The pieces after the first one (_xmlprinters.py:283-285). -/
def cdataRest : List UStr → List Op
  | [] => []
  | p :: ps => .ascii (u!! "]]]]><![CDATA[>") :: .encode p :: cdataRest ps

/-- `cdata_section` (_xmlprinters.py:275-286).  In canonical form it uses a name that is not defined
(line 277). -/
def cdataOps (canonical : Bool) (data : UStr) : List Op :=
  if canonical then [.fail .nameError] else match splitCdata [] data with
  | [] => []
  | p :: ps => .ascii (u!! "<![CDATA[") :: .encode p :: cdataRest ps ++ [.ascii (u!! "]]>")]

/-- The standalone pseudo-attribute (_xmlprinters.py:67-68). -/
def standaloneOps : Option UStr → List Op
  | some s => [.ascii (u!! " standalone=\"" ++ s ++ u!! "\"")]
  | none => []

/-- The document type declaration (_xmlprinters.py:100-113). -/
def doctypeOps (name : UStr) (pub sys : Option UStr) : List Op :=
  if truthy pub && truthy sys then
    [.ascii (u!! "<!DOCTYPE "), .encode name, .ascii (u!! " PUBLIC \""), .encode (pub.getD []),
      .ascii (u!! "\" \""), .encode (sys.getD []), .ascii (u!! "\">\n")]
  else if truthy sys then
    [.ascii (u!! "<!DOCTYPE "), .encode name, .ascii (u!! " SYSTEM \""), .encode (sys.getD []),
      .ascii (u!! "\">\n")]
  else []

/-- A processing instruction (_xmlprinters.py:299-304). -/
def piOps (target data : UStr) : List Op :=
  [.ascii (u!! "<?"), .encode target] ++
    (if data.isEmpty then [] else [.ascii (u!! " "), .encode data]) ++ [.ascii (u!! "?>")]

/-- The methods of `xmlprinter` (_xmlprinters.py:58-319). -/
def Printer.call (p : Printer) : Call → List Op × Printer
  -- 58-70
  | .startDocument standalone =>
    if p.omitDeclaration then ([], p)
    else (.ascii (u!! "<?xml version=\"1.0\" encoding=\"" ++ p.encoding ++ u!! "\"") ::
      standaloneOps standalone ++ [.ascii (u!! "?>\n")], p)
  -- 72-87
  | .endDocument =>
    if truthy p.elementName then
      ((if p.canonical then [.ascii (u!! "</"), .encode (p.elementName.getD []), .ascii (u!! ">")]
        else [.ascii (u!! "/>")]), { p with elementName := none })
    else ([], p)
  -- 89-114
  | .doctype name pub sys =>
    if p.canonical then ([], p) else ((closeTag p).1 ++ doctypeOps name pub sys, (closeTag p).2)
  -- 116-213
  | .startElement name nsdecls attrs =>
    ((if truthy p.elementName then [.ascii (u!! ">")] else []) ++
      [.ascii (u!! "<"), .encode name] ++ (tagAttrs p.canonical nsdecls attrs).flatMap (attrOps p.canonical),
      { p with elementName := some name })
  -- 215-235
  | .endElement name =>
    if truthy p.elementName then
      ((if p.canonical then [.ascii (u!! ">"), .ascii (u!! "</"), .encode name, .ascii (u!! ">")]
        else [.ascii (u!! "/>")]), { p with elementName := none })
    else ([.ascii (u!! "</"), .encode name, .ascii (u!! ">")], p)
  -- 237-263 (the result of `text.replace` in line 250 is not used)
  | .text s => ((closeTag p).1 ++ [.escape s textEntities], (closeTag p).2)
  | .rawText s => ((closeTag p).1 ++ [.encode s], (closeTag p).2)
  -- 265-287
  | .cdata s => ((closeTag p).1 ++ cdataOps p.canonical s, (closeTag p).2)
  -- 289-305
  | .pi target data => ((closeTag p).1 ++ piOps target data, (closeTag p).2)
  -- 307-319
  | .comment s =>
    ((closeTag p).1 ++ [.ascii (u!! "<!--"), .encode s, .ascii (u!! "-->")], (closeTag p).2)

/-- A sequence of calls. -/
def Printer.calls (p : Printer) : List Call → List Op
  | [] => []
  | c :: cs => (p.call c).1 ++ (p.call c).2.calls cs

/-- A new printer (_xmlprinters.py:44-56); the canonical one writes no declaration (365-371). -/
def newPrinter (canonical : Bool) (encoding : UStr) : Printer :=
  ⟨canonical, if canonical then u!! "utf-8" else encoding, canonical, none⟩

/-- What arrives on a stream when a new printer is given a sequence of calls. -/
def printCalls (wide : Bool) (st : Stream) (canonical : Bool) (encoding : UStr) (cs : List Call) :
    Except WErr Stream :=
  runOps wide st ((newPrinter canonical encoding).calls cs)

end Verif.Write
