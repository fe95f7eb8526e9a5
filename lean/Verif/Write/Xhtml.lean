import Verif.Write.Html
import Verif.Write.Printer
/-
The XHTML printer (`/repo/lib/writers/_xhtmlprinters.py`, class `xhtmlprinter`): what it writes on a
stream.  It is the XML printer with other entities, with end tags for empty elements, and with
escaped URIs.  The stream and the methods of the XML printer are those of `Verif.Write.Printer`, the
named entities and the escaping of URIs those of `Verif.Write.Html`.
-/
namespace Verif.Write.Xhtml
open Verif Verif.Write

/-- The calls of printer methods; names are written as they are given (with a prefix). -/
inductive XCall
  | startDocument (standalone : Option UStr)
  | endDocument
  | doctype (name : UStr) (publicId systemId : Option UStr)
  | start (ns : Option UStr) (name : UStr) (nsdecls : List (Option UStr × UStr)) (attrs : List (UStr × UStr))
  | stop (ns : Option UStr) (name : UStr)
  | text (s : UStr)
  | rawText (s : UStr)
  | cdata (s : UStr)
  | pi (target data : UStr)
  | comment (s : UStr)

/-- `XHTML_NAMESPACE` (lib/namespaces.py:20). -/
def xhtmlNs : UStr := u!! "http://www.w3.org/1999/xhtml"

/-- `_empty_elements` (_xhtmlprinters.py:88-91). -/
def emptyElements : List UStr :=
  [u!! "area", u!! "base", u!! "basefont", u!! "br", u!! "col", u!! "frame", u!! "hr", u!! "img", u!! "input",
   u!! "isindex", u!! "link", u!! "meta", u!! "param"]

/-- `_uri_attributes` (_xhtmlprinters.py:94-112). -/
def uriAttributes : List (UStr × List UStr) :=
  [(u!! "action", [u!! "form"]), (u!! "archive", [u!! "object"]), (u!! "background", [u!! "body"]),
   (u!! "cite", [u!! "blockquote", u!! "del", u!! "ins", u!! "q"]), (u!! "classid", [u!! "object"]),
   (u!! "codebase", [u!! "applet", u!! "object"]), (u!! "data", [u!! "object"]),
   (u!! "datasrc", [u!! "button", u!! "div", u!! "input", u!! "object", u!! "select", u!! "span", u!! "table",
     u!! "textarea"]),
   (u!! "for", [u!! "script"]), (u!! "href", [u!! "a", u!! "area", u!! "base", u!! "link"]),
   (u!! "longdesc", [u!! "frame", u!! "iframe", u!! "img"]), (u!! "name", [u!! "a"]), (u!! "profile", [u!! "head"]),
   (u!! "src", [u!! "frame", u!! "iframe", u!! "img", u!! "input", u!! "script"]),
   (u!! "usemap", [u!! "img", u!! "input", u!! "object"])]

/-- `ENTITIES_XHTML_10` (htmlentities.py:280): those of HTML 4.0. -/
def named : EntityMap := Html.entities40 ++ Html.entities32

/-- `_text_entities` (_xhtmlprinters.py:114-120). -/
def textMap : EntityMap :=
  [(60, u!! "&lt;"), (62, u!! "&gt;"), (38, u!! "&amp;"), (13, u!! "&#13;")] ++ named

/-- `_attr_entities_quot` (_xhtmlprinters.py:122-129). -/
def quotMap : EntityMap :=
  [(38, u!! "&amp;"), (9, u!! "&#9;"), (10, u!! "&#10;"), (13, u!! "&#13;"), (34, u!! "&quot;")] ++ named

/-- `_attr_entities_apos` (_xhtmlprinters.py:131-138). -/
def aposMap : EntityMap :=
  [(38, u!! "&amp;"), (9, u!! "&#9;"), (10, u!! "&#10;"), (13, u!! "&#13;"), (39, u!! "&#39;")] ++ named

/-- `_translate_attributes` (_xhtmlprinters.py:28-49). -/
def translate (element : UStr) (a : UStr × UStr) : UStr × UStr :=
  if Html.listed uriAttributes a.1 element then (a.1, Html.escapeUri a.2) else a

/-- The quotes and entities for a value (_xmlprinters.py:201-208). -/
def quoting (value : UStr) : EntityMap × UStr :=
  if value.contains 34 && !value.contains 39 then (aposMap, u!! "'") else (quotMap, u!! "\"")

/-- An attribute (_xmlprinters.py:176-212). -/
def attrOps (a : UStr × UStr) : List Op :=
  [.ascii (u!! " "), .encode a.1, .ascii (u!! "="), .ascii (quoting a.2).2, .escape a.2 (quoting a.2).1,
   .ascii (quoting a.2).2]

/-- `xmlprinter.start_element` (_xmlprinters.py:116-175), with the entities of this class. -/
def startOps (p : Printer) (name : UStr) (nsdecls : List (Option UStr × UStr)) (attrs : List (UStr × UStr)) :
    List Op :=
  (if truthy p.elementName then [.ascii (u!! ">")] else []) ++ [.ascii (u!! "<"), .encode name] ++
    (nsdecls.map nsAttr ++ attrs).flatMap attrOps

/-- The methods of `xhtmlprinter` (_xhtmlprinters.py:51-84), and those of `xmlprinter` that it inherits. -/
def xcall (p : Printer) : XCall → List Op × Printer
  -- 51-68
  | .start ns name nsdecls attrs =>
    if ns = some xhtmlNs then
      if emptyElements.contains name then
        (startOps p name nsdecls (attrs.map (translate name)), { p with elementName := some name })
      else
        (startOps p name nsdecls (attrs.map (translate name)) ++ [.ascii (u!! ">")], { p with elementName := none })
    else (startOps p name nsdecls attrs, { p with elementName := some name })
  -- 70-84: the first branch does not reset `_element_name`
  | .stop ns name =>
    if truthy p.elementName && emptyElements.contains name && ns == some xhtmlNs then ([.ascii (u!! " />")], p)
    else p.call (.endElement name)
  | .text s => ((closeTag p).1 ++ [.escape s textMap], (closeTag p).2)
  | .startDocument sa => p.call (.startDocument sa)
  | .endDocument => p.call .endDocument
  | .doctype n pub sys => p.call (.doctype n pub sys)
  | .rawText s => p.call (.rawText s)
  | .cdata s => p.call (.cdata s)
  | .pi t d => p.call (.pi t d)
  | .comment s => p.call (.comment s)

/-- A sequence of calls. -/
def xcalls (p : Printer) : List XCall → List Op
  | [] => []
  | c :: cs => (xcall p c).1 ++ xcalls (xcall p c).2 cs

/-- What arrives on a stream when a new printer is given a sequence of calls. -/
def printXhtml (wide : Bool) (st : Stream) (encoding : UStr) (cs : List XCall) : Except WErr Stream :=
  runOps wide st (xcalls (newPrinter false encoding) cs)

end Verif.Write.Xhtml
