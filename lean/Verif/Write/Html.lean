import Verif.Write.Printer

/-
The HTML printer (lib/writers/_htmlprinters.py, class `htmlprinter`, with lib/writers/htmlentities.py): the
calls it accepts, and what it writes for each.  Not modelled: `cdata_section`, which is inherited from the XML
printer, and the pretty-printing subclass.
-/
namespace Verif.Write.Html
open Verif Verif.Write

/-! Entities -/

/-- `ENTITIES_HTML_32` (htmlentities.py:10-108). -/
def entities32 : EntityMap :=
  [(0xA0, u!! "&nbsp;"), (0xA1, u!! "&iexcl;"), (0xA2, u!! "&cent;"), (0xA3, u!! "&pound;"),
   (0xA4, u!! "&curren;"), (0xA5, u!! "&yen;"), (0xA6, u!! "&brvbar;"), (0xA7, u!! "&sect;"),
   (0xA8, u!! "&uml;"), (0xA9, u!! "&copy;"), (0xAA, u!! "&ordf;"), (0xAB, u!! "&laquo;"),
   (0xAC, u!! "&not;"), (0xAD, u!! "&shy;"), (0xAE, u!! "&reg;"), (0xAF, u!! "&macr;"), (0xB0, u!! "&deg;"),
   (0xB1, u!! "&plusmn;"), (0xB2, u!! "&sup2;"), (0xB3, u!! "&sup3;"), (0xB4, u!! "&acute;"),
   (0xB5, u!! "&micro;"), (0xB6, u!! "&para;"), (0xB7, u!! "&middot;"), (0xB8, u!! "&cedil;"),
   (0xB9, u!! "&sup1;"), (0xBA, u!! "&ordm;"), (0xBB, u!! "&raquo;"), (0xBC, u!! "&frac14;"),
   (0xBD, u!! "&frac12;"), (0xBE, u!! "&frac34;"), (0xBF, u!! "&iquest;"), (0xC0, u!! "&Agrave;"),
   (0xC1, u!! "&Aacute;"), (0xC2, u!! "&Acirc;"), (0xC3, u!! "&Atilde;"), (0xC4, u!! "&Auml;"),
   (0xC5, u!! "&Aring;"), (0xC6, u!! "&AElig;"), (0xC7, u!! "&Ccedil;"), (0xC8, u!! "&Egrave;"),
   (0xC9, u!! "&Eacute;"), (0xCA, u!! "&Ecirc;"), (0xCB, u!! "&Euml;"), (0xCC, u!! "&Igrave;"),
   (0xCD, u!! "&Iacute;"), (0xCE, u!! "&Icirc;"), (0xCF, u!! "&Iuml;"), (0xD0, u!! "&ETH;"),
   (0xD1, u!! "&Ntilde;"), (0xD2, u!! "&Ograve;"), (0xD3, u!! "&Oacute;"), (0xD4, u!! "&Ocirc;"),
   (0xD5, u!! "&Otilde;"), (0xD6, u!! "&Ouml;"), (0xD7, u!! "&times;"), (0xD8, u!! "&Oslash;"),
   (0xD9, u!! "&Ugrave;"), (0xDA, u!! "&Uacute;"), (0xDB, u!! "&Ucirc;"), (0xDC, u!! "&Uuml;"),
   (0xDD, u!! "&Yacute;"), (0xDE, u!! "&THORN;"), (0xDF, u!! "&szlig;"), (0xE0, u!! "&agrave;"),
   (0xE1, u!! "&aacute;"), (0xE2, u!! "&acirc;"), (0xE3, u!! "&atilde;"), (0xE4, u!! "&auml;"),
   (0xE5, u!! "&aring;"), (0xE6, u!! "&aelig;"), (0xE7, u!! "&ccedil;"), (0xE8, u!! "&egrave;"),
   (0xE9, u!! "&eacute;"), (0xEA, u!! "&ecirc;"), (0xEB, u!! "&euml;"), (0xEC, u!! "&igrave;"),
   (0xED, u!! "&iacute;"), (0xEE, u!! "&icirc;"), (0xEF, u!! "&iuml;"), (0xF0, u!! "&eth;"),
   (0xF1, u!! "&ntilde;"), (0xF2, u!! "&ograve;"), (0xF3, u!! "&oacute;"), (0xF4, u!! "&ocirc;"),
   (0xF5, u!! "&otilde;"), (0xF6, u!! "&ouml;"), (0xF7, u!! "&divide;"), (0xF8, u!! "&oslash;"),
   (0xF9, u!! "&ugrave;"), (0xFA, u!! "&uacute;"), (0xFB, u!! "&ucirc;"), (0xFC, u!! "&uuml;"),
   (0xFD, u!! "&yacute;"), (0xFE, u!! "&thorn;"), (0xFF, u!! "&yuml;")]

/-- `ENTITIES_HTML_40` (htmlentities.py:111-277) without the entities of HTML 3.2, which line 278 adds.  The key
U+203A is there twice; the second value counts, as in Python. -/
def entities40 : EntityMap :=
  [(0x152, u!! "&OElig;"), (0x153, u!! "&oelig;"), (0x160, u!! "&Scaron;"), (0x161, u!! "&scaron;"),
   (0x178, u!! "&Yuml;"), (0x192, u!! "&fnof;"), (0x2C6, u!! "&circ;"), (0x2DC, u!! "&tidle;"),
   (0x391, u!! "&Alpha;"), (0x392, u!! "&Beta;"), (0x393, u!! "&Gamma;"), (0x394, u!! "&Delta;"),
   (0x395, u!! "&Epsilon;"), (0x396, u!! "&Zeta;"), (0x397, u!! "&Eta;"), (0x398, u!! "&Theta;"),
   (0x399, u!! "&Iota;"), (0x39A, u!! "&Kappa;"), (0x39B, u!! "&Lambda;"), (0x39C, u!! "&Mu;"),
   (0x39D, u!! "&Nu;"), (0x39E, u!! "&Xi;"), (0x39F, u!! "&Omicron;"), (0x3A0, u!! "&Pi;"),
   (0x3A1, u!! "&Rho;"), (0x3A3, u!! "&Sigma;"), (0x3A4, u!! "&Tau;"), (0x3A5, u!! "&Upsilon;"),
   (0x3A6, u!! "&Phi;"), (0x3A7, u!! "&Chi;"), (0x3A8, u!! "&Psi;"), (0x3A9, u!! "&Omega;"),
   (0x3B1, u!! "&alpha;"), (0x3B2, u!! "&beta;"), (0x3B3, u!! "&gamma;"), (0x3B4, u!! "&delta;"),
   (0x3B5, u!! "&epsilon;"), (0x3B6, u!! "&zeta;"), (0x3B7, u!! "&eta;"), (0x3B8, u!! "&theta;"),
   (0x3B9, u!! "&iota;"), (0x3BA, u!! "&kappa;"), (0x3BB, u!! "&lambda;"), (0x3BC, u!! "&mu;"),
   (0x3BD, u!! "&nu;"), (0x3BE, u!! "&xi;"), (0x3BF, u!! "&omicron;"), (0x3C0, u!! "&pi;"),
   (0x3C1, u!! "&rho;"), (0x3C2, u!! "&sigmaf;"), (0x3C3, u!! "&sigma;"), (0x3C4, u!! "&tau;"),
   (0x3C5, u!! "&upsilon;"), (0x3C6, u!! "&phi;"), (0x3C7, u!! "&chi;"), (0x3C8, u!! "&psi;"),
   (0x3C9, u!! "&omega;"), (0x3D1, u!! "&thetasym;"), (0x3D2, u!! "&upsih;"), (0x3D6, u!! "&piv;"),
   (0x2002, u!! "&ensp;"), (0x2003, u!! "&emsp;"), (0x2009, u!! "&thinsp;"), (0x200C, u!! "&zwnj;"),
   (0x200D, u!! "&zwj;"), (0x200E, u!! "&lrm;"), (0x200F, u!! "&rlm;"), (0x2013, u!! "&ndash;"),
   (0x2014, u!! "&mdash;"), (0x2018, u!! "&lsquo;"), (0x2019, u!! "&rsquo;"), (0x201A, u!! "&sbquo;"),
   (0x201C, u!! "&ldquo;"), (0x201D, u!! "&rdquo;"), (0x201E, u!! "&bdquo;"), (0x2020, u!! "&dagger;"),
   (0x2021, u!! "&Dagger;"), (0x2022, u!! "&bull;"), (0x2026, u!! "&hellip;"), (0x2030, u!! "&permil;"),
   (0x2032, u!! "&prime;"), (0x2033, u!! "&Prime;"), (0x2039, u!! "&lsaquo;"), (0x203A, u!! "&rsaquo;"),
   (0x203E, u!! "&oline;"), (0x20AC, u!! "&euro;"), (0x2111, u!! "&image;"), (0x2118, u!! "&weierp;"),
   (0x211C, u!! "&real;"), (0x2122, u!! "&trade;"), (0x2135, u!! "&alefsym;"), (0x2190, u!! "&larr;"),
   (0x2191, u!! "&uarr;"), (0x2192, u!! "&rarr;"), (0x2193, u!! "&darr;"), (0x2194, u!! "&harr;"),
   (0x21B5, u!! "&crarr;"), (0x21D0, u!! "&lArr;"), (0x21D1, u!! "&uArr;"), (0x21D2, u!! "&rArr;"),
   (0x21D3, u!! "&dArr;"), (0x21D4, u!! "&hArr;"), (0x2200, u!! "&forall;"), (0x2202, u!! "&part;"),
   (0x2203, u!! "&exist;"), (0x2205, u!! "&empty;"), (0x2207, u!! "&nabla;"), (0x2208, u!! "&isin;"),
   (0x2209, u!! "&notin;"), (0x220B, u!! "&ni;"), (0x220F, u!! "&prod;"), (0x2211, u!! "&sum;"),
   (0x2212, u!! "&minus;"), (0x2217, u!! "&lowast;"), (0x221A, u!! "&radic;"), (0x221D, u!! "&prop;"),
   (0x221E, u!! "&infin;"), (0x2220, u!! "&ang;"), (0x2227, u!! "&and;"), (0x2228, u!! "&or;"),
   (0x2229, u!! "&cap;"), (0x222A, u!! "&cup;"), (0x222B, u!! "&int;"), (0x2234, u!! "&there4;"),
   (0x223C, u!! "&sim;"), (0x2245, u!! "&cong;"), (0x2248, u!! "&asymp;"), (0x2260, u!! "&ne;"),
   (0x2261, u!! "&equiv;"), (0x2264, u!! "&le;"), (0x2265, u!! "&ge;"), (0x2282, u!! "&sub;"),
   (0x2283, u!! "&sup;"), (0x2284, u!! "&nsub;"), (0x2286, u!! "&sube;"), (0x2287, u!! "&supe;"),
   (0x2295, u!! "&oplus;"), (0x2297, u!! "&otimes;"), (0x22A5, u!! "&perp;"), (0x22C5, u!! "&sdot;"),
   (0x2308, u!! "&lceil;"), (0x2309, u!! "&rceil;"), (0x230A, u!! "&lfloor;"), (0x230B, u!! "&rfloor;"),
   (0x2329, u!! "&lang;"), (0x232A, u!! "&rang;"), (0x25CA, u!! "&loz;"), (0x2660, u!! "&spades;"),
   (0x2663, u!! "&clubs;"), (0x2665, u!! "&hearts;"), (0x2666, u!! "&diams;")]

/-- What an entity map has for a character: a replacement, or the function `_attr_amp_escape`. -/
inductive Repl
  | str (s : UStr)
  | amp

/-- An entity map, which may contain the function. -/
abbrev HMap := List (Nat × Repl)

def strs (m : EntityMap) : HMap := m.map fun p => (p.1, .str p.2)

/-- `_attr_amp_escape` (_htmlprinters.py:238-242); `s` is the string from the offset on. -/
def ampEscape (s : UStr) : UStr := if Py.startsWith s (u!! "&{") then u!! "&" else u!! "&amp;"

/-- `_text_entities` (_htmlprinters.py:219-231), for a list of named entities. -/
def textMap (named : EntityMap) : EntityMap :=
  [(60, u!! "&lt;"), (62, u!! "&gt;"), (38, u!! "&amp;"), (13, u!! "&#13;")] ++ named

/-- `_attr_entities_quot` (_htmlprinters.py:243-254). -/
def quotMap (named : EntityMap) : HMap :=
  (38, .amp) :: strs ([(9, u!! "&#9;"), (10, u!! "&#10;"), (13, u!! "&#13;"), (34, u!! "&quot;")] ++ named)

/-- `_attr_entities_apos` (_htmlprinters.py:256-267). -/
def aposMap (named : EntityMap) : HMap :=
  (38, .amp) :: strs ([(9, u!! "&#9;"), (10, u!! "&#10;"), (13, u!! "&#13;"), (39, u!! "&#39;")] ++ named)

/-- The entities of a version of HTML (_htmlprinters.py:44-50): HTML 3.2, or else HTML 4.0. -/
def named (version : UStr) : EntityMap :=
  if version = u!! "3.2" then entities32 else entities40 ++ entities32

/-! The stream -/

/-- The replacement for a character, at the beginning of `s` (xmlstream.c:494-513). -/
def replacement (s : UStr) : Repl → UStr
  | .str r => r
  | .amp => ampEscape s

/-- The second loop of `xmlstream_write_escape` (xmlstream.c:474-538) for an entity map with a function. -/
def escapeLoop (st : Stream) (m : HMap) : UStr → UStr → Except WErr Stream
  | chunk, [] => .ok (writeChunk st chunk)
  | chunk, c :: s => match m.lookup c with
    | some r => match writeAscii (writeChunk st chunk) (replacement (c :: s) r) with
      | .error e => .error e
      | .ok st => escapeLoop st m [] s
    | none => escapeLoop st m (chunk ++ [c]) s

/-- The calls of the stream methods. -/
inductive HOp
  | base (op : Op)
  | escapeAttr (s : UStr) (m : HMap)

/-- Perform one call (`write_escape`: xmlstream.c:425-543). -/
def HOp.run (wide : Bool) (st : Stream) : HOp → Except WErr Stream
  | .base op => op.run wide st
  | .escapeAttr s m => escapeLoop st.flushBom m [] (sanitize wide s)

/-- Perform the calls of a list until one raises. -/
def runHOps (wide : Bool) (st : Stream) : List HOp → Except WErr Stream
  | [] => .ok st
  | op :: ops => match op.run wide st with
    | .error e => .error e
    | .ok st => runHOps wide st ops

/-! The printer -/

/-- Lower-casing as Python 2 does it, where the result is ASCII (U+0130 and U+212A are the only other
characters with that); the rest is kept, which makes no difference to comparisons with ASCII. -/
def pyLower (c : Nat) : Nat :=
  if 65 ≤ c ∧ c ≤ 90 then c + 32 else if c = 0x130 then 105 else if c = 0x212A then 107 else c

/-- `s.lower()`. -/
def toLower (s : UStr) : UStr := s.map pyLower

/-- `_forbidden_end_elements` (_htmlprinters.py:170-173). -/
def forbiddenEnd : List UStr :=
  [u!! "area", u!! "base", u!! "basefont", u!! "br", u!! "col", u!! "frame", u!! "hr", u!! "img", u!! "input",
   u!! "isindex", u!! "link", u!! "meta", u!! "param"]

/-- `_no_escape_elements` (_htmlprinters.py:181). -/
def noEscape : List UStr := [u!! "script", u!! "style"]

/-- `_boolean_attributes` (_htmlprinters.py:184-199). -/
def booleanAttributes : List (UStr × List UStr) :=
  [(u!! "checked", [u!! "input"]),
   (u!! "compact", [u!! "dl", u!! "ol", u!! "ul", u!! "dir", u!! "menu", u!! "li"]),
   (u!! "declare", [u!! "object"]), (u!! "defer", [u!! "script"]),
   (u!! "disabled", [u!! "input", u!! "select", u!! "optgroup", u!! "option", u!! "textarea", u!! "button"]),
   (u!! "ismap", [u!! "img", u!! "input"]), (u!! "multiple", [u!! "select"]), (u!! "nohref", [u!! "area"]),
   (u!! "noresize", [u!! "frame"]), (u!! "noshade", [u!! "hr"]), (u!! "nowrap", [u!! "th", u!! "td"]),
   (u!! "readonly", [u!! "input", u!! "textarea"]), (u!! "selected", [u!! "option"])]

/-- `_uri_attributes` (_htmlprinters.py:202-214). -/
def uriAttributes : List (UStr × List UStr) :=
  [(u!! "action", [u!! "form"]), (u!! "background", [u!! "body"]),
   (u!! "cite", [u!! "blockquote", u!! "del", u!! "ins", u!! "q"]), (u!! "classid", [u!! "object"]),
   (u!! "codebase", [u!! "applet", u!! "object"]), (u!! "data", [u!! "object"]),
   (u!! "href", [u!! "a", u!! "area", u!! "base", u!! "link"]),
   (u!! "longdesc", [u!! "frame", u!! "iframe", u!! "img"]), (u!! "profile", [u!! "head"]),
   (u!! "src", [u!! "frame", u!! "iframe", u!! "img", u!! "input", u!! "script"]),
   (u!! "usemap", [u!! "img", u!! "input", u!! "object"])]

/-- `attr in table and element in table[attr]`. -/
def listed (table : List (UStr × List UStr)) (attr element : UStr) : Bool :=
  match table.lookup attr with
  | some es => es.contains element
  | none => false

/-- A digit of `%02X`. -/
def hexDigit (d : Nat) : Nat := if d < 10 then 48 + d else 55 + d

/-- `'%%%02X' % ord(match.group())` (_htmlprinters.py:94). -/
def percent (b : Nat) : UStr := if 0x80 ≤ b ∧ b ≤ 0xFF then [37, hexDigit (b / 16), hexDigit (b % 16)] else [b]

/-- Escape the non-ASCII characters of a URI (_htmlprinters.py:93-95), for a wide build. -/
def escapeUri (v : UStr) : UStr := (v.flatMap utf8Char).flatMap percent

/-- What is written for an attribute (_htmlprinters.py:73-96): `none` if only its name. -/
def translate (element : UStr) (a : UStr × UStr) : UStr × Option UStr :=
  if listed booleanAttributes (toLower a.1) element then
    (a.1, if toLower a.1 = toLower a.2 then none else some a.2)
  else if listed uriAttributes (toLower a.1) element then (a.1, some (escapeUri a.2))
  else (a.1, some a.2)

/-- The calls of printer methods. -/
inductive HCall
  | startDocument (version : UStr)
  | endDocument
  | doctype (name : UStr) (publicId systemId : Option UStr)
  | startElement («namespace» : Option UStr) (name : UStr) (nsdecls : List (Option UStr × UStr))
      (attrs : List (UStr × UStr))
  | endElement («namespace» : Option UStr) (name : UStr)
  | text (s : UStr)
  | rawText (s : UStr)                                -- text() with disable_escaping
  | pi (target data : UStr)
  | comment (s : UStr)

/-- The attributes of the printer.  `disableOutputEscaping` is counted but nothing reads it. -/
structure HPrinter where
  named : EntityMap
  razeNamespaces : Bool
  disableOutputEscaping : Int
  elementName : Option UStr

def HPrinter.new (raze : Bool) : HPrinter := ⟨Html.named (u!! "4.0"), raze, 0, none⟩

/-- `if self._element_name: self.write_ascii('>'); self._element_name = None`. -/
def closeTag (p : HPrinter) : List HOp × HPrinter :=
  if truthy p.elementName then ([.base (.ascii (u!! ">"))], { p with elementName := none }) else ([], p)

def bases (ops : List Op) : List HOp := ops.map .base

/-- An attribute (_xmlprinters.py:176-212): a value of `None` is not written. -/
def attrOps (nm : EntityMap) (a : UStr × Option UStr) : List HOp :=
  .base (.ascii (u!! " ")) :: .base (.encode a.1) ::
    match a.2 with
    | none => []
    | some v =>
      if v.contains 34 && !v.contains 39 then
        [.base (.ascii (u!! "=")), .base (.ascii (u!! "'")), .escapeAttr v (aposMap nm), .base (.ascii (u!! "'"))]
      else
        [.base (.ascii (u!! "=")), .base (.ascii (u!! "\"")), .escapeAttr v (quotMap nm),
          .base (.ascii (u!! "\""))]

/-- `xmlprinter.start_element` (_xmlprinters.py:116-213), not canonical. -/
def xmlStart (p : HPrinter) (name : UStr) (nsdecls : List (Option UStr × UStr))
    (attrs : List (UStr × Option UStr)) : List HOp × HPrinter :=
  ((if truthy p.elementName then [.base (.ascii (u!! ">"))] else []) ++
    [.base (.ascii (u!! "<")), .base (.encode name)] ++
    (nsdecls.map (fun d => ((nsAttr d).1, some (nsAttr d).2)) ++ attrs).flatMap (attrOps p.named),
    { p with elementName := some name })

/-- `xmlprinter.end_element` (_xmlprinters.py:215-235), not canonical. -/
def xmlEnd (p : HPrinter) (name : UStr) : List HOp × HPrinter :=
  if truthy p.elementName then ([.base (.ascii (u!! "/>"))], { p with elementName := none })
  else (bases [.ascii (u!! "</"), .encode name, .ascii (u!! ">")], p)

/-- `doctype` (_htmlprinters.py:53-70; else _xmlprinters.py:89-114). -/
def doctypeCall (p : HPrinter) (name : UStr) (pub sys : Option UStr) : List HOp × HPrinter :=
  if truthy pub && !truthy sys then
    (bases [.ascii (u!! "<!DOCTYPE "), .encode name, .ascii (u!! " PUBLIC \""), .encode (pub.getD []),
      .ascii (u!! "\">\n")], p)
  else ((closeTag p).1 ++ bases (doctypeOps name pub sys), (closeTag p).2)

/-- `processing_instruction` (_htmlprinters.py:150-167). -/
def piOps (target data : UStr) : List Op :=
  [.ascii (u!! "<?"), .encode target] ++
    (if data.isEmpty then [] else [.ascii (u!! " "), .encode data]) ++ [.ascii (u!! ">")]

/-- `start_element` for an element without a namespace (_htmlprinters.py:111-125). -/
def htmlStart (p : HPrinter) (name : UStr) (nsdecls : List (Option UStr × UStr))
    (attrs : List (UStr × UStr)) : List HOp × HPrinter :=
  let q := xmlStart p name nsdecls (attrs.map (translate (toLower name)))
  (q.1 ++ [.base (.ascii (u!! ">"))],
    { q.2 with elementName := none,
               disableOutputEscaping := p.disableOutputEscaping +
                 if noEscape.contains (toLower name) then 1 else 0 })

/-- `end_element` for an element without a namespace (_htmlprinters.py:139-148). -/
def htmlEnd (p : HPrinter) (name : UStr) : List HOp × HPrinter :=
  (if forbiddenEnd.contains (toLower name) then []
    else bases [.ascii (u!! "</"), .encode name, .ascii (u!! ">")],
    { p with disableOutputEscaping := p.disableOutputEscaping -
               if noEscape.contains (toLower name) then 1 else 0 })

/-- The methods of `htmlprinter` (_htmlprinters.py:36-167, and those that it inherits). -/
def HPrinter.call (p : HPrinter) : HCall → List HOp × HPrinter
  -- 36-51
  | .startDocument version => ([], { p with named := Html.named version })
  -- _xmlprinters.py:72-87
  | .endDocument =>
    if truthy p.elementName then ([.base (.ascii (u!! "/>"))], { p with elementName := none }) else ([], p)
  -- 53-70
  | .doctype name pub sys => doctypeCall p name pub sys
  -- 99-126 (with `_raze_namespaces` the namespace declarations are dropped)
  | .startElement none name nsdecls attrs => htmlStart p name nsdecls attrs
  | .startElement (some _) name nsdecls attrs =>
    xmlStart p name (if p.razeNamespaces then [] else nsdecls) (attrs.map fun a => (a.1, some a.2))
  -- 128-148
  | .endElement none name => htmlEnd p name
  | .endElement (some _) name => xmlEnd p name
  -- _xmlprinters.py:237-263
  | .text s => ((closeTag p).1 ++ [.base (.escape s (textMap p.named))], (closeTag p).2)
  | .rawText s => ((closeTag p).1 ++ [.base (.encode s)], (closeTag p).2)
  -- 150-167
  | .pi target data => ((closeTag p).1 ++ bases (piOps target data), (closeTag p).2)
  -- _xmlprinters.py:307-319
  | .comment s =>
    ((closeTag p).1 ++ bases [.ascii (u!! "<!--"), .encode s, .ascii (u!! "-->")], (closeTag p).2)

/-- A sequence of calls. -/
def HPrinter.calls (p : HPrinter) : List HCall → List HOp
  | [] => []
  | c :: cs => (p.call c).1 ++ (p.call c).2.calls cs

/-- What arrives on a stream when a new printer is given a sequence of calls. -/
def printHtml (wide : Bool) (st : Stream) (raze : Bool) (cs : List HCall) : Except WErr Stream :=
  runHOps wide st ((HPrinter.new raze).calls cs)

end Verif.Write.Html
