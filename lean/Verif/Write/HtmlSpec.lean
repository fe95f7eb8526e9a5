import Verif.Write.Html
import Verif.Write.Spec
import Verif.Write.Decode

/-
What a reader of HTML 4.01 finds in a document, and what the calls of a printer ask for.  The reader knows
documents in which only those end tags are missing that HTML forbids.  Section numbers refer to the HTML 4.01
specification.
-/
namespace Verif.Write.Html.Spec
open Verif Verif.Write
open Verif.Write.Spec (Legal space skipSpace upTo digits eol needSpace Phase Raw Occurs LegalText Encodable)

/-! Reading HTML -/

/-- The character entities of HTML 4.01 (24). -/
def entities : List (UStr × Nat) :=
  [(u!! "quot", 0x22), (u!! "amp", 0x26), (u!! "lt", 0x3C), (u!! "gt", 0x3E), (u!! "nbsp", 0xA0),
   (u!! "iexcl", 0xA1), (u!! "cent", 0xA2), (u!! "pound", 0xA3), (u!! "curren", 0xA4), (u!! "yen", 0xA5),
   (u!! "brvbar", 0xA6), (u!! "sect", 0xA7), (u!! "uml", 0xA8), (u!! "copy", 0xA9), (u!! "ordf", 0xAA),
   (u!! "laquo", 0xAB), (u!! "not", 0xAC), (u!! "shy", 0xAD), (u!! "reg", 0xAE), (u!! "macr", 0xAF),
   (u!! "deg", 0xB0), (u!! "plusmn", 0xB1), (u!! "sup2", 0xB2), (u!! "sup3", 0xB3), (u!! "acute", 0xB4),
   (u!! "micro", 0xB5), (u!! "para", 0xB6), (u!! "middot", 0xB7), (u!! "cedil", 0xB8), (u!! "sup1", 0xB9),
   (u!! "ordm", 0xBA), (u!! "raquo", 0xBB), (u!! "frac14", 0xBC), (u!! "frac12", 0xBD), (u!! "frac34", 0xBE),
   (u!! "iquest", 0xBF), (u!! "Agrave", 0xC0), (u!! "Aacute", 0xC1), (u!! "Acirc", 0xC2),
   (u!! "Atilde", 0xC3), (u!! "Auml", 0xC4), (u!! "Aring", 0xC5), (u!! "AElig", 0xC6), (u!! "Ccedil", 0xC7),
   (u!! "Egrave", 0xC8), (u!! "Eacute", 0xC9), (u!! "Ecirc", 0xCA), (u!! "Euml", 0xCB), (u!! "Igrave", 0xCC),
   (u!! "Iacute", 0xCD), (u!! "Icirc", 0xCE), (u!! "Iuml", 0xCF), (u!! "ETH", 0xD0), (u!! "Ntilde", 0xD1),
   (u!! "Ograve", 0xD2), (u!! "Oacute", 0xD3), (u!! "Ocirc", 0xD4), (u!! "Otilde", 0xD5), (u!! "Ouml", 0xD6),
   (u!! "times", 0xD7), (u!! "Oslash", 0xD8), (u!! "Ugrave", 0xD9), (u!! "Uacute", 0xDA),
   (u!! "Ucirc", 0xDB), (u!! "Uuml", 0xDC), (u!! "Yacute", 0xDD), (u!! "THORN", 0xDE), (u!! "szlig", 0xDF),
   (u!! "agrave", 0xE0), (u!! "aacute", 0xE1), (u!! "acirc", 0xE2), (u!! "atilde", 0xE3), (u!! "auml", 0xE4),
   (u!! "aring", 0xE5), (u!! "aelig", 0xE6), (u!! "ccedil", 0xE7), (u!! "egrave", 0xE8),
   (u!! "eacute", 0xE9), (u!! "ecirc", 0xEA), (u!! "euml", 0xEB), (u!! "igrave", 0xEC), (u!! "iacute", 0xED),
   (u!! "icirc", 0xEE), (u!! "iuml", 0xEF), (u!! "eth", 0xF0), (u!! "ntilde", 0xF1), (u!! "ograve", 0xF2),
   (u!! "oacute", 0xF3), (u!! "ocirc", 0xF4), (u!! "otilde", 0xF5), (u!! "ouml", 0xF6), (u!! "divide", 0xF7),
   (u!! "oslash", 0xF8), (u!! "ugrave", 0xF9), (u!! "uacute", 0xFA), (u!! "ucirc", 0xFB), (u!! "uuml", 0xFC),
   (u!! "yacute", 0xFD), (u!! "thorn", 0xFE), (u!! "yuml", 0xFF), (u!! "OElig", 0x152), (u!! "oelig", 0x153),
   (u!! "Scaron", 0x160), (u!! "scaron", 0x161), (u!! "Yuml", 0x178), (u!! "fnof", 0x192),
   (u!! "circ", 0x2C6), (u!! "tilde", 0x2DC), (u!! "Alpha", 0x391), (u!! "Beta", 0x392),
   (u!! "Gamma", 0x393), (u!! "Delta", 0x394), (u!! "Epsilon", 0x395), (u!! "Zeta", 0x396),
   (u!! "Eta", 0x397), (u!! "Theta", 0x398), (u!! "Iota", 0x399), (u!! "Kappa", 0x39A),
   (u!! "Lambda", 0x39B), (u!! "Mu", 0x39C), (u!! "Nu", 0x39D), (u!! "Xi", 0x39E), (u!! "Omicron", 0x39F),
   (u!! "Pi", 0x3A0), (u!! "Rho", 0x3A1), (u!! "Sigma", 0x3A3), (u!! "Tau", 0x3A4), (u!! "Upsilon", 0x3A5),
   (u!! "Phi", 0x3A6), (u!! "Chi", 0x3A7), (u!! "Psi", 0x3A8), (u!! "Omega", 0x3A9), (u!! "alpha", 0x3B1),
   (u!! "beta", 0x3B2), (u!! "gamma", 0x3B3), (u!! "delta", 0x3B4), (u!! "epsilon", 0x3B5),
   (u!! "zeta", 0x3B6), (u!! "eta", 0x3B7), (u!! "theta", 0x3B8), (u!! "iota", 0x3B9), (u!! "kappa", 0x3BA),
   (u!! "lambda", 0x3BB), (u!! "mu", 0x3BC), (u!! "nu", 0x3BD), (u!! "xi", 0x3BE), (u!! "omicron", 0x3BF),
   (u!! "pi", 0x3C0), (u!! "rho", 0x3C1), (u!! "sigmaf", 0x3C2), (u!! "sigma", 0x3C3), (u!! "tau", 0x3C4),
   (u!! "upsilon", 0x3C5), (u!! "phi", 0x3C6), (u!! "chi", 0x3C7), (u!! "psi", 0x3C8), (u!! "omega", 0x3C9),
   (u!! "thetasym", 0x3D1), (u!! "upsih", 0x3D2), (u!! "piv", 0x3D6), (u!! "ensp", 0x2002),
   (u!! "emsp", 0x2003), (u!! "thinsp", 0x2009), (u!! "zwnj", 0x200C), (u!! "zwj", 0x200D),
   (u!! "lrm", 0x200E), (u!! "rlm", 0x200F), (u!! "ndash", 0x2013), (u!! "mdash", 0x2014),
   (u!! "lsquo", 0x2018), (u!! "rsquo", 0x2019), (u!! "sbquo", 0x201A), (u!! "ldquo", 0x201C),
   (u!! "rdquo", 0x201D), (u!! "bdquo", 0x201E), (u!! "dagger", 0x2020), (u!! "Dagger", 0x2021),
   (u!! "bull", 0x2022), (u!! "hellip", 0x2026), (u!! "permil", 0x2030), (u!! "prime", 0x2032),
   (u!! "Prime", 0x2033), (u!! "lsaquo", 0x2039), (u!! "rsaquo", 0x203A), (u!! "oline", 0x203E),
   (u!! "frasl", 0x2044), (u!! "euro", 0x20AC), (u!! "image", 0x2111), (u!! "weierp", 0x2118),
   (u!! "real", 0x211C), (u!! "trade", 0x2122), (u!! "alefsym", 0x2135), (u!! "larr", 0x2190),
   (u!! "uarr", 0x2191), (u!! "rarr", 0x2192), (u!! "darr", 0x2193), (u!! "harr", 0x2194),
   (u!! "crarr", 0x21B5), (u!! "lArr", 0x21D0), (u!! "uArr", 0x21D1), (u!! "rArr", 0x21D2),
   (u!! "dArr", 0x21D3), (u!! "hArr", 0x21D4), (u!! "forall", 0x2200), (u!! "part", 0x2202),
   (u!! "exist", 0x2203), (u!! "empty", 0x2205), (u!! "nabla", 0x2207), (u!! "isin", 0x2208),
   (u!! "notin", 0x2209), (u!! "ni", 0x220B), (u!! "prod", 0x220F), (u!! "sum", 0x2211),
   (u!! "minus", 0x2212), (u!! "lowast", 0x2217), (u!! "radic", 0x221A), (u!! "prop", 0x221D),
   (u!! "infin", 0x221E), (u!! "ang", 0x2220), (u!! "and", 0x2227), (u!! "or", 0x2228), (u!! "cap", 0x2229),
   (u!! "cup", 0x222A), (u!! "int", 0x222B), (u!! "there4", 0x2234), (u!! "sim", 0x223C),
   (u!! "cong", 0x2245), (u!! "asymp", 0x2248), (u!! "ne", 0x2260), (u!! "equiv", 0x2261),
   (u!! "le", 0x2264), (u!! "ge", 0x2265), (u!! "sub", 0x2282), (u!! "sup", 0x2283), (u!! "nsub", 0x2284),
   (u!! "sube", 0x2286), (u!! "supe", 0x2287), (u!! "oplus", 0x2295), (u!! "otimes", 0x2297),
   (u!! "perp", 0x22A5), (u!! "sdot", 0x22C5), (u!! "lceil", 0x2308), (u!! "rceil", 0x2309),
   (u!! "lfloor", 0x230A), (u!! "rfloor", 0x230B), (u!! "lang", 0x2329), (u!! "rang", 0x232A),
   (u!! "loz", 0x25CA), (u!! "spades", 0x2660), (u!! "clubs", 0x2663), (u!! "hearts", 0x2665),
   (u!! "diams", 0x2666)]

/-- What is found in a document.  Every character of the text is an event of its own.  An attribute of which
only the name is there has no value.  A processing instruction is not divided any further. -/
inductive Ev
  | start (name : UStr) (attrs : List (UStr × Option UStr))
  | stop (name : UStr)
  | char (c : Nat)
  | comment (s : UStr)
  | pi (s : UStr)
  | doctype (name : UStr) (publicId systemId : Option UStr)
  deriving DecidableEq, Repr

def letter (c : Nat) : Bool := (65 ≤ c && c ≤ 90) || (97 ≤ c && c ≤ 122)

/-- The characters of names (6.2). -/
def nameChar (c : Nat) : Bool := letter c || (48 ≤ c && c ≤ 57) || c = 45 || c = 95 || c = 58 || c = 46

/-- Names begin with a letter (6.2). -/
def isName : UStr → Bool
  | [] => false
  | c :: s => letter c && s.all nameChar

/-- The case of a letter does not matter in the names of elements and attributes (3.2.1, 3.2.2). -/
def low (s : UStr) : UStr := s.map fun c => if 65 ≤ c ∧ c ≤ 90 then c + 32 else c

/-- Elements that have no end tag. -/
def isVoid (name : UStr) : Bool :=
  [u!! "area", u!! "base", u!! "basefont", u!! "br", u!! "col", u!! "frame", u!! "hr", u!! "img", u!! "input",
   u!! "isindex", u!! "link", u!! "meta", u!! "param"].contains (low name)

/-- Elements whose content is CDATA (18.2.1, 14.2.3): there are no references and no tags in it. -/
def isCdata (name : UStr) : Bool := [u!! "script", u!! "style"].contains (low name)

/-- Attributes that are boolean (3.3.4.2, and the index of attributes). -/
def isBool (element attr : UStr) : Bool :=
  [(u!! "area", u!! "nohref"), (u!! "button", u!! "disabled"), (u!! "dir", u!! "compact"),
   (u!! "dl", u!! "compact"), (u!! "frame", u!! "noresize"), (u!! "hr", u!! "noshade"), (u!! "img", u!! "ismap"),
   (u!! "input", u!! "checked"), (u!! "input", u!! "disabled"), (u!! "input", u!! "ismap"),
   (u!! "input", u!! "readonly"), (u!! "menu", u!! "compact"), (u!! "object", u!! "declare"),
   (u!! "ol", u!! "compact"), (u!! "optgroup", u!! "disabled"), (u!! "option", u!! "disabled"),
   (u!! "option", u!! "selected"), (u!! "script", u!! "defer"), (u!! "select", u!! "disabled"),
   (u!! "select", u!! "multiple"), (u!! "td", u!! "nowrap"), (u!! "textarea", u!! "disabled"),
   (u!! "textarea", u!! "readonly"), (u!! "th", u!! "nowrap"), (u!! "ul", u!! "compact")].contains
    (low element, low attr)

/-- Attributes whose value is one URI (6.4, and the index of attributes; `script` has a reserved one that the
list leaves out). -/
def isUri (element attr : UStr) : Bool :=
  [(u!! "a", u!! "href"), (u!! "applet", u!! "codebase"), (u!! "area", u!! "href"), (u!! "base", u!! "href"),
   (u!! "blockquote", u!! "cite"), (u!! "body", u!! "background"), (u!! "del", u!! "cite"),
   (u!! "form", u!! "action"), (u!! "frame", u!! "longdesc"), (u!! "frame", u!! "src"), (u!! "head", u!! "profile"),
   (u!! "iframe", u!! "longdesc"), (u!! "iframe", u!! "src"), (u!! "img", u!! "longdesc"), (u!! "img", u!! "src"),
   (u!! "img", u!! "usemap"), (u!! "input", u!! "src"), (u!! "input", u!! "usemap"), (u!! "ins", u!! "cite"),
   (u!! "link", u!! "href"), (u!! "object", u!! "classid"), (u!! "object", u!! "codebase"),
   (u!! "object", u!! "data"), (u!! "object", u!! "usemap"), (u!! "q", u!! "cite"),
   (u!! "script", u!! "src")].contains (low element, low attr)

/-- The character that the text between `&` and `;` stands for (5.3). -/
def refValue (s : UStr) : Option Nat :=
  match s with
  | 35 :: 120 :: d :: ds => digits 16 0 (d :: ds)
  | 35 :: d :: ds => digits 10 0 (d :: ds)
  | _ => entities.lookup s

/-- Read a reference, after the `&`. -/
def readRef (s : UStr) : Option (Nat × UStr) :=
  match upTo (u!! ";") s with
  | none => none
  | some (name, rest) => match refValue name with
    | none => none
    | some c => if Legal c then some (c, rest) else none

/-- Where a reference begins: a `&` followed by a letter or `#`.  A `&` followed by something else stands for
itself. -/
def refNext : UStr → Bool
  | c :: _ => letter c || c = 35
  | [] => false

/-- Read what follows a `&`. -/
def readAmp (s : UStr) : Option (Nat × UStr) := if refNext s then readRef s else some (38, s)

/-- An attribute value after its opening quote `q` (3.2.2, B.3.4): `<` stands for itself, white space is read as
a space.  `n` bounds the length. -/
def readValue (q : Nat) : Nat → UStr → Option (UStr × UStr)
  | 0, _ => none
  | _ + 1, [] => none
  | n + 1, c :: s =>
    if c = q then some ([], s)
    else if c = 38 then match readAmp s with
      | none => none
      | some (x, rest) => (readValue q n rest).map fun (v, r) => (x :: v, r)
    else if ¬ Legal c then none
    else (readValue q n s).map fun (v, r) => ((if space c then 32 else c) :: v, r)

/-- Read a name. -/
def readName (s : UStr) : Option (UStr × UStr) :=
  if isName (s.takeWhile nameChar) then some (s.takeWhile nameChar, s.dropWhile nameChar) else none

/-- The value of an attribute of `element`, if there is one; only boolean attributes may be without. -/
def readOptValue (element name s : UStr) : Option (Option UStr × UStr) :=
  match skipSpace s with
  | 61 :: s => match skipSpace s with
    | q :: s => if q = 34 ∨ q = 39 then (readValue q (s.length + 1) s).map fun (v, r) => (some v, r) else none
    | [] => none
  | _ => if isBool element name then some (none, s) else none

/-- The rest of a start tag after its name: attributes, each after white space, then `>`.  `n` bounds the number
of attributes. -/
def readAttrs (element : UStr) : Nat → UStr → Option (List (UStr × Option UStr) × UStr)
  | 0, _ => none
  | n + 1, s => match skipSpace s with
    | 62 :: r => some ([], r)
    | _ => if skipSpace s = s then none else match readName (skipSpace s) with
      | none => none
      | some (name, r) => match readOptValue element name r with
        | none => none
        | some (v, r) => (readAttrs element n r).map fun (as, r) => ((name, v) :: as, r)

/-- The rest of a start tag after `<`, with the elements that are open after it.  An element without an end tag
ends at once. -/
def readTag (open_ : List UStr) (s : UStr) : Option (List Ev × List UStr × UStr) :=
  match readName s with
  | none => none
  | some (name, r) => match readAttrs name (r.length + 1) r with
    | none => none
    | some (as, r) =>
      if isVoid name then some ([.start name as, .stop name], open_, r) else some ([.start name as], name :: open_, r)

/-- The rest of an end tag after `</`: it must belong to the innermost open element. -/
def readEndTag (open_ : List UStr) (s : UStr) : Option (List Ev × List UStr × UStr) :=
  match readName s with
  | none => none
  | some (name, r) => match skipSpace r with
    | 62 :: r => match open_ with
      | n :: o => if low n = low name then some ([.stop name], o, r) else none
      | [] => none
    | _ => none

/-- A comment after `<!--` (3.2.4). -/
def readComment (s : UStr) : Option (Ev × UStr) :=
  match upTo (u!! "--") s with
  | some (data, 62 :: r) => if data.all (fun c => decide (Legal c)) then some (.comment data, r) else none
  | _ => none

/-- A processing instruction after `<?`: it ends at `>` (B.3.6). -/
def readPi (s : UStr) : Option (Ev × UStr) :=
  match upTo (u!! ">") s with
  | some (data, r) => if data.all (fun c => decide (Legal c)) then some (.pi data, r) else none
  | none => none

/-- A literal between `"`, after white space. -/
def readLit (s : UStr) : Option (UStr × UStr) :=
  match needSpace s with
  | some (34 :: s) => upTo (u!! "\"") s
  | _ => none

/-- The identifiers in a document type declaration, after white space: `SYSTEM` with one literal, `PUBLIC` with
one or two; then `>`. -/
def readIds (s : UStr) : Option (Option UStr × Option UStr × UStr) :=
  if Py.startsWith s (u!! "SYSTEM") then match readLit (s.drop 6) with
    | some (sys, 62 :: r) => some (none, some sys, r)
    | _ => none
  else if Py.startsWith s (u!! "PUBLIC") then match readLit (s.drop 6) with
    | some (pub, 62 :: r) => some (some pub, none, r)
    | some (pub, r) => match readLit r with
      | some (sys, 62 :: r) => some (some pub, some sys, r)
      | _ => none
    | none => none
  else none

/-- A document type declaration after `<!DOCTYPE` (7.2). -/
def readDoctype (s : UStr) : Option (Ev × UStr) :=
  match needSpace s with
  | none => none
  | some s => match readName s with
    | none => none
    | some (name, r) => match needSpace r with
      | none => none
      | some r => match readIds r with
        | none => none
        | some (pub, sys, r) => some (.doctype name pub sys, r)

/-- One event that leaves the open elements as they are. -/
def one (open_ : List UStr) (r : Option (Ev × UStr)) : Option (List Ev × List UStr × UStr) :=
  r.map fun (e, s) => ([e], open_, s)

/-- Is the innermost open element one whose content is CDATA? -/
def inCdata (open_ : List UStr) : Bool := open_.head?.any isCdata

/-- The next tag, comment, or other piece of markup, or the next character.  CDATA ends at `</` (B.3.2). -/
def lex (open_ : List UStr) (s : UStr) : Option (List Ev × List UStr × UStr) :=
  match s with
  | [] => none
  | c :: t =>
    if inCdata open_ && !Py.startsWith (c :: t) (u!! "</") then
      if Legal c then some ([.char c], open_, t) else none
    else if c = 60 then
      if Py.startsWith t (u!! "!--") then one open_ (readComment (t.drop 3))
      else if Py.startsWith t (u!! "!DOCTYPE") then one open_ (readDoctype (t.drop 8))
      else if Py.startsWith t (u!! "?") then one open_ (readPi (t.drop 1))
      else if Py.startsWith t (u!! "/") then readEndTag open_ (t.drop 1)
      else readTag open_ t
    else if c = 38 then (readAmp t).map fun (x, r) => ([.char x], open_, r)
    else if Legal c then some ([.char c], open_, t)
    else none

/-- Outside of all elements there are only comments, processing instructions, one document type declaration
before the first element, and one element. -/
def allowed (ph : Phase) (open_ : List UStr) (es : List Ev) : Option Phase :=
  match open_ with
  | _ :: _ => match es with
    | [.doctype _ _ _] => none
    | _ => some ph
  | [] => match es with
    | [.comment _] | [.pi _] => some ph
    | [.doctype _ _ _] => if ph = .prolog then some .afterDoctype else none
    | .start _ _ :: _ => if ph = .root then none else some .root
    | _ => none

/-- Read a document.  White space outside of all elements is dropped.  `n` bounds the number of pieces. -/
def readParts : Nat → Phase → List UStr → UStr → Option (List Ev)
  | 0, _, _, _ => none
  | n + 1, ph, open_, s =>
    let t := if open_ = [] then skipSpace s else s
    if t = [] then if ph = .root ∧ open_ = [] then some [] else none
    else match lex open_ t with
      | none => none
      | some (es, open', r) => match allowed ph open_ es with
        | none => none
        | some ph => (readParts n ph open' r).map (es ++ ·)

/-- Read a document; line breaks may be written in several ways (9.3.2). -/
def readHtml (s : UStr) : Option (List Ev) := readParts ((eol s).length + 1) .prolog [] (eol s)

/-! What the calls of a printer ask for -/

/-- The percent-escaped form of a byte (RFC 2396, 2.4.1). -/
def pct (b : Nat) : UStr :=
  let hex := u!! "0123456789ABCDEF"
  [37, hex.getD (b / 16) 0, hex.getD (b % 16) 0]

/-- `t` is the URI `s` with its non-ASCII characters escaped as B.2.1 says: every byte of the character in UTF-8
becomes `%HH`. -/
inductive EscapesTo : UStr → UStr → Prop
  | nil : EscapesTo [] []
  | ascii {c : Nat} {s t : UStr} : c < 128 → EscapesTo s t → EscapesTo (c :: s) (c :: t)
  | other {c : Nat} {bs : Bytes} {s t : UStr} : 128 ≤ c → Write.Spec.decodeUtf8 bs = some [c] → EscapesTo s t →
      EscapesTo (c :: s) (bs.flatMap pct ++ t)

/-- The lower-case letter to which the Unicode character database maps a character, if that is an ASCII letter. -/
def fold (c : Nat) : Nat :=
  if 65 ≤ c ∧ c ≤ 90 then c + 32 else if c = 0x130 then 105 else if c = 0x212A then 107 else c

/-- What should be found for an attribute: a boolean attribute that is set is only a name, in a URI non-ASCII
characters are escaped, and all other values are as they were. -/
def WantAttr (element : UStr) (a : UStr × UStr) (b : UStr × Option UStr) : Prop :=
  b.1 = a.1 ∧
  if isBool element a.1 = true ∧ a.2.map fold = low a.1 then b.2 = none
  else if isUri element a.1 = true then ∃ v, b.2 = some v ∧ EscapesTo a.2 v
  else b.2 = some a.2

/-- The same for all attributes of an element. -/
def WantAttrs (element : UStr) : List (UStr × UStr) → List (UStr × Option UStr) → Prop
  | [], bs => bs = []
  | a :: as, bs => ∃ b bs', bs = b :: bs' ∧ WantAttr element a b ∧ WantAttrs element as bs'

/-- An identifier that is empty is not there. -/
def given : Option UStr → Option UStr
  | some (c :: s) => some (c :: s)
  | _ => none

/-- What should be found in a document for a sequence of calls (a document type declaration without identifiers
is left out). -/
def Wanted : List HCall → List Ev → Prop
  | [], es => es = []
  | .startElement _ n _ as :: cs, es => ∃ bs rest, es = .start n bs :: rest ∧ WantAttrs n as bs ∧ Wanted cs rest
  | .endElement _ n :: cs, es => ∃ rest, es = .stop n :: rest ∧ Wanted cs rest
  | .text s :: cs, es | .rawText s :: cs, es => ∃ rest, es = s.map .char ++ rest ∧ Wanted cs rest
  | .comment s :: cs, es => ∃ rest, es = .comment s :: rest ∧ Wanted cs rest
  | .pi t [] :: cs, es => ∃ rest, es = .pi t :: rest ∧ Wanted cs rest
  | .pi t d :: cs, es => ∃ rest, es = .pi (t ++ 32 :: d) :: rest ∧ Wanted cs rest
  | .doctype n p s :: cs, es =>
    if given p = none ∧ given s = none then Wanted cs es
    else ∃ rest, es = .doctype n (given p) (given s) :: rest ∧ Wanted cs rest
  | .startDocument _ :: cs, es | .endDocument :: cs, es => Wanted cs es

/-- What HTML can express. -/
def LegalCall (wide : Bool) : HCall → Prop
  | .startDocument _ | .rawText _ => False
  | .endDocument => True
  | .doctype n p s => isName n = true ∧ (∀ x, p = some x → Raw x ∧ 34 ∉ x) ∧ ∀ x, s = some x → Raw x ∧ 34 ∉ x
  | .startElement ns n nsdecls as => ns = none ∧ nsdecls = [] ∧ isName n = true ∧
      ∀ a ∈ as, isName a.1 = true ∧ LegalText wide a.2
  | .endElement ns _ => ns = none
  | .text s => LegalText wide s
  | .comment s => Raw s ∧ ¬ Occurs (u!! "--") (s ++ u!! "-")
  | .pi t d => Raw t ∧ Raw d ∧ 62 ∉ t ∧ 62 ∉ d

/-- The calls for a document: elements are ended in the right order, those without end tags are empty, in those
whose content is CDATA there is only text; outside of the document element there are only comments, processing
instructions and at first possibly a document type declaration. -/
def DocCalls : Phase → List UStr → List HCall → Prop
  | ph, o, [] => ph = .root ∧ o = []
  | ph, o, .startElement _ n _ _ :: cs =>
    (o = [] → ph ≠ .root) ∧ o.head?.any isVoid = false ∧ inCdata o = false ∧ DocCalls .root (n :: o) cs
  | ph, o, .endElement _ n :: cs => ∃ o', o = n :: o' ∧ DocCalls ph o' cs
  | ph, o, .text _ :: cs => o ≠ [] ∧ o.head?.any isVoid = false ∧ DocCalls ph o cs
  | ph, o, .pi _ _ :: cs | ph, o, .comment _ :: cs =>
    o.head?.any isVoid = false ∧ inCdata o = false ∧ DocCalls ph o cs
  | ph, o, .doctype _ _ _ :: cs => ph = .prolog ∧ o = [] ∧ DocCalls .afterDoctype [] cs
  | ph, o, .endDocument :: cs => ph = .root ∧ o = [] ∧ cs = []
  | _, _, .startDocument _ :: _ | _, _, .rawText _ :: _ => False

/-- The strings that are written without references can be encoded. -/
def Writable (enc : Codec) : HCall → Prop
  | .comment s => Encodable enc s
  | .pi t d => Encodable enc t ∧ Encodable enc d
  | .doctype _ p s => (∀ x, p = some x → Encodable enc x) ∧ ∀ x, s = some x → Encodable enc x
  | _ => True

/-! What the printer does not write correctly -/

/-- U+02DC: the printer misspells its name, except in HTML 3.2, which has none. -/
def Good (version : UStr) (c : Nat) : Prop := c = 0x2DC → version = u!! "3.2"

/-- The printer takes `compact` for a boolean attribute of `li`, which HTML does not have. -/
def LiCompact (n : UStr) (a : UStr × UStr) : Prop :=
  low n = u!! "li" ∧ low a.1 = u!! "compact" ∧ a.2.map fold = low a.1

/-- A call without these. -/
def GoodCall (version : UStr) : HCall → Prop
  | .startElement _ n _ as => ∀ a ∈ as, (∀ c ∈ a.2, Good version c) ∧ ¬ LiCompact n a
  | .text s => ∀ c ∈ s, Good version c
  | _ => True

/-- In elements whose content is CDATA there is only text without characters that the printer replaces: ASCII
characters other than `<`, `>`, `&` and the carriage return.  The list has the open elements. -/
def PlainCdata : List UStr → List HCall → Prop
  | _, [] => True
  | o, .startElement _ n _ _ :: cs => PlainCdata (n :: o) cs
  | o, .endElement _ _ :: cs => PlainCdata o.tail cs
  | o, .text s :: cs =>
    (inCdata o = true → ∀ c ∈ s, c < 128 ∧ c ≠ 60 ∧ c ≠ 62 ∧ c ≠ 38 ∧ c ≠ 13) ∧ PlainCdata o cs
  | o, _ :: cs => PlainCdata o cs

end Verif.Write.Html.Spec
