import Verif.Write.Stream

/-
What an XML processor reads: XML 1.0 without document type declarations' internal subsets, as a function
from the characters of an entity to the markup and characters found in it.  Production and section
numbers refer to XML 1.0 (fifth edition).  Nothing here depends on how the printers work.
-/
namespace Verif.Write.Spec
open Verif

/-- What is found in a document.  Every character of the character data is an event of its own, so it
does not matter how text was divided. -/
inductive Ev
  | start (name : UStr) (attrs : List (UStr × UStr))
  | stop (name : UStr)
  | char (c : Nat)
  | comment (s : UStr)
  | pi (target data : UStr)
  | doctype (name : UStr) (publicId systemId : Option UStr)
  deriving DecidableEq, Repr

/-- Char [2]. -/
def Legal (c : Nat) : Prop :=
  c = 9 ∨ c = 10 ∨ c = 13 ∨ (0x20 ≤ c ∧ c ≤ 0xD7FF) ∨ (0xE000 ≤ c ∧ c ≤ 0xFFFD) ∨
  (0x10000 ≤ c ∧ c ≤ 0x10FFFF)

instance (c : Nat) : Decidable (Legal c) := by unfold Legal; infer_instance

/-- S [3]. -/
def space (c : Nat) : Bool := c = 32 || c = 9 || c = 13 || c = 10

/-- NameStartChar [4]. -/
def nameStart (c : Nat) : Bool :=
  c = 58 || (65 ≤ c && c ≤ 90) || c = 95 || (97 ≤ c && c ≤ 122) || (0xC0 ≤ c && c ≤ 0xD6) ||
  (0xD8 ≤ c && c ≤ 0xF6) || (0xF8 ≤ c && c ≤ 0x2FF) || (0x370 ≤ c && c ≤ 0x37D) ||
  (0x37F ≤ c && c ≤ 0x1FFF) || (0x200C ≤ c && c ≤ 0x200D) || (0x2070 ≤ c && c ≤ 0x218F) ||
  (0x2C00 ≤ c && c ≤ 0x2FEF) || (0x3001 ≤ c && c ≤ 0xD7FF) || (0xF900 ≤ c && c ≤ 0xFDCF) ||
  (0xFDF0 ≤ c && c ≤ 0xFFFD) || (0x10000 ≤ c && c ≤ 0xEFFFF)

/-- NameChar [4a]. -/
def nameChar (c : Nat) : Bool :=
  nameStart c || c = 45 || c = 46 || (48 ≤ c && c ≤ 57) || c = 0xB7 || (0x300 ≤ c && c ≤ 0x36F) ||
  (0x203F ≤ c && c ≤ 0x2040)

/-- Name [5]. -/
def isName : UStr → Bool
  | [] => false
  | c :: s => nameStart c && s.all nameChar

/-- End-of-line handling (2.11). -/
def eol : UStr → UStr
  | [] => []
  | c :: s =>
    if c = 13 then match s with
      | 10 :: t => 10 :: eol t
      | t => 10 :: eol t
    else c :: eol s

/-- Read a name. -/
def readName (s : UStr) : Option (UStr × UStr) :=
  if isName (s.takeWhile nameChar) then some (s.takeWhile nameChar, s.dropWhile nameChar) else none

/-- Skip white space. -/
def skipSpace (s : UStr) : UStr := s.dropWhile space

/-- The text before the first occurrence of `t`, and what follows that. -/
def upTo (t : UStr) : UStr → Option (UStr × UStr)
  | [] => if t = [] then some ([], []) else none
  | c :: s =>
    if Py.startsWith (c :: s) t then some ([], (c :: s).drop t.length)
    else (upTo t s).map fun (a, b) => (c :: a, b)

/-- The value of a digit. -/
def digit (base c : Nat) : Option Nat :=
  let d := if 48 ≤ c ∧ c ≤ 57 then c - 48 else if 97 ≤ c ∧ c ≤ 102 then c - 87
    else if 65 ≤ c ∧ c ≤ 70 then c - 55 else base
  if d < base then some d else none

/-- The value of a sequence of digits, most significant first; `acc` is the value of those before. -/
def digits (base : Nat) : Nat → UStr → Option Nat
  | acc, [] => some acc
  | acc, c :: s => match digit base c with
    | some d => digits base (acc * base + d) s
    | none => none

/-- CharRef [66] and the predefined entities (4.6): the character that the text between `&` and `;`
stands for. -/
def refValue (s : UStr) : Option Nat :=
  if s = u!! "lt" then some 60 else if s = u!! "gt" then some 62 else if s = u!! "amp" then some 38
  else if s = u!! "quot" then some 34 else if s = u!! "apos" then some 39 else
  match s with
  | 35 :: 120 :: d :: ds => digits 16 0 (d :: ds)
  | 35 :: d :: ds => digits 10 0 (d :: ds)
  | _ => none

/-- Read a reference, after the `&`.  The character must be legal. -/
def readRef (s : UStr) : Option (Nat × UStr) :=
  match upTo (u!! ";") s with
  | none => none
  | some (name, rest) => match refValue name with
    | none => none
    | some c => if Legal c then some (c, rest) else none

/-- AttValue [10] after its opening quote `q`, with attribute-value normalization (3.3.3; type CDATA).
`n` bounds the length. -/
def readValue (q : Nat) : Nat → UStr → Option (UStr × UStr)
  | 0, _ => none
  | _ + 1, [] => none
  | n + 1, c :: s =>
    if c = q then some ([], s)
    else if c = 38 then match readRef s with
      | none => none
      | some (x, rest) => (readValue q n rest).map fun (v, r) => (x :: v, r)
    else if c = 60 ∨ ¬ Legal c then none
    else (readValue q n s).map fun (v, r) => ((if space c then 32 else c) :: v, r)

/-- Eq [25], with the value. -/
def readEqValue (s : UStr) : Option (UStr × UStr) :=
  match skipSpace s with
  | 61 :: s => match skipSpace s with
    | q :: s => if q = 34 ∨ q = 39 then readValue q (s.length + 1) s else none
    | [] => none
  | _ => none

/-- The end of a tag: `>` or `/>`; the flag tells an empty-element tag. -/
def tagEnd (s : UStr) : Option (Bool × UStr) :=
  if Py.startsWith s (u!! ">") then some (false, s.drop 1)
  else if Py.startsWith s (u!! "/>") then some (true, s.drop 2)
  else none

/-- The rest of a start-tag or empty-element tag after its name [40, 41, 44]: attributes, each after
white space, then the end.  No two attributes may have the same name (WFC: Unique Att Spec).  `n` bounds
the number of attributes. -/
def readAttrs : Nat → UStr → Option (List (UStr × UStr) × Bool × UStr)
  | 0, _ => none
  | n + 1, s => match tagEnd (skipSpace s) with
    | some (e, r) => some ([], e, r)
    | none => if skipSpace s = s then none else match readName (skipSpace s) with
      | none => none
      | some (name, r) => match readEqValue r with
        | none => none
        | some (v, r) => match readAttrs n r with
          | none => none
          | some (as, e, r) => if as.any (·.1 = name) then none else some ((name, v) :: as, e, r)

/-- A literal in quotes without references (SystemLiteral [11], PubidLiteral [12]). -/
def readLiteral (s : UStr) : Option (UStr × UStr) :=
  match s with
  | q :: s => if q = 34 ∨ q = 39 then upTo [q] s else none
  | [] => none

/-- PubidChar [13]. -/
def pubidChar (c : Nat) : Bool :=
  c = 32 || c = 13 || c = 10 || (97 ≤ c && c ≤ 122) || (65 ≤ c && c ≤ 90) || (48 ≤ c && c ≤ 57) ||
  (u!! "-'()+,./:=?;!*#@$_%").contains c

/-- `s` without the white space that must be at its beginning. -/
def needSpace (s : UStr) : Option UStr := if skipSpace s = s then none else some (skipSpace s)

/-- ExternalID [75]. -/
def readExternal (s : UStr) : Option (Option UStr × UStr × UStr) :=
  if Py.startsWith s (u!! "SYSTEM") then
    match needSpace (s.drop 6) with
    | none => none
    | some s => match readLiteral s with
      | none => none
      | some (sys, r) => if sys.all (fun c => decide (Legal c)) then some (none, sys, r) else none
  else if Py.startsWith s (u!! "PUBLIC") then
    match needSpace (s.drop 6) with
    | none => none
    | some s => match readLiteral s with
      | none => none
      | some (pub, r) => match needSpace r with
        | none => none
        | some r => match readLiteral r with
          | none => none
          | some (sys, r) =>
            if pub.all pubidChar ∧ sys.all (fun c => decide (Legal c)) then some (some pub, sys, r) else none
  else none

/-- The rest of a document type declaration [28] after `<!DOCTYPE`; no internal subset. -/
def readDoctype (s : UStr) : Option (Ev × UStr) :=
  match needSpace s with
  | none => none
  | some s => match readName s with
    | none => none
    | some (name, r) => match skipSpace r with
      | 62 :: r' => some (.doctype name none none, r')
      | t => if t = r then none else match readExternal t with
        | none => none
        | some (pub, sys, r) => match skipSpace r with
          | 62 :: r => some (.doctype name pub (some sys), r)
          | _ => none

/-- `xml` in any case, which is reserved as the target of processing instructions [17]. -/
def isXml (s : UStr) : Bool := s.map lower = u!! "xml"

/-- The rest of a processing instruction [16] after `<?`. -/
def readPi (s : UStr) : Option (Ev × UStr) :=
  match readName s with
  | none => none
  | some (target, r) =>
    if isXml target then none
    else if Py.startsWith r (u!! "?>") then some (.pi target [], r.drop 2)
    else if skipSpace r = r then none
    else match upTo (u!! "?>") (skipSpace r) with
      | none => none
      | some (data, r) => if data.all (fun c => decide (Legal c)) then some (.pi target data, r) else none

/-- The rest of a comment [15] after its opening: no `--` in it. -/
def readComment (s : UStr) : Option (Ev × UStr) :=
  match upTo (u!! "--") s with
  | some (data, 62 :: r) => if data.all (fun c => decide (Legal c)) then some (.comment data, r) else none
  | _ => none

/-- The rest of a CDATA section [18] after its opening. -/
def readCdata (s : UStr) : Option (List Ev × UStr) :=
  match upTo (u!! "]]>") s with
  | some (data, r) => if data.all (fun c => decide (Legal c)) then some (data.map .char, r) else none
  | none => none

/-- The rest of an end-tag [42] after `</`. -/
def readEndTag (s : UStr) : Option (Ev × UStr) :=
  match readName s with
  | none => none
  | some (name, r) => match skipSpace r with
    | 62 :: r => some (.stop name, r)
    | _ => none

/-- The rest of a start-tag or empty-element tag after `<`. -/
def readTag (s : UStr) : Option (List Ev × UStr) :=
  match readName s with
  | none => none
  | some (name, r) => match readAttrs (r.length + 1) r with
    | none => none
    | some (as, e, r) => some (.start name as :: (if e then [.stop name] else []), r)

/-- One piece of markup, as one or more events. -/
def one (r : Option (Ev × UStr)) : Option (List Ev × UStr) := r.map fun (e, s) => ([e], s)

/-- The next piece of markup or the next character of `content` [43] or of the prolog; `]]>` must not
occur in character data [14]. -/
def lex (s : UStr) : Option (List Ev × UStr) :=
  match s with
  | [] => none
  | c :: t =>
    if c = 60 then
      if Py.startsWith t (u!! "!--") then one (readComment (t.drop 3))
      else if Py.startsWith t (u!! "![CDATA[") then readCdata (t.drop 8)
      else if Py.startsWith t (u!! "!DOCTYPE") then one (readDoctype (t.drop 8))
      else if Py.startsWith t (u!! "?") then one (readPi (t.drop 1))
      else if Py.startsWith t (u!! "/") then one (readEndTag (t.drop 1))
      else readTag t
    else if c = 38 then (readRef t).map fun (x, r) => ([.char x], r)
    else if Py.startsWith (c :: t) (u!! "]]>") ∨ ¬ Legal c then none
    else some ([.char c], t)

/-- All of it.  `n` bounds the number of pieces. -/
def lexAll : Nat → UStr → Option (List Ev)
  | _, [] => some []
  | 0, _ :: _ => none
  | n + 1, s => match lex s with
    | none => none
    | some (es, r) => (lexAll n r).map (es ++ ·)

/-- Follow start-tags and end-tags, which must match (WFC: Element Type Match); `open_` are the names of
the elements that are open, the innermost first.  No document type declaration in content. -/
def nest : List UStr → List Ev → Option (List UStr)
  | open_, [] => some open_
  | open_, .start n _ :: es => nest (n :: open_) es
  | n :: open_, .stop m :: es => if n = m then nest open_ es else none
  | [], .stop _ :: _ => none
  | _, .doctype _ _ _ :: _ => none
  | open_, _ :: es => nest open_ es

/-- Read `content` [43]: what may be in an element or an external parsed entity. -/
def readContent (s : UStr) : Option (List Ev) :=
  match lexAll (eol s).length (eol s) with
  | none => none
  | some es => if nest [] es = some [] then some es else none

/-- The parts of a document [1]: before the document type declaration, before the document element, and
from there on. -/
inductive Phase | prolog | afterDoctype | root
  deriving DecidableEq, Repr

/-- How far the document has been read after one more piece; outside the document element only comments,
processing instructions and (once) the document type declaration may occur. -/
def advance (ph : Phase) (open_ : List UStr) (es : List Ev) : Option (Phase × List UStr) :=
  match open_ with
  | _ :: _ => (nest open_ es).map fun o => (.root, o)
  | [] => match es with
    | [.comment _] | [.pi _ _] => some (ph, [])
    | [.doctype _ _ _] => if ph = .prolog then some (.afterDoctype, []) else none
    | .start _ _ :: _ => if ph = .root then none else (nest [] es).map fun o => (.root, o)
    | _ => none

/-- Read a document after its XML declaration.  White space outside the document element is dropped.
`n` bounds the number of pieces. -/
def readParts : Nat → Phase → List UStr → UStr → Option (List Ev)
  | 0, _, _, _ => none
  | n + 1, ph, open_, s =>
    let t := if open_ = [] then skipSpace s else s
    if t = [] then if ph = .root ∧ open_ = [] then some [] else none
    else match lex t with
      | none => none
      | some (es, r) => match advance ph open_ es with
        | none => none
        | some (ph, open_) => (readParts n ph open_ r).map (es ++ ·)

/-- A pseudo-attribute of the XML declaration [24, 80, 32]: its value, and the rest. -/
def readPseudo (name s : UStr) : Option (UStr × UStr) :=
  match needSpace s with
  | none => none
  | some s => if Py.startsWith s name then
      match skipSpace (s.drop name.length) with
      | 61 :: s => readLiteral (skipSpace s)
      | _ => none
    else none

/-- An optional pseudo-attribute. -/
def optPseudo (name s : UStr) : Option UStr × UStr :=
  match readPseudo name s with
  | some (v, r) => (some v, r)
  | none => (none, s)

/-- The contents of an XML declaration. -/
structure Decl where
  version : UStr
  encoding : Option UStr
  standalone : Option UStr
  deriving DecidableEq, Repr

/-- EncName [81]. -/
def isEncName : UStr → Bool
  | [] => false
  | c :: s => ((65 ≤ c && c ≤ 90) || (97 ≤ c && c ≤ 122)) && s.all fun c =>
      (65 ≤ c && c ≤ 90) || (97 ≤ c && c ≤ 122) || (48 ≤ c && c ≤ 57) || c = 46 || c = 95 || c = 45

/-- XMLDecl [23], after `<?xml`. -/
def readDecl (s : UStr) : Option (Decl × UStr) :=
  match readPseudo (u!! "version") s with
  | none => none
  | some (v, s) =>
    let (enc, s) := optPseudo (u!! "encoding") s
    let (sa, s) := optPseudo (u!! "standalone") s
    let s := skipSpace s
    if v = u!! "1.0" ∧ (enc.all isEncName) ∧ (sa.all fun x => x = u!! "yes" ∨ x = u!! "no") ∧
        Py.startsWith s (u!! "?>") then some (⟨v, enc, sa⟩, s.drop 2) else none

/-- Read a document [1]: its declaration, if there is one, and its parts. -/
def readDocument (s : UStr) : Option (Option Decl × List Ev) :=
  let s := eol s
  if Py.startsWith s (u!! "<?xml") ∧ (s.drop 5).head?.all (fun c => !nameChar c) then
    match readDecl (s.drop 5) with
    | none => none
    | some (d, r) => (readParts (r.length + 1) .prolog [] r).map (some d, ·)
  else (readParts (s.length + 1) .prolog [] s).map (none, ·)

end Verif.Write.Spec

open Verif.Write Verif.Write.Spec
example : readDocument (u!! "<?xml version='1.0' encoding=\"utf-8\" ?>\r\n<!-- x --><!DOCTYPE a PUBLIC '-//x' 'y' >\n<a x='1&amp;&#x41;\n' y =\"\"><b/>t&#62;<![CDATA[<]]]]><?p  d ?></a >\n") = some (some ⟨u!! "1.0", some (u!! "utf-8"), none⟩,
   [.comment (u!! " x "), .doctype (u!! "a") (some (u!! "-//x")) (some (u!! "y")),
    .start (u!! "a") [(u!! "x", u!! "1&A "), (u!! "y", [])], .start (u!! "b") [], .stop (u!! "b"),
    .char 116, .char 62, .char 60, .char 93, .char 93, .pi (u!! "p") (u!! "d "), .stop (u!! "a")]) := by
  decide +kernel
example : readDocument (u!! "<a>]]></a>") = none := by decide +kernel
example : readDocument (u!! "<a x='1' x='2'/>") = none := by decide +kernel
example : readDocument (u!! "<a><b></a></b>") = none := by decide +kernel
example : readDocument (u!! "<a/>x") = none := by decide +kernel
example : readDocument (u!! "<a/><b/>") = none := by decide +kernel
example : readDocument (u!! "<a><!-- x--y --></a>") = none := by decide +kernel
example : readDocument (u!! "<a x='1'y='2'/>") = none := by decide +kernel
example : readDocument (u!! "<a>&#0;</a>") = none := by decide +kernel
example : readDocument (u!! "<a>&nbsp;</a>") = none := by decide +kernel
