import Verif.Xslt.Sort

/-
Stripping whitespace: the rules from `xsl:strip-space` and `xsl:preserve-space` (lib/xslt/tree/transform_element.py:
236-247), and what the reader does with such rules (lib/src/expat/expat.c).

Simplifications: strings are compared by code points (the order only matters against `*`); no validation.
-/
namespace Verif.Xslt
open Verif

/-- Namespace and local name of an element. -/
abbrev EName := Option Str × Str

/-- The result of `token.prepare` (attribute_types.py:354-377): `*` is the local name `*` without namespace. -/
abbrev Token := Option Str × Str

/-- A token in a declaration: whether it is `xsl:strip-space`, and the import precedence. -/
structure SpaceDecl where
  token : Token
  strip : Bool
  prec : Nat

/-- `space_rules[token] = (namespace, name, strip)` (transform_element.py:243); the order of the dictionary does not
matter. -/
def putRule : List (Token × Bool) → Token → Bool → List (Token × Bool)
  | [], t, f => [(t, f)]
  | (u, g) :: d, t, f => if u = t then (t, f) :: d else (u, g) :: putRule d t f

/-- The loop over the elements (239-243). -/
def spaceDict : List SpaceDecl → List (Token × Bool) → List (Token × Bool)
  | [], d => d
  | e :: es, d => spaceDict es (putRule d e.token e.strip)

/-- Comparison of unicode strings. -/
def strCmp : Str → Str → Ordering
  | [], [] => .eq
  | [], _ :: _ => .lt
  | _ :: _, [] => .gt
  | a :: s, b :: t => if a.toNat < b.toNat then .lt else if b.toNat < a.toNat then .gt else strCmp s t

/-- `None` is smaller than every string. -/
def nsCmp : Option Str → Option Str → Ordering
  | none, none => .eq
  | none, some _ => .lt
  | some _, none => .gt
  | some a, some b => strCmp a b

def boolCmp : Bool → Bool → Ordering
  | false, true => .lt
  | true, false => .gt
  | _, _ => .eq

/-- Comparison of the tuples `(namespace, name, strip)`. -/
def ruleCmp (a b : Token × Bool) : Ordering :=
  match nsCmp a.1.1 b.1.1 with
  | .eq => match strCmp a.1.2 b.1.2 with
    | .eq => boolCmp a.2 b.2
    | o => o
  | o => o

/-- `space_rules` of a stylesheet (transform_element.py:236-247). -/
def spaceRules (l : List SpaceDecl) : List (Token × Bool) := listSort ruleCmp true (spaceDict l [])

/-- The test of one rule (create_whitespace_rules, expat.c:1085-1113, and the `switch`, 1150-1163). -/
def ruleTest (t : Token) (n : EName) : Bool :=
  if t.2 = s!! "*" then
    match t.1 with
    | none => true
    | some ns => decide (n.1 = some ns)
  else decide (t.2 = n.2) && decide (t.1 = n.1)

/-- `is_whitespace_preserving` (expat.c:1141-1168). -/
def isPreserving : List (Token × Bool) → EName → Bool
  | [], _ => true
  | (t, strip) :: rs, n => if ruleTest t n then !strip else isPreserving rs n

/-! The reader -/

/-- What Expat reports: start tags with the value of `xml:space`, end tags, pieces of character data, comments and
processing instructions. -/
inductive XEv
  | start (name : EName) (space : Option Str)
  | stop
  | data (s : Str)
  | other (id : Nat)
  deriving DecidableEq

/-- The stacks `xml_space_stack` and `preserve_whitespace_stack` (top first), the buffer for character data, and what is
reported to the application. -/
structure RSt where
  space : List Bool
  keep : List Bool
  buf : Str
  out : List XEv

/-- The characters at expat.c:1246. -/
def isXmlWs (c : Char) : Bool := c.toNat = 0x09 || c.toNat = 0x0A || c.toNat = 0x0D || c.toNat = 0x20

/-- `charbuf_flush` without validation (expat.c:1227-1285). -/
def flush (st : RSt) : RSt :=
  if st.buf = [] then st
  else if st.buf.all isXmlWs then
    if st.keep.head? = some true then { st with buf := [], out := st.out ++ [.data st.buf] }
    else { st with buf := [] }
  else { st with buf := [], out := st.out ++ [.data st.buf] }

/-- `xml:space` (expat.c:2090-2113). -/
def spaceFlag (top : Bool) : Option Str → Bool
  | some v => if v = s!! "preserve" then true else if v = s!! "default" then false else top
  | none => top

/-- expat_StartElement (1994-2226), expat_EndElement (2231-2284), expat_CharacterData (2289-2300), expat_Comment and
expat_ProcessingInstruction (2305-2370). -/
def readStep (rules : List (Token × Bool)) (st : RSt) : XEv → RSt
  | .data s => { st with buf := st.buf ++ s }
  | .start n sp =>
    let st := flush st
    let top := spaceFlag (st.space.headD false) sp
    { st with space := top :: st.space, keep := (isPreserving rules n || top) :: st.keep,
              out := st.out ++ [.start n sp] }
  | .stop =>
    let st := flush st
    { st with space := st.space.tail, keep := st.keep.tail, out := st.out ++ [.stop] }
  | .other i =>
    let st := flush st
    { st with out := st.out ++ [.other i] }

def readAll (rules : List (Token × Bool)) (st : RSt) (es : List XEv) : RSt := es.foldl (readStep rules) st

/-- A document (`start_parsing`, 1650-1668; the initial stacks, 3959-3966 and 559). -/
def readDocument (rules : List (Token × Bool)) (es : List XEv) : List XEv :=
  (flush (readAll rules ⟨[false], [true], [], []⟩ es)).out

/-- `_XSLT_WHITESPACE_STRIPPING` (lib/xslt/reader/__init__.py:25). -/
def sheetRules (xsl : Str) : List (Token × Bool) := [((some xsl, s!! "text"), false), ((none, s!! "*"), true)]

/-- `processor.run` parses the source without rules (lib/xslt/processor.py:233); `getStripElements` (120) is not
consulted. -/
def runSource (_rules : List (Token × Bool)) (es : List XEv) : List XEv := readDocument [] es

end Verif.Xslt
