import Verif.Py
/-
Model of the comparison of XML documents for tests and error reports:
`/repo/lib/lib/treecompare.py`, functions `check_xml`, `xml_compare`, `xml_diff` and the classes
`_markup_sequence`, `_xml_sequence`, `_entity_sequence`.

Expat is not modelled: a document is the list of the events expat delivers to the handlers that
`_xml_sequence.__init__` installs.  The choice between the two sequencers (`xml_diff`, lines
112-118, from the text of the first argument) is a parameter.  `difflib.unified_diff` is library
code: it yields nothing exactly when the two sequences are equal.
-/
namespace Verif.Compare
open Verif

/-- An event of expat, with the arguments of the handler. -/
inductive Event where
  /-- `StartNamespaceDeclHandler`: the default prefix is `None`, an undeclared namespace is `None` -/
  | nsDecl (prefix_ uri : Option Str)
  /-- `StartElementHandler`, with `ordered_attributes` and `namespace_separator='#'` -/
  | start (name : Str) (attrs : List (Str × Str))
  /-- `EndElementHandler` -/
  | stop (name : Str)
  /-- `CharacterDataHandler`: a piece of the text, cut wherever expat likes -/
  | chars (data : Str)
  /-- `ProcessingInstructionHandler` -/
  | pi (target data : Str)
  /-- `SkippedEntityHandler`, which expat calls with two arguments -/
  | skipped (name : Str) (parameter : Bool)
  /-- `CommentHandler` -/
  | comment (data : Str)
  /-- `StartCdataSectionHandler` -/
  | startCdata
  /-- `EndCdataSectionHandler` -/
  | endCdata
  /-- `StartDoctypeDeclHandler` -/
  | doctype (name : Str) (sysid pubid : Option Str) (subset : Bool)
deriving DecidableEq

/-- The Python exceptions that leave the comparison. -/
inductive Err where
  | attributeError
  | typeError
  | assertionError
deriving DecidableEq

/-! ### `repr` of a Python 2 `unicode` string (`Objects/unicodeobject.c`, `unicodeescape_string`) -/

/-- A hexadecimal digit, lower case. -/
def hexDigit (n : Nat) : Char :=
  if n < 10 then Char.ofNat (48 + n) else Char.ofNat (87 + n)

/-- `w` hexadecimal digits of `n`. -/
def hex : Nat → Nat → Str
  | 0, _ => []
  | w + 1, n => hex w (n / 16) ++ [hexDigit (n % 16)]

/-- One character inside quotes `q`. -/
def escape (q c : Char) : Str :=
  if c = q ∨ c = '\\' then ['\\', c]
  else if 0x10000 ≤ c.toNat then '\\' :: 'U' :: hex 8 c.toNat
  else if 256 ≤ c.toNat then '\\' :: 'u' :: hex 4 c.toNat
  else if c = '\t' then ['\\', 't']
  else if c = '\n' then ['\\', 'n']
  else if c = '\r' then ['\\', 'r']
  else if c.toNat < 32 ∨ 127 ≤ c.toNat then '\\' :: 'x' :: hex 2 c.toNat
  else [c]

/-- The quotes: single ones, unless only single ones occur in the string. -/
def quoteOf (s : Str) : Char :=
  if '\'' ∈ s ∧ '"' ∉ s then '"' else '\''

/-- `repr(s)`. -/
def repr (s : Str) : Str :=
  'u' :: quoteOf s :: (s.flatMap (escape (quoteOf s)) ++ [quoteOf s])

/-- `'%r' % x` where `x` can be `None`. -/
def reprOpt : Option Str → Str
  | none => s!! "None"
  | some s => repr s

/-- `'%s' % x` where `x` can be `None`. -/
def strOpt : Option Str → Str
  | none => s!! "None"
  | some s => s

/-! ### Python's ordering and `sorted` -/

/-- `a <= b` for strings. -/
def strLe : Str → Str → Bool
  | [], _ => true
  | _ :: _, [] => false
  | a :: as, b :: bs => if a = b then strLe as bs else decide (a.toNat < b.toNat)

/-- `a <= b` where either can be `None`, which Python 2 puts first. -/
def optLe : Option Str → Option Str → Bool
  | none, _ => true
  | some _, none => false
  | some a, some b => strLe a b

/-- `a <= b` for pairs. -/
def pairLe {α β : Type} [DecidableEq α] (la : α → α → Bool) (lb : β → β → Bool)
    (x y : α × β) : Bool :=
  if x.1 = y.1 then lb x.2 y.2 else la x.1 y.1

/-- Insertion, for `sorted`. -/
def insert {α : Type} (le : α → α → Bool) (x : α) : List α → List α
  | [] => [x]
  | y :: ys => if le x y then x :: y :: ys else y :: insert le x ys

/-- `sorted(xs)`. -/
def sorted {α : Type} (le : α → α → Bool) : List α → List α
  | [] => []
  | x :: xs => insert le x (sorted le xs)

/-! ### `_markup_sequence` (lines 131-204) -/

/-- The attributes of the object: the lines appended so far, `_data` and `_nsdecls`. -/
structure State where
  out : List Str
  data : Str
  ns : List (Option Str × Option Str)
deriving DecidableEq

/-- `isspace` of `amara.lib.xmlstring`: only XML white space. -/
def isspace (s : Str) : Bool :=
  s.all (fun c => c = ' ' || c = '\t' || c = '\n' || c = '\r')

/-- `_flush` (lines 144-148) and `_flush_whitespace` (lines 150-155). -/
def flush (ws : Bool) (s : State) : State :=
  if s.data = [] then s
  else if ws || !isspace s.data then
    { s with out := s.out ++ [s!! "#text: " ++ repr s.data], data := [] }
  else { s with data := [] }

/-- `self.append(line)` after `if self._data: self._flush()`. -/
def line (ws : Bool) (s : State) (l : Str) : State :=
  { flush ws s with out := (flush ws s).out ++ [l] }

/-- One of `'%s=%r' % pair` (line 167), a namespace declaration. -/
def nsText (p : Option Str × Option Str) : Str := strOpt p.1 ++ s!! "=" ++ reprOpt p.2

/-- One of `'%s=%r' % pair` (line 172), an attribute. -/
def attrText (p : Str × Str) : Str := p.1 ++ s!! "=" ++ repr p.2

/-- The lines of the namespaces (lines 165-169). -/
def nsLines (ns : List (Option Str × Option Str)) : List Str :=
  if ns = [] then []
  else [s!! "  namespaces: " ++
    Py.join (s!! ", ") ((sorted (pairLe optLe optLe) ns).map nsText)]

/-- The lines of the attributes (lines 170-173, with `_prepare_attrs` of line 229). -/
def attrLines (attrs : List (Str × Str)) : List Str :=
  if attrs = [] then []
  else [s!! "  attributes: " ++
    Py.join (s!! ", ") ((sorted (pairLe strLe strLe) attrs).map attrText)]

/-- The handlers (lines 157-204).  `entity_ref` takes one argument besides `self`; expat calls
the handler with two, so that the call raises a `TypeError`. -/
def step (ws : Bool) (s : State) : Event → Except Err State
  | .nsDecl p u => .ok { s with ns := s.ns ++ [(p, u)] }
  | .start name attrs =>
    let t := line ws s (s!! "start-tag: " ++ name)
    .ok { t with out := t.out ++ nsLines t.ns ++ attrLines attrs, ns := [] }
  | .stop name => .ok (line ws s (s!! "end-tag: " ++ name))
  | .chars d => .ok { s with data := s.data ++ d }
  | .pi target d =>
    .ok (line ws s (s!! "processing-instruction: target=" ++ target ++ s!! ", data=" ++ repr d))
  | .skipped _ _ => .error .typeError
  | .comment d => .ok (line ws s (s!! "#comment: " ++ repr d))
  | .startCdata => .ok (line ws s (s!! "start-cdata"))
  | .endCdata => .ok (line ws s (s!! "end-cdata"))
  | .doctype name sysid pubid subset =>
    .ok (line ws s (s!! "doctype-decl: name=" ++ name ++ s!! ", sysid=" ++ reprOpt sysid ++
      s!! ", pubid=" ++ reprOpt pubid ++ s!! ", subset=" ++
      (if subset then s!! "yes" else s!! "no")))

/-- `feed`: the events one after the other. -/
def feed (ws : Bool) (s : State) : List Event → Except Err State
  | [] => .ok s
  | e :: es =>
    match step ws s e with
    | .error x => .error x
    | .ok t => feed ws t es

/-- `_xml_sequence(data, whitespace)` (`entity` false, lines 134-142 and 207-241) and
`_entity_sequence(data, whitespace)` (`entity` true, lines 244-248).  `_xml_sequence` and its base
have `__slots__`, so the assignment to `self._flush` of line 138 raises an `AttributeError`;
`_entity_sequence` has none, and so has a dictionary to put the attribute in. -/
def sequence (entity ws : Bool) (es : List Event) : Except Err (List Str) :=
  if !ws && !entity then .error .attributeError
  else
    match feed ws ⟨[], [], []⟩ es with
    | .error x => .error x
    | .ok s => .ok (flush ws s).out

/-- `xml_compare(expected, compared, whitespace, lexical)` (lines 98-123): `lexical` is not used.
`entity` is whether `xml_diff` takes its first argument for an external entity. -/
def xmlCompare (entity : Bool) (expected compared : List Event) (whitespace _lexical : Bool) :
    Except Err Bool :=
  match sequence entity whitespace expected with
  | .error x => .error x
  | .ok a =>
    match sequence entity whitespace compared with
    | .error x => .error x
    | .ok b => .ok (decide (a = b))

/-- `check_xml(result, expected)` (lines 44-50): `xml_diff` with `whitespace` true, and an
assertion. -/
def checkXml (entity : Bool) (result expected : List Event) : Except Err Unit :=
  match xmlCompare entity result expected true true with
  | .error x => .error x
  | .ok b => if b then .ok () else .error .assertionError

end Verif.Compare
