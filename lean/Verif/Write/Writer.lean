import Verif.Write.Visit

/-
The writer for the output method xml (lib/writers/xmlwriter.py): which declarations and prefixes it makes
for the names that it gets, and which calls the printer gets.

The canonical form is not modelled.  Python's dictionaries are association lists; the order in which they are
iterated over is arbitrary (`Iter`).
-/
namespace Verif.Write.XmlWriter
open Verif

/-! ## Dictionaries -/

/-- `d.get(k)`. -/
def get {α β : Type} [DecidableEq α] : List (α × β) → α → Option β
  | [], _ => none
  | (k', v) :: d, k => if k' = k then some v else get d k

/-- `d[k] = v`. -/
def put {α β : Type} [DecidableEq α] : List (α × β) → α → β → List (α × β)
  | [], k, v => [(k, v)]
  | (k', v') :: d, k, v => if k' = k then (k, v) :: d else (k', v') :: put d k v

/-- `d.update(e)`. -/
def update {α β : Type} [DecidableEq α] (d : List (α × β)) : List (α × β) → List (α × β)
  | [] => d
  | (k, v) :: e => update (put d k v) e

/-- A dictionary of namespaces in scope: prefixes, or None, and namespaces, or None. -/
abbrev Scope := List (Option UStr × Option UStr)

/-- `_attributes`: for a namespace and a local name, the name and the value. -/
abbrev Attrs := List ((Option UStr × UStr) × (UStr × UStr))

/-- The orders in which dictionaries are iterated over. -/
structure Iter where
  scope : Scope → Scope
  attrs : Attrs → Attrs

/-! ## The writer -/

/-- The calls of the writer's methods.  The attributes of `start_element` are in the order in which the mapping
is iterated over; `raw` is `disable_escaping`. -/
inductive WCall
  | startDocument
  | endDocument
  | startElement (name : UStr) (ns : Option UStr) (namespaces : Scope) (attributes : List ((UStr × Option UStr) × UStr))
  | endElement (name : UStr)
  | attribute (name value : UStr) (ns : Option UStr)
  | namespace (pfx : Option UStr) (ns : UStr)
  | text (s : UStr) (raw : Bool)
  | comment (s : UStr)
  | pi (target data : UStr)
  deriving DecidableEq, Repr

/-- The output parameters that matter here. -/
structure Params where
  omitDeclaration : Bool
  standalone : Option Bool
  doctypePublic : Option UStr
  doctypeSystem : Option UStr

/-- The state of a writer.  `scopes` is `_namespaces`, the last one first. -/
structure Writer where
  needDoctype : Bool
  name : Option UStr
  scopes : List Scope
  attrs : Attrs
  deriving DecidableEq, Repr

/-- Exceptions: `WriterError` of `attribute`, the AttributeError of `changePrefix`, and IndexErrors for calls
without `start_document` or too many `end_element`. -/
inductive Err | addedToNonElement | addedTooLate | attributeError | indexError
  deriving DecidableEq, Repr

/-- `GENERATED_PREFIX % n` (xmlwriter.py:16, 24). -/
def generated (n : Nat) : UStr := u!! "org.4suite.4xslt.ns" ++ decimal n

/-- `splitqname(name)` (lib/src/xmlstring.c:327-361). -/
def splitQ (q : UStr) : Option UStr × UStr :=
  match q.dropWhile (· ≠ 58) with
  | [] => (none, q)
  | _ :: l => (some (q.takeWhile (· ≠ 58)), l)

/-- The namespaces of the start (xmlwriter.py:96-98). -/
def baseScope : Scope := [(none, none), (some (u!! "xml"), some xmlNs), (some (u!! "xmlns"), some xmlnsNs)]

/-- A writer before `start_document` (xmlwriter.py:26-32). -/
def newWriter : Writer := { needDoctype := true, name := none, scopes := [], attrs := [] }

/-- The declarations of a start tag (xmlwriter.py:46-51): what is not in scope already. -/
def newDecls (it : Iter) (top below : Scope) : List (Option UStr × UStr) :=
  (it.scope top).filterMap fun e => if get below e.1 = some e.2 then none else some (e.1, e.2.getD [])

/-- `_complete_element` (xmlwriter.py:34-58). -/
def complete (it : Iter) (w : Writer) : List Call × Writer :=
  if truthy w.name then
    match w.scopes with
    | top :: below :: _ =>
      ([.startElement (w.name.getD []) (newDecls it top below) ((it.attrs w.attrs).map (·.2))],
        { w with name := none, attrs := [] })
    | _ => ([], w)
  else ([], w)

/-- The loops that look for a prefix that is not empty and has the namespace (xmlwriter.py:171-173,
184-187, 195-197). -/
def findPrefix (it : Iter) (d : Scope) (u : UStr) : Option UStr :=
  (it.scope d).findSome? fun e => match e.1 with
    | none => none
    | some p => if p ≠ [] ∧ e.2 = some u then some p else none

/-- The loops over `itertools.count()` (xmlwriter.py:177-180, 201-204); one of the first `len(d) + 1` prefixes is
new. -/
def fresh (d : Scope) : UStr :=
  (((List.range (d.length + 1)).map generated).find? fun p => (get d (some p)).isNone).getD []

/-- Find a prefix, or generate one (xmlwriter.py:171-181, 195-205). -/
def reuse (it : Iter) (d : Scope) (u : UStr) : UStr × Scope :=
  match findPrefix it d u with
  | some p => (p, d)
  | none => (fresh d, put d (some (fresh d)) (some u))

/-- The prefix for an attribute, and the namespaces in scope then (xmlwriter.py:169-205). -/
def choose (it : Iter) (d : Scope) (pfx : Option UStr) (u : UStr) : UStr × Scope :=
  match pfx with
  | none => reuse it d u
  | some p =>
    if p = [] ∨ p = u!! "xmlns" then reuse it d u
    else match get d (some p) with
      | none => match findPrefix it d u with
        | some q => (q, d)
        | none => (p, put d (some p) (some u))
      | some v => if v ≠ some u then reuse it d u else (p, d)

/-- `attribute` (xmlwriter.py:114-211). -/
def addAttribute (it : Iter) (w : Writer) (name value : UStr) (ns : Option UStr) : Except Err Writer :=
  if truthy w.name then
    let l := (splitQ name).2
    match ns with
    | none => .ok { w with attrs := put w.attrs (none, l) (l, value) }
    | some u => match w.scopes with
      | top :: rest =>
        let c := choose it top (splitQ name).1 u
        .ok { w with scopes := c.2 :: rest, attrs := put w.attrs (some u, l) (c.1 ++ u!! ":" ++ l, value) }
      | [] => .error .indexError
  else .error (if w.needDoctype then .addedToNonElement else .addedTooLate)

/-- `namespace` (xmlwriter.py:213-225); there is no method `changePrefix`. -/
def addNamespace (w : Writer) (pfx : Option UStr) (u : UStr) : Except Err Writer :=
  match w.scopes with
  | top :: rest => match get top pfx with
    | none =>
      if pfx ≠ none ∧ some u ∈ top.map (·.2) then .error .attributeError
      else .ok { w with scopes := put top pfx (some u) :: rest }
    | some v => if v ≠ some u then .error .attributeError else .ok w
  | [] => .error .indexError

/-- The loop over `attributes` in `start_element` (xmlwriter.py:263-265). -/
def addAttributes (it : Iter) (w : Writer) : List ((UStr × Option UStr) × UStr) → Except Err Writer
  | [] => .ok w
  | ((n, ns), v) :: l => match addAttribute it w n v ns with
    | .error e => .error e
    | .ok w => addAttributes it w l

/-- `xmlstring.strip(data)` (lib/src/xmlstring.c:42-65). -/
def isSpace (c : Nat) : Bool := c = 9 || c = 10 || c = 13 || c = 32
def strip (s : UStr) : UStr := ((s.dropWhile isSpace).reverse.dropWhile isSpace).reverse

/-- The document type declaration before the first element (xmlwriter.py:247-251); the printer writes nothing
without a system identifier (_xmlprinters.py:100-113), so the call is left out then. -/
def doctypeCalls (P : Params) (w : Writer) (name : UStr) : List Call :=
  if w.needDoctype ∧ truthy P.doctypeSystem = true then [.doctype name P.doctypePublic P.doctypeSystem] else []

/-- The calls that the printer gets for a call (xmlwriter.py:60-112, 227-272). -/
def exec (P : Params) (it : Iter) (w : Writer) : WCall → Except Err (List Call × Writer)
  | .startDocument =>
    .ok (if P.omitDeclaration then [] else
        [.startDocument (P.standalone.map fun b => if b then u!! "yes" else u!! "no")],
      { w with scopes := [baseScope], attrs := [] })
  | .endDocument => .ok ((complete it w).1 ++ [.endDocument], (complete it w).2)
  | .startElement name ns namespaces attributes =>
    let c := complete it w
    match c.2.scopes with
    | [] => .error .indexError
    | top :: rest =>
      let w' : Writer := { c.2 with
        needDoctype := false, name := some name,
        scopes := put (update top namespaces) (splitQ name).1 ns :: top :: rest }
      match addAttributes it w' attributes with
      | .error e => .error e
      | .ok w' => .ok (c.1 ++ doctypeCalls P w name, w')
  | .endElement name =>
    match (complete it w).2.scopes with
    | [] => .error .indexError
    | _ :: rest => .ok ((complete it w).1 ++ [.endElement name], { (complete it w).2 with scopes := rest })
  | .attribute name value ns => match addAttribute it w name value ns with
    | .error e => .error e
    | .ok w => .ok ([], w)
  | .namespace pfx u => match addNamespace w pfx u with
    | .error e => .error e
    | .ok w => .ok ([], w)
  | .text s raw => .ok ((complete it w).1 ++ [if raw then .rawText s else .text s], (complete it w).2)
  | .comment s => .ok ((complete it w).1 ++ [.comment s], (complete it w).2)
  | .pi target data => .ok ((complete it w).1 ++ [.pi target (strip data)], (complete it w).2)

/-- The calls that the printer gets for a sequence of calls. -/
def run (P : Params) (it : Iter) (w : Writer) : List WCall → Except Err (List Call × Writer)
  | [] => .ok ([], w)
  | c :: cs => match exec P it w c with
    | .error e => .error e
    | .ok (a, w) => match run P it w cs with
      | .error e => .error e
      | .ok (b, w) => .ok (a ++ b, w)

end Verif.Write.XmlWriter
