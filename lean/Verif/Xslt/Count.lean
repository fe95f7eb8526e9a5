import Verif.Py
import Verif.Dom.Axes
/-
The numbers that `xsl:number` computes from the source tree (lib/xslt/tree/number_element.py); how they are
written is in Verif.Xslt.Numbers.

Patterns are arbitrary functions from nodes to truth values.  The loops are steps of a machine.
`while node:` tests the truth value of a node; plain tree nodes are always true.  Not modelled: the `value` attribute.
-/
namespace Verif.Xslt.Count
open Verif.Dom

/-- A document with the names of its nodes. -/
structure Doc where
  h : Heap
  /-- `xml_name` of elements and attributes -/
  name : NodeId → Option Str × Str
  /-- `xml_target` of processing instructions -/
  target : NodeId → Str

abbrev Pattern := NodeId → Bool

/-- Exceptions: AttributeError, NameError, TypeError and xml.dom.InvalidStateErr. -/
inductive Err
  | attribute | name | type | invalidState
  deriving DecidableEq, Repr

/-- What is done with the result of `_single_value`: it is formatted, or it is put into the list of
`_multiple_values`, whose loop is at this node. -/
inductive Then
  | format
  | insert (node : NodeId) (values : List Nat)
  deriving DecidableEq, Repr

/-- The loops. -/
inductive St
  | find (start : Option NodeId) (node : NodeId)              -- 144
  | root (at_ node : NodeId) (k : Then)                        -- 147 (node.c:423)
  | climb (node : NodeId) (start : Option NodeId) (k : Then)   -- 149
  | tally (node : Option NodeId) (value : Nat) (k : Then)      -- 155
  | skip (node : Option NodeId) (value : Nat) (k : Then)       -- 158
  | back (value : Nat) (k : Then)                              -- 160
  | outer (node : Option NodeId) (values : List Nat)           -- 171
  | any (node : Option NodeId) (value : Nat)                   -- 189
  | last (node : NodeId) (value : Nat)                         -- 199
  | simple (prev : Option NodeId) (value : Nat)                -- 122
  deriving DecidableEq, Repr

/-- A result. -/
abbrev Out := Except Err (List Nat)

/-- `if value == 0: value = None`, and `formatter.format(None, ...)`, which is a TypeError for all
tokens (number_element.py 99-103, 110-114, numbers/en.py 39-61). -/
def finish (value : Nat) : Out := if value = 0 then .error .type else .ok [value]

/-- `node.xml_preceding_sibling` -/
def before (h : Heap) (n : NodeId) (f : Option NodeId → St) : St ⊕ Out :=
  match precedingSibling h n with
  | .ok s => .inl (f s)
  | .error _ => .inr (.error .invalidState)

/-- The end of the loop body of `_multiple_values` (number_element.py 175-177). -/
def upwards (h : Heap) (from_ : Option Pattern) (node : NodeId) (values : List Nat) : St ⊕ Out :=
  match h.parent node with
  | none => .inl (.outer none values)
  | some p =>
    match from_ with
    | some f => if f p then .inr (.ok values) else .inl (.outer (some p) values)
    | none => .inl (.outer (some p) values)

/-- `self._from and self._from.match(context, node)` -/
def starts (from_ : Option Pattern) (n : NodeId) : Bool :=
  match from_ with
  | some f => f n
  | none => false

/-- `getattr(node, 'xml_last_child', None)` -/
def lastChild (h : Heap) (n : NodeId) : Option NodeId :=
  if isContainer (h.kind n) then (h.kids n).getLast? else none

/-- The test in the loop for `level="single"` without patterns (number_element.py 123-124). -/
def alike (d : Doc) (n p : NodeId) : Bool := d.h.kind p = d.h.kind n && d.name p = d.name n

/-- One step (number_element.py 119-126, 133-205). -/
def step (d : Doc) (n : NodeId) (count : Pattern) (from_ : Option Pattern) : St → St ⊕ Out
  | .find none node => .inl (.climb node none .format)
  | .find (some s) node => if starts from_ s then .inl (.climb node (some s) .format) else .inl (.find (d.h.parent s) node)
  | .root x node k =>
    if d.h.kind x = .entity then .inl (.climb node (some x) k)
    else match d.h.parent x with
      | none => .inl (.climb node none k)
      | some p => .inl (.root p node k)
  | .climb node start k =>
    if count node then .inl (.tally (some node) 0 k)
    else match d.h.parent node with
      | none => .inl (.back 0 k)
      | some p => if some p = start then .inl (.back 0 k) else .inl (.climb p start k)
  | .tally none v k => .inl (.back v k)
  | .tally (some x) v k => before d.h x fun s => .skip s (v + 1) k
  | .skip none v k => .inl (.tally none v k)
  | .skip (some x) v k => if count x then .inl (.tally (some x) v k) else before d.h x fun s => .skip s v k
  | .back v .format => .inr (finish v)
  | .back v (.insert node values) => upwards d.h from_ node (v :: values)
  | .outer none values => .inr (.ok values)
  | .outer (some x) values =>
    if count x then .inl (.root x x (.insert x values)) else upwards d.h from_ x values
  | .any none v => .inr (finish v)
  | .any (some x) v =>
    if starts from_ x then .inr (finish v)
    else
      match precedingSibling d.h x with
      | .error _ => .inr (.error .invalidState)
      | .ok none => .inl (.any (d.h.parent x) (if count x then v + 1 else v))
      | .ok (some s) => .inl (.last s (if count x then v + 1 else v))
  | .last x v =>
    match lastChild d.h x with
    | some c => .inl (.last c v)
    | none => .inl (.any (some x) v)
  | .simple none v => .inr (.ok [v])
  | .simple (some p) v => before d.h p fun s => .simple s (if alike d n p then v + 1 else v)

/-- `type_pattern`, `name_pattern` (number_element.py 163-168, 208-227). -/
def defaultCount (d : Doc) (n : NodeId) : Pattern :=
  if d.h.kind n = .element ∨ d.h.kind n = .attr then fun x => d.h.kind x = d.h.kind n && d.name x = d.name n
  else fun x => d.h.kind x = d.h.kind n

inductive Level
  | single | multiple | any
  deriving DecidableEq, Repr

/-- The beginning, for the level and the patterns (number_element.py 43-51, 94-121, 133-147). -/
def init (d : Doc) (n : NodeId) (level : Level) (count from_ : Option Pattern) : St ⊕ Out :=
  match level with
  | .multiple => .inl (.outer (some n) [])
  | .any => .inl (.any (some n) 0)
  | .single =>
    match count, from_ with
    | none, none =>
      match precedingSibling d.h n with
      | .error _ => .inr (.error .invalidState)
      | .ok s =>
        if d.h.kind n = .element ∨ d.h.kind n = .attr then .inl (.simple s 1)
        else .inr (.error .attribute)   -- no `xml_name`
    | none, some _ =>
      if d.h.kind n = .element ∨ d.h.kind n = .attr then .inr (.error .name)   -- `NameTest` does not exist
      else .inr (.error .attribute)   -- no `xml_local`
    | some _, some _ => .inl (.find (d.h.parent n) n)
    | some _, none => .inl (.root n n .format)

/-- The machine ends with a result. -/
inductive Ends (d : Doc) (n : NodeId) (count : Pattern) (from_ : Option Pattern) : St ⊕ Out → Out → Prop
  | done (o : Out) : Ends d n count from_ (.inr o) o
  | step {s : St} {o : Out} : Ends d n count from_ (step d n count from_ s) o → Ends d n count from_ (.inl s) o

/-- `xsl:number` at the node computes this. -/
def Computes (d : Doc) (n : NodeId) (level : Level) (count from_ : Option Pattern) (o : Out) : Prop :=
  Ends d n (count.getD (defaultCount d n)) from_ (init d n level count from_) o

/-- The machine for a number of steps, for examples. -/
def run (d : Doc) (n : NodeId) (count : Pattern) (from_ : Option Pattern) : Nat → St ⊕ Out → Option Out
  | _, .inr o => some o
  | 0, .inl _ => none
  | k + 1, .inl s => run d n count from_ k (step d n count from_ s)

end Verif.Xslt.Count
