import Verif.Parse.Sax

/-
What a SAX reader should report (independent of the reader): the content of the document in order, with the content
of external entities in the place of references to them; all contiguous character data in one piece
(amara/sax.py, `ContentHandler.characters`: "The parser will return all contiguous character data in a single
chunk"); no white space where the rules say that it is stripped.
-/
namespace Verif.Parse.Sax.Spec

open Verif.Py

/-- The content of a document: the buffers and the borders of entities are forgotten. -/
def content : Doc → List Call
  | .done => []
  | .edge d => content d
  | .calls cs d => cs ++ content d
  | .ext _ inner d => content inner ++ content d
  | .bad => []
  | .unreadable => []

/-- CDATA sections are a way to write character data; their borders are looked at apart. -/
def border : Call → Bool
  | .cdata => true
  | .endCdata => true
  | _ => false

/-- All contiguous character data in one piece, and no empty pieces. -/
def merge : List Call → List Call
  | [] => []
  | .text s :: cs =>
    match merge cs with
    | .text t :: r => .text (s ++ t) :: r
    | r => if s = [] then r else .text s :: r
  | c :: cs => c :: merge cs

/-- `xml:space` of an element: its own value or that of its parent. -/
def space (outer : Bool) (atts : List Att) : Bool :=
  match atts.find? (·.name = s!! "xml:space") with
  | some a => if a.value = s!! "preserve" then true else if a.value = s!! "default" then false else outer
  | none => outer

/-- The white space characters of XML. -/
def White (s : Str) : Prop := ∀ c ∈ s, c ∈ [' ', '\t', '\n', '\r']

instance (s : Str) : Decidable (White s) := by unfold White; infer_instance

/-- What is known of an element that is open: whether its white space is kept, and `xml:space`. -/
structure Open where
  keep : Bool
  space : Bool
  deriving DecidableEq, Repr

/-- `xml:space` where the given elements are open. -/
def spaceIn : List Open → Bool
  | [] => false
  | o :: _ => o.space

/-- Whether white space is kept where the given elements are open. -/
def keepIn : List Open → Bool
  | [] => true
  | o :: _ => o.keep

/-- An element whose white space is stripped, unless `xml:space` says otherwise, if `strip` says so. -/
def opened (strip : Str → Bool) (name : Str) (atts : List Att) (open' : List Open) : List Open :=
  { keep := !strip name || space (spaceIn open') atts, space := space (spaceIn open') atts } :: open'

/-- The elements that are open after the content `c`. -/
def after (strip : Str → Bool) (c : Call) (open' : List Open) : List Open :=
  match c with
  | .start n atts => opened strip n atts open'
  | .stop _ => open'.tail
  | _ => open'

/-- The event for a piece of content where the given elements are open. -/
def event (open' : List Open) : Call → List Event
  | .text s => if White s ∧ keepIn open' = false then [] else [.characters s]
  | .start n atts => [.startElement n atts]
  | .stop n => [.endElement n]
  | .pi t d => [.pi t d]
  | .comment d => [.comment d]
  | .startNs p u => [.startNs p u]
  | .endNs p => [.endNs p]
  | .skipped n => [.skipped n]
  | .cdata => [.startCdata]
  | .endCdata => [.endCdata]

/-- The events for content where the given elements are open. -/
def events (strip : Str → Bool) : List Open → List Call → List Event
  | _, [] => []
  | o, c :: cs => event o c ++ events strip (after strip c o) cs

/-- What is reported of a document, apart from the borders of CDATA sections. -/
def report (strip : Str → Bool) (d : Doc) : List Event :=
  .startDocument :: events strip [] (merge ((content d).filter (!border ·))) ++ [.endDocument]

/-- The borders of CDATA sections among the content. -/
def borders (d : Doc) : List Event := ((content d).filter border).flatMap (event [])

/-- An event that is no border of a CDATA section. -/
def noBorder : Event → Bool
  | .startCdata => false
  | .endCdata => false
  | _ => true

/-- The second event is the first one, or the same start tag with attributes `xml:base` and `xml:lang` added. -/
inductive Adds : Event → Event → Prop
  | same (e : Event) : Adds e e
  | added (n : Str) (atts more : List Att) (h : ∀ a ∈ more, a.name = s!! "xml:base" ∨ a.name = s!! "xml:lang") :
      Adds (.startElement n atts) (.startElement n (atts ++ more))

/-- Two lists of events, one by one in relation `R`. -/
inductive Each (R : Event → Event → Prop) : List Event → List Event → Prop
  | nil : Each R [] []
  | cons {a b : Event} {as bs : List Event} (h : R a b) (t : Each R as bs) : Each R (a :: as) (b :: bs)

/-- How many elements are open after a group of callbacks, `floor` having been open where the entity began.  `none`
if Expat does not make such callbacks: it reports character data only inside elements, and an end tag only for a start
tag in the same entity. -/
def depth (floor : Nat) : Nat → List Call → Option Nat
  | n, [] => some n
  | n, .text s :: cs => if s = [] ∨ 0 < n then depth floor n cs else none
  | n, .start _ _ :: cs => depth floor (n + 1) cs
  | n, .stop _ :: cs => if floor < n then depth floor (n - 1) cs else none
  | n, _ :: cs => depth floor n cs

/-- What Expat promises of an entity in whose beginning `floor` elements are open, from where `n` are open: start tags
and end tags match within the entity. -/
def Nested (floor n : Nat) : Doc → Prop
  | .done => n = floor
  | .edge d => Nested floor n d
  | .calls cs d => ∃ m, depth floor n cs = some m ∧ Nested floor m d
  | .ext _ inner d => Nested n n inner ∧ Nested floor n d
  | .bad => True
  | .unreadable => True

/-- The document and its entities are well-formed and can be read. -/
def Good : Doc → Prop
  | .done => True
  | .edge d => Good d
  | .calls _ d => Good d
  | .ext _ inner d => Good inner ∧ Good d
  | .bad => False
  | .unreadable => False

/-- No references to external entities. -/
def NoEntities : Doc → Prop
  | .edge d => NoEntities d
  | .calls _ d => NoEntities d
  | .ext _ _ _ => False
  | _ => True

/-- The external entities have no elements. -/
def FlatEntities : Doc → Prop
  | .edge d => FlatEntities d
  | .calls _ d => FlatEntities d
  | .ext _ inner d => (∀ c ∈ content inner, ∀ n atts, c ≠ .start n atts) ∧ FlatEntities inner ∧ FlatEntities d
  | _ => True

/-- No element has `xml:space="preserve"`. -/
def NoPreserve (d : Doc) : Prop :=
  ∀ n atts, .start n atts ∈ content d → ∀ a ∈ atts, a.name = s!! "xml:space" → a.value ≠ s!! "preserve"

/-- Where the reader's treatment of `xml:space` is right: nothing is stripped, or there are no external entities, or
nothing is preserved. -/
def SpaceOk (strip : Str → Bool) (d : Doc) : Prop :=
  (∀ n, strip n = false) ∨ NoEntities d ∨ NoPreserve d

/-- The kinds of content at which a handler may suspend the parser. -/
inductive Kind where
  | start | stop | pi | comment | startNs | endNs | skipped
  deriving DecidableEq, Repr

/-- The kind of a piece of content. -/
def kindC : Call → Option Kind
  | .start _ _ => some .start
  | .stop _ => some .stop
  | .pi _ _ => some .pi
  | .comment _ => some .comment
  | .startNs _ _ => some .startNs
  | .endNs _ => some .endNs
  | .skipped _ => some .skipped
  | _ => none

/-- The kind of an event. -/
def kindE : Event → Option Kind
  | .startElement _ _ => some .start
  | .endElement _ => some .stop
  | .pi _ _ => some .pi
  | .comment _ => some .comment
  | .startNs _ _ => some .startNs
  | .endNs _ => some .endNs
  | .skipped _ => some .skipped
  | _ => none

/-- The handler raises no exceptions, and yields values at events of one kind only. -/
def YieldsAt {V : Type} (k : Kind) (h : Handler V) : Prop :=
  ∀ es e, h (es ++ [e]) = .ok ∨ (kindE e = some k ∧ ∃ v, h (es ++ [e]) = .yield v)

/-- Expat makes at most one callback of this kind between two looks at its status, and none in external entities. -/
def Single (k : Kind) : Doc → Prop
  | .edge d => Single k d
  | .calls cs d => (cs.filter (kindC · = some k)).length ≤ 1 ∧ Single k d
  | .ext _ inner d => (∀ c ∈ content inner, kindC c ≠ some k) ∧ Single k d
  | _ => True

/-- The values that a handler yields for the events `es` that come after `before`. -/
def yields {V : Type} (h : Handler V) : List Event → List Event → List V
  | _, [] => []
  | before, e :: es =>
    match h (before ++ [e]) with
    | .yield v => v :: yields h (before ++ [e]) es
    | _ => yields h (before ++ [e]) es

/-- A document that can break off, but only after markup: no character data waits to be reported where it is found
that the rest is not well-formed or cannot be read. `w`: character data is waiting. -/
def waiting (w : Bool) : List Call → Bool
  | [] => w
  | .text s :: cs => waiting (w || !s.isEmpty) cs
  | .cdata :: cs => waiting w cs
  | .endCdata :: cs => waiting w cs
  | _ :: cs => waiting false cs

/-- See `waiting`. -/
def AfterMarkup (w : Bool) : Doc → Prop
  | .done => True
  | .edge d => AfterMarkup w d
  | .calls cs d => AfterMarkup (waiting w cs) d
  | .ext _ inner d => AfterMarkup w inner ∧ AfterMarkup (waiting w (content inner)) d
  | .bad => w = false
  | .unreadable => w = false

/-- A handler that does not yield, and does not raise exceptions at the borders of CDATA sections. -/
def Calm {V : Type} (h : Handler V) : Prop :=
  ∀ es e, h (es ++ [e]) = .ok ∨ (noBorder e = true ∧ h (es ++ [e]) = .raise)

end Verif.Parse.Sax.Spec
