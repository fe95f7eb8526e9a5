import Verif.Py

/-
The SAX reader between Expat and the handlers of a program: lib/src/expat/expat.c (contexts, stacks of `xml:*`
attributes, buffering of character data, the callbacks for content, parsing, suspending and resuming) and the
generator of lib/src/expat/sax_handler.c.

Expat itself is not modelled.  What it does with an entity is a `Doc`: the callbacks it makes, in groups between which
it looks at its parsing status (`doContent`, lib/xmlparse.c), the ends of the buffers that it is given, references to
external entities, and errors.  Not modelled: the document type declaration and its callbacks, validation, the type
of attributes and the normalisation of `xml:id`, line numbers, lack of memory.
-/
namespace Verif.Parse.Sax

open Verif.Py

/-- `ExpatAttribute` (expat_interface.h): the qualified name and the value. -/
structure Att where
  name : Str
  value : Str
  deriving DecidableEq, Repr

/-- The callbacks that Expat makes for content (`expat_handlers`, expat.c:664-679). -/
inductive Call where
  | text (s : Str)
  | start (name : Str) (atts : List Att)
  | stop (name : Str)
  | pi (target data : Str)
  | comment (data : Str)
  | startNs (prefix' : Option Str) (uri : Str)
  | endNs (prefix' : Option Str)
  | cdata
  | endCdata
  | skipped (name : Str)
  deriving DecidableEq, Repr

/-- The events that the handler of a program gets (`FUNCTION_TEMPLATE`, `FUNCTION_OBJ_ARGS`, expat.c:404-423). -/
inductive Event where
  | startDocument
  | endDocument
  | characters (s : Str)
  | startElement (name : Str) (atts : List Att)
  | endElement (name : Str)
  | pi (target data : Str)
  | comment (data : Str)
  | startNs (prefix' : Option Str) (uri : Str)
  | endNs (prefix' : Option Str)
  | startCdata
  | endCdata
  | skipped (name : Str)
  deriving DecidableEq, Repr

/-- What Expat does with an entity.
`calls`: callbacks without a look at the parsing status between them (an empty element gives the start and the end;
the end tag of the document element also what comes next);
`edge`: the end of a buffer (`XML_ParseBuffer` returns and `continue_parsing` reads on, expat.c:1551-1588), the last
call of `XML_ParseBuffer` being the one after the last edge, which gets no data;
`ext`: a reference to an external entity whose content is `inner`;
`bad`: the entity is not well-formed here; `unreadable`: reading the stream fails. -/
inductive Doc where
  | done
  | edge (rest : Doc)
  | calls (cs : List Call) (rest : Doc)
  | ext (uri : Str) (inner rest : Doc)
  | bad
  | unreadable
  deriving DecidableEq, Repr

/-- `ps_finalBuffer` (lib/xmlparse.c:1584): the buffer that Expat is in is the last one. -/
def Doc.final : Doc → Bool
  | .done => true
  | .edge _ => false
  | .calls _ d => d.final
  | .ext _ _ d => d.final
  | .bad => true
  | .unreadable => true

/-- What a handler does with an event: it returns, raises an exception, or sets the property `yield-result`. -/
inductive Reply (V : Type) where
  | ok
  | raise
  | yield (v : V)
  deriving DecidableEq, Repr

/-- The handler of a program: what it does with the last of the events that it has got. -/
abbrev Handler (V : Type) := List Event → Reply V

/-- `ps_parsing` of the parser that is active (lib/xmlparse.c); `stopped` is XML_FINISHED after `stop_parsing` has
removed the callbacks (expat.c:805-841), `finished` is XML_FINISHED after the last buffer. -/
inductive Status where
  | parsing
  | suspended
  | stopped
  | finished
  deriving DecidableEq, Repr

/-- `Context` (expat.c:158-171): the URI, the flag EXPAT_FLAG_INFOSET_FIXUP, `xml_base` and `xml_lang`. -/
structure Ctx where
  uri : Option Str
  fixup : Bool
  outerBase : Option Str
  outerLang : Option Str
  deriving DecidableEq, Repr

/-- `ExpatReader` (expat.c:216-241): character data, contexts and stacks, the tops first. -/
structure Reader where
  buf : Str
  ctxs : List Ctx
  bases : List (Option Str)
  langs : List (Option Str)
  spaces : List Bool
  keeps : List Bool
  deriving DecidableEq, Repr

/-- `ExpatReader_New` (expat.c:3897-3968). -/
def Reader.new : Reader :=
  { buf := [], ctxs := [], bases := [none], langs := [none], spaces := [false], keeps := [true] }

/-- The state in which callbacks run: the reader, the events that the handler has got, `yield_result`
(sax_handler.c:100), and the status of the parser. -/
structure Run (V : Type) where
  rd : Reader
  sent : List Event
  yielded : Option V
  status : Status
  deriving DecidableEq, Repr

variable {V : Type}

/-- `XML_StopParser(parser, 1)` (lib/xmlparse.c:1694-1720) as `ExpatReader_Suspend` calls it (expat.c:4314-4325): if the
parser is suspended already or has finished, the parse is stopped with SystemError. -/
def Status.suspend : Status → Status
  | .parsing => .suspended
  | _ => .stopped

/-- The call of a method of the handler.  An exception stops the parser (`stop_parsing`); setting `yield-result` stores
the value and suspends the parser (sax_handler.c:1882-1892). -/
def emit (h : Handler V) (e : Event) (r : Run V) : Run V :=
  let sent := r.sent ++ [e]
  match h sent with
  | .ok => { r with sent }
  | .raise => { r with sent, status := .stopped }
  | .yield v => { r with sent, yielded := some v, status := r.status.suspend }

/-- The white space of `charbuf_flush` (expat.c:1244-1249). -/
def isSpace (c : Char) : Bool := c = '\t' || c = '\n' || c = '\r' || c = ' '

/-- `charbuf_flush` (expat.c:1227-1285) and `charbuf_callback` without validation (1186-1224).  The stack of
`preserve_whitespace` is never empty: it begins with one entry and elements take only their own. -/
def flush (h : Handler V) (r : Run V) : Run V :=
  if r.rd.buf = [] then r
  else
    let r' := { r with rd := { r.rd with buf := [] } }
    if r.rd.buf.all isSpace && !r.rd.keeps.headD true then r'
    else emit h (.characters r.rd.buf) r'

/-- `if (charbuf_reset(reader) == EXPAT_STATUS_ERROR) return;` before the rest of a callback (expat.c:1287, 2013). -/
def flushed (h : Handler V) (r : Run V) (k : Run V → Run V) : Run V :=
  let r1 := flush h r
  if r1.status = .stopped then r1 else k r1

/-- The value of an attribute (expat.c:2068-2128); an element has no two attributes with the same name. -/
def attr (name : Str) (atts : List Att) : Option Str := (atts.find? (·.name = name)).map (·.value)

/-- The names of the attributes that the reader looks at (expat.c:2068-2128). -/
def xmlBase : Str := s!! "xml:base"
/-- See `xmlBase`. -/
def xmlLang : Str := s!! "xml:lang"
/-- See `xmlBase`. -/
def xmlSpace : Str := s!! "xml:space"

/-- The new top of the stack for `xml:base` (expat.c:2062, 2073-2075). -/
def newBase (rd : Reader) (atts : List Att) : Option Str :=
  match attr xmlBase atts with
  | some v => some v
  | none => rd.bases.headD none

/-- The new top of the stack for `xml:lang` (expat.c:2063, 2083-2085). -/
def newLang (rd : Reader) (atts : List Att) : Option Str :=
  match attr xmlLang atts with
  | some v => some v
  | none => rd.langs.headD none

/-- The new top of the stack for `xml:space` (expat.c:2064, 2093-2112). -/
def newSpace (space : Bool) (atts : List Att) : Bool :=
  match attr xmlSpace atts with
  | some v => if v = s!! "preserve" then true else if v = s!! "default" then false else space
  | none => space

/-- The attributes that are added to the first element of an entity (expat.c:2130-2186). -/
def fixups (rd : Reader) (atts : List Att) : List Att :=
  match rd.ctxs with
  | [] => []
  | c :: _ =>
    if c.fixup then
      (if attr xmlBase atts = none ∧ c.outerBase ≠ newBase rd atts then
        [{ name := xmlBase, value := (newBase rd atts).getD [] }] else [])
      ++ (if attr xmlLang atts = none ∧ c.outerLang ≠ newLang rd atts then
        [{ name := xmlLang, value := (newLang rd atts).getD [] }] else [])
    else []

/-- `Expat_ClearFlag(reader, EXPAT_FLAG_INFOSET_FIXUP)` (expat.c:2133). -/
def clearFixup : List Ctx → List Ctx
  | [] => []
  | c :: cs => { c with fixup := false } :: cs

/-- The pushes of `expat_StartElement` (expat.c:2133, 2188-2216); `strip` are the rules for stripping white space
(`is_whitespace_preserving`, C63). -/
def pushElement (strip : Str → Bool) (name : Str) (atts : List Att) (rd : Reader) : Reader :=
  let space := newSpace (rd.spaces.headD false) atts
  { rd with
    ctxs := clearFixup rd.ctxs
    bases := newBase rd atts :: rd.bases
    langs := newLang rd atts :: rd.langs
    spaces := space :: rd.spaces
    keeps := (!strip name || space) :: rd.keeps }

/-- The pops of `expat_EndElement` (expat.c:2271-2282). -/
def popElement (rd : Reader) : Reader :=
  { rd with bases := rd.bases.tail, langs := rd.langs.tail, spaces := rd.spaces.tail, keeps := rd.keeps.tail }

/-- One callback: `expat_StartElement` (expat.c:1994-2226), `expat_EndElement` (2231-2283), `expat_CharacterData`
(2289-2300), `expat_ProcessingInstruction` (2305-2339), `expat_Comment` (2344-2370), `expat_StartNamespaceDecl`
(2375-2417), `expat_EndNamespaceDecl` (2422-2449), `expat_StartCdataSection` (2582-2593), `expat_EndCdataSection`
(2596-2607), `expat_SkippedEntity` (2612-2652, for general entities).  When the parser has been stopped there are no
callbacks. -/
def call (h : Handler V) (strip : Str → Bool) (c : Call) (r : Run V) : Run V :=
  if r.status = .stopped then r
  else match c with
  | .text s => { r with rd := { r.rd with buf := r.rd.buf ++ s } }
  | .start n atts => flushed h r fun r =>
      emit h (.startElement n (atts ++ fixups r.rd atts)) { r with rd := pushElement strip n atts r.rd }
  | .stop n => flushed h r fun r =>
      let r' := emit h (.endElement n) r
      { r' with rd := popElement r'.rd }
  | .pi t d => flushed h r (emit h (.pi t d))
  | .comment d => flushed h r (emit h (.comment d))
  | .startNs p u => flushed h r (emit h (.startNs p u))
  | .endNs p => flushed h r (emit h (.endNs p))
  | .cdata => emit h .startCdata r
  | .endCdata => emit h .endCdata r
  | .skipped n => flushed h r (emit h (.skipped n))

/-- A group of callbacks. -/
def group (h : Handler V) (strip : Str → Bool) (cs : List Call) (r : Run V) : Run V :=
  cs.foldl (fun r c => call h strip c r) r

/-- `begin_context` (expat.c:513-564). -/
def beginContext (uri : Option Str) (rd : Reader) : Reader :=
  let c : Ctx := match rd.ctxs with
    | [] => { uri, fixup := false, outerBase := none, outerLang := none }
    | o :: _ =>
      if o.uri = none then { uri, fixup := false, outerBase := none, outerLang := none }
      else { uri, fixup := true, outerBase := rd.bases.headD none, outerLang := rd.langs.headD none }
  { rd with ctxs := c :: rd.ctxs, bases := uri :: rd.bases, langs := none :: rd.langs, spaces := false :: rd.spaces }

/-- `end_context` (expat.c:568-591).  `Stack_Pop` gives NULL for an empty stack (stack.c), and `Py_DECREF(NULL)` is a
crash: `none`. -/
def endContext (rd : Reader) : Option Reader :=
  if rd.spaces = [] ∨ rd.langs = [] ∨ rd.bases = [] then none
  else some { rd with ctxs := rd.ctxs.tail, spaces := rd.spaces.tail, langs := rd.langs.tail, bases := rd.bases.tail }

/-- The loop of `destroy_contexts` (expat.c:594-603), `cs` being the contexts that there are. -/
def destroyAll : List Ctx → Reader → Option Reader
  | [], rd => some rd
  | _ :: cs, rd =>
    match endContext rd with
    | none => none
    | some rd' => destroyAll cs rd'

/-- `destroy_contexts` (expat.c:594-603). -/
def destroy (rd : Reader) : Option Reader := destroyAll rd.ctxs rd

/-- How `do_parsing` ends (expat.c:1598-1642); for a suspended parse, what is left of the entities, the innermost first. -/
inductive Outcome where
  | ok
  | error
  | suspended (todo : List Doc)
  | crash
  deriving DecidableEq, Repr

/-- `continue_parsing` (expat.c:1531-1595) and `expat_ExternalEntityRef` (3521-3625) with Expat between them. -/
def run (h : Handler V) (strip : Str → Bool) : Doc → Run V → Run V × Outcome
  | .done, r => (r, .ok)
  | .edge d, r => run h strip d r
  | .calls cs d, r =>
    let r' := group h strip cs r
    match r'.status with
    | .parsing => run h strip d r'
    | .suspended => (r', .suspended [d])
    | .stopped => (r', .error)
    | .finished => (r', .error)
  | .ext uri inner d, r =>
    match run h strip inner { r with rd := beginContext (some uri) r.rd } with
    | (r', .ok) =>
      match endContext r'.rd with
      | none => (r', .crash)
      | some rd => run h strip d { r' with rd }
    | (r', .error) =>
      match endContext r'.rd with
      | none => (r', .crash)
      | some rd => ({ r' with rd, status := .stopped }, .error)
    | (r', .suspended todo) => (r', .suspended (todo ++ [d]))
    | (r', .crash) => (r', .crash)
  | .bad, r => ({ r with status := .stopped }, .error)
  | .unreadable, r => (r, .error)

/-- A reader object: the state above, and what is left of the entities of a suspended parse. -/
structure Obj (V : Type) where
  run : Run V
  todo : List Doc
  deriving DecidableEq, Repr

/-- A new `SaxReader` (sax_handler.c:2079-2101). -/
def Obj.new : Obj V :=
  { run := { rd := Reader.new, sent := [], yielded := none, status := .finished }, todo := [] }

/-- What a call of `parse` shows: a normal return (with the generator feature: a generator), an exception, a crash. -/
inductive Shown where
  | ok
  | error
  | crash
  deriving DecidableEq, Repr

/-- The end of `start_parsing` (`cleanup`, expat.c:1670-1672). -/
def cleanup (r : Run V) (shown : Shown) : Obj V × Shown :=
  match destroy r.rd with
  | none => ({ run := r, todo := [] }, .crash)
  | some rd => ({ run := { r with rd, status := .finished }, todo := [] }, shown)

/-- `start_parsing` after the parser has come to the end (expat.c:1661-1668). -/
def finish (h : Handler V) (r : Run V) : Obj V × Shown :=
  let r1 := flush h { r with status := .finished }
  if r1.status = .stopped then cleanup r1 .error
  else
    let r2 := emit h .endDocument r1
    cleanup r2 (if r2.status = .stopped then .error else .ok)

/-- `start_parsing` (expat.c:1644-1676).  If the handler has suspended the parser in `startDocument`, `XML_GetBuffer`
fails (lib/xmlparse.c:1615-1620). -/
def startParsing (h : Handler V) (strip : Str → Bool) (uri : Str) (d : Doc) (r : Run V) : Obj V × Shown :=
  let r1 := emit h .startDocument { r with rd := beginContext (some uri) r.rd, status := .parsing }
  match r1.status with
  | .parsing =>
    match run h strip d r1 with
    | (r2, .ok) => finish h r2
    | (r2, .error) => cleanup r2 .error
    | (r2, .suspended todo) => ({ run := r2, todo }, .ok)
    | (r2, .crash) => ({ run := r2, todo := [] }, .crash)
  | _ => cleanup r1 .error

/-- `ExpatReader_Parse` (expat.c:4128-4147), `parse` of `SaxReader` (sax_handler.c:1627-1663). -/
def parse (h : Handler V) (strip : Str → Bool) (uri : Str) (d : Doc) (o : Obj V) : Obj V × Shown :=
  startParsing h strip uri d o.run

/-- `ExpatReader_ParseEntity` (expat.c:4267-4310): the outer context is put in the place of what was there, without
entries on the stacks. -/
def parseEntity (h : Handler V) (strip : Str → Bool) (uri : Str) (d : Doc) (o : Obj V) : Obj V × Shown :=
  startParsing h strip uri d { o.run with rd := { o.run.rd with
    ctxs := [{ uri := none, fixup := false, outerBase := none, outerLang := none }] } }

/-- What `next()` of the generator shows. -/
inductive Next (V : Type) where
  | value (v : V)
  | stop
  | error
  | crash
  deriving DecidableEq, Repr

/-- `saxgen_iternext` after the parse has been resumed (sax_handler.c:1234-1238): NULL without an exception ends the
iteration. -/
def take (o : Obj V) : Obj V × Next V :=
  match o.run.yielded with
  | none => (o, .stop)
  | some v => ({ o with run := { o.run with yielded := none } }, .value v)

/-- `ExpatReader_Resume` (expat.c:4329-4358) and the rest of `saxgen_iternext`.  If the parser had been suspended in its
last buffer, its context is closed and the outer one is continued, whose parser is suspended too, so that
`XML_GetBuffer` fails; otherwise reading goes on, and at the end of the entity the call returns. -/
def resume (h : Handler V) (strip : Str → Bool) (o : Obj V) : Obj V × Next V :=
  match o.todo with
  | [] => (o, .error) -- reading has failed before: XML_ERROR_NOT_SUSPENDED
  | d :: todo =>
    match run h strip d { o.run with status := .parsing } with
    | (r, .suspended todo') => take { run := r, todo := todo' ++ todo }
    | (r, .error) => ({ run := r, todo := [] }, .error)
    | (r, .crash) => ({ run := r, todo := [] }, .crash)
    | (r, .ok) =>
      if d.final then
        match endContext r.rd with
        | none => ({ run := r, todo := [] }, .crash)
        | some rd =>
          if rd.ctxs = [] then take { run := { r with rd, status := .finished }, todo := [] }
          else ({ run := { r with rd, status := .stopped }, todo := [] }, .error)
      else take { run := { r with status := .finished }, todo := [] }

/-- `saxgen_iternext` (sax_handler.c:1219-1239), with `ExpatReader_GetParsingStatus` (expat.c:4388-4397). -/
def next (h : Handler V) (strip : Str → Bool) (o : Obj V) : Obj V × Next V :=
  if o.run.rd.ctxs ≠ [] ∧ (o.run.status = .parsing ∨ o.run.status = .suspended) ∧ o.run.yielded = none then
    resume h strip o
  else take o

/-- Calls of `next()`, `n` times. -/
def nexts (h : Handler V) (strip : Str → Bool) : Nat → Obj V → Obj V × List (Next V)
  | 0, o => (o, [])
  | n + 1, o =>
    let (o1, x) := next h strip o
    let (o2, xs) := nexts h strip n o1
    (o2, x :: xs)

end Verif.Parse.Sax
