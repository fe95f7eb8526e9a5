import Verif.Content.Model
/-
Model of the validating parser: declarations (lib/src/expat/expat.c), the validator
(lib/src/expat/validation.c) and the calls made while a document is read.

Not modelled: attribute validation, notations, entities, the parse flags (validation is on), and what happens after
an error handler raises: `report_error` is taken to return normally, so that the reported errors are a list.
-/
namespace Verif.Content
variable {N : Type} [DecidableEq N]

/-- The events of a content model: element names, and the tokens `content_model_pcdata`, `empty_event`
(lib/src/expat/expat.c:4517-4520) and `ContentModel_FinalEvent`, which are not names. -/
inductive Ev (N : Type) where
  | name (n : N) | pcdata | empty | fin
deriving DecidableEq, Repr

/-- An element declaration, as expat reports it (`XML_Content`). -/
inductive Decl (N : Type) where
  | empty
  | any
  | mixed (names : List N)
  | children (c : Content (Ev N))

abbrev Dfa (N : Type) := List (List (Ev N × Nat))

/-- The content that `expat_ElementDecl` builds an automaton for; `none` stands for no automaton.
lib/src/expat/expat.c:2917-2948: EMPTY adds an ε-move and an edge for `empty_event`, which is what
`compile_content` does for an optional name; MIXED is a repeated choice, with `content_model_pcdata` first (2772-2780). -/
def declContent : Decl N → Option (Content (Ev N))
  | .empty => some (.name .empty .opt)
  | .any => none
  | .mixed ns => some (.alt (.name .pcdata .none :: ns.map fun n => .name (.name n) .none) .rep)
  | .children c => some c

/-- lib/src/expat/validation.c:74-103 `ElementType_New`: the compiled model, or NULL for ANY. (`compile` never
fails, see `C36_compile_terminates`; the `none` it would return then is not distinguished from NULL here.) -/
def declModel (d : Decl N) : Option (Dfa N) :=
  match declContent d with
  | none => none
  | some c => compile .fin c

/-- lib/src/expat/validation.c:7-11 `Context`. The state is a dictionary of the automaton, represented by the
automaton and a number; `none` is NULL. `element` is the name of the declared type, `none` for NULL. -/
structure Ctx (N : Type) where
  element : Option N
  state : Option (Dfa N × Nat)

/-- lib/src/expat/validation.c:13-18 `ValidatorStruct`; the two linked lists of contexts are lists. -/
structure Validator (N : Type) where
  elements : List (N × Option (Dfa N))
  context : List (Ctx N)
  free : List (Ctx N)

/-- lib/src/expat/validation.c:215-232 `Validator_New`. -/
def newValidator : Validator N := ⟨[], [], []⟩

/-- lib/src/expat/validation.c:235-253 `Validator_AddElementType`: the first declaration is kept. -/
def addElementType (v : Validator N) (n : N) (d : Decl N) : Validator N :=
  match lookup n v.elements with
  | some _ => v
  | none => { v with elements := v.elements ++ [(n, declModel d)] }

/-- lib/src/expat/validation.c:283-328 `transit_event` (331-340 `Validator_ValidateEvent` saves,
`Validator_CheckEvent` does not). -/
def transitEvent (v : Validator N) (e : Ev N) (save : Bool) : Bool × Validator N :=
  match v.context with
  | [] => (true, v)
  | c :: cs =>
    match c.state with
    | none => (true, v)
    | some (dfa, j) =>
      match transit dfa j e with
      | none => (false, v)
      | some j' => (true, if save then { v with context := { c with state := some (dfa, j') } :: cs } else v)

/-- lib/src/expat/validation.c:364-375: take a context from the free list (keeping its old state), or make one. -/
def obtainCtx (v : Validator N) (n : N) (declared : Bool) : Ctx N × List (Ctx N) :=
  match v.free with
  | [] => (⟨if declared then some n else none, none⟩, [])
  | c :: cs => ({ c with element := if declared then some n else none }, cs)

/-- lib/src/expat/validation.c:343-387 `Validator_StartElement`. The state is only set for a declared element. -/
def startElement (v : Validator N) (n : N) : Bool × Validator N :=
  match lookup n v.elements with
  | some model =>
    let c := obtainCtx v n true
    (true, { v with context := { c.1 with state := model.map fun d => (d, 0) } :: v.context, free := c.2 })
  | none =>
    let c := obtainCtx v n false
    (false, { v with context := c.1 :: v.context, free := c.2 })

/-- lib/src/expat/validation.c:390-431 `Validator_EndElement`. -/
def endElement (v : Validator N) : Bool × Validator N :=
  match v.context with
  | [] => (true, v)
  | _ :: _ =>
    let r := transitEvent v .fin true
    match r.2.context with
    | c :: cs => (r.1, { r.2 with context := cs, free := c :: r.2.free })
    | [] => (r.1, r.2)

/-- The validity errors reported for content (lib/src/expat/expat.c:1182,1919,1935,1952,2259). -/
inductive VErr (N : Type) where
  | invalidText
  | invalidElement (n : N)
  | rootMismatch (n : N)
  | undeclaredElement (n : N)
  | incompleteElement (n : N)
deriving DecidableEq, Repr

/-- What the parser sees. `chars ws`: a maximal run of character data, `ws` if it is all white space. -/
inductive Sax (N : Type) where
  | start (n : N)
  | chars (ws : Bool)
  | stop (n : N)

/-- The part of the reader used here. -/
structure Reader (N : Type) where
  validator : Validator N
  /-- `dtd->root_element`: `none` is Py_None, i.e. already checked. -/
  root : Option N

def errIf {E : Type} (ok : Bool) (e : E) : List E := if ok then [] else [e]

/-- lib/src/expat/expat.c:1186-1224 `charbuf_callback` while validating, for white space that is preserved
(`preserve` true) and 1259-1272 of `charbuf_flush` for white space that is stripped. -/
def chars (preserve : Bool) (ws : Bool) (r : Reader N) : List (VErr N) :=
  if ws && !preserve then
    errIf (!(transitEvent r.validator .empty false).1) .invalidText
  else if (transitEvent r.validator .pcdata false).1 then []
  else if ws then errIf (!(transitEvent r.validator .empty false).1) .invalidText
  else [.invalidText]

/-- lib/src/expat/expat.c:1914-1947, the check of an element against its parent or of the root element. -/
def checkElement (n : N) (r : Reader N) : List (VErr N) × Reader N :=
  match r.root with
  | none =>
    let t := transitEvent r.validator (.name n) true
    (errIf t.1 (.invalidElement n), { r with validator := t.2 })
  | some root => (errIf (decide (root = n)) (.rootMismatch n), { r with root := none })

/-- lib/src/expat/expat.c:1888-1977 `validate_element`, without the attributes. -/
def onStart (n : N) (r : Reader N) : List (VErr N) × Reader N :=
  let a := checkElement n r
  let s := startElement a.2.validator n
  (a.1 ++ errIf s.1 (.undeclaredElement n), { a.2 with validator := s.2 })

/-- lib/src/expat/expat.c:2252-2266, the end tag handler. -/
def onStop (n : N) (r : Reader N) : List (VErr N) × Reader N :=
  let e := endElement r.validator
  (errIf e.1 (.incompleteElement n), { r with validator := e.2 })

/-- One parser event. -/
def onEvent (preserve : Bool) (r : Reader N) : Sax N → List (VErr N) × Reader N
  | .start n => onStart n r
  | .chars ws => (chars preserve ws r, r)
  | .stop n => onStop n r

/-- A run of the parser: the reported errors. -/
def run (preserve : Bool) : Reader N → List (Sax N) → List (VErr N) × Reader N
  | r, [] => ([], r)
  | r, e :: es =>
    let a := onEvent preserve r e
    let b := run preserve a.2 es
    (a.1 ++ b.1, b.2)

/-- The reader after the document type declaration: lib/src/expat/expat.c:2568 pushes a context for the root
element. -/
def afterDoctype (decls : List (N × Decl N)) (root : N) : Reader N :=
  let v := decls.foldl (fun v d => addElementType v d.1 d.2) newValidator
  ⟨(startElement v root).2, some root⟩

end Verif.Content
