import Verif.Py

/-
pushtree (lib/pushtree/__init__.py, lib/pushtree/pushtree_nfa.py).

A pattern is compiled to an NFA over the elements on the way from the document to a node, the NFA to a DFA
whose transitions are decision trees, and the DFA to a table that a stack machine interprets while the
document is parsed.

Not modelled: predicates in patterns (the assertions in lines 255-259 fail; for `*` they are dropped, 230-232),
patterns for processing instructions, more than one pattern for a machine, the lookup of prefixes (tests carry the namespaces).
-/
namespace Verif.Push
open Verif

/-- The expanded name of an element or an attribute. -/
abbrev QN := Option Str × Str

/-! Patterns, as the XPath parser makes them -/

inductive Axis | child | descendant | attribute
  deriving DecidableEq, Repr

/-- The name tests `a`, `p:a`, `p:*`, `*` (lib/xpath/locationpaths/nodetests.py); the prefix has been replaced
by its namespace. -/
inductive SrcTest
  | name (ln : Str)
  | qname (ns ln : Str)
  | nsAny (ns : Str)
  | any
  deriving DecidableEq, Repr

/-- A step without predicates. -/
structure SrcStep where
  axis : Axis
  test : SrcTest
  deriving DecidableEq, Repr

/-- Productions 3 and 11 of the XPath grammar: `s`, `r/s`, `r//s`. -/
inductive Rel
  | one (s : SrcStep)
  | slash (r : Rel) (s : SrcStep)
  | dslash (r : Rel) (s : SrcStep)

/-- Productions 1, 2 and 10: `/`, `/r`, `r`, `//r`. -/
inductive Loc
  | root
  | abs (r : Rel)
  | rel (r : Rel)
  | dabs (r : Rel)

/-- A step in the parser's output; `dosNode` is `descendant-or-self::node()`. -/
inductive PStep
  | mk (axis : Axis) (test : SrcTest)
  | dosNode
  deriving DecidableEq, Repr

/-- The classes of lib/xpath/locationpaths/__init__.py. -/
inductive Cls | relative | absolute | abbrevAbsolute | abbrevRelative
  deriving DecidableEq, Repr

/-- `relative_location_path.__init__` and `abbreviated_relative_location_path.__init__`
(locationpaths/__init__.py:93-101, 131-146). -/
def parseRel : Rel → Cls × List PStep
  | .one s => (.relative, [.mk s.axis s.test])
  | .slash r s => (.relative, (parseRel r).2 ++ [.mk s.axis s.test])
  | .dslash r s =>
    (.abbrevRelative, (parseRel r).2 ++
      if s.axis = .child then [.mk .descendant s.test] else [.dosNode, .mk s.axis s.test])

/-- `abbreviated_absolute_location_path.__init__` (locationpaths/__init__.py:109-123). -/
def abbreviate : List PStep → List PStep
  | .mk .child t :: ss => .mk .descendant t :: ss
  | ss => .dosNode :: ss

/-- The parser's output for a location path (xpath_grammar.bgen.frag, productions 1 to 3, 10, 11). -/
def parseLoc : Loc → Cls × List PStep
  | .root => (.absolute, [])
  | .abs r => (.absolute, (parseRel r).2)
  | .rel r => parseRel r
  | .dabs r => (.abbrevAbsolute, abbreviate (parseRel r).2)

/-! The NFA -/

/-- The pair `(namespace, local name)` of a `NodeTest` or an `AttributeTest`; `none` is Python's `None`. -/
structure NameTest where
  ns : Option Str
  ln : Option Str
  deriving DecidableEq, Repr

/-- `AnyNodeTest`, `NodeTest`, `AttributeTest` (pushtree_nfa.py:36-63). -/
inductive Test
  | any
  | node (t : NameTest)
  | attr (t : NameTest)
  deriving DecidableEq, Repr

/-- The target's id and the test. -/
abbrev Edge := Nat × Test

/-- `NFA` (pushtree_nfa.py:77-84).  `nodes` are the keys of the dictionaries.  Node ids start with 1.
`isAttr` stands for `match_types`, `terminal` also for `labeled_handlers`, since there is one pattern. -/
structure Nfa where
  start : List Edge
  nodes : List Nat
  edges : Nat → List Edge
  isAttr : Nat → Bool
  terminal : List Nat

inductive Err | assertion | valueError
  deriving DecidableEq, Repr

def Nfa.empty : Nfa := ⟨[], [], fun _ => [], fun _ => false, []⟩

def Test.isAttr : Test → Bool
  | .attr _ => true
  | _ => false

/-- `new_node(None, test)` with the id `n` (pushtree_nfa.py:105-112). -/
def Nfa.newStart (m : Nfa) (n : Nat) (t : Test) : Nfa where
  start := m.start ++ [(n, t)]
  nodes := m.nodes ++ [n]
  edges := fun i => if i = n then [] else m.edges i
  isAttr := fun i => if i = n then t.isAttr else m.isAttr i
  terminal := m.terminal

/-- `connect(n, to, test)` for all items of a list (pushtree_nfa.py:114-115). -/
def Nfa.connects (m : Nfa) (n : Nat) (es : List Edge) : Nfa :=
  { m with edges := fun i => if i = n then m.edges i ++ es else m.edges i }

/-- `_add_initial_loop`, the new node has the id `n` (pushtree_nfa.py:156-161). -/
def Nfa.addInitialLoop (m : Nfa) (n : Nat) : Nfa :=
  ((m.newStart n .any).connects n m.start).connects n [(n, .any)]

/-- `extend` (pushtree_nfa.py:117-127). -/
def Nfa.extend (a b : Nfa) : Nfa where
  start := if a.start = [] then b.start else a.start
  nodes := a.nodes ++ b.nodes
  edges := fun i =>
    (if i ∈ b.nodes then b.edges i else a.edges i) ++ (if i ∈ a.terminal then b.start else [])
  isAttr := fun i => if i ∈ b.nodes then b.isAttr i else a.isAttr i
  terminal := b.terminal

/-- `union` (pushtree_nfa.py:129-135). -/
def Nfa.union (a b : Nfa) : Nfa where
  start := a.start ++ b.start
  nodes := a.nodes ++ b.nodes
  edges := fun i => if i ∈ b.nodes then b.edges i else a.edges i
  isAttr := fun i => if i ∈ b.nodes then b.isAttr i else a.isAttr i
  terminal := a.terminal ++ b.terminal

/-- The pair that is passed to `NodeTest` or `AttributeTest` (pushtree_nfa.py:206-232). -/
def toNameTest : SrcTest → NameTest
  | .name ln => ⟨none, some ln⟩
  | .qname ns ln => ⟨some ns, some ln⟩
  | .nsAny ns => ⟨some ns, none⟩
  | .any => ⟨none, none⟩

/-- `to_nfa` for a step; `n` is the id of its node (pushtree_nfa.py:198-243). -/
def stepNfa (n : Nat) : PStep → Except Err Nfa
  | .dosNode => .error .assertion
  | .mk .attribute t => .ok { Nfa.empty.newStart n (.attr (toNameTest t)) with terminal := [n] }
  | .mk _ t => .ok { Nfa.empty.newStart n (.node (toNameTest t)) with terminal := [n] }

/-- The loop over the steps of a relative path (pushtree_nfa.py:170-171).  The number is the next id. -/
def relLoop : List PStep → Nfa → Nat → Except Err (Nfa × Nat)
  | [], m, n => .ok (m, n)
  | s :: ss, m, n =>
    match stepNfa n s with
    | .error e => .error e
    | .ok b => relLoop ss (m.extend b) (n + 1)

/-- The loop over the steps of an absolute path (pushtree_nfa.py:179-186). -/
def absLoop : List PStep → Nfa → Nat → Except Err (Nfa × Nat)
  | [], m, n => .ok (m, n)
  | .dosNode :: _, _, _ => .error .assertion
  | .mk .attribute _ :: _, _, _ => .error .assertion
  | .mk .child t :: ss, m, n =>
    match stepNfa n (.mk .child t) with
    | .error e => .error e
    | .ok b => absLoop ss (m.extend b) (n + 1)
  | .mk .descendant t :: ss, m, n =>
    match stepNfa n (.mk .descendant t) with
    | .error e => .error e
    | .ok b => absLoop ss (m.extend (b.addInitialLoop (n + 1))) (n + 2)

/-- `to_nfa` for a path (pushtree_nfa.py:165-196). -/
def pathNfa (p : Cls × List PStep) (n : Nat) : Except Err (Nfa × Nat) :=
  match p.1 with
  | .absolute => absLoop p.2 .empty n
  | .abbrevRelative => .error .assertion
  | _ =>
    match relLoop p.2 .empty n with
    | .error e => .error e
    | .ok (m, n) => .ok (m.addInitialLoop n, n + 1)

/-- The loop over the paths of a union (pushtree_nfa.py:248-249). -/
def unionLoop : List Loc → Nfa → Nat → Except Err (Nfa × Nat)
  | [], m, n => .ok (m, n)
  | p :: ps, m, n =>
    match pathNfa (parseLoc p) n with
    | .error e => .error e
    | .ok (b, n') => unionLoop ps (m.union b) n'

/-- `to_nfa` for a pattern, which is a union of one or more paths (pushtree_nfa.py:163-252).  `n` is the next
value of the global counter. -/
def toNfa (p : Loc) (ps : List Loc) (n : Nat) : Except Err Nfa :=
  match pathNfa (parseLoc p) n with
  | .error e => .error e
  | .ok (m, n') =>
    match unionLoop ps m n' with
    | .error e => .error e
    | .ok (m, _) => .ok m

/-! The DFA -/

/-- A decision tree: a set of NFA nodes or a `Branch` (pushtree_nfa.py:321-325). -/
inductive Tree
  | leaf (s : List Nat)
  | branch (t : NameTest) (yes no : Tree)

/-- `_add_to_leaves` (pushtree_nfa.py:375-380). -/
def addLeaves (n : Nat) : Tree → Tree
  | .leaf s => .leaf (n :: s)
  | .branch t a b => .branch t (addLeaves n a) (addLeaves n b)

/-- `_add` for a test of names (pushtree_nfa.py:350-373), with `node_intersect` (254-281) and `attr_intersect`
(283-292): two tests are taken to be the same or to exclude each other.  The argument is the `if_true` of the
uppermost branch, which has no test. -/
def addTest (t : NameTest) (n : Nat) : Tree → Tree
  | .leaf s => .branch t (.leaf (n :: s)) (.leaf s)
  | .branch u a b => if u = t then .branch u (addLeaves n a) b else .branch u a (addTest t n b)

/-- `StateTable` (pushtree_nfa.py:328-336): the `if_true` of the two trees. -/
structure Table where
  node : Tree
  attr : Tree

/-- `StateTable.add` (pushtree_nfa.py:338-348). -/
def Table.add (tb : Table) (e : Edge) : Table :=
  match e.2 with
  | .any => { tb with node := addLeaves e.1 tb.node }
  | .node t => { tb with node := addTest t e.1 tb.node }
  | .attr t => { tb with attr := addTest t e.1 tb.attr }

/-- `all_transitions` (pushtree_nfa.py:429-444).  The start node, `None`, is 0.  `ord` is the order in which
Python iterates over a frozenset. -/
def allTransitions (ord : List Nat → List Nat) (m : Nfa) (s : List Nat) : List Edge :=
  (ord s).flatMap fun i => if i = 0 then m.start else if m.isAttr i then [] else m.edges i

def makeTable (es : List Edge) : Table := es.foldl Table.add ⟨.leaf [], .leaf []⟩

/-- `frozenset(s)`, for a set of nodes: a list without duplicates that does not depend on the order of `s`. -/
def freeze (m : Nfa) (s : List Nat) : List Nat := m.nodes.filter (· ∈ s)

/-- The leaves of a tree in the order of `get_final_nodes` (pushtree_nfa.py:382-397). -/
def leaves : Tree → List (List Nat)
  | .leaf s => [s]
  | .branch _ a b => leaves b ++ leaves a

/-- `get_final_nodes`.  Simplification: a set that occurs twice is not removed; it is found in `seen`. -/
def finals (m : Nfa) (tb : Table) : List (List Nat) :=
  ((leaves tb.node ++ leaves tb.attr).filter (· ≠ [])).map (freeze m)

/-- Add the new states (pushtree_nfa.py:477-481). -/
def pushNew : List (List Nat) → List (List Nat) → List (List Nat) → List (List Nat) × List (List Nat)
  | [], seen, todo => (seen, todo)
  | s :: ss, seen, todo =>
    if s ∈ seen then pushNew ss seen todo else pushNew ss (s :: seen) (s :: todo)

/-- The loop of `nfa_to_dfa` (pushtree_nfa.py:461-483).  `done` are the states in the order of their numbers,
with their tables.  Each turn removes a state from `todo`. -/
def dfaLoop (ord : List Nat → List Nat) (m : Nfa) : Nat → List (List Nat) → List (List Nat) →
    List (List Nat × Table) → Option (List (List Nat × Table))
  | _, [], _, done => some done
  | 0, _ :: _, _, _ => none
  | fuel + 1, s :: todo, seen, done =>
    let tb := makeTable (allTransitions ord m s)
    let (seen, todo) := pushNew (finals m tb) seen todo
    dfaLoop ord m fuel todo seen (done ++ [(s, tb)])

/-- `nfa_to_dfa` (pushtree_nfa.py:455-491).  There are at most as many states as sets of nodes, and the start
state. -/
def nfaToDfa (ord : List Nat → List Nat) (m : Nfa) : Option (List (List Nat × Table)) :=
  dfaLoop ord m (2 ^ m.nodes.length + 1) [[0]] [[0]] []

/-! The machine -/

/-- An item of `node_ops`: 4 or 5 items; `-n` for a state, 0 for none, `n` for an index. -/
inductive Op
  | short (target : Int)
  | full (t : NameTest) (yes no : Int)
  deriving DecidableEq, Repr

/-- A machine state (pushtree_nfa.py:605): whether the handler is called, `node_ops`, `attr_ops`. -/
structure MState where
  handler : Bool
  nodeOps : List Op
  attrOps : List (NameTest × Nat)
  deriving DecidableEq, Repr

/-- `numbering[frozenset(s)]`. -/
def number (m : Nfa) (done : List (List Nat × Table)) (s : List Nat) : Nat :=
  (done.map Prod.fst).idxOf (freeze m s)

/-- An item of `node_ops` while it is built. -/
inductive Slot
  | tree (t : Tree)
  | op (o : Op)

/-- The reference to a subtree and the items that are appended for it (pushtree_nfa.py:546-562). -/
def refOf (num : List Nat → Nat) (len : Nat) : Tree → Int × List Slot
  | .leaf [] => (0, [])
  | .leaf s => (-(num s : Int), [])
  | t => (len, [.tree t])

/-- The loop that builds `node_ops` (pushtree_nfa.py:542-570).  `none`: an item is not a branch. -/
def opsLoop (num : List Nat → Nat) : Nat → List Nat → List Slot → Option (List Slot)
  | _, [], ops => some ops
  | 0, _ :: _, _ => none
  | fuel + 1, i :: todo, ops =>
    match ops[i]? with
    | some (.tree (.branch t a b)) =>
      let (yes, new1) := refOf num ops.length a
      let ops := ops ++ new1
      let (no, new2) := refOf num ops.length b
      let ops := ops ++ new2
      let todo := (if 0 < yes then [yes.toNat] else []) ++ (if 0 < no then [no.toNat] else []) ++ todo
      opsLoop num fuel todo (ops.set i (.op (.full t yes no)))
    | _ => none

def branches : Tree → Nat
  | .leaf _ => 0
  | .branch _ a b => 1 + branches a + branches b

def Slot.op? : Slot → Option Op
  | .op o => some o
  | .tree _ => none

/-- `node_ops` for a tree (pushtree_nfa.py:531-572). -/
def nodeOps (num : List Nat → Nat) (t : Tree) : Option (List Op) :=
  match t with
  | .leaf [] => some []
  | .leaf s => some [.short (-(num s : Int))]
  | t => (opsLoop num (branches t) [0] [.tree t]).bind fun ops => ops.mapM Slot.op?

/-- `attr_ops` for a tree (pushtree_nfa.py:574-584).  `none`: a set was expected. -/
def attrOps (num : List Nat → Nat) : Tree → Option (List (NameTest × Nat))
  | .leaf [] => some []
  | .leaf s => some [(⟨none, none⟩, num s)]
  | .branch t (.leaf s) b => (attrOps num b).map ((t, num s) :: ·)
  | .branch _ _ _ => none

/-- `build_states` (pushtree_nfa.py:505-608). -/
def buildState (m : Nfa) (done : List (List Nat × Table)) (s : List Nat × Table) : Option MState :=
  match nodeOps (number m done) s.2.node, attrOps (number m done) s.2.attr with
  | some n, some a => some ⟨s.1.any (· ∈ m.terminal), n, a⟩
  | _, _ => none

abbrev Machine := List MState

/-- `PushtreeManager` and `build_pushtree_handler` for one pattern (pushtree_nfa.py:617-645).  The inner `none`
stands for failures of the code that are shown not to occur. -/
def compile (ord : List Nat → List Nat) (p : Loc) (ps : List Loc) (n : Nat) : Except Err (Option Machine) :=
  match toNfa p ps n with
  | .error e => .error e
  | .ok m => .ok ((nfaToDfa ord m).bind fun done => done.mapM (buildState m done))

/-! The document and the events -/

/-- An element: its name, the names of its attributes, its child elements. -/
inductive Elem
  | mk (name : QN) (attrs : List QN) (children : List Elem)

/-- A node's place: the positions among the child elements, from the document down. -/
abbrev Pos := List Nat

/-- The calls made by the parser (lib/src/domlette/builder.c:501-503, 556-557; rulematch.c). -/
inductive Ev
  | startElement (node : Pos) (name : QN) (attrs : List QN)
  | endElement (node : Pos)

mutual
/-- The events for an element at a place. -/
def events : Elem → Pos → List Ev
  | .mk n as cs, p => .startElement p n as :: eventsAll cs p 0 ++ [.endElement p]
/-- The events for the children from number `i` on of the node at `p`. -/
def eventsAll : List Elem → Pos → Nat → List Ev
  | [], _, _ => []
  | c :: cs, p, i => events c (p ++ [i]) ++ eventsAll cs p (i + 1)
end

/-- The calls of the handler's methods. -/
inductive Call
  | startMatch (node : Pos)
  | attrMatch (node : Pos) (name : QN)
  | endMatch (node : Pos)
  deriving DecidableEq, Repr

/-- The comparison in lines 678-679 and 708-709. -/
def NameTest.ok (t : NameTest) (n : QN) : Bool :=
  (t.ns == none || t.ns == n.1) && (t.ln == none || t.ln == some n.2)

/-- The loop of `startElementNS` (pushtree_nfa.py:675-692): the state, or `none` for a dead end. -/
def walk (ops : List Op) (n : QN) : Nat → Nat → Except Err (Option Nat)
  | 0, _ => .error .assertion
  | fuel + 1, i =>
    match ops[i]? with
    | none => .error .assertion
    | some (.short _) => .error .valueError
    | some (.full t yes no) =>
      let j := if t.ok n then yes else no
      if j = 0 then .ok none
      else if j < 0 then .ok (some j.natAbs)
      else walk ops n fuel j.toNat

/-- Whether the handlers of a state are called. -/
def handles (mc : Machine) (q : Nat) : Bool := (mc[q]?.map MState.handler).getD false

/-- The attributes (pushtree_nfa.py:700-716). -/
def attrCalls (mc : Machine) (q : Nat) (p : Pos) (attrs : List QN) : List Call :=
  attrs.flatMap fun n =>
    ((mc[q]?.map MState.attrOps).getD []).flatMap fun op =>
      if op.1.ok n && handles mc op.2 then [.attrMatch p n] else []

/-- `startElementNS` (pushtree_nfa.py:658-716); `none` on the stack is -1. -/
def startElement (mc : Machine) (state : Option Nat) (p : Pos) (n : QN) (attrs : List QN) :
    Except Err (Option Nat × List Call) :=
  match state with
  | none => .ok (none, [])
  | some q =>
    let ops := (mc[q]?.map MState.nodeOps).getD []
    if ops = [] then .ok (none, [])
    else
      match walk ops n ops.length 0 with
      | .error e => .error e
      | .ok none => .ok (none, [])
      | .ok (some q') =>
        .ok (some q', (if handles mc q' then [.startMatch p] else []) ++ attrCalls mc q' p attrs)

/-- `endElementNS` (pushtree_nfa.py:718-725). -/
def endElement (mc : Machine) (state : Option Nat) (p : Pos) : List Call :=
  match state with
  | none => []
  | some q => if handles mc q then [.endMatch p] else []

/-- The stack machine (pushtree_nfa.py:650-725). -/
def runMachine (mc : Machine) : List Ev → List (Option Nat) → Except Err (List Call)
  | [], _ => .ok []
  | .startElement p n as :: evs, stack =>
    match startElement mc (stack.headD none) p n as with
    | .error e => .error e
    | .ok (q, calls) =>
      match runMachine mc evs (q :: stack) with
      | .error e => .error e
      | .ok rest => .ok (calls ++ rest)
  | .endElement p :: evs, stack =>
    match runMachine mc evs stack.tail with
    | .error e => .error e
    | .ok rest => .ok (endElement mc (stack.headD none) p ++ rest)

/-- The nodes for which `pushtree` calls its target (pushtree/__init__.py:15-23). -/
def targets : List Call → List Pos
  | [] => []
  | .startMatch _ :: cs => targets cs
  | .attrMatch p _ :: cs => p :: targets cs
  | .endMatch p :: cs => p :: targets cs

/-- `pushtree` for a document with the given root element (pushtree/__init__.py:13-31); the inner `none` as in
`compile`. -/
def pushtree (ord : List Nat → List Nat) (p : Loc) (ps : List Loc) (n : Nat) (doc : Elem) :
    Except Err (Option (List Pos)) :=
  match compile ord p ps n with
  | .error e => .error e
  | .ok none => .ok none
  | .ok (some mc) =>
    match runMachine mc (eventsAll [doc] [] 0) [some 0] with
    | .error e => .error e
    | .ok calls => .ok (some (targets calls))

end Verif.Push
