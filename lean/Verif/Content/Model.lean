/-
Model of the content-model compiler (lib/src/expat/content_model.c) and of its use by the validator
(lib/src/expat/validation.c).

Events are values of an arbitrary type `A` with decidable equality (Python objects as dictionary keys);
`fin : A` is the unique token `ContentModel.FINAL_EVENT`.  A Python dictionary is an association list in
insertion order: the order in which `PyDict_Next` visits it only influences the numbering of states.
-/
namespace Verif.Content

/-- lib/src/expat/content_model.c:413-418 `ContentQuant`. -/
inductive Quant where
  | none | opt | rep | plus
deriving DecidableEq, Repr

/-- lib/src/expat/content_model.c:420-427 `ContentModelObject` with its `type` (407-411), `content` and `quant`;
`label` and `doc` are for display only. -/
inductive Content (A : Type) where
  | name (event : A) (quant : Quant)
  | seq (items : List (Content A)) (quant : Quant)
  | alt (items : List (Content A)) (quant : Quant)
deriving Repr

variable {A : Type} [DecidableEq A]

/-- A transition label: `none` is `epsilon_event`. -/
abbrev Label (A : Type) := Option A

/-- A state of the NFA: a dictionary from labels to lists of target states. -/
abbrev NState (A : Type) := List (Label A × List Nat)

/-- lib/src/expat/content_model.c:24-65: the NFA is a list of states. -/
abbrev Nfa (A : Type) := List (NState A)

/-- lib/src/expat/content_model.c:24-42 `ContentModel_New`: the initial state 0 and the final state 1. -/
def newModel : Nfa A := [[], []]

/-- lib/src/expat/content_model.c:88-108: append to the list stored under the label, or start one. -/
def addToState (l : Label A) (q : Nat) : NState A → NState A
  | [] => [(l, [q])]
  | (k, ts) :: r => if k = l then (k, ts ++ [q]) :: r else (k, ts) :: addToState l q r

/-- lib/src/expat/content_model.c:68-111 `ContentModel_AddTransition` (and 114-120 `AddEpsilonMove`, with label
`none`). All callers pass existing states. -/
def addTransition (m : Nfa A) (l : Label A) (p q : Nat) : Nfa A := m.modify p (addToState l q)

/-- lib/src/expat/content_model.c:495-558 `compile_content`: the treatment of the quantity; `body` compiles the
unquantified content.  New states are numbered `m.length`, `m.length + 1` (45-65 `ContentModel_NewState`). -/
def withQuant (q : Quant) (body : Nat → Nat → Nfa A → Nfa A) (i f : Nat) (m : Nfa A) : Nfa A :=
  let plusPart (m : Nfa A) : Nfa A :=
    let s1 := m.length
    let s2 := m.length + 1
    let m := addTransition (m ++ [[], []]) none i s1
    let m := body s1 s2 m
    addTransition (addTransition m none s2 s1) none s2 f
  match q with
  | .none => body i f m
  | .opt => body i f (addTransition m none i f)
  | .rep => plusPart (addTransition m none i f)
  | .plus => plusPart m

mutual
/-- lib/src/expat/content_model.c:495-558 `compile_content` from state `i` to state `f`; also
lib/src/expat/expat.c:2727-2799 `parse_content`, which is the same algorithm on expat's own structures. -/
def compileContent : Content A → Nat → Nat → Nfa A → Nfa A
  | .name e q, i, f, m => withQuant q (fun i f m => addTransition m (some e) i f) i f m
  | .seq l q, i, f, m => withQuant q (fun i f m => compileSeq l i f m) i f m
  | .alt l q, i, f, m => withQuant q (fun i f m => compileAlt l i f m) i f m
/-- lib/src/expat/content_model.c:445-474 `compile_seq`. -/
def compileSeq : List (Content A) → Nat → Nat → Nfa A → Nfa A
  | [], _, _, m => m
  | [c], i, f, m => compileContent c i f m
  | c :: d :: cs, i, f, m => compileSeq (d :: cs) m.length f (compileContent c i m.length (m ++ [[]]))
/-- lib/src/expat/content_model.c:476-493 `compile_alt`. -/
def compileAlt : List (Content A) → Nat → Nat → Nfa A → Nfa A
  | [], _, _, m => m
  | c :: cs, i, f, m => compileAlt cs i f (compileContent c i f m)
end

/-- Dictionary lookup. -/
def lookup {K V : Type} [DecidableEq K] (k : K) : List (K × V) → Option V
  | [] => none
  | (k', v) :: r => if k' = k then some v else lookup k r

/-- The list of targets of state `p` under label `l` (empty if absent). -/
def targets (m : Nfa A) (p : Nat) (l : Label A) : List Nat :=
  match m[p]? with
  | some d => (lookup l d).getD []
  | none => []

/-- lib/src/expat/content_model.c:128-150 `add_to_epsilon_closure`. `fuel` bounds the recursion depth, which
cannot exceed the number of states; `Verif.Content.closure_spec` shows that it never runs out. -/
def addClosure (m : Nfa A) : Nat → List Nat → Nat → List Nat
  | fuel, set, q =>
    if q ∈ set then set
    else match fuel with
      | 0 => set
      | fuel + 1 => (targets m q none).foldl (addClosure m fuel) (set ++ [q])

/-- lib/src/expat/content_model.c:153-165 `epsilon_closure`. -/
def epsilonClosure (m : Nfa A) (q : Nat) : List Nat := addClosure m m.length [] q

/-- `PyDict_Merge` on dictionaries used as sets. -/
def merge (s t : List Nat) : List Nat := s ++ t.filter (· ∉ s)

/-- lib/src/expat/content_model.c:170-188 `set_epsilon_closure`. -/
def setClosure (m : Nfa A) (set : List Nat) (states : List Nat) : List Nat :=
  states.foldl (fun s q => merge s (epsilonClosure m q)) set

/-- Insertion into a sorted list. -/
def insertSorted (x : Nat) : List Nat → List Nat
  | [] => [x]
  | y :: r => if x ≤ y then x :: y :: r else y :: insertSorted x r

/-- lib/src/expat/content_model.c:193-211 `make_key`: the sorted tuple of the states. (`PyList_Sort` is written as
an insertion sort; the result of sorting numbers does not depend on the method.) -/
def makeKey : List Nat → List Nat
  | [] => []
  | x :: r => insertSorted x (makeKey r)

/-- The tables of lib/src/expat/content_model.c:274-403: number `j` has the key `keys[j]` in `old_to_new_map`,
the set `olds[j]` in `new_to_old_map`, and the dictionary `trans[j]` in `dfa`. -/
structure Tables (A : Type) where
  keys : List (List Nat)
  olds : List (List Nat)
  trans : List (List (A × Nat))

/-- lib/src/expat/content_model.c:216-267 `map_old_to_new`. -/
def mapOldToNew (t : Tables A) (set : List Nat) : Tables A × Nat :=
  if makeKey set ∈ t.keys then (t, t.keys.idxOf (makeKey set))
  else (⟨t.keys ++ [makeKey set], t.olds ++ [set], t.trans ++ [[]]⟩, t.keys.length)

/-- Dictionary update of lib/src/expat/content_model.c:358-371: merge the closure of the targets into the entry of
the event. -/
def addTargets (m : Nfa A) (e : A) (ts : List Nat) : List (A × List Nat) → List (A × List Nat)
  | [] => [(e, setClosure m [] ts)]
  | (k, s) :: r => if k = e then (k, setClosure m s ts) :: r else (k, s) :: addTargets m e ts r

/-- lib/src/expat/content_model.c:354-373: the inner loop over the transitions of one NFA state. -/
def collectState (m : Nfa A) (acc : List (A × List Nat)) (d : NState A) : List (A × List Nat) :=
  d.foldl (fun acc x => match x.1 with
    | none => acc
    | some e => addTargets m e x.2 acc) acc

/-- lib/src/expat/content_model.c:340-374: the transitions of a set of NFA states. -/
def collect (m : Nfa A) (set : List Nat) : List (A × List Nat) :=
  set.foldl (fun acc q => collectState m acc (m[q]?.getD [])) []

/-- lib/src/expat/content_model.c:376-385: enter the transitions of DFA state `k`. The events of
`ts` are distinct (they are the keys of a dictionary), so that `PyDict_SetItem` always adds an entry. -/
def enter (k : Nat) (t : Tables A) (ts : List (A × List Nat)) : Tables A :=
  ts.foldl (fun t x =>
    let r := mapOldToNew t x.2
    { r.1 with trans := r.1.trans.modify k (fun d => d ++ [(x.1, r.2)]) }) t

/-- lib/src/expat/content_model.c:323-386: the loop over the growing list of DFA states. It has no bound in C;
`none` means that `fuel` ran out, which `C36_compile_terminates` excludes. -/
def compileLoop (m : Nfa A) : Nat → Nat → Tables A → Option (Tables A)
  | fuel, k, t =>
    match t.olds[k]? with
    | none => some t
    | some set =>
      match fuel with
      | 0 => none
      | fuel + 1 => compileLoop m fuel (k + 1) (enter k t (collect m set))

/-- lib/src/expat/content_model.c:274-403 `ContentModel_Compile`: the transition table of the DFA, initial
state 0. -/
def compileNfa (fin : A) (m : Nfa A) : Option (List (List (A × Nat))) :=
  let m := addTransition (m ++ [[]]) (some fin) 1 m.length
  let t0 : Tables A := (mapOldToNew ⟨[], [], []⟩ (epsilonClosure m 0)).1
  (compileLoop m (2 ^ m.length) 0 t0).map Tables.trans

/-- lib/src/expat/content_model.c:651-666 `model_compile`. -/
def compile (fin : A) (c : Content A) : Option (List (List (A × Nat))) :=
  compileNfa fin (compileContent c 0 1 newModel)

/-- lib/src/expat/validation.c:300-325: one event: look it up in the dictionary that is the current state. -/
def transit (dfa : List (List (A × Nat))) (state : Nat) (e : A) : Option Nat :=
  match dfa[state]? with
  | some d => lookup e d
  | none => none

/-- A sequence of events, starting from the initial state. -/
def runDfa (dfa : List (List (A × Nat))) : Nat → List A → Option Nat
  | s, [] => some s
  | s, e :: es => match transit dfa s e with
    | some s' => runDfa dfa s' es
    | none => none

/-- The events of the children are accepted and then the final event (lib/src/expat/validation.c:417-418). -/
def accepts (fin : A) (dfa : List (List (A × Nat))) (w : List A) : Bool :=
  (runDfa dfa 0 (w ++ [fin])).isSome

/-! Builders, lib/xslt/tree/content_model.py -/

/-- Assignment to the `quant` attribute. -/
def Content.setQuant (q : Quant) : Content A → Content A
  | .name e _ => .name e q
  | .seq l _ => .seq l q
  | .alt l _ => .alt l q

/-- lib/xslt/tree/content_model.py:29-33 `seq`. -/
def mkSeq (l : List (Content A)) : Content A := .seq l .none
/-- lib/xslt/tree/content_model.py:36-40 `alt`. -/
def mkAlt (l : List (Content A)) : Content A := .alt l .none
/-- lib/xslt/tree/content_model.py:43-49 `rep1` (the argument is changed in place and returned). -/
def mkRep1 (c : Content A) : Content A := c.setQuant .plus
/-- lib/xslt/tree/content_model.py:52-58 `opt`. -/
def mkOpt (c : Content A) : Content A := c.setQuant .opt
/-- lib/xslt/tree/content_model.py:61-67 `rep`. -/
def mkRep (c : Content A) : Content A := c.setQuant .rep

end Verif.Content
