import Verif.Py

/-
The hash tables of lib/src/domlette/attributemap.c and namespacemap.c (the code is the same up to the
type of keys: (namespace, local name) for attributes, a prefix for namespaces).  The key type, the hash
function and the word size are parameters.

Simplifications: reference counts and events are left out.  `NAME_EQ` of namespacemap.c:22-27 reads
`None` as a string when a prefix has the hash of `None`; equality of keys is used instead.
-/
namespace Verif.Dom.Table

/-- An attribute or namespace node in a table: key, cached hash (attr.c:25, namespace.c:18) and the
rest of the node. -/
structure Entry (K V : Type) where
  key : K
  hash : Nat
  val : V
  deriving DecidableEq

/-- `AttributeMapObject` (attributemap.h:24-39); `nm_mask` is the length of the table minus one. -/
structure Map (K V : Type) where
  table : List (Option (Entry K V))
  used : Nat
  deriving DecidableEq

variable {K V : Type} [DecidableEq K]

/-- One round of the probing loops (attributemap.c:94-96, 112-114) on words of `w` bits. -/
def nextProbe (w : Nat) (s : Nat × Nat) : Nat × Nat :=
  ((s.1 * 4 + s.1 + s.2 + 1) % 2 ^ w, s.2 / 32)

/-- The table index of a probe, `i & mask`. -/
def slotOf (size i : Nat) : Nat := i &&& (size - 1)

/-- The loop of `get_entry` (attributemap.c:93-97); `none`: still running after `fuel` rounds. -/
def getLoop (w : Nat) (t : List (Option (Entry K V))) (hash : Nat) (key : K) :
    Nat → Nat × Nat → Option Nat
  | 0, _ => none
  | fuel + 1, s => match t[slotOf t.length s.1]? with
    | none => none
    | some none => some (slotOf t.length s.1)
    | some (some e) =>
      if e.hash = hash ∧ e.key = key then some (slotOf t.length s.1)
      else getLoop w t hash key fuel (nextProbe w s)

/-- A bound on the rounds of the probing loops; that it is enough is part of the theorems. -/
def rounds (w size : Nat) : Nat := w + 2 * size + 1

/-- `get_entry` (attributemap.c:83-99). -/
def getEntry (w : Nat) (t : List (Option (Entry K V))) (hash : Nat) (key : K) : Option Nat :=
  getLoop w t hash key (rounds w t.length) (slotOf t.length hash, hash)

/-- The loop of `set_entry` (attributemap.c:111-115). -/
def setLoop (w : Nat) (t : List (Option (Entry K V))) : Nat → Nat × Nat → Option Nat
  | 0, _ => none
  | fuel + 1, s => match t[slotOf t.length s.1]? with
    | none => none
    | some none => some (slotOf t.length s.1)
    | some (some _) => setLoop w t fuel (nextProbe w s)

/-- `set_entry` (attributemap.c:101-117). -/
def setEntry (w : Nat) (t : List (Option (Entry K V))) (e : Entry K V) :
    Option (List (Option (Entry K V))) :=
  match setLoop w t (rounds w t.length) (slotOf t.length e.hash, e.hash) with
  | none => none
  | some s => some (t.set s (some e))

/-- The copying loop of `resize_table` (attributemap.c:168-175): it ends when `n` entries have been
copied. -/
def copyEntries (w : Nat) : Nat → List (Option (Entry K V)) → List (Option (Entry K V)) →
    Option (List (Option (Entry K V)))
  | 0, _, t => some t
  | _ + 1, [], _ => none
  | n + 1, none :: old, t => copyEntries w (n + 1) old t
  | n + 1, some e :: old, t => match setEntry w t e with
    | none => none
    | some t' => copyEntries w n old t'

/-- What can happen: the new map, MemoryError, or a loop that does not end. -/
inductive Res (α : Type)
  | ok (a : α) | noMemory | loops
  deriving DecidableEq

/-- `AttributeMap_MINSIZE` (attributemap.h:20, namespacemap.h:20). -/
def minSize : Nat := 8

/-- `resize_table` (attributemap.c:142-180): `PyMem_New` fails beyond `limit` entries. -/
def resize (w limit : Nat) (m : Map K V) : Res (Map K V) :=
  let size := m.table.length * 2
  if size ≤ minSize then .ok m
  else if size > limit then .noMemory
  else match copyEntries w m.used m.table (List.replicate size none) with
    | none => .loops
    | some t => .ok { m with table := t }

/-- `INIT_MINSIZE` (attributemap.c:17-22). -/
def Map.new : Map K V := ⟨List.replicate minSize none, 0⟩

/-- `AttributeMap_GetNode` (attributemap.c:254-288); `hash` is `get_hash`. -/
def Map.get (w : Nat) (hash : K → Nat) (m : Map K V) (key : K) : Res (Option V) :=
  match getEntry w m.table (hash key) key with
  | none => .loops
  | some s => match m.table[s]? with
    | some (some e) => .ok (some e.val)
    | _ => .ok none

/-- The new `nm_used`: an occupied slot is replaced, a free one is filled (attributemap.c:318-334). -/
def usedAfter (m : Map K V) (s : Nat) : Nat :=
  match m.table[s]? with
  | some (some _) => m.used
  | _ => m.used + 1

/-- `AttributeMap_SetNode` (attributemap.c:290-340), `NamespaceMap_SetNode` (namespacemap.c:256-299);
the node carries the hash of its key. -/
def Map.set (w limit : Nat) (hash : K → Nat) (m : Map K V) (key : K) (v : V) : Res (Map K V) :=
  match getEntry w m.table (hash key) key with
  | none => .loops
  | some s =>
    let used := usedAfter m s
    let m' : Map K V := ⟨m.table.set s (some ⟨key, hash key, v⟩), used⟩
    if m'.used * 3 ≥ m'.table.length * 2 then resize w limit m' else .ok m'

/-- `AttributeMap_DelNode` (attributemap.c:342-395): the entry is just zeroed. `none`: no such entry
(AttributeError). -/
def Map.del (w : Nat) (hash : K → Nat) (m : Map K V) (key : K) : Option (Map K V) :=
  match getEntry w m.table (hash key) key with
  | none => none
  | some s => match m.table[s]? with
    | some (some _) => some ⟨m.table.set s none, m.used - 1⟩
    | _ => none

/-- `next_entry` (attributemap.c:119-134) called until it returns NULL; also the loops of `keys`,
`values`, `items` (attributemap.c:487-575): the entries in table order. -/
def Map.entries (m : Map K V) : List (Entry K V) := m.table.filterMap id

/-- `attributemap_length` (attributemap.c:663-667). -/
def Map.len (m : Map K V) : Nat := m.used

/-- A sequence of `setnode`s (or of assignments `M[key] = value`, which replace the value in the entry
that is found: attributemap.c:713-731). -/
def Map.sets (w limit : Nat) (hash : K → Nat) : Map K V → List (K × V) → Res (Map K V)
  | m, [] => .ok m
  | m, (k, v) :: rest => match m.set w limit hash k v with
    | .ok m' => m'.sets w limit hash rest
    | .noMemory => .noMemory
    | .loops => .loops

end Verif.Dom.Table
