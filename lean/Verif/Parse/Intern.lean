/-
The tables in which the parser keeps the strings and names of a document: lib/src/expat/hash_table.c, and
`split_triplet`, `create_name` and the interning macros of lib/src/expat/expat.c (894-1039).

A string is a list of code units (XML_Char and Py_UNICODE are the same type in the builds that copy them unchanged).
A Python object is its identity with its contents; a new identity is taken from a counter.  `none` as the result of
an operation on tables stands for undefined behaviour or a loop that does not end: an access out of the bounds of a
table, or a probe that has tried every slot.  Not modelled: a failed allocation, and reference counts.
-/
namespace Verif.Parse.Intern

/-- A string of XML_Char. -/
abbrev UStr := List Nat

/-- `HashTableEntry` with a key (hash_table.h:11-16); the length is that of the key. -/
structure Entry (V : Type) where
  hash : Nat
  key : UStr
  value : V
  deriving DecidableEq, Repr

/-- `HashTable` (hash_table.h:18-29); a slot whose key is NULL is `none`.  `used` and `mask` are C ints: the theorems
show that they and what is computed from them stay below 2^31. -/
structure Table (V : Type) where
  used : Nat
  mask : Nat
  slots : List (Option (Entry V))
  deriving DecidableEq, Repr

/-- `HashTable_New` (hash_table.c:14-31). -/
def empty {V : Type} : Table V := { used := 0, mask := 64 - 1, slots := List.replicate 64 none }

/-- The hash value of the `len` characters at `str` (hash_table.c:127-131), in 64 bits; `after` is the character in
memory behind them, which is read instead of the first one if there is none. -/
def hashOf (str : UStr) (after : Nat) : Nat :=
  (str.foldl (fun (h c : Nat) => (1000003 * h % 2 ^ 64) ^^^ c) ((str.headD after) * 128)) ^^^ str.length

variable {V : Type}

/-- `CHECK_ENTRY` (hash_table.c:49-52). -/
def checkEntry (e : Entry V) (key : UStr) (hash : Nat) : Bool :=
  e.hash == hash && e.key.length == key.length && e.key.take key.length == key

/-- The loop of `lookup_entry` (hash_table.c:71-78), `i` and `perturb` in 32 bits. -/
def probe (mask : Nat) (slots : List (Option (Entry V))) (key : UStr) (hash : Nat) : Nat → Nat → Nat → Option Nat
  | 0, _, _ => none
  | fuel + 1, i, perturb =>
    let i := (i * 4 + i + perturb + 1) % 2 ^ 32
    match slots[i &&& mask]? with
    | none => none
    | some none => some (i &&& mask)
    | some (some e) =>
      if checkEntry e key hash then some (i &&& mask)
      else probe mask slots key hash fuel i (perturb / 2 ^ 5)

/-- `lookup_entry` (hash_table.c:54-79): the index of the slot.  The loop of the code has no bound: after 7 rounds
`perturb` is 0, and a probe that finds nothing in `mask + 1` rounds more will find nothing later. -/
def lookupEntry (mask : Nat) (slots : List (Option (Entry V))) (key : UStr) (hash : Nat) : Option Nat :=
  match slots[hash &&& mask]? with
  | none => none
  | some none => some (hash &&& mask)
  | some (some e) =>
    if checkEntry e key hash then some (hash &&& mask)
    else probe mask slots key hash (7 + (mask + 1)) (hash &&& mask) (hash % 2 ^ 32)

/-- The loop of `table_resize` (hash_table.c:105-112): the counter and the old entries that are left. -/
def copyEntries (mask : Nat) : Nat → List (Option (Entry V)) → List (Option (Entry V)) → Option (List (Option (Entry V)))
  | 0, _, new => some new
  | _ + 1, [], _ => none
  | i + 1, none :: old, new => copyEntries mask (i + 1) old new
  | i + 1, some e :: old, new =>
    match lookupEntry mask new e.key e.hash with
    | none => none
    | some j => copyEntries mask i old (new.set j (some e))

/-- `table_resize` (hash_table.c:84-116). -/
def resize (t : Table V) : Option (Table V) :=
  let newsize := (t.mask + 1) * 4
  match copyEntries (newsize - 1) t.used t.slots (List.replicate newsize none) with
  | none => none
  | some new => some { used := t.used, mask := newsize - 1, slots := new }

/-- `HashTable_Lookup` (hash_table.c:118-168).  `build` is `buildvalue` with its effect on the rest of the state; it may
fail (`some (none, _)`). -/
def lookup {S : Type} (t : Table V) (str : UStr) (after : Nat) (build : S → Option (Option V × S)) (s : S) :
    Option (Option V × Table V × S) :=
  let hash := hashOf str after
  match lookupEntry t.mask t.slots str hash with
  | none => none
  | some j =>
    match t.slots[j]? with
    | none => none
    | some (some e) => some (some e.value, t, s)
    | some none =>
      match build s with
      | none => none
      | some (none, s) => some (none, t, s)
      | some (some value, s) =>
        let t : Table V := { t with slots := t.slots.set j (some ⟨hash, str, value⟩), used := t.used + 1 }
        if t.used * 3 ≥ (t.mask + 1) * 2 then
          match resize t with
          | none => none
          | some t => some (some value, t, s)
        else some (some value, t, s)

/-- `HashTable_Del` (hash_table.c:33-47): the entries that are freed. -/
def release : Nat → List (Option (Entry V)) → Option (List (Entry V))
  | 0, _ => some []
  | _ + 1, [] => none
  | used + 1, none :: slots => release (used + 1) slots
  | used + 1, some e :: slots => (release used slots).map (e :: ·)

/-! ## Strings and names -/

/-- A Python unicode object. -/
structure Obj where
  ident : Nat
  text : UStr
  deriving DecidableEq, Repr

/-- An `ExpatName`: a tuple object with its three items (expat.c:920-934). -/
structure Name where
  ident : Nat
  namespaceURI : Option Obj
  localName : Obj
  qualifiedName : Obj
  deriving DecidableEq, Repr

/-- The strings of a reader and the counter of identities. -/
structure Strings where
  table : Table Obj
  next : Nat
  deriving DecidableEq, Repr

/-- `XMLChar_DecodeSized` (hash_table.c:150): a new object. -/
def decode (str : UStr) (next : Nat) : Option (Option Obj × Nat) := some (some ⟨next, str⟩, next + 1)

/-- `LOOKUP_UNICODE` (expat.c:901-902). -/
def lookupUnicode (s : Strings) (str : UStr) (after : Nat) : Option (Option Obj × Strings) :=
  match lookup s.table str after (decode str) s.next with
  | none => none
  | some (o, table, next) => some (o, ⟨table, next⟩)

/-- `NAMESPACE_SEP` (expat.c:918). -/
def sep : Nat := 12

/-- The loops `for (i = start; i < len && triplet[i] != NAMESPACE_SEP; i++);` (expat.c:953, 978), from the characters
that are left. -/
def scan : UStr → Nat → Nat
  | [], i => i
  | c :: cs, i => if c = sep then i else scan cs (i + 1)

/-- `split_triplet` (expat.c:936-1014).  The name is created before the strings. -/
def splitTriplet (triplet : UStr) (s : Strings) : Option (Option Name × Strings) :=
  let ident := s.next
  let s : Strings := { s with next := s.next + 1 }
  let len := triplet.length
  let i := scan triplet 0
  if i = len then
    match lookupUnicode s triplet 0 with
    | none => none
    | some (none, s) => some (none, s)
    | some (some qualifiedName, s) => some (some ⟨ident, none, qualifiedName, qualifiedName⟩, s)
  else
    match lookupUnicode s (triplet.take i) (triplet.getD i 0) with
    | none => none
    | some (none, s) => some (none, s)
    | some (some namespaceURI, s) =>
      let i := i + 1
      let j := scan (triplet.drop i) i
      match lookupUnicode s ((triplet.drop i).take (j - i)) (triplet.getD j 0) with
      | none => none
      | some (none, s) => some (none, s)
      | some (some localName, s) =>
        let j := j + 1
        if j < len then
          let qualifiedName : Obj := ⟨s.next, triplet.drop j ++ [58] ++ localName.text⟩
          some (some ⟨ident, some namespaceURI, localName, qualifiedName⟩, { s with next := s.next + 1 })
        else some (some ⟨ident, some namespaceURI, localName, localName⟩, s)

/-- The two tables of an `ExpatReader` (expat.c:3928-3934). -/
structure Reader where
  names : Table Name
  strings : Strings
  deriving DecidableEq, Repr

/-- What the handlers of the reader ask for: a string (`XMLChar_DecodeInterned`, `XMLChar_DecodeSizedInterned`,
`intern_string`) with the character that follows it in memory, or a name (`create_name`). -/
inductive Request
  | text (str : UStr) (after : Nat)
  | name (triplet : UStr)
  deriving DecidableEq, Repr

/-- What they get. -/
inductive Answer
  | text (o : Obj)
  | name (n : Name)
  | failed
  deriving DecidableEq, Repr

/-- The tables of a new reader (expat.c:3928-3934). -/
def start : Reader := ⟨empty, ⟨empty, 0⟩⟩

def textAnswer : Option Obj → Answer
  | some o => .text o
  | none => .failed

def nameAnswer : Option Name → Answer
  | some n => .name n
  | none => .failed

/-- One request (expat.c:901-907, 1016-1024). -/
def step (r : Reader) : Request → Option (Answer × Reader)
  | .text str after =>
    match lookupUnicode r.strings str after with
    | none => none
    | some (o, strings) => some (textAnswer o, { r with strings := strings })
  | .name triplet =>
    match lookup r.names triplet 0 (splitTriplet triplet) r.strings with
    | none => none
    | some (n, names, strings) => some (nameAnswer n, ⟨names, strings⟩)

/-- The requests of a document, one after another. -/
def run (r : Reader) : List Request → Option (List Answer × Reader)
  | [] => some ([], r)
  | q :: qs =>
    match step r q with
    | none => none
    | some (a, r) =>
      match run r qs with
      | none => none
      | some (as, r) => some (a :: as, r)

end Verif.Parse.Intern
