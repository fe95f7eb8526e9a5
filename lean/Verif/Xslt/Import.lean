import Verif.Template.Select

/-
Reading a stylesheet with its imports and inclusions: `_combine_stylesheet` and the numbering of import precedences in
lib/xslt/reader/__init__.py, and what `transform_element.setup` makes of the top-level elements.

Simplifications: a URI reference stands for the URI it is resolved to; a document is given as its `xsl:import` elements
and the other top-level elements, which is the order that the content model enforces (transform_element.py:178-181).
-/
namespace Verif.Xslt
open Verif Verif.Template

/-- A top-level element other than `xsl:import`. -/
inductive Item (α : Type)
  | decl (x : α)
  | incl (uri : Str)

/-- A stylesheet document. -/
structure SheetDoc (α : Type) where
  imports : List Str
  items : List (Item α)

inductive ReadErr
  | notFound | circular
  deriving DecidableEq

/-- `none` is out of fuel. -/
abbrev ReadRes (α : Type) := Option (Except ReadErr (List (α × Nat) × Nat))

/-- Read something, then go on with the new `_import_index`. -/
def andThen {α : Type} (r : ReadRes α) (k : Nat → ReadRes α) : ReadRes α :=
  match r with
  | some (.ok (out, i)) => match k i with
    | some (.ok (out', i')) => some (.ok (out ++ out', i'))
    | r' => r'
  | r => r

/-- The `xsl:import` elements (`_combine_stylesheet`, lib/xslt/reader/__init__.py:664-697): afterwards the index is
increased.  `rd` reads another document, `visited` is `_visited_stylesheet_uris`. -/
def readImports {α : Type} (rd : Str → Nat → ReadRes α) (visited : List Str) : List Str → Nat → ReadRes α
  | [], i => some (.ok ([], i))
  | u :: us, i =>
    if u ∈ visited then some (.error .circular)
    else andThen (rd u i) fun i => readImports rd visited us (i + 1)

/-- The other elements: each gets the current index (startElementNS, 408); `xsl:include` as above, without the
increase. -/
def readItems {α : Type} (rd : Str → Nat → ReadRes α) (visited : List Str) : List (Item α) → Nat → ReadRes α
  | [], i => some (.ok ([], i))
  | .decl x :: its, i => andThen (some (.ok ([(x, i)], i))) fun i => readItems rd visited its i
  | .incl u :: its, i =>
    if u ∈ visited then some (.error .circular)
    else andThen (rd u i) fun i => readItems rd visited its i

/-- `parse` for the document with the URI (startDocument and endDocument, lib/xslt/reader/__init__.py:215-305): the
top-level elements with their `import_precedence`, in the order of `children` after `_merge`
(lib/xslt/src/xslt_element.c:144-173), and `_import_index`.  The URI is visited while the document is read. -/
def readSheet {α : Type} (files : Str → Option (SheetDoc α)) : Nat → List Str → Str → Nat → ReadRes α
  | 0, _, _, _ => none
  | fuel + 1, visited, uri, i => match files uri with
    | none => some (.error .notFound)
    | some m => andThen (readImports (readSheet files fuel (uri :: visited)) (uri :: visited) m.imports i) fun i =>
        readItems (readSheet files fuel (uri :: visited)) (uri :: visited) m.items i

/-! Top-level elements -/

/-- The check for global variables when they are read (endElementNS, 601-612): `_global_vars`, in the order of reading.
Simplification: this is a second pass. -/
def checkVars (seen : Name → Option Nat) : List (Name × Nat) → Bool
  | [] => true
  | (x, i) :: vs => match seen x with
    | some j => if i > j then checkVars (fun y => if y = x then some i else seen y) vs
                else if i = j then false
                else checkVars seen vs
    | none => checkVars (fun y => if y = x then some i else seen y) vs

/-- `setup`, "process the `xsl:param` and `xsl:variable` elements" (transform_element.py:337-349): the last element
with a name is kept. -/
def keepVars {β : Type} (name : β → Name) : List β → List β
  | [] => []
  | v :: vs => if vs.any (name · = name v) then keepVars name vs else v :: keepVars name vs

/-- `setup`, "process the `xsl:output` elements" (250-290), for one attribute: the last value given. -/
def outputParam {α β : Type} (get : α → Option β) : List α → Option β → Option β
  | [], cur => cur
  | x :: xs, cur => outputParam get xs (match get x with | some v => some v | none => cur)

/-- An `xsl:namespace-alias` with its precedence, after lookup of the prefixes. -/
structure Alias where
  sheetNs : Option Str
  resultNs : Option Str
  prec : Nat

/-- The loop over one group with the same precedence (314-327): `aliases` and `mapped`. -/
def aliasGroup : List Alias → (Option Str → Option (Option Str)) → (Option Str → Bool) →
    Option (Option Str → Option (Option Str))
  | [], al, _ => some al
  | a :: as, al, mapped => match al a.sheetNs with
    | none => aliasGroup as (fun n => if n = a.sheetNs then some a.resultNs else al n)
        (fun n => n = a.sheetNs || mapped n)
    | some _ => if mapped a.sheetNs then none else aliasGroup as al mapped

/-- `itertools.groupby` (313). -/
def groupRuns {α : Type} (key : α → Nat) : List α → List (List α)
  | [] => []
  | x :: xs => match groupRuns key xs with
    | (y :: ys) :: gs => if key x = key y then (x :: y :: ys) :: gs else [x] :: (y :: ys) :: gs
    | _ => [[x]]

/-- "process the `xsl:namespace-alias` elements" (309-330); `none` is the exception. -/
def aliases (l : List Alias) : Option (Option Str → Option (Option Str)) :=
  (groupRuns (·.prec) l.reverse).foldl (fun r g => r.bind fun al => aliasGroup g al fun _ => false)
    (some fun _ => none)

/-- "process the `xsl:attribute-set` elements" (333-335): the last one with the name. -/
def attributeSet {β : Type} (name : β → Name) (l : List β) (x : Name) : Option β := l.reverse.find? (name · = x)

/-- An `xsl:attribute-set`: the names in `use-attribute-sets`, and its own attributes. -/
structure AttrSet (β : Type) where
  uses : List Name
  own : List β

/-- `for name in self._use_attribute_sets` in `instantiate`. -/
def setLoop {β : Type} (inst : Name → Option (Except ReadErr (List β))) : List Name → Option (Except ReadErr (List β))
  | [] => some (.ok [])
  | x :: xs => match inst x with
    | some (.ok a) => match setLoop inst xs with
      | some (.ok b) => some (.ok (a ++ b))
      | r => r
    | r => r

/-- `attribute_set_element.instantiate` for the set with the name (declaration_elements.py:130-160): the attributes that
it adds.  `used` is a new list in each call (154), so the test for `CIRCULAR_ATTRIBUTE_SET` never fails.  `notFound` is
`UNDEFINED_ATTRIBUTE_SET`. -/
def instSet {β : Type} (sets : Name → Option (AttrSet β)) : Nat → Name → Option (Except ReadErr (List β))
  | 0, _ => none
  | fuel + 1, x => match sets x with
    | none => some (.error .notFound)
    | some s => match setLoop (instSet sets fuel) s.uses with
      | some (.ok a) => some (.ok (a ++ s.own))
      | r => r

end Verif.Xslt
