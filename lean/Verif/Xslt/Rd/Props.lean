import Verif.Xslt.Rd.History
/-
C85: a stylesheet is read as XSLT says: the theorems.
-/
namespace Verif.Xslt.Rd
open Verif.Write (UStr)
variable {N : Type}

/-- **C85.**  A stylesheet is accepted exactly if its elements, attributes, text and variables are as XSLT says
(`Spec.document`), and its tree is then the one of the document.  This is so after any stylesheets have been read in the
program, with or without success; these can only make unknown XSLT elements known as such (`seen`). -/
theorem C85_read (H : Hooks N) (hg : Good H) (hist : List Doc) (d : Doc) (hw : Spec.wf false d = true) :
    ∃ seen, (∀ l ∈ seen, ∃ h ∈ hist, l ∈ Spec.unknowns h) ∧
      read H (cacheAfter H hist []) d = Spec.document H seen d := by
  obtain ⟨seen, ha, hs⟩ := cacheAfter_keeps H (S := fun l => ∃ h ∈ hist, l ∈ Spec.unknowns h) hist [] (empty_holds _)
    (fun h hh l hl => ⟨h, hh, hl⟩)
  exact ⟨seen, hs, read_spec H hg _ seen ha d hw⟩

/-- **C85, history.**  What has been read before does not matter for a stylesheet without unknown XSLT elements. -/
theorem C85_history_partial (H : Hooks N) (hg : Good H) (hist : List Doc) (d : Doc) (hw : Spec.wf false d = true)
    (hu : Spec.unknowns d = []) : read H (cacheAfter H hist []) d = Spec.document H [] d := by
  obtain ⟨seen, _, h⟩ := C85_read H hg hist d hw
  rw [h, document_seen H d seen hu]

/-- **C85, history.**  Nor does it matter if nothing that has been read has an unknown XSLT element. -/
theorem C85_history_known_partial (H : Hooks N) (hg : Good H) (hist : List Doc) (d : Doc) (hw : Spec.wf false d = true)
    (hu : ∀ h ∈ hist, Spec.unknowns h = []) : read H (cacheAfter H hist []) d = Spec.document H [] d := by
  obtain ⟨seen, hs, h⟩ := C85_read H hg hist d hw
  cases seen with
  | nil => exact h
  | cons l s =>
    obtain ⟨x, hx, hl⟩ := hs l (.head _)
    rw [hu x hx] at hl; cases hl

/-! ### A concrete case -/

def splitSpaces : UStr → List UStr
  | [] => []
  | c :: cs => if c = 32 then [] :: splitSpaces cs else
    match splitSpaces cs with
    | [] => [[c]]
    | w :: ws => (c :: w) :: ws

/-- Numbers are in tenths; there is one extension element. -/
def demo : Hooks Nat where
  float v := if v = u!! "1.0" then some 10 else if v = u!! "1.1" then some 11 else if v = u!! "0" then some 0 else none
  one n := n = 10
  zero n := n = 0
  words v := (splitSpaces v).filter (· ≠ [])
  expression v := v ≠ []
  pattern v := v ≠ []
  avt _ := true
  ext n := if n = (some (u!! "urn:e"), u!! "go") then some (.template, some [(u!! "to", { type := .string, required := true })]) else none
  combine v := v = u!! "lib.xsl"

theorem demo_good : Good demo :=
  ⟨by decide, by decide, fun n x as h => by
    simp only [demo] at h
    split at h
    · cases h
      exact ⟨by decide, by decide⟩
    · cases h⟩

def x (l : UStr) : Name := (some xslNs, l)
def a (l v : UStr) : Name × UStr := ((none, l), v)
def xslDecl : Nss := [(some (u!! "xsl"), some xslNs), (some (u!! "e"), some (u!! "urn:e"))]
/-- A stylesheet with the version, other attributes and content. -/
def sheet (version : UStr) (more : List (Name × UStr)) (kids : List Doc) : Doc :=
  .elem (x (u!! "stylesheet")) xslDecl (a (u!! "version") version :: more) kids
def e (l : UStr) (attrs : List (Name × UStr)) (kids : List Doc) : Doc := .elem (x l) [] attrs kids
def lre (l : UStr) (attrs : List (Name × UStr)) (kids : List Doc) : Doc := .elem (none, l) [] attrs kids

/-- A stylesheet with a global variable, a template with a parameter and a local variable in an `xsl:if`, an extension
element and an included stylesheet. -/
def ordinary : Doc :=
  sheet (u!! "1.0") [a (u!! "extension-element-prefixes") (u!! "e")] [
    e (u!! "include") [a (u!! "href") (u!! "lib.xsl")] [],
    e (u!! "variable") [a (u!! "name") (u!! "v"), a (u!! "select") (u!! "1")] [],
    e (u!! "template") [a (u!! "match") (u!! "/")] [
      e (u!! "param") [a (u!! "name") (u!! "v")] [],
      lre (u!! "p") [a (u!! "class") (u!! "c")] [
        e (u!! "if") [a (u!! "test") (u!! "$v")] [
          e (u!! "variable") [a (u!! "name") (u!! "w")] [.text (u!! "7")],
          .elem (some (u!! "urn:e"), u!! "go") [] [a (u!! "to") (u!! "here")] [],
          .text (u!! "yes")]]]]

def mk (l : UStr) (kids : List Tree) : Tree := .elem (.xsl l) (x l) kids

mutual
/-- Whether two trees are the same. -/
def Tree.same : Tree → Tree → Bool
  | .elem k n ts, .elem k' n' ts' => k = k' && n = n' && Tree.sames ts ts'
  | .text s, .text s' => s = s'
  | .push, .push => true
  | .pop, .pop => true
  | _, _ => false
def Tree.sames : List Tree → List Tree → Bool
  | [], [] => true
  | t :: ts, t' :: ts' => Tree.same t t' && Tree.sames ts ts'
  | _, _ => false
end

/-- The hypotheses are met by a stylesheet with a history, and the tree is what is expected. -/
example : Spec.wf false ordinary = true ∧ Spec.unknowns ordinary = [] ∧
    (read demo (cacheAfter demo [sheet (u!! "1.1") [] [e (u!! "function") [] []], .text (u!! "junk")] []) ordinary).any (Tree.same
      (mk (u!! "stylesheet") [
        mk (u!! "include") [],
        mk (u!! "variable") [],
        mk (u!! "template") [.push,
          mk (u!! "param") [],
          .elem .literal (none, u!! "p") [
            mk (u!! "if") [.push,
              mk (u!! "variable") [.text (u!! "7")],
              .elem (.ext (some (u!! "urn:e"), u!! "go")) (some (u!! "urn:e"), u!! "go") [],
              .text (u!! "yes"),
              .pop]],
          .pop]])) = true := by decide +kernel

/-- Without the attribute that the extension element needs, with a variable that hides another, with `xsl:when` outside
`xsl:choose`, with `xsl:param` after text, with an attribute that is not known: rejected. -/
example : (read demo [] (sheet (u!! "1.0") [a (u!! "extension-element-prefixes") (u!! "e")]
      [e (u!! "template") [a (u!! "match") (u!! "/")] [.elem (some (u!! "urn:e"), u!! "go") [] [] []]])).isNone = true ∧
    (read demo [] (sheet (u!! "1.0") [] [e (u!! "template") [a (u!! "match") (u!! "/")] [
      e (u!! "variable") [a (u!! "name") (u!! "v")] [],
      lre (u!! "p") [] [e (u!! "variable") [a (u!! "name") (u!! "v")] []]]])).isNone = true ∧
    (read demo [] (sheet (u!! "1.0") [] [e (u!! "template") [a (u!! "match") (u!! "/")] [
      e (u!! "when") [a (u!! "test") (u!! "1")] []]])).isNone = true ∧
    (read demo [] (sheet (u!! "1.0") [] [e (u!! "template") [a (u!! "match") (u!! "/")] [
      .text (u!! "t"), e (u!! "param") [a (u!! "name") (u!! "v")] []]])).isNone = true ∧
    (read demo [] (sheet (u!! "1.0") [] [e (u!! "template") [a (u!! "match") (u!! "/"), a (u!! "as") (u!! "b")] []])).isNone = true := by
  decide +kernel

/-! ### What does not hold -/

/-- A stylesheet with an element that XSLT 1.0 does not define. -/
def withFunction (v : UStr) : Doc := sheet v [] [e (u!! "function") [] []]

/-- Whether a stylesheet is accepted depends on what other stylesheets have been read in the program: a version 1.0
stylesheet with an unknown XSLT element is rejected, but not after one of version 1.1 with this element has been read
(`_element_cache` is shared and keeps `undefined_xslt_element`). -/
theorem C85_refuted_history :
    (read demo (cacheAfter demo [] []) (withFunction (u!! "1.0"))).isNone = true ∧
    (read demo (cacheAfter demo [withFunction (u!! "1.1")] []) (withFunction (u!! "1.0"))).isSome = true := by
  decide +kernel

/-- What a second document does with a reader: whether it is accepted, and as a stylesheet of its own. -/
def second (r : Except (Err × Reader Nat) (Reader Nat × Read)) : Doc → Option Bool := fun d =>
  match readDoc demo d (match r with | .ok (rd, _) => rd | .error (_, rd) => rd) with
  | .ok (_, .sheet _) => some true
  | .ok (_, .merged _) => some false
  | .error _ => none

def empty1 : Doc := sheet (u!! "1.0") [] []
/-- An error on the second level, an error on the third level. -/
def bad1 : Doc := sheet (u!! "1.0") [] [e (u!! "when") [] []]
def bad2 : Doc := sheet (u!! "1.0") [] [e (u!! "template") [a (u!! "match") (u!! "/")] [e (u!! "when") [] []]]

/-- After an error in a stylesheet the reader (and the processor that has it) is not usable: the elements that were open
stay on its stack, and the next stylesheet is taken for one that is included. -/
theorem C85_refuted_after_error :
    second (.ok (Reader.new [], .sheet none)) empty1 = some true ∧
    second (readDoc demo empty1 (Reader.new [])) empty1 = some true ∧
    second (readDoc demo bad1 (Reader.new [])) empty1 = some false ∧
    second (readDoc demo bad2 (Reader.new [])) empty1 = some false := by
  decide +kernel

/-- A literal result element as a stylesheet. -/
def simple (v : UStr) : Doc := .elem (none, u!! "html") xslDecl [((some xslNs, u!! "version"), v)] []

/-- XSLT 2.3: a literal result element can be the whole stylesheet, but only of the first document that is read: if it
is included, imported or appended, it is an error. -/
theorem C85_refuted_simplified_second :
    second (.ok (Reader.new [], .sheet none)) (simple (u!! "1.0")) = some true ∧
    second (readDoc demo empty1 (Reader.new [])) (simple (u!! "1.0")) = none := by
  decide +kernel

/-- Version 0 of such a stylesheet is an error, although it is accepted as version of `xsl:stylesheet`. -/
theorem C85_refuted_version_zero :
    (read demo [] (simple (u!! "0"))).isNone = true ∧ (read demo [] (simple (u!! "1.1"))).isSome = true ∧
    (read demo [] (sheet (u!! "0") [] [])).isSome = true := by
  decide +kernel

/-- XSLT 2.5: when an unknown element is met in forwards-compatible mode, it and its content must be ignored (top level)
or its fallback be used (in a template).  The content of an unknown element must be a template here, so that a
stylesheet that uses `xsl:function` with its parameters is rejected. -/
theorem C85_refuted_forwards :
    (read demo [] (sheet (u!! "1.1") [] [e (u!! "function") [] [.text (u!! "t")]])).isSome = true ∧
    (read demo [] (sheet (u!! "1.1") [] [e (u!! "function") [] [e (u!! "param") [a (u!! "name") (u!! "p")] []]])).isNone = true := by
  decide +kernel

/-- XSLT 14.1: `xsl:extension-element-prefixes` on an element designates the namespace for the subtree rooted at this
element, which includes the element.  Here it is still a literal result element (it needs no `to`). -/
theorem C85_refuted_own_prefix :
    (read demo [] (sheet (u!! "1.0") [] [e (u!! "template") [a (u!! "match") (u!! "/")] [
      .elem (some (u!! "urn:e"), u!! "go") [] [((some xslNs, u!! "extension-element-prefixes"), u!! "e")] []]])).any
      (Tree.same (mk (u!! "stylesheet") [mk (u!! "template") [.elem .literal (some (u!! "urn:e"), u!! "go") []]])) = true := by
  decide +kernel

/-- A prefix that is excluded or of extensions may be `#default` although there is no default namespace (XSLT 7.1.1: an
error); elements in no namespace are then extension elements that are not implemented. -/
theorem C85_refuted_default_prefix :
    (read demo [] (sheet (u!! "1.0") [a (u!! "extension-element-prefixes") (u!! "#default")] [
      e (u!! "template") [a (u!! "match") (u!! "/")] [lre (u!! "p") [] []]])).any
      (Tree.same (mk (u!! "stylesheet") [mk (u!! "template") [.elem .undefinedExt (none, u!! "p") []]])) = true := by
  decide +kernel

/-- Characters of `xsl:decimal-format` may be the empty string. -/
theorem C85_refuted_empty_char :
    (read demo [] (sheet (u!! "1.0") [] [e (u!! "decimal-format") [a (u!! "decimal-separator") []] []])).isSome = true := by
  decide +kernel

/-- XSLT 10: `data-type` may be a qualified name that is not an NCName; it is an error here. -/
theorem C85_refuted_data_type :
    (read demo [] (sheet (u!! "1.0") [] [e (u!! "template") [a (u!! "match") (u!! "/")] [
      e (u!! "for-each") [a (u!! "select") (u!! "*")] [e (u!! "sort") [a (u!! "data-type") (u!! "e:date")] []]]])).isNone = true := by
  decide +kernel

/-- `Spec.wf` excludes `xsl:stylesheet` inside the document: there it is accepted inside an unknown extension element,
and then hides the stylesheet proper, so that the global variables that follow are taken for local ones. -/
theorem C85_refuted_nested :
    (read demo [] (sheet (u!! "1.0") [a (u!! "extension-element-prefixes") (u!! "e")] [
      .elem (some (u!! "urn:e"), u!! "other") [] [] [sheet (u!! "1.0") [] []],
      e (u!! "param") [a (u!! "name") (u!! "v")] []])).any (Tree.same
        (mk (u!! "stylesheet") [.push, .elem .undefinedExt (some (u!! "urn:e"), u!! "other") [mk (u!! "stylesheet") []],
          mk (u!! "param") [], .pop])) = true := by
  decide +kernel

end Verif.Xslt.Rd
