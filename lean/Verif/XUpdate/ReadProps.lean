import Verif.XUpdate.ReadLemmas
/-
C89: an XUpdate request is refused at its first mistake in document order, and otherwise read as it is written.
-/
namespace Verif.XUpdate.Read
open Verif Verif.Content Verif.XUpdate.Read.Spec
open Verif.Write (UStr)

/-- Every document is refused with its first mistake, and if it has none, the commands and instructions are what the
document asks for: its elements in order, each with its attributes, the namespaces in scope and its content, without
white space.  (Documents with a `namespace` attribute on `xupdate:element` or `xupdate:attribute`, or a variable whose name
is not a QName, are excluded: `C89_refuted_namespace`, `C89_refuted_variable`.) -/
theorem C89_read_partial (H : Hooks) (ns : Option UStr) (loc tag : UStr) (decls : Nss) (attrs : List Attr)
    (kids : List Doc) (hu : usual (.elem ns loc tag decls attrs kids) = true) :
    match mistake H .root (u!! "#document") outside (.elem ns loc tag decls attrs kids) with
    | some e => parse H (events (.elem ns loc tag decls attrs kids)) = .error e
    | none => ∃ i, items outside (.elem ns loc tag decls attrs kids) = [i] ∧
        parse H (events (.elem ns loc tag decls attrs kids)) = .ok i :=
  parse_spec H ns loc tag decls attrs kids hu

/-- A request is accepted exactly if there is no mistake in it. -/
theorem C89_accepted_partial (H : Hooks) (ns : Option UStr) (loc tag : UStr) (decls : Nss) (attrs : List Attr)
    (kids : List Doc) (hu : usual (.elem ns loc tag decls attrs kids) = true) :
    (∃ i, parse H (events (.elem ns loc tag decls attrs kids)) = .ok i) ↔
      mistake H .root (u!! "#document") outside (.elem ns loc tag decls attrs kids) = none := by
  have h := parse_spec H ns loc tag decls attrs kids hu
  cases hm : mistake H .root (u!! "#document") outside (.elem ns loc tag decls attrs kids) with
  | some e =>
    rw [hm] at h
    dsimp only at h
    rw [h]
    simp
  | none =>
    rw [hm] at h
    obtain ⟨i, _, h⟩ := h
    exact ⟨fun _ => rfl, fun _ => ⟨i, h⟩⟩

/-- The errors of `XUpdateError`. -/
def isXUpdateError : Err → Bool
  | .attributeError | .typeError | .indexError => false
  | _ => true

theorem need_error {tag : UStr} {attrs : List Attr} {n : UStr} {bad : UStr → Option Err} {e : Err}
    (hb : ∀ v e, bad v = some e → isXUpdateError e = true) (h : need tag attrs n bad = some e) : isXUpdateError e = true := by
  rw [need] at h
  cases hv : value attrs n with
  | none => rw [hv] at h; cases h; rfl
  | some v => rw [hv] at h; exact hb v e h

theorem may_error {attrs : List Attr} {n : UStr} {bad : UStr → Option Err} {e : Err}
    (hb : ∀ v e, bad v = some e → isXUpdateError e = true) (h : may attrs n bad = some e) : isXUpdateError e = true := by
  rw [may] at h
  cases hv : value attrs n with
  | none => rw [hv] at h; cases h
  | some v => rw [hv] at h; exact hb v e h

theorem badExpr_error {H : Hooks} (v : UStr) (e : Err) (h : badExpr H v = some e) : isXUpdateError e = true := by
  rw [badExpr] at h; split at h <;> cases h; rfl
theorem badAvt_error {H : Hooks} (v : UStr) (e : Err) (h : badAvt H v = some e) : isXUpdateError e = true := by
  rw [badAvt] at h; split at h <;> cases h; rfl
theorem badPrefix_error {nss : Nss} (v : UStr) (e : Err) (h : badPrefix nss v = some e) : isXUpdateError e = true := by
  rw [badPrefix] at h
  split at h
  · split at h <;> cases h; rfl
  · cases h

theorem attrMistake_error {H : Hooks} {t : Tag} {tag : UStr} {nss : Nss} {attrs : List Attr} {e : Err}
    (h : attrMistake H t tag nss attrs = some e) : isXUpdateError e = true := by
  cases t <;> simp only [attrMistake, Option.or_eq_some_iff] at h
  all_goals first
    | exact need_error badExpr_error h
    | exact need_error badAvt_error h
    | cases h; done
    | (refine need_error ?_ h; intro v e h; split at h <;> cases h; rfl)
    | (rcases h with h | ⟨_, h⟩
       · first | exact need_error badExpr_error h | exact need_error badAvt_error h | exact need_error badPrefix_error h
       · first | exact may_error badExpr_error h | exact may_error badAvt_error h)

mutual
theorem mistake_error {H : Hooks} : ∀ (d : Doc) (p : Place) (parent : UStr) (nss : Nss) (e : Err),
    mistake H p parent nss d = some e → isXUpdateError e = true
  | .other, _, _, _, _, h => by rw [mistake] at h; cases h
  | .text s, p, parent, nss, e, h => by
    rw [mistake] at h
    split at h <;> cases h; rfl
  | .elem ns loc tag decls attrs kids, p, parent, nss, e, h => by
    rw [mistake] at h
    split at h
    · split at h
      · cases h; rfl
      · simp only [Option.or_eq_some_iff] at h
        rcases h with h | ⟨_, h | ⟨_, h⟩⟩
        · exact attrMistake_error h
        · split at h <;> cases h; rfl
        · exact mistakes_error kids _ _ _ e h
    · simp only [Option.or_eq_some_iff] at h
      rcases h with h | ⟨_, h⟩
      · split at h <;> cases h; rfl
      · exact mistakes_error kids _ _ _ e h
theorem mistakes_error {H : Hooks} : ∀ (ds : List Doc) (p : Place) (parent : UStr) (nss : Nss) (e : Err),
    mistakes H p parent nss ds = some e → isXUpdateError e = true
  | [], _, _, _, _, h => by rw [mistakes] at h; cases h
  | d :: ds, p, parent, nss, e, h => by
    rw [mistakes, Option.or_eq_some_iff] at h
    rcases h with h | ⟨_, h⟩
    · exact mistake_error d p parent nss e h
    · exact mistakes_error ds p parent nss e h
end

/-- Whatever is wrong with a request, what is raised is an XUpdateError. -/
theorem C89_error_partial (H : Hooks) (ns : Option UStr) (loc tag : UStr) (decls : Nss) (attrs : List Attr)
    (kids : List Doc) (hu : usual (.elem ns loc tag decls attrs kids) = true) (e : Err)
    (he : parse H (events (.elem ns loc tag decls attrs kids)) = .error e) : isXUpdateError e = true := by
  have h := parse_spec H ns loc tag decls attrs kids hu
  cases hm : mistake H .root (u!! "#document") outside (.elem ns loc tag decls attrs kids) with
  | some x =>
    rw [hm] at h
    dsimp only at h
    rw [h] at he
    cases he
    exact mistake_error _ _ _ _ _ hm
  | none =>
    rw [hm] at h
    obtain ⟨i, _, h⟩ := h
    rw [h] at he
    cases he

/-! ### Cases -/

namespace Sample
/-- Everything can be parsed. -/
def H : Hooks := ⟨fun _ => true, fun _ => true⟩
/-- Expressions with `!` cannot be parsed. -/
def H1 : Hooks := ⟨fun v => !v.contains 33, fun _ => true⟩
def a (n v : UStr) : Attr := ⟨none, n, n, v⟩
def xu (loc : UStr) (attrs : List Attr) (kids : List Doc) : Doc := .elem (some xupdateNs) loc (u!! "x:" ++ loc) [] attrs kids
def request (kids : List Doc) : Doc :=
  .elem (some xupdateNs) (u!! "modifications") (u!! "x:modifications") [(some (u!! "x"), some xupdateNs)]
    [a (u!! "version") (u!! "1.0")] kids
def nss : Nss := (some (u!! "x"), some xupdateNs) :: outside
/-- An append with an element, text and a comment in it. -/
def good : Doc := request [.text (u!! " "), xu (u!! "append") [a (u!! "select") (u!! "/a")]
  [.text (u!! " "), xu (u!! "element") [a (u!! "name") (u!! "b")] [.text (u!! "c"), .other, .text (u!! "d")],
   .elem none (u!! "e") (u!! "e") [] [a (u!! "f") (u!! "g")] []]]
end Sample
open Sample

example : usual good = true ∧ mistake H .root (u!! "#document") outside good = none := by decide +kernel
example : parse H (events good) = .ok (.node .modifications [.node (.append nss (u!! "/a") none)
    [.node (.element nss (u!! "b")) [.text (u!! "c"), .text (u!! "d")],
     .node (.literal (u!! "e") none [(none, u!! "f", u!! "g")]) []]]) := by rfl
/-- Mistakes: an expression, a place, an attribute, text. -/
example : mistake H1 .root (u!! "#document") outside (request [xu (u!! "remove") [a (u!! "select") (u!! "!")] []]) =
    some (.badSyntax (u!! "!")) := by decide +kernel
example : mistake H .root (u!! "#document") outside (request [xu (u!! "update") [a (u!! "select") (u!! "/a")]
    [xu (u!! "element") [a (u!! "name") (u!! "b")] []]]) =
    some (.illegalChild (u!! "x:update") (u!! "x:element")) := by decide +kernel
example : mistake H .root (u!! "#document") outside (request [xu (u!! "update") [] []]) =
    some (.missing (u!! "x:update") (u!! "select")) := by decide +kernel
example : mistake H .root (u!! "#document") outside (request [.text (u!! "a")]) =
    some (.invalidText (u!! "x:modifications")) := by decide +kernel

/-- `<xupdate:element name="b" namespace="urn:c"/>` is as XUpdate says, and reading it is a TypeError:
`namespace_avt` is called with one argument of two. -/
theorem C89_refuted_namespace :
    mistake H .root (u!! "#document") outside (request [xu (u!! "append") [a (u!! "select") (u!! "/a")]
      [xu (u!! "element") [a (u!! "name") (u!! "b"), a (u!! "namespace") (u!! "urn:c")] []]]) = none ∧
    parse H (events (request [xu (u!! "append") [a (u!! "select") (u!! "/a")]
      [xu (u!! "element") [a (u!! "name") (u!! "b"), a (u!! "namespace") (u!! "urn:c")] []]])) = .error .typeError :=
  ⟨by decide +kernel, by rfl⟩

/-- A variable with a name that is not one raises AttributeError instead of an XUpdateError: there is no
`XUpdateError.INVALID_QNAME_ATTR`. -/
theorem C89_refuted_variable :
    parse H (events (request [xu (u!! "variable") [a (u!! "name") (u!! "1")] []])) = .error .attributeError := by rfl

/-- Text of a no-break space is taken for white space and dropped. -/
theorem C89_refuted_space :
    parse H (events (request [xu (u!! "append") [a (u!! "select") (u!! "/a")] [.text [0xA0]]])) =
      .ok (.node .modifications [.node (.append nss (u!! "/a") none) []]) := by rfl

/-- Elements of other namespaces are accepted among the commands, where they are no commands. -/
theorem C89_refuted_toplevel :
    parse H (events (request [.elem none (u!! "remove") (u!! "remove") [] [a (u!! "select") (u!! "/a")] []])) =
      .ok (.node .modifications [.node (.literal (u!! "remove") none [(none, u!! "select", u!! "/a")]) []]) := by rfl

end Verif.XUpdate.Read
