import Verif.Dom.Heap
import Verif.Iri.Model

/-
`xml_base` (lib/src/domlette/node.c:434-510).
-/
namespace Verif.Dom
open Verif

/-- The result of `xml_base`: a URI or `None`; an exception of `absolutize`; an endless loop. -/
inductive BaseRes | uri (b : Option Str) | raised (e : Iri.Err) | loops
  deriving DecidableEq

/-- `get_base_uri` (node.c:434-510).  `xmlBase` gives the values of `xml:base` attributes, `docUri` the
URIs of entities.  The `while` loop and the recursive call both go on with the parent. -/
def baseUri (h : Heap) (xmlBase : NodeId → Option Str) (docUri : NodeId → Str) : Nat → NodeId → BaseRes
  | 0, _ => .loops
  | fuel + 1, n => match h.parent n with
    | some p =>
      match (if h.kind n = .element then xmlBase n else none) with
      | some base =>
        if Iri.isAbsolute base then .uri (some base)
        else match baseUri h xmlBase docUri fuel p with
          | .uri (some b) => match Iri.absolutize base b with
            | .ok r => .uri (some r)
            | .error e => .raised e
          | r => r
      | none => baseUri h xmlBase docUri fuel p
    | none =>
      if h.kind n = .entity then
        if Iri.isAbsolute (docUri n) then .uri (some (docUri n)) else .uri none
      else .uri none

/-- `node.xml_base`. -/
def getBase (h : Heap) (xmlBase : NodeId → Option Str) (docUri : NodeId → Str) (n : NodeId) : BaseRes :=
  baseUri h xmlBase docUri (h.size + 1) n

end Verif.Dom
