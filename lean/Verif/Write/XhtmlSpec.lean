import Verif.Write.Xhtml
import Verif.Write.Spec
import Verif.Write.HtmlSpec
/-
What an XML reader should find in XHTML output, and which documents the printer cannot write so.
-/
namespace Verif.Write.Xhtml.Spec
open Verif Verif.Write Verif.Write.Spec

/-- The call without the namespace, as for an XML printer. -/
def plain : XCall → Call
  | .startDocument sa => .startDocument sa
  | .endDocument => .endDocument
  | .doctype n pub sys => .doctype n pub sys
  | .start _ n ds as => .startElement n ds as
  | .stop _ n => .endElement n
  | .text s => .text s
  | .rawText s => .rawText s
  | .cdata s => .cdata s
  | .pi t d => .pi t d
  | .comment s => .comment s

/-- The elements of XHTML whose content model is EMPTY (XHTML 1.0, appendix A; `isindex`, `basefont`
and `frame` in the transitional and frameset ones). -/
def isVoid (n : UStr) : Bool :=
  [u!! "base", u!! "meta", u!! "link", u!! "hr", u!! "br", u!! "param", u!! "img", u!! "area", u!! "input", u!! "col",
   u!! "basefont", u!! "isindex", u!! "frame"].contains n

/-- The attributes of XHTML elements that are URIs, lists of URIs or fragment identifiers (`name` of `a`), and
the ones that HTML 4 reserves for URIs (`datasrc`, `for` of `script`). -/
def isUri (element attr : UStr) : Bool :=
  [(u!! "a", u!! "href"), (u!! "a", u!! "name"), (u!! "applet", u!! "codebase"), (u!! "area", u!! "href"),
   (u!! "base", u!! "href"), (u!! "blockquote", u!! "cite"), (u!! "body", u!! "background"), (u!! "button", u!! "datasrc"),
   (u!! "del", u!! "cite"), (u!! "div", u!! "datasrc"), (u!! "form", u!! "action"), (u!! "frame", u!! "longdesc"),
   (u!! "frame", u!! "src"), (u!! "head", u!! "profile"), (u!! "iframe", u!! "longdesc"), (u!! "iframe", u!! "src"),
   (u!! "img", u!! "longdesc"), (u!! "img", u!! "src"), (u!! "img", u!! "usemap"), (u!! "input", u!! "datasrc"),
   (u!! "input", u!! "src"), (u!! "input", u!! "usemap"), (u!! "ins", u!! "cite"), (u!! "link", u!! "href"),
   (u!! "object", u!! "archive"), (u!! "object", u!! "classid"), (u!! "object", u!! "codebase"),
   (u!! "object", u!! "data"), (u!! "object", u!! "datasrc"), (u!! "object", u!! "usemap"), (u!! "q", u!! "cite"),
   (u!! "script", u!! "for"), (u!! "script", u!! "src"), (u!! "select", u!! "datasrc"), (u!! "span", u!! "datasrc"),
   (u!! "table", u!! "datasrc"), (u!! "textarea", u!! "datasrc")].contains (element, attr)

/-- The namespace of XHTML. -/
def isXhtml (ns : Option UStr) : Bool := ns == some (u!! "http://www.w3.org/1999/xhtml")

/-- What should be found for an attribute: in the URIs of XHTML elements non-ASCII characters are escaped, and all
other values are as they were. -/
def WantAttr (ns : Option UStr) (element : UStr) (a b : UStr × UStr) : Prop :=
  b.1 = a.1 ∧ if isXhtml ns && isUri element a.1 then Html.Spec.EscapesTo a.2 b.2 else b.2 = a.2

/-- The same for all attributes of an element. -/
inductive WantAttrs (ns : Option UStr) (element : UStr) : List (UStr × UStr) → List (UStr × UStr) → Prop
  | nil : WantAttrs ns element [] []
  | cons {a b as bs} : WantAttr ns element a b → WantAttrs ns element as bs →
      WantAttrs ns element (a :: as) (b :: bs)

/-- What should be found for a sequence of calls. -/
inductive Wanted : List XCall → List Ev → Prop
  | nil : Wanted [] []
  | start {ns n ds as bs cs es} : WantAttrs ns n as bs → Wanted cs es →
      Wanted (.start ns n ds as :: cs) (.start n (ds.map (fun d => (declName d.1, d.2)) ++ bs) :: es)
  | other {c cs es} : (∀ ns n ds as, c ≠ .start ns n ds as) → Wanted cs es →
      Wanted (c :: cs) (expected (plain c) ++ es)

/-- The characters that XHTML 1.0 has names for, other than those of XML (appendix A.2). -/
def hasName (c : Nat) : Bool :=
  (0xA0 ≤ c && c ≤ 0xFF) || (Html.Spec.entities.any fun e => e.2 == c && 0xFF < c)

/-- A value that the printer writes so that an XML reader can read it without a DTD. -/
def GoodValue (s : UStr) : Prop := ∀ c ∈ s, c ≠ 60 ∧ hasName c = false

/-- A call without what the printer does not write correctly: characters with names, for which the reader would have
to know the DTD, and `<` in values. -/
def GoodCall : XCall → Prop
  | .start ns n ds as => (∀ d ∈ ds, GoodValue d.2) ∧
      ∀ a ∈ as, 60 ∉ a.2 ∧ (GoodValue a.2 ∨ (isXhtml ns && isUri n a.1) = true)
  | .text s => ∀ c ∈ s, hasName c = false
  | _ => True

/-- No start of an element is followed at once by the end of an XHTML element without content model. -/
def NoVoid : List XCall → Prop
  | [] => True
  | .start _ _ _ _ :: .stop ns n :: cs => (isXhtml ns && isVoid n) = false ∧ NoVoid (.stop ns n :: cs)
  | _ :: cs => NoVoid cs

end Verif.Write.Xhtml.Spec
