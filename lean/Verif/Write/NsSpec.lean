import Verif.Write.XmlSpec

/-
Namespaces in XML 1.0: what a namespace-aware reader makes of the events of Verif.Write.XmlSpec.
Written from the Recommendation (third edition); bracketed numbers are its productions.
-/
namespace Verif.Write.Spec
open Verif

/-- An expanded name (2.1): a namespace name, or none, and a local name. -/
abbrev XName := Option UStr × UStr

/-- Events with expanded names.  Declarations are no attributes here. -/
inductive XEv
  | start (name : XName) (attrs : List (XName × UStr))
  | stop (name : XName)
  | char (c : Nat)
  | comment (s : UStr)
  | pi (target data : UStr)
  | doctype (name : UStr) (publicId systemId : Option UStr)
  deriving DecidableEq, Repr

/-- NCName [4]. -/
def ncName (n : UStr) : Bool := isName n && !n.contains 58

/-- QName [7]: prefix, if there is one, and local part. -/
def splitName (n : UStr) : Option (Option UStr × UStr) :=
  match n.dropWhile (· ≠ 58) with
  | [] => if ncName n then some (none, n) else none
  | _ :: l => if ncName (n.takeWhile (· ≠ 58)) && ncName l then some (some (n.takeWhile (· ≠ 58)), l) else none

/-- The namespace names of the prefixes `xml` and `xmlns` (3). -/
def xmlName : UStr := u!! "http://www.w3.org/XML/1998/namespace"
def xmlnsName : UStr := u!! "http://www.w3.org/2000/xmlns/"

/-- The declaration that an attribute makes [1]. -/
def declOf (a : UStr × UStr) : Option (Option UStr × UStr) :=
  match splitName a.1 with
  | some (none, l) => if l = u!! "xmlns" then some (none, a.2) else none
  | some (some p, l) => if p = u!! "xmlns" then some (some l, a.2) else none
  | none => none

/-- Namespace constraints: reserved prefixes and namespace names, no prefix undeclaring. -/
def legalBinding : Option UStr × UStr → Bool
  | (none, u) => u ≠ xmlName && u ≠ xmlnsName
  | (some p, u) => ncName p && p ≠ u!! "xmlns" && u ≠ [] && u ≠ xmlnsName && ((p = u!! "xml" : Bool) == (u = xmlName : Bool))

/-- The nearest declaration of a prefix; declarations of inner elements come first. -/
def nearest : List (Option UStr × UStr) → Option UStr → Option UStr
  | [], _ => none
  | (q, u) :: scope, p => if q = p then some u else nearest scope p

/-- The namespace of a prefix (6.1, 6.2): `some none` if there is none, `none` if the prefix is not
declared. -/
def namespaceOf (scope : List (Option UStr × UStr)) (p : Option UStr) : Option (Option UStr) :=
  match nearest scope p with
  | some u => if u = [] then (if p = none then some none else none) else some (some u)
  | none => if p = none then some none else if p = some (u!! "xml") then some (some xmlName) else none

/-- The expanded name of an element. -/
def expandElement (scope : List (Option UStr × UStr)) (n : UStr) : Option XName :=
  match splitName n with
  | none => none
  | some (p, l) => (namespaceOf scope p).map (·, l)

/-- The expanded name of an attribute; default declarations do not apply (6.2). -/
def expandAttr (scope : List (Option UStr × UStr)) (n : UStr) : Option XName :=
  match splitName n with
  | none => none
  | some (none, l) => some (none, l)
  | some (some p, l) => (namespaceOf scope (some p)).map (·, l)

/-- The attributes that are no declarations. -/
def expandAttrs (scope : List (Option UStr × UStr)) : List (UStr × UStr) → Option (List (XName × UStr))
  | [] => some []
  | a :: as => match expandAttrs scope as with
    | none => none
    | some ys => if (declOf a).isSome then some ys else (expandAttr scope a.1).map fun x => (x, a.2) :: ys

/-- A namespace-aware reader.  The stack has the declarations in scope of the open elements, innermost
first; no attribute appears twice (6.3). -/
def resolve : List (List (Option UStr × UStr)) → List Ev → Option (List XEv)
  | _, [] => some []
  | stack, .start n as :: es =>
    let scope := as.filterMap declOf ++ stack.headD []
    if (as.filterMap declOf).all legalBinding then
      match expandElement scope n, expandAttrs scope as with
      | some x, some ys => if (ys.map (·.1)).Nodup then (resolve (scope :: stack) es).map (.start x ys :: ·) else none
      | _, _ => none
    else none
  | stack, .stop n :: es => match expandElement (stack.headD []) n with
    | some x => (resolve stack.tail es).map (.stop x :: ·)
    | none => none
  | stack, .char c :: es => (resolve stack es).map (.char c :: ·)
  | stack, .comment s :: es => (resolve stack es).map (.comment s :: ·)
  | stack, .pi t d :: es => (resolve stack es).map (.pi t d :: ·)
  | stack, .doctype n p s :: es => (resolve stack es).map (.doctype n p s :: ·)

/-- The same event, but the attributes may be in another order. -/
inductive SameXEv : XEv → XEv → Prop
  | start (n : XName) (as bs : List (XName × UStr)) : as.Perm bs → SameXEv (.start n as) (.start n bs)
  | refl (e : XEv) : SameXEv e e

/-- The same sequence of events. -/
inductive SameXEvs : List XEv → List XEv → Prop
  | nil : SameXEvs [] []
  | cons {a b : XEv} {as bs : List XEv} : SameXEv a b → SameXEvs as bs → SameXEvs (a :: as) (b :: bs)

/-! Sanity checks -/

example : resolve [] [.start (u!! "a") [(u!! "xmlns", u!! "urn:x"), (u!! "b", u!! "1"), (u!! "p:c", u!! "2"), (u!! "xmlns:p", u!! "urn:y")],
    .start (u!! "p:d") [(u!! "xmlns", [])], .start (u!! "e") [], .stop (u!! "e"), .stop (u!! "p:d"), .stop (u!! "a")] =
    some [.start (some (u!! "urn:x"), u!! "a") [((none, u!! "b"), u!! "1"), ((some (u!! "urn:y"), u!! "c"), u!! "2")],
      .start (some (u!! "urn:y"), u!! "d") [], .start (none, u!! "e") [], .stop (none, u!! "e"),
      .stop (some (u!! "urn:y"), u!! "d"), .stop (some (u!! "urn:x"), u!! "a")] := by decide +kernel
example : resolve [] [.start (u!! "p:a") [], .stop (u!! "p:a")] = none := by decide +kernel
example : resolve [] [.start (u!! "a") [(u!! "xmlns:p", u!! "u"), (u!! "xmlns:q", u!! "u"), (u!! "p:b", []), (u!! "q:b", [])],
    .stop (u!! "a")] = none := by decide +kernel
example : resolve [] [.start (u!! "a") [(u!! "xml:lang", u!! "en")], .stop (u!! "a")] =
    some [.start (none, u!! "a") [((some xmlName, u!! "lang"), u!! "en")], .stop (none, u!! "a")] := by decide +kernel
example : resolve [] [.start (u!! "a:b:c") [], .stop (u!! "a:b:c")] = none := by decide +kernel

end Verif.Write.Spec
