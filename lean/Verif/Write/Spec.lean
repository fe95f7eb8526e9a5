import Verif.Write.Printer
import Verif.Write.XmlSpec

/-
What the printers are expected to write, in terms of what an XML processor reads (Verif.Write.XmlSpec).
-/
namespace Verif.Write.Spec
open Verif

/-! Encodings -/

/-- The encoder works character by character: a string can be encoded if all its characters can, and its
encoding is theirs, one after the other. -/
structure Charwise (enc : Codec) : Prop where
  nil : enc [] = some []
  cons : ∀ c s, enc (c :: s) = match enc [c], enc s with
    | some a, some b => some (a ++ b)
    | _, _ => none

/-- An encoding that agrees with ASCII, such as UTF-8, ISO 8859-1 or Shift-JIS. -/
def AsciiSuperset (enc : Codec) : Prop := ∀ c < 128, enc [c] = some [c]

/-- An encoding that has all characters and does not write one byte for every ASCII character, such as
UTF-16. -/
def Wide (enc : Codec) : Prop :=
  (∀ c, enc [c] ≠ none) ∧ ∀ b, enc (List.range 128) = some b → b.length ≠ 128

/-- An encoding that the stream supports. -/
def Usable (enc : Codec) : Prop := Charwise enc ∧ (AsciiSuperset enc ∨ Wide enc)

/-- `dec` reads what `enc` writes. -/
def Inverse (dec : Bytes → Option UStr) (enc : Codec) : Prop :=
  ∀ s b, (∀ c ∈ s, Legal c) → enc s = some b → dec b = some s

/-- A string all of whose characters have an encoding. -/
def Encodable (enc : Codec) (s : UStr) : Prop := ∀ c ∈ s, enc [c] ≠ none

/-- Legal text: all characters are legal; in a narrow build of Python, which knows other characters only
as pairs of surrogates, they must be below U+10000. -/
def LegalText (wide : Bool) (s : UStr) : Prop := ∀ c ∈ s, Legal c ∧ (wide = true ∨ c < 0x10000)

/-! The calls of a printer -/

/-- The attribute that declares a namespace (Namespaces in XML, 3). -/
def declName : Option UStr → UStr
  | none | some [] => u!! "xmlns"
  | some p => u!! "xmlns:" ++ p

/-- What a reader should find after a call. -/
def expected : Call → List Ev
  | .startDocument _ | .endDocument => []
  | .doctype name (some (p :: ps)) (some (q :: qs)) => [.doctype name (some (p :: ps)) (some (q :: qs))]
  | .doctype name _ (some (q :: qs)) => [.doctype name none (some (q :: qs))]
  | .doctype _ _ _ => []
  | .startElement name nsdecls attrs => [.start name (nsdecls.map (fun d => (declName d.1, d.2)) ++ attrs)]
  | .endElement name => [.stop name]
  | .text s | .rawText s | .cdata s => s.map .char
  | .pi target data => [.pi target data]
  | .comment s => [.comment s]

/-- The same for a sequence of calls. -/
def events (cs : List Call) : List Ev := cs.flatMap expected

/-- The same event, but the attributes may be in another order. -/
inductive SameEv : Ev → Ev → Prop
  | start (n : UStr) (as bs : List (UStr × UStr)) : as.Perm bs → SameEv (.start n as) (.start n bs)
  | refl (e : Ev) : SameEv e e

/-- The same sequence of events. -/
inductive SameEvs : List Ev → List Ev → Prop
  | nil : SameEvs [] []
  | cons {a b : Ev} {as bs : List Ev} : SameEv a b → SameEvs as bs → SameEvs (a :: as) (b :: bs)

/-- `t` occurs in `s`. -/
def Occurs (t s : UStr) : Prop := ∃ a b, s = a ++ t ++ b

/-- Characters that markup can contain as they are: legal, and no carriage return, which end-of-line
handling would change. -/
def Raw (s : UStr) : Prop := ∀ c ∈ s, Legal c ∧ c ≠ 13

/-- What may be passed to a printer for content: names and data that XML can express. -/
def LegalCall (wide : Bool) : Call → Prop
  | .startDocument _ | .endDocument | .doctype _ _ _ | .rawText _ => False
  | .startElement name nsdecls attrs =>
    isName name ∧
    (∀ d ∈ nsdecls, isName (declName d.1) ∧ LegalText wide d.2) ∧
    (∀ a ∈ attrs, isName a.1 ∧ LegalText wide a.2) ∧
    (nsdecls.map (fun d => declName d.1) ++ attrs.map (·.1)).Nodup
  | .endElement _ => True
  | .text s => LegalText wide s
  | .cdata s => Raw s
  | .pi target data => isName target ∧ isXml target = false ∧ Raw data ∧ ¬ Occurs (u!! "?>") data ∧
      ∀ c, data.head? = some c → space c = false
  | .comment s => Raw s ∧ ¬ Occurs (u!! "--") (s ++ u!! "-")

/-- A document type declaration that XML can express.  (The printer writes none without a system
identifier.) -/
def LegalDoctype : Call → Prop
  | .doctype name pub sys => isName name ∧ (∀ p, pub = some p → p.all pubidChar ∧ 13 ∉ p) ∧
      ∃ s, sys = some s ∧ s ≠ [] ∧ Raw s ∧ 34 ∉ s
  | _ => False

/-- Calls that make a document [1], after `start_document`: comments and processing instructions, at
most one document type declaration, one element, more comments and processing instructions, and possibly
`end_document`.  The phase and the names of the open elements tell how much there has been. -/
def DocCalls : Phase → List UStr → List Call → Prop
  | ph, o, [] => ph = .root ∧ o = []
  | ph, o, .startElement n _ _ :: cs => (o = [] → ph ≠ .root) ∧ DocCalls .root (n :: o) cs
  | ph, o, .endElement n :: cs => ∃ o', o = n :: o' ∧ DocCalls ph o' cs
  | ph, o, .text _ :: cs | ph, o, .cdata _ :: cs => o ≠ [] ∧ DocCalls ph o cs
  | ph, o, .pi _ _ :: cs | ph, o, .comment _ :: cs => DocCalls ph o cs
  | ph, o, .doctype _ _ _ :: cs => ph = .prolog ∧ o = [] ∧ DocCalls .afterDoctype [] cs
  | ph, o, .endDocument :: cs => ph = .root ∧ o = [] ∧ cs = []
  | _, _, .startDocument _ :: _ | _, _, .rawText _ :: _ => False

/-- Canonical XML has no document type declarations and no CDATA sections. -/
def CanonicalCall : Call → Prop
  | .doctype _ _ _ | .cdata _ => False
  | _ => True

/-- The strings that must have an encoding: names, and data that is written without escaping. -/
def Writable (enc : Codec) : Call → Prop
  | .startDocument _ | .endDocument | .text _ => True
  | .doctype name pub sys => Encodable enc name ∧ Encodable enc (pub.getD []) ∧ Encodable enc (sys.getD [])
  | .startElement name nsdecls attrs => Encodable enc name ∧
      (∀ d ∈ nsdecls, Encodable enc (declName d.1)) ∧ ∀ a ∈ attrs, Encodable enc a.1
  | .endElement name => Encodable enc name
  | .rawText s | .cdata s | .comment s => Encodable enc s
  | .pi target data => Encodable enc target ∧ Encodable enc data

end Verif.Write.Spec
