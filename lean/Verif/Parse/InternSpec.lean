import Verif.Parse.Intern

/-
What a user of the parser expects of strings and names.
-/
namespace Verif.Parse.Intern.Spec
open Verif.Parse.Intern

/-- A name in a document, with the namespace that it is in: without a namespace, in the default namespace, or with a
prefix. -/
inductive XName
  | plain (loc : UStr)
  | default (uri loc : UStr)
  | prefixed (uri loc pfx : UStr)

/-- U+000C, which cannot occur in a document. -/
def formFeed : Nat := 12

/-- Parts of names and namespaces have no U+000C, and there is no empty prefix. -/
def XName.Legal : XName → Prop
  | .plain loc => formFeed ∉ loc
  | .default uri loc => formFeed ∉ uri ∧ formFeed ∉ loc
  | .prefixed uri loc pfx => formFeed ∉ uri ∧ formFeed ∉ loc ∧ pfx ≠ []

/-- How expat reports it, after `XML_ParserCreateNS` with U+000C and `XML_SetReturnNSTriplet`. -/
def XName.reported : XName → UStr
  | .plain loc => loc
  | .default uri loc => uri ++ [formFeed] ++ loc
  | .prefixed uri loc pfx => uri ++ [formFeed] ++ loc ++ [formFeed] ++ pfx

def XName.namespace : XName → Option UStr
  | .plain _ => none
  | .default uri _ => some uri
  | .prefixed uri _ _ => some uri

def XName.localName : XName → UStr
  | .plain loc => loc
  | .default _ loc => loc
  | .prefixed _ loc _ => loc

/-- The name as it is written in the document. -/
def XName.written : XName → UStr
  | .plain loc => loc
  | .default _ loc => loc
  | .prefixed _ loc pfx => pfx ++ [58] ++ loc

/-- The answer has the contents that were asked for. -/
def Right : Request → Answer → Prop
  | .text str _, .text o => o.text = str
  | .name triplet, .name n => ∀ x : XName, x.Legal → triplet = x.reported →
      n.namespaceURI.map (fun o => o.text) = x.namespace ∧ n.localName.text = x.localName ∧
      n.qualifiedName.text = x.written
  | _, _ => False

/-- Two requests are for the same: the same name, or the same string.  An empty string counts only if the character
that follows it in memory is the same, as for all strings that end with NUL. -/
def Same : Request → Request → Prop
  | .text s a, .text t b => s = t ∧ (s ≠ [] ∨ a = b)
  | .name s, .name t => s = t
  | _, _ => False

/-- The number of strings that a request may add. -/
def Small (requests : List Request) : Prop := requests.length * 2 < 2 ^ 29

end Verif.Parse.Intern.Spec
