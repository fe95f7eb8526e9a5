import Verif.XUpdate.Inst
/-
What the content of a command stands for, told without writers: a list of pieces, and how pieces become attributes,
children, or a string.
-/
namespace Verif.XUpdate.Read.Spec
open Verif Verif.XUpdate.Read
open Verif.Write (UStr)
open Verif.Names (isQName isNCName splitQName)

/-- A piece of content: an attribute, some text, or another node. -/
inductive Piece
  | attr (a : OAttr)
  | text (s : UStr)
  | node (o : Out)

/-- Is this piece neither text nor attribute? -/
def Piece.isNode : Piece → Bool
  | .node _ => true
  | _ => false

def Piece.attr? : Piece → Option OAttr
  | .attr a => some a
  | _ => none

/-- Text as a node; there is no empty one. -/
def textNode (s : UStr) : List Out := if s = [] then [] else [.text s]

/-- The children: text that is adjacent is one node, attributes are none. -/
def childrenFrom (before : UStr) : List Piece → List Out
  | [] => textNode before
  | .attr _ :: l => childrenFrom before l
  | .text s :: l => childrenFrom (before ++ s) l
  | .node o :: l => textNode before ++ o :: childrenFrom [] l

def children (l : List Piece) : List Out := childrenFrom [] l

/-- The attributes are those before the first node; of two with the same name the later one counts. -/
def attributes (l : List Piece) : List OAttr :=
  ((l.takeWhile fun p => !p.isNode).filterMap Piece.attr?).foldl (fun as a => setAttr a as) []

/-- The attributes have the same name: namespace and local part. -/
def SameName (a b : OAttr) : Prop := a.ns = b.ns ∧ (splitQName a.qname).2 = (splitQName b.qname).2

mutual
/-- The text in a node: not that of comments and processing instructions. -/
def textIn : Out → UStr
  | .elem _ _ _ _ ks => textInAll ks
  | .text s => s
  | .pi _ _ => []
  | .comment _ => []
def textInAll : List Out → UStr
  | [] => []
  | o :: l => textIn o ++ textInAll l
end

/-- The string that pieces make: attributes do not contribute. -/
def string : List Piece → UStr
  | [] => []
  | .attr _ :: l => string l
  | .text s :: l => s ++ string l
  | .node o :: l => textIn o ++ string l

mutual
/-- A copy of a node: an element with its declarations, attributes and children; the children of a document. -/
def copied : Src → List Piece
  | .elem q ns d as ks =>
    let ps := as.map Piece.attr ++ copiedAll ks
    [.node (.elem q ns d (attributes ps) (children ps))]
  | .attr a => [.attr a]
  | .text s => [.text s]
  | .pi t d => [.node (.pi t d)]
  | .comment s => [.node (.comment s)]
  | .entity ks => copiedAll ks
  | .namespace _ _ => []
def copiedAll : List Src → List Piece
  | [] => []
  | s :: l => copied s ++ copiedAll l
end

/-- A name has to be one. -/
def checked (ok : UStr → Bool) : Except IErr UStr → Except IErr UStr
  | .ok n => if ok n then .ok n else .error .attributeError
  | .error e => .error e

/-- The namespace that the prefix of a name (or no prefix) is bound to. -/
def bound (nss : Nss) (name : UStr) : Except IErr (Option UStr) :=
  match (nss.filter fun x => x.1 = (splitQName name).1).head?, (splitQName name).1 with
  | some x, _ => .ok x.2
  | none, some (c :: p) => .error (.undefinedPrefix (c :: p))
  | none, _ => .error (.undefinedPrefix (u!! "#default"))

/-- The same for an attribute: without a prefix it is in no namespace. -/
def boundAttr (nss : Nss) (name : UStr) : Except IErr (Option UStr) :=
  match (splitQName name).1 with
  | some (_ :: _) => bound nss name
  | _ => .ok none

mutual
/-- The pieces that an instruction stands for; every expression has the namespaces of the element it is in. -/
def pieces (ev : Ev) : Item → Except IErr (List Piece)
  | .text s => .ok [.text s]
  | .node (.literal tag ns attrs) kids => do
    let ps ← piecesAll ev kids
    let ps := attrs.map (fun a => Piece.attr ⟨a.2.1, a.1, a.2.2⟩) ++ ps
    return [.node (.elem tag ns [] (attributes ps) (children ps))]
  | .node (.element nss name) kids => do
    let n ← checked isQName (ev.avt nss name)
    let ns ← bound nss n
    let ps ← piecesAll ev kids
    return [.node (.elem n ns [] (attributes ps) (children ps))]
  | .node (.attribute nss name) kids => do
    let n ← checked isQName (ev.avt nss name)
    let ns ← boundAttr nss n
    let ps ← piecesAll ev kids
    return [.attr ⟨n, ns, string ps⟩]
  | .node .text kids => do
    let ps ← piecesAll ev kids
    return [.text (string ps)]
  | .node (.pi nss name) kids => do
    let n ← checked isNCName (ev.avt nss name)
    let ps ← piecesAll ev kids
    return [.node (.pi n (string ps))]
  | .node .comment kids => do
    let ps ← piecesAll ev kids
    return [.node (.comment (string ps))]
  | .node (.valueOf nss sel) _ => do
    match ← ev.value nss sel with
    | .nodes l => return copiedAll l
    | .str s => return [.text s]
  | .node _ _ => .error .notImplemented
def piecesAll (ev : Ev) : List Item → Except IErr (List Piece)
  | [] => .ok []
  | i :: is => do
    let a ← pieces ev i
    let b ← piecesAll ev is
    return a ++ b
end

/-- One run of text, not white space. -/
def oneText : List Item → Bool
  | [.text _] => true
  | _ => false

mutual
/-- Every `xupdate:text` has one run of text in it. -/
def plain : Item → Bool
  | .text _ => true
  | .node h kids => (if h = .text then oneText kids else true) && plainAll kids
def plainAll : List Item → Bool
  | [] => true
  | i :: is => plain i && plainAll is
end

end Verif.XUpdate.Read.Spec
