import Verif.Py
/-
`trim_word_count` (lib/lib/util.py:190-225).
-/
namespace Verif.Util.Trim
open Verif

/-- A node: a document or element with its tag (name, attributes and namespaces, which `copy` keeps), a text, or
a comment or processing instruction. -/
inductive Node where
  | branch (tag : Str) (kids : List Node)
  | text (s : Str)
  | leaf (s : Str)

/-- `unicode.isspace`. -/
def isSpace (c : Char) : Bool :=
  (9 ≤ c.val && c.val ≤ 13) || (28 ≤ c.val && c.val ≤ 32) || c.val == 0x85 || c.val == 0xA0 || c.val == 0x1680 ||
    c.val == 0x180E || (0x2000 ≤ c.val && c.val ≤ 0x200A) || c.val == 0x2028 || c.val == 0x2029 || c.val == 0x202F ||
    c.val == 0x205F || c.val == 0x3000

/-- A word that has ended, given in reverse. -/
def flush (cur : Str) : List Str := if cur = [] then [] else [cur.reverse]

/-- `s.split()`; `cur` is the word so far, in reverse. -/
def splitFrom : Str → Str → List Str
  | cur, [] => flush cur
  | cur, c :: s => if isSpace c then flush cur ++ splitFrom [] s else splitFrom (c :: cur) s

def split (s : Str) : List Str := splitFrom [] s

/-- What is left of a reversed string after `k` words have been taken from it, without the space at its end. -/
def rest : Nat → Str → Str
  | 0, r => r.dropWhile isSpace
  | k + 1, r => rest k ((r.dropWhile isSpace).dropWhile fun c => !isSpace c)

/-- `s.rsplit(None, k)[0]`; `none`: IndexError. -/
def rsplit0 (s : Str) (k : Nat) : Option Str :=
  if rest k s.reverse = [] then (split s).head? else some (rest k s.reverse).reverse

mutual
/-- What a node adds to the text of its parent: that of comments and processing instructions does not count. -/
def part : Node → Str
  | .branch _ ks => inner ks
  | .text s => s
  | .leaf _ => []
/-- The text in a list of children. -/
def inner : List Node → Str
  | [] => []
  | k :: ks => part k ++ inner ks
end

/-- `child.xml_select(u'string(.)')` (util.py:211). -/
def Node.value : Node → Str
  | .leaf s => s
  | k => part k

inductive Err where
  /-- AttributeError: comments and processing instructions have no `xml_children`. -/
  | attribute
  | index
  deriving DecidableEq, Repr

mutual
/-- The child that reaches the limit (util.py:215-222). -/
def cut (max : Int) (count : Int) : Node → Except Err Node
  | .text s => match rsplit0 s ((split s).length - (max - count)).toNat with
    | some chunk => .ok (.text chunk)
    | none => .error .index
  | .branch t ks => match trimKids max count ks with
    | .ok l => .ok (.branch t l)
    | .error e => .error e
  | .leaf _ => .error .attribute
/-- The loop (util.py:208-223), where copies are the trees that they are copies of (C96). -/
def trimKids (max : Int) (count : Int) : List Node → Except Err (List Node)
  | [] => .ok []
  | k :: ks =>
    if max ≤ count then .ok []
    else if count + (split k.value).length < max then
      match trimKids max (count + (split k.value).length) ks with
      | .ok l => .ok (k :: l)
      | .error e => .error e
    else match cut max count k with
      | .ok k' => .ok [k']
      | .error e => .error e
end

/-- `trim` (util.py:206-224). -/
def trim (max : Int) (count : Int) : Node → Except Err Node
  | .branch t ks => match trimKids max count ks with
    | .ok l => .ok (.branch t l)
    | .error e => .error e
  | _ => .error .attribute

/-- `trim_word_count` (util.py:190-225). -/
def trimWordCount (n : Node) (max : Int) : Except Err Node := trim max 0 n

end Verif.Util.Trim
