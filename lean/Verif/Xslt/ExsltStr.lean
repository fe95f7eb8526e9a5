import Verif.Py
import Verif.XPath.Num

/-
The EXSLT functions for strings (lib/xslt/exslt/strings.py).

Arguments are given by their values: the strings that `evaluate_as_string` returns, and so on.  What is
written to the tree writer is given by a list of events; the tree writer puts adjacent text together
(writers/src/treewriter.c).  A node that is no text node is a member of an arbitrary type `M`.
-/
namespace Verif.Xslt.ExsltStr
open Verif Verif.Py
open Verif.XPath (Dbl)

/-- The exceptions of Python that the functions raise. -/
inductive Err | nameError | valueError | overflowError
  deriving DecidableEq, Repr

/-! ## align, concat, padding -/

/-- Python's `s[:i]`. -/
def upTo (s : Str) (i : Int) : Str :=
  if i < 0 then s.take (s.length - i.natAbs) else s.take i.natAbs

/-- `align_function` (strings.py:16-45); `alignment` is `none` if there are two arguments. -/
def align (target padding : Str) (alignment : Option Str) : Str :=
  if target.length > padding.length then padding.length |> target.take
  else if alignment = some (s!! "right") then upTo padding (-(target.length : Int)) ++ target
  else if alignment = some (s!! "center") then
    let left := (padding.length - target.length) / 2
    let right := left + target.length
    padding.take left ++ target ++ padding.drop right
  else target ++ padding.drop target.length

/-- `concat_function` (strings.py:48-56). -/
def concat {N : Type} (string : N → Str) (nodes : List N) : Str := (nodes.map string).flatten

/-- Python's `int(x)` for a float. -/
def pyInt : Dbl → Except Err Int
  | .nan => .error .valueError
  | .pinf => .error .overflowError
  | .ninf => .error .overflowError
  | .nzero => .ok 0
  | .fin q => .ok (if 0 ≤ q then q.floor else q.ceil)

/-- Python's `s * n`. -/
def times (s : Str) : Nat → Str
  | 0 => []
  | n + 1 => s ++ times s n

/-- `padding_function` (strings.py:137-149); `chars` is `none` if there is one argument. -/
def padding (length : Dbl) (chars : Option Str) : Except Err Str :=
  match pyInt length with
  | .error e => .error e
  | .ok n =>
    let chars := chars.getD [' ']
    .ok (upTo (times chars n.toNat) n)

/-! ## decode-uri, encode-uri -/

/-- `decode_uri_function` (strings.py:59-81): the name `codecs` does not exist. -/
def decodeUri (_uri : Str) (_encoding : Option Str) : Except Err Str := .error .nameError

/-- `encode_uri_function` (strings.py:94-134): the name `codecs` does not exist. -/
def encodeUri (_uri : Str) (_escapeReserved : Bool) (_encoding : Option Str) : Except Err Str :=
  .error .nameError

/-! ## split and tokenize -/

/-- Put a character in front of the first string. -/
def onFirst (c : Char) : List Str → List Str
  | [] => [[c]]
  | t :: ts => (c :: t) :: ts

/-- Python's `s.split(sep)` for a nonempty `sep`; the first `skip` characters belong to the occurrence of
`sep` that was found last. -/
def splitFrom (sep : Str) : Nat → Str → List Str
  | _, [] => [[]]
  | skip + 1, _ :: s => splitFrom sep skip s
  | 0, c :: s =>
    if startsWith (c :: s) sep then [] :: splitFrom sep (sep.length - 1) s
    else onFirst c (splitFrom sep 0 s)

/-- Python's `s.split(sep)` for a nonempty `sep`. -/
def splitOn (sep s : Str) : List Str := splitFrom sep 0 s

/-- The tokens of `split_function` (strings.py:237-260): the string-values of the `token` elements. -/
def split (string : Str) (pattern : Option Str) : List Str :=
  let pattern := pattern.getD [' ']
  if pattern ≠ [] then splitOn pattern string else string.map ([·])

/-- `_alphanum` of Python's module re. -/
def alnum (c : Char) : Bool :=
  ('a' ≤ c && c ≤ 'z') || ('A' ≤ c && c ≤ 'Z') || ('0' ≤ c && c ≤ '9')

/-- `re.escape(s)`; a NUL, which no XML document has, is left out of account. -/
def reEscape : Str → Str
  | [] => []
  | c :: s => if alnum c then c :: reEscape s else '\\' :: c :: reEscape s

/-- The members of a class `[body]` of regular expressions, without the special classes like `\d` (a backslash
is followed by no letter or digit here): characters, escaped characters and ranges. -/
def inClass (body : Str) (c : Char) : Bool :=
  match body with
  | '\\' :: x :: rest => c = x || inClass rest c
  | x :: '-' :: y :: rest => (x ≤ c && c ≤ y) || inClass rest c
  | x :: rest => c = x || inClass rest c
  | [] => false

/-- `re.split('[body]', s)`. -/
def reSplit (body : Str) : Str → List Str
  | [] => [[]]
  | c :: s => if inClass body c then [] :: reSplit body s else onFirst c (reSplit body s)

/-- The tokens of `tokenize_function` (strings.py:263-289). -/
def tokenize (string : Str) (delimiters : Option Str) : List Str :=
  let delimiters := delimiters.getD ['\t', '\n', '\r', ' ']
  if delimiters ≠ [] then reSplit (reEscape delimiters) string else string.map ([·])

/-! ## replace -/

/-- What is written: text, or a node that is no text node. -/
inductive Ev (M : Type)
  | text (s : Str)
  | node (m : M)
  deriving DecidableEq, Repr

/-- The state of a tree writer: the children of the root that are complete, and `buffer` (treewriter.c:93-121,
384-450).  Whether escaping is disabled is left out. -/
structure Writer (M : Type) where
  done : List (Ev M)
  buffer : Str

/-- `complete_text` (treewriter.c:93-121), if there is anything in the buffer. -/
def Writer.complete {M : Type} (w : Writer M) : Writer M :=
  if w.buffer = [] then w else { done := w.done ++ [.text w.buffer], buffer := [] }

/-- `treewriter_text` (treewriter.c:384-450), and the methods for other nodes (treewriter.c:184-, 452-). -/
def Writer.write {M : Type} (w : Writer M) : Ev M → Writer M
  | .text s => if s = [] then w else { w with buffer := w.buffer ++ s }
  | .node m => { w.complete with done := w.complete.done ++ [.node m] }

/-- The children of the root of `writer.get_result()` (treewriter.c:123-160) after some events. -/
def children {M : Type} (evs : List (Ev M)) : List (Ev M) :=
  (evs.foldl Writer.write { done := [], buffer := [] }).complete.done

/-- A node of the third argument: what `context.copy_node` writes for it (xpath/__init__.py:182-206), and
whether it is an attribute or a namespace node. -/
structure Repl (M : Type) where
  copy : List (Ev M)
  outside : Bool
  deriving DecidableEq, Repr

/-- `tree.text(s)`. -/
def Repl.text {M : Type} (s : Str) : Repl M := { copy := [.text s], outside := false }

/-- A tuple of `replacements`: the string to search for, the node or `None`, and `key`. -/
abbrev Rule (M : Type) := Str × Option (Repl M) × Nat

/-- The loop over `segments` of `_replace` (strings.py:170-175): `each` is the call of `_replace` for a segment,
`between` is what is written behind a segment that is not the last one. -/
def overSegments {M : Type} (each : Str → List (Ev M)) (between : List (Ev M)) : List Str → List (Ev M)
  | [] => []
  | [seg] => if seg ≠ [] then each seg else []
  | seg :: seg' :: segs =>
    (if seg ≠ [] then each seg else []) ++ between ++ overSegments each between (seg' :: segs)

/-- `copy_node(replace)`, if `replace` is not `None`. -/
def copied {M : Type} : Option (Repl M) → List (Ev M)
  | none => []
  | some r => r.copy

/-- `_replace` (strings.py:152-178): what is written. -/
def replaceBy {M : Type} : List (Rule M) → Str → List (Ev M)
  | [], string => [.text string]
  | (search, replace, _) :: replacements, string =>
    let segments := if search ≠ [] then splitOn search string else string.map ([·])
    overSegments (replaceBy replacements) (copied replace) segments

/-- Insert into a list that is sorted with the greatest `key` first, in front of rules with the same key. -/
def insertRule {M : Type} (r : Rule M) : List (Rule M) → List (Rule M)
  | [] => [r]
  | r' :: rs => if r'.2.2 > r.2.2 then r' :: insertRule r rs else r :: r' :: rs

/-- `replacements.sort(key=operator.itemgetter(2), reverse=True)` (strings.py:227): stable. -/
def sortRules {M : Type} : List (Rule M) → List (Rule M)
  | [] => []
  | r :: rs => insertRule r (sortRules rs)

/-- `zip(search, chain(replace, repeat(None)), imap(len, search))` (strings.py:222-226). -/
def pairUp {M : Type} : List Str → List (Repl M) → List (Rule M)
  | [], _ => []
  | s :: search, [] => (s, none, s.length) :: pairUp search []
  | s :: search, r :: replace => (s, some r, s.length) :: pairUp search replace

/-- The loop that replaces attributes and namespace nodes by empty text nodes (strings.py:217-219), in the list
`replace` itself. -/
def overwrite {M : Type} : List (Repl M) → List (Repl M)
  | [] => []
  | r :: rs => (if r.outside then Repl.text [] else r) :: overwrite rs

/-- A value of an argument: a node-set, given by its nodes in document order with their string-values, or
something else, given by its string. -/
inductive Arg (N : Type)
  | nodes (l : List N)
  | other (s : Str)
  deriving DecidableEq, Repr

/-- The list `search` (strings.py:211-214). -/
def searches : Arg Str → List Str
  | .nodes l => l
  | .other s => [s]

/-- The list `replace` (strings.py:215-221). -/
def replaces {M : Type} : Arg (Repl M) → List (Repl M)
  | .nodes l => overwrite l
  | .other s => [Repl.text s]

/-- The value of the third argument afterwards.  If it is a variable, this is the value of the variable
(xpath/expressions/basics.py:124-130). -/
def afterwards {M : Type} : Arg (Repl M) → Arg (Repl M)
  | .nodes l => .nodes (overwrite l)
  | .other s => .other s

/-- `replace_function` (strings.py:180-234): the nodes that are returned, and the third argument's value
afterwards. -/
def replace {M : Type} (string : Str) (search : Arg Str) (repl : Arg (Repl M)) :
    List (Ev M) × Arg (Repl M) :=
  (children (replaceBy (sortRules (pairUp (searches search) (replaces repl))) string), afterwards repl)

end Verif.Xslt.ExsltStr
