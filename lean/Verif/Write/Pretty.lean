import Verif.Write.Printer

/-
`xmlprettyprinter` (lib/writers/_xmlprinters.py:433-511): the printer that indents.
-/
namespace Verif.Write
open Verif

/-- The attributes of the printer (_xmlprinters.py:446-452). -/
structure PPrinter where
  base : Printer
  level : Int
  canIndent : Bool

/-- `'\n' + (self.indent * self._level)` with `indent = '  '` (nothing is repeated a negative number of times). -/
def indentText (level : Int) : UStr := 10 :: List.replicate (2 * level.toNat) 32

/-- `if self._can_indent: self.write_ascii(...)`. -/
def indentOps (b : Bool) (level : Int) : List Op := if b then [.ascii (indentText level)] else []

/-- What `start_element`, `processing_instruction` and `comment` have in common: close a start tag, indent, and
do what `xmlprinter` does. -/
def onNewLine (p : PPrinter) (c : Call) : List Op × Printer :=
  let q := closeTag p.base
  let r := q.2.call c
  (q.1 ++ indentOps p.canIndent p.level ++ r.1, r.2)

/-- The methods of `xmlprettyprinter`. -/
def PPrinter.call (p : PPrinter) : Call → List Op × PPrinter
  -- 454-464
  | .startElement name nsdecls attrs =>
    let r := onNewLine p (.startElement name nsdecls attrs)
    (r.1, ⟨r.2, p.level + 1, true⟩)
  -- 466-474
  | .endElement name =>
    let r := p.base.call (.endElement name)
    (indentOps (p.canIndent && !truthy p.base.elementName) (p.level - 1) ++ r.1, ⟨r.2, p.level - 1, true⟩)
  -- 476-480
  | .text s => let r := p.base.call (.text s); (r.1, ⟨r.2, p.level, false⟩)
  | .rawText s => let r := p.base.call (.rawText s); (r.1, ⟨r.2, p.level, false⟩)
  -- 482-486
  | .cdata s => let r := p.base.call (.cdata s); (r.1, ⟨r.2, p.level, false⟩)
  -- 488-497
  | .pi target data => let r := onNewLine p (.pi target data); (r.1, ⟨r.2, p.level, true⟩)
  -- 499-508
  | .comment s => let r := onNewLine p (.comment s); (r.1, ⟨r.2, p.level, true⟩)
  -- inherited
  | .startDocument sa => let r := p.base.call (.startDocument sa); (r.1, ⟨r.2, p.level, p.canIndent⟩)
  | .endDocument => let r := p.base.call .endDocument; (r.1, ⟨r.2, p.level, p.canIndent⟩)
  | .doctype name pub sys => let r := p.base.call (.doctype name pub sys); (r.1, ⟨r.2, p.level, p.canIndent⟩)

/-- A sequence of calls. -/
def PPrinter.calls (p : PPrinter) : List Call → List Op
  | [] => []
  | c :: cs => (p.call c).1 ++ (p.call c).2.calls cs

/-- A new printer (449-452). -/
def newPretty (encoding : UStr) : PPrinter := ⟨newPrinter false encoding, 0, false⟩

/-- What arrives on a stream when a new printer is given a sequence of calls. -/
def printPretty (wide : Bool) (st : Stream) (encoding : UStr) (cs : List Call) : Except WErr Stream :=
  runOps wide st ((newPretty encoding).calls cs)

end Verif.Write
