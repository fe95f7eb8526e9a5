import Verif.Xslt.Output

/-
What is to be written, and with which output method (XSLT 1.0, section 16).
-/
namespace Verif.Xslt.Output.Spec
open Verif

/-- The calls that a program makes of the methods of the writer `o`, in their order.  `got` are the methods
that it has got so far. -/
def calls (o : Nat) (got : List (Nat × Meth)) : List Act → List Call
  | [] => []
  | .make _ :: acts => calls o got acts
  | .get o' m :: acts => calls o (got ++ [(o', m)]) acts
  | .call h a :: acts => match got[h]? with
    | some (o', m) => if o' = o then { meth := m, args := a } :: calls o got acts else calls o got acts
    | none => calls o got acts

/-- A program that only uses what it has made and got, and makes `n` writers in all.  `known` are the output
parameters. -/
def Sensible (params : List Params) : Nat → Nat → List Act → Prop
  | _, _, [] => True
  | writers, handles, .make p :: acts =>
      (∃ q, params[p]? = some q ∧ (q.method = none ∨ ∃ m ∈ [textMethod, htmlMethod, xmlMethod], q.method = some m)) ∧
      Sensible params (writers + 1) handles acts
  | writers, handles, .get o _ :: acts => o < writers ∧ Sensible params writers (handles + 1) acts
  | writers, handles, .call h _ :: acts => h < handles ∧ Sensible params writers handles acts

/-- A name that is 'html' without regard to case. -/
def IsHtml (name : Str) : Prop := ∃ h t m l, name = [h, t, m, l] ∧
  (h = 'h' ∨ h = 'H') ∧ (t = 't' ∨ t = 'T') ∧ (m = 'm' ∨ m = 'M') ∧ (l = 'l' ∨ l = 'L')

/-- White space as XML has it. -/
def Blank (s : Str) : Prop := ∀ c ∈ s, c = ' ' ∨ c = '\t' ∨ c = '\n' ∨ c = '\r'

/-- A call that the output method does not depend on: no element begins, no text but white space is written,
and the document does not end. -/
def Idle (k : Call) : Prop :=
  k.meth ≠ .startElement ∧ k.meth ≠ .endDocument ∧ (k.meth = .text → Blank k.args.first)

/-- The default output method is html if the first element is 'html' in no namespace and there is only white
space before it. -/
def UseHtml (calls : List Call) : Prop :=
  ∃ before k after, calls = before ++ k :: after ∧ (∀ k ∈ before, Idle k) ∧
    k.meth = .startElement ∧ k.args.second = none ∧ IsHtml k.args.first

/-- The default output method is known: something came that is not idle. -/
def Decided (calls : List Call) : Prop := ∃ k ∈ calls, ¬ Idle k

/-- The class of writers for an output method. -/
def IsFor (cdata : Bool) (m : Method) (c : Cls) : Prop :=
  (m = textMethod ∧ c = .text) ∨ (m = htmlMethod ∧ c = .html) ∨
  (m = xmlMethod ∧ c = if cdata then .cdata else .xml)

/-- What a writer has done, for a program that made the calls `ks`: if its class is known, then all of them
were passed to methods of this class, in their order; else nothing was written. -/
def Wrote (x : Obj) (ks : List Call) : Prop :=
  (x.cls ≠ .proxy → x.log = ks.map fun k => (x.cls, k)) ∧ (x.cls = .proxy → x.log = [])

end Verif.Xslt.Output.Spec
