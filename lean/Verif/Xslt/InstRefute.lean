import Verif.Xslt.InstProps

/-
C61: where the code and XSLT 1.0 disagree.
-/
namespace Verif.Xslt
open Verif Verif.XPath Verif.Dom Verif.Dom.Spec Verif.Eval Verif.Eval.Spec Verif.Template Verif.Xslt.Spec

/-- A string. -/
def str (s : Str) : XExpr := closed (.var (.sc (.str s)))
/-- `.` -/
def dot : XExpr := closed (.path false [.mk (.tree .self) .node []])

def atRoot (body : List Instr) : XTmpl := ⟨tmpl [.root], none, [], body⟩

/-- `<xsl:sort select="." data-type="number" order="descending"/>` -/
def down : XSort := ⟨dot, true, none, true⟩

/-- C61 is false for `xsl:for-each` with `xsl:sort` and `xsl:variable`: the nodes are not sorted.  Without the variable,
which does not change anything, they are. -/
theorem C61_refuted_sort :
    outOf (transform sample (mkSheet [atRoot [.forEach (closed texts) [down] [.valueOf dot]]]).setup 30 0) =
      some [.text (s!! "2"), .text (s!! "1")] ∧
    outOf (transform sample (mkSheet [atRoot [.forEach (closed texts) [down]
      [.variable (nm (s!! "v")) dot, .valueOf (ref (nm (s!! "v")))]]]).setup 30 0) =
      some [.text (s!! "1"), .text (s!! "2")] := ⟨by decide +kernel, by decide +kernel⟩

/-- With a global variable `v`. -/
def withGlobal (v : Str) (ts : List XTmpl) : Sheet :=
  { mkSheet ts with globals := Vars.empty.set (nm (s!! "v")) (.sc (.str v)) }

/-- C61 is false for the scope of variables: a called template sees the local variables of its caller.  Here is
`$v` in the named template, which can only be the global variable, whose value is `global`. -/
theorem C61_refuted_scope :
    outOf (transform sample (withGlobal (s!! "global") [
      atRoot [.variable (nm (s!! "v")) (str (s!! "local")), .call (nm (s!! "t")) [] false],
      ⟨tmpl [], some (nm (s!! "t")), [], [.valueOf (ref (nm (s!! "v")))]⟩]).setup 30 0) =
      some [.text (s!! "local")] := by decide +kernel

/-- `$p != s` -/
def isNot (x : Name) (s : Str) : XExpr :=
  ⟨[x], fun ρ => .cmp .ne (ρ x) (.var (.sc (.str s))), fun _ _ h => by simp [h x]⟩

/-- C61 is false for templates that end with a call of themselves: an iteration sees the local variables of the one
before it.  The default value of the parameter is `$v`, the global variable. -/
theorem C61_refuted_default :
    outOf (transform sample (withGlobal (s!! "global") [
      atRoot [.call (nm (s!! "t")) [] false],
      ⟨tmpl [], some (nm (s!! "t")), [(nm (s!! "p"), ref (nm (s!! "v")))],
        [.valueOf (ref (nm (s!! "p"))), .variable (nm (s!! "v")) (str (s!! "local")),
          .ite (isNot (nm (s!! "p")) (s!! "local")) [.call (nm (s!! "t")) [] false]]⟩]).setup 40 0) =
      some [.text (s!! "global"), .text (s!! "local")] := by decide +kernel

/-- C61 is false for overridden templates: the imported template for `r`, which is also named `t`, calls itself
instead of the template `t` of the importing stylesheet. -/
theorem C61_refuted_override :
    outOf (transform sample (mkSheet [
      ⟨tmpl [.rel (.one (el (s!! "r")))], some (nm (s!! "t")), [(nm (s!! "p"), str (s!! "first"))],
        [.valueOf (ref (nm (s!! "p"))),
          .ite (isNot (nm (s!! "p")) (s!! "again")) [.call (nm (s!! "t")) [(nm (s!! "p"), str (s!! "again"))] false]]⟩,
      ⟨⟨1, none, none, []⟩, some (nm (s!! "t")), [], [.text (s!! "importing")]⟩]).setup 40 0) =
      some [.text (s!! "first"), .text (s!! "again")] := by decide +kernel

/-- C61 is false for `current()`: after `xsl:apply-templates` it is not the context node (here the root, with the
string-value `12`) but the last node that was processed (the element `x` without content). -/
theorem C61_refuted_current :
    outOf (transform sample (mkSheet [atRoot [.apply none [] none [], .valueOfCurrent]]).setup 40 0) =
      some [.text (s!! "1"), .text (s!! "2")] ∧ strVal sample 0 = s!! "12" := ⟨by decide +kernel, by decide +kernel⟩

/-- C61 is false for `xsl:copy` of a comment: the output is a text. -/
theorem C61_refuted_copy {d : Doc} {sh : Sheet} {s : St} (hk : d.h.kind s.ctx.node = .comment) (body : List Instr) :
    run d sh 1 (.copy body) s = .ok [.text (d.val s.ctx.node)] s ∧
    ∀ env f, f.node = s.ctx.node → ¬ Inst d sh env f (.copy body) [.text (d.val s.ctx.node)] := by
  refine ⟨by simp [run, hk, copyLeaf], fun env f hf h => ?_⟩
  rw [← hf] at hk h
  generalize ho : [Event.text (d.val f.node)] = o at h
  cases h with
  | copyElement h => rw [hk] at h; cases h
  | copyRoot h => rw [hk] at h; cases h
  | copyLeaf h =>
    cases h with
    | text h => rw [hk] at h; cases h
    | attr h => rw [hk] at h; cases h
    | comment h => cases ho
    | pi h => rw [hk] at h; cases h
    | ns h => rw [hk] at h; cases h

/-- C61 is false for comments: from `---` the code makes `- -- `, which is not allowed in a comment; XSLT says
`- - - `. -/
theorem C61_refuted_comment :
    outOf (transform sample (mkSheet [atRoot [.comment [.text (s!! "---")]]]).setup 30 0) =
      some [.comment (s!! "- -- ")] ∧ spaced (s!! "---") = s!! "- - - " := ⟨by decide +kernel, by decide⟩

/-- C61 is false for processing instructions with `?>` in their content: an exception that is not an XSLT error
(`NameError`). -/
theorem C61_refuted_pi :
    transform sample (mkSheet [atRoot [.pi (s!! "t") [.text (s!! "a?>b")]]]).setup 30 0 = .raise .nameError ∧
    piSpaced (s!! "a?>b") = s!! "a? >b" := ⟨by rfl, by decide⟩

end Verif.Xslt
