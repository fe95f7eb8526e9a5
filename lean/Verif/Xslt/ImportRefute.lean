import Verif.Xslt.ImportProps

/-
C62: where combining stylesheets differs from XSLT 1.0.
-/
namespace Verif.Xslt
open Verif Verif.Template Spec

/-- `main` declares 1, then includes `b`, which imports `c`. -/
def lateFiles (u : Str) : Option (SheetDoc Nat) :=
  if u = s!! "main" then some ⟨[], [.decl 1, .incl (s!! "b")]⟩
  else if u = s!! "b" then some ⟨[s!! "c"], [.decl 2]⟩
  else if u = s!! "c" then some ⟨[], [.decl 3]⟩
  else none

/-- C62 fails for an included stylesheet with imports: the declaration 1 of the main stylesheet should have the same
precedence as 2, and a higher one than the imported 3, but it has the same one as 3 and a lower one than 2. -/
theorem C62_refuted_include :
    (∃ s, Unfolds lateFiles (s!! "main") s ∧ layers s = [[3], [1, 2]]) ∧
    readSheet lateFiles 4 [] (s!! "main") 0 = some (.ok ([(1, 0), (3, 0), (2, 1)], 1)) := by
  refine ⟨⟨.mk .nil (.decl 1 (.incl (.mk (.cons (.mk .nil (.decl 3 .nil)) .nil) (.decl 2 .nil)) .nil)), ?_, rfl⟩,
    by decide +kernel⟩
  exact .mk rfl .nil (.decl (.incl (.mk rfl (.cons (.mk rfl .nil (.decl .nil)) .nil) (.decl .nil)) .nil))

/-- So a variable of the main stylesheet and one of an imported stylesheet are reported as duplicates, although they
have different import precedences. -/
theorem C62_refuted_include_variable :
    checkVars (fun _ => none) ([((1 : Nat), 0), (3, 0), (2, 1)].filterMap fun p =>
      (if p.1 = 2 then none else some ((none, some (s!! "x")) : Name)).map (·, p.2)) = false ∧
    ∀ l ∈ [[3], [1, 2]], (l.filterMap fun n =>
      if n = 2 then none else some ((none, some (s!! "x")) : Name)).Nodup := by decide +kernel

/-- `main` imports `a` and `b`. -/
def siblingFiles (u : Str) : Option (SheetDoc Nat) :=
  if u = s!! "main" then some ⟨[s!! "a", s!! "b"], []⟩
  else if u = s!! "a" then some ⟨[], [.decl 1]⟩
  else if u = s!! "b" then some ⟨[], [.decl 2]⟩
  else none

/-- C62 fails for `xsl:apply-imports`: it is to use "only template rules that were imported into the stylesheet element
containing the current template rule" (5.6), but it uses all with a lower number (`C59_imports_partial`): those of `a` in
a template of `b`, which imports nothing. -/
theorem C62_refuted_apply_imports :
    readSheet siblingFiles 4 [] (s!! "main") 0 = some (.ok ([(1, 0), (2, 1)], 2)) ∧ 0 < 1 ∧
    ¬ Reaches siblingFiles (s!! "b") (s!! "a") := by
  refine ⟨by decide +kernel, by decide, ?_⟩
  have key : ∀ v, Reaches siblingFiles (s!! "b") v → v = s!! "b" := by
    intro v h
    induction h with
    | refl => rfl
    | step _ hu ih =>
      subst ih
      obtain ⟨m, hm, hv⟩ := hu
      have : siblingFiles (s!! "b") = some ⟨[], [.decl 2]⟩ := rfl
      cases Option.some.inj (hm.symm.trans this)
      simp at hv
  intro h
  exact absurd (key _ h) (by decide +kernel)

/-- C62 fails for namespace aliases: two declarations of the same alias are no error, as it is only one "to be mapped to
multiple different namespace URIs" (7.1.1). -/
theorem C62_refuted_alias :
    aliases [⟨some (s!! "a"), some (s!! "x"), 0⟩, ⟨some (s!! "a"), some (s!! "x"), 0⟩] = none := by decide +kernel

/-- C62 fails for attribute sets: "Multiple definitions of an attribute set with the same expanded-name are merged"
(7.1.4), but only the last one is used. -/
theorem C62_refuted_attribute_sets {β : Type} (name : β → Name) (l : List β) (s : β) :
    attributeSet name (l ++ [s]) (name s) = some s := by
  simp [attributeSet]

/-- C62 fails for attribute sets that use each other: "It is an error if [...] an attribute set directly or indirectly
uses itself", but the check is never made and the instantiation does not end. -/
theorem C62_refuted_circular_sets {β : Type} (sets : Name → Option (AttrSet β)) (x : Name) (own : List β)
    (h : sets x = some ⟨[x], own⟩) (fuel : Nat) : instSet sets fuel x = none := by
  induction fuel with
  | zero => rfl
  | succ fuel ih => simp [instSet, h, setLoop, ih]

example : instSet (fun _ => some ⟨[(none, some (s!! "s"))], [(1 : Nat)]⟩) 100 (none, some (s!! "s")) = none :=
  C62_refuted_circular_sets _ _ _ rfl 100

end Verif.Xslt
