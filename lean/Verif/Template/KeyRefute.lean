import Verif.Template.KeyProps
import Verif.Template.SelectRefute

/-
C69: cases that meet the hypotheses, and where the code and XSLT 1.0 disagree.  The document is the sample of
Verif.Eval: `<r><y><y>1</y><x>2</x></y><x p="" q=""/></r>`.
-/
namespace Verif.Template
open Verif Verif.XPath Verif.Dom Verif.Dom.Spec Verif.Eval Verif.Eval.Spec
open Verif.Template.Spec (last front CallOk PatOk NoBacktracking Selects lastStep OtherKind RuleOk Gives HasKey Keyed KeysOk
  OrdOk)

variable {d : Doc} {root : Nat}

/-! An order of the keys for every stylesheet -/

/-- The keys that can occur. -/
def tableKeys (d : Doc) (ks : List KeyDecl) : List FKey := allKeys d (ks.map fun k => tmpl k.alts)

theorem keyTable_keys {ks all : List KeyDecl} {i : Nat} {tb tb' : Table} (hl : ∀ k ∈ ks, k ∈ all)
    (h : keyTable d i ks tb = .ok tb') (h0 : ∀ k, tb k ≠ none → k ∈ tableKeys d all) :
    ∀ k, tb' k ≠ none → k ∈ tableKeys d all := by
  induction ks generalizing i tb with
  | nil => cases h; exact h0
  | cons e ks ih =>
    simp only [keyTable] at h
    split at h
    · cases h
    rename_i tb1 h1
    refine ih (fun k hk => hl k (by simp [hk])) h ?_
    intro k hk
    rcases addAlts_keys h1 hk with g | g | g
    · exact h0 k g
    · subst g; simp [tableKeys, allKeys]
    · simp only [tableKeys, allKeys, List.mem_cons, List.mem_flatMap]
      exact .inr (.inr ⟨tmpl e.alts, List.mem_map.2 ⟨e, hl e (by simp), rfl⟩, g⟩)

/-- The keys of the table, in some order. -/
def keyOrd (d : Doc) (ks : List KeyDecl) (name : Name) : List FKey :=
  match keyTable d 0 (keysNamed ks name) Table.empty with
  | .error _ => []
  | .ok tb => (tableKeys d (keysNamed ks name)).filter fun k => k == .any || (tb k).isSome

/-- Every stylesheet has an order of keys as the theorems assume. -/
theorem keyOrd_ok (d : Doc) (ks : List KeyDecl) (name : Name) : OrdOk d (keyOrd d ks name) ks name := by
  intro tb ht k
  simp only [keyOrd, ht, List.mem_filter, Bool.or_eq_true, beq_iff_eq]
  rw [← Option.isSome_iff_ne_none]
  constructor
  · exact fun h => h.2
  · intro h
    refine ⟨?_, h⟩
    rcases h with rfl | h
    · simp [tableKeys, allKeys]
    · exact keyTable_keys (fun _ => id) ht (by simp [Table.empty]) k (Option.isSome_iff_ne_none.1 h)

/-! Cases that meet the hypotheses -/

/-- `child::*` -/
def children : Expr := .path false [.mk (.tree .child) .any []]

theorem children_good : Good sample 0 .any children := by
  simp [children, Good, GoodSteps, GoodStep, GoodPreds, StepsOk, ShapeOk, stepsShape, stepShape, LStep.axis]

def kName : Name := (none, some (s!! "k"))

/-- `<xsl:key name="k" match="y" use="*"/>`, `<xsl:key name="k" match="@p | x" use="'2'"/>` and one with another
name. -/
def decls : List KeyDecl :=
  [⟨kName, [.rel (.one (el (s!! "y")))], children⟩,
   ⟨kName, [.rel (.one ⟨.attr, named (s!! "p"), []⟩), .rel (.one (el (s!! "x")))], .lit false (s!! "2")⟩,
   ⟨(none, some (s!! "l")), [.rel (.one ⟨.child, .any, []⟩)], children⟩]

theorem decls_ok : KeysOk sample 0 decls kName := by
  intro k hk _
  simp only [decls, List.mem_cons, List.not_mem_nil, or_false] at hk
  rcases hk with rfl | rfl | rfl
  · refine ⟨children_good, fun p hp n _ => ?_⟩
    simp only [List.mem_cons, List.not_mem_nil, or_false] at hp
    subst hp
    exact .inl ⟨⟨.inl trivial, nofun⟩, trivial⟩
  · refine ⟨by simp [Good], fun p hp n _ => ?_⟩
    simp only [List.mem_cons, List.not_mem_nil, or_false] at hp
    rcases hp with rfl | rfl <;> exact .inl ⟨⟨.inl trivial, nofun⟩, trivial⟩
  · refine ⟨children_good, fun p hp n _ => ?_⟩
    simp only [List.mem_cons, List.not_mem_nil, or_false] at hp
    subst hp
    exact .inl ⟨⟨.inl trivial, nofun⟩, trivial⟩

/-- The hypotheses of C69 are met: `key('k', '2')` at the text in the inner `y` gives the outer `y`, the inner `x`, the
outer `x` and its attribute `p`; `key('k', '1')` the outer `y`. -/
example : DocWF sample 0 ∧ AttrsOnElements sample ∧ InDoc sample 0 6 ∧ KeysOk sample 0 decls kName ∧
    OrdOk sample (keyOrd sample decls kName) decls kName ∧
    keyCall sample 30 (keyOrd sample decls kName) decls kName (.sc (.str (s!! "2"))) 6 top = .ok [2, 5, 3, 8] top ∧
    keyCall sample 30 (keyOrd sample decls kName) decls kName (.sc (.str (s!! "1"))) 6 top = .ok [2] top :=
  ⟨sample_wf, sample_attrs, sample_inDoc (by omega), decls_ok, keyOrd_ok _ _ _, by decide +kernel, by decide +kernel⟩

/-! Refutations -/

/-- C69 is false for a node-set as the second argument: `key('k', /r/y/*)` contains the outer `y` twice, because
it has both values. -/
theorem C69_refuted_twice : KeysOk sample 0 decls kName ∧
    keyCall sample 30 (keyOrd sample decls kName) decls kName (.nodes [4, 5]) 6 top = .ok [2, 2, 5, 3, 8] top ∧
    ¬ [2, 2, 5, 3, 8].Nodup :=
  ⟨decls_ok, by decide +kernel, by decide⟩

/-- `<xsl:key name="k" match="node()" use="'a'"/>` -/
def nodeDecl : List KeyDecl := [⟨kName, [.rel (.one ⟨.child, .node, []⟩)], .lit false (s!! "a")⟩]

/-- C69 is false for `match="node()"`: the root node gets the key, although it does not match (see C58). -/
theorem C69_refuted_node : ∃ l, keyCall sample 30 (keyOrd sample nodeDecl kName) nodeDecl kName (.sc (.str (s!! "a"))) 6 top
    = .ok l top ∧ 0 ∈ l ∧ ¬ Keyed sample 0 nodeDecl kName (.sc (.str (s!! "a"))) 0 := by
  refine ⟨[0, 1, 2, 4, 6, 5, 7, 3], by decide +kernel, by decide, ?_⟩
  rintro ⟨_, s, _, k, hk, _, ⟨p, hp, hm⟩, _⟩
  simp only [nodeDecl, List.mem_singleton] at hk
  subst hk
  simp only [List.mem_singleton] at hp
  subst hp
  exact (C58_refuted_node.1 0 (.inl rfl)).2 hm

end Verif.Template
