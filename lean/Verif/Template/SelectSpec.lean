import Verif.Template.Select
import Verif.Template.PatternSpec

/-
Conflict resolution for template rules: XSLT 1.0, section 5.5.
-/
namespace Verif.Template.Spec
open Verif Verif.XPath Verif.Dom Verif.Dom.Spec Verif.Eval Verif.Eval.Spec Verif.Template

/-- The default priority (5.5): 0 for a name or a processing instruction with a target, -0.25 for `p:*`, -0.5 for
any other node test, each after at most `@` or `child::`; else 0.5. -/
def defaultPriority : Pat → Rat
  | .rel (.one ⟨_, t, []⟩) => match t with
    | .name _ _ | .pi _ => 0
    | .inNs _ => -1/4
    | .node | .any | .kind _ => -1/2
  | _ => 1/2

/-- "If the pattern contains multiple alternatives separated by |, then it is treated equivalently to a set of
template rules, one for each alternative": the template with index `i` and its alternative `p` is a rule for the
node `n` in the mode. -/
def Applies (d : Doc) (ts : List Tmpl) (mode : Option Name) (n i : Nat) (t : Tmpl) (p : Pat) : Prop :=
  ts[i]? = some t ∧ t.mode = mode ∧ p ∈ t.alts ∧ Matches d p n

/-- The priority of a rule. -/
def priority (t : Tmpl) (p : Pat) : Rat := t.priority.getD (defaultPriority p)

/-- "First, all matching template rules that have lower import precedence [...] are eliminated from consideration.
Next, all matching template rules that have lower priority [...]": the rule `(t, p)` survives the rule `(u, q)`. -/
def Survives (t : Tmpl) (p : Pat) (u : Tmpl) (q : Pat) : Prop :=
  u.prec < t.prec ∨ (u.prec = t.prec ∧ priority u q ≤ priority t p)

/-- The template with index `i` is one that may be chosen from those with property `P`; `none` is the built-in
rule. -/
def Chosen (d : Doc) (ts : List Tmpl) (mode : Option Name) (n : Nat) (P : Tmpl → Prop) : Option Nat → Prop
  | none => ∀ j u q, P u → ¬ Applies d ts mode n j u q
  | some i => ∃ t p, P t ∧ Applies d ts mode n i t p ∧
      ∀ j u q, P u → Applies d ts mode n j u q → Survives t p u q

/-- No rule with a smaller index (resp. no alternative) could be chosen instead. -/
def First (d : Doc) (ts : List Tmpl) (mode : Option Name) (n : Nat) (P : Tmpl → Prop) (i : Nat) : Prop :=
  ∀ j, Chosen d ts mode n P (some j) → i ≤ j

/-! What the theorems assume -/

/-- The last step of a pattern. -/
def lastStep : Pat → Option PatStep
  | .root | .idKey _ => none
  | .abs r | .dabs r | .rel r | .idKeySlash _ r | .idKeyDslash _ r => some (last r)

/-- The pattern selects another kind of node: a processing instruction, or any attribute. -/
def OtherKind (d : Doc) (p : Pat) (n : Nat) : Prop :=
  ∃ s, lastStep p = some s ∧
    ((s.axis = .child ∧ (s.test = .kind .pi ∨ ∃ t, s.test = .pi t) ∧ d.h.kind n ≠ .pi) ∨
     (s.axis = .attr ∧ s.test = .node ∧ d.h.kind n ≠ .attr))

/-- Patterns that are handled rightly for the node. -/
def RuleOk (d : Doc) (root : Nat) (p : Pat) (n : Nat) : Prop :=
  (PatOk d root p n ∧ NoBacktracking p) ∨ OtherKind d p n

/-- Not `//a` without a priority. -/
def PriorityOk (t : Tmpl) (p : Pat) : Prop :=
  t.priority = none → ∀ s, p = .dabs (.one s) → s.preds ≠ []

/-- The whole stylesheet. -/
def SheetOk (d : Doc) (root : Nat) (ts : List Tmpl) (mode : Option Name) (n : Nat) : Prop :=
  ∀ t ∈ ts, t.mode = mode → ∀ p ∈ t.alts, RuleOk d root p n ∧ PriorityOk t p

/-- A sorted list in decreasing order of import precedence, priority, position. -/
def Info.le (a b : Info) : Prop :=
  a.prec < b.prec ∨ (a.prec = b.prec ∧ (a.prio < b.prio ∨ (a.prio = b.prio ∧ a.pos ≤ b.pos)))

/-- `list.sort(reverse=True)`, and the keys of a dictionary. -/
structure RuntimeOk (rt : Runtime) (d : Doc) (ts : List Tmpl) : Prop where
  sort_mem : ∀ l i, i ∈ rt.sort l ↔ i ∈ l
  sorted : ∀ l, (rt.sort l).Pairwise fun a b => Info.le b a
  keys : ∀ tbs, build d ts = .ok tbs → ∀ m tb, tbs m = some tb → ∀ k, k ∈ rt.ord m ↔ (k = .any ∨ tb k ≠ none)

end Verif.Template.Spec
