import Verif.Xslt.Lre.Sets
/-
C86: literal result elements: namespaces, aliases and attribute sets.
-/
namespace Verif.Xslt.Lre
open Verif.Write (UStr)
open Spec
variable {V : Type}

/-- C86, the namespaces.  A stylesheet is read and set up once or more often, with dictionaries that give their items in
any order.  If no element declares a namespace that an outer one excludes or takes the prefix of a namespace node for
XSLT, and no alias is of an alias or takes the prefix of another namespace: the stylesheet is accepted exactly if the
prefixes to be excluded are bound, and then every literal result element has the name, the attributes and the namespace
nodes that XSLT gives it. -/
theorem C86_literals_partial (items : Dict → List (Pfx × Ns)) (hi : ∀ d, (items d).Perm d) (al : Aliases) (n : Nat) (s : Sheet V)
    (hw : ∀ ls ∈ levels [] s, (∀ l ∈ ls.head?, WfLevel l) ∧ Tidy ls) (hflat : Flat al)
    (hx : ∀ x ∈ literals [] s, WfLit x.2 ∧ Clear al (node x.1)) :
    ((sheetStarts items al (n + 1) s).isSome ↔ ∀ ls ∈ levels [] s, bound ls = true) ∧
    ∀ r, sheetStarts items al (n + 1) s = some r → All₂ (StartOk al) (literals [] s) r := by
  have hr := read_spec s [] [(some (u!! "xml"), some xmlNs), (none, none)] [[]] 0 hw ⟨by simp [Keys], fun p => by
      simp only [get, Spec.scope, declared]
      by_cases h1 : p = some (u!! "xml")
      · subst h1; rfl
      · rw [if_neg h1]
        by_cases h2 : p = none
        · rw [if_pos h2, if_pos h2]
        · rw [if_neg h2, if_neg h2]
          simp [h1], by simp, by simp [Heap.at, Keys], fun p => rfl⟩
  unfold sheetStarts readSheet
  cases hrd : read s [(some (u!! "xml"), some xmlNs), (none, none)] [[]] 0 with
  | none =>
    rw [hrd] at hr
    dsimp only at hr ⊢
    refine ⟨⟨nofun, fun h => ?_⟩, nofun⟩
    rw [List.all_eq_true.2 h] at hr; cases hr
  | some q =>
    obtain ⟨h0, t⟩ := q
    rw [hrd] at hr
    dsimp only at hr ⊢
    obtain ⟨hb, _, ho⟩ := hr
    have hU : ∀ i, i < h0.length → (∃ o ∈ outs t, i = o.out) → Keys (h0.at i) ∧ Clear al (get (h0.at i)) := by
      rintro i _ ⟨o, hm, rfl⟩
      obtain ⟨x, hxm, k⟩ := all₂_mem ho hm
      refine ⟨k.keys, ?_⟩
      have : get (h0.at o.out) = node x.1 := funext k.nodes
      rw [this]; exact (hx x hxm).2
    obtain ⟨h', t', e1, e2, e3⟩ := setups_spec hi hflat hU n t (fun _ => False) h0 ⟨rfl, fun _ _ _ => .inl rfl, fun _ _ _ h => h.elim⟩
      (fun o hm => by
        obtain ⟨x, hxm, k⟩ := all₂_mem ho hm
        exact ⟨k.room, fun a ha hn => .inl ((hx x hxm).1 a (by rw [← k.attrs]; exact ha) hn)⟩)
    rw [e1]
    dsimp only
    refine ⟨⟨fun _ => List.all_eq_true.1 hb, fun _ => rfl⟩, fun r hr => ?_⟩
    cases hr
    rw [starts_eq]
    have key : All₂ (fun (o : Out V) (o' : Out V) => FixedOut al o o' ∧ Fixed al (h0.at o.out) (h'.at o.out) ) (outs t) (outs t') := by
      have : ∀ (l m : List (Out V)), (∀ o ∈ l, o ∈ outs t) → All₂ (FixedOut al) l m →
          All₂ (fun (o : Out V) (o' : Out V) => FixedOut al o o' ∧ Fixed al (h0.at o.out) (h'.at o.out)) l m := by
        intro l m hs ha
        induction ha with
        | nil => exact .nil
        | cons h _ ih =>
          have hm := hs _ (.head _)
          obtain ⟨x, _, k⟩ := all₂_mem ho hm
          exact .cons ⟨h, e3.fixed _ k.room ⟨_, hm, rfl⟩ (.inr ⟨_, hm, rfl⟩)⟩ (ih (fun o ho => hs o (.tail _ ho)))
      exact this _ _ (fun _ h => h) e2
    clear e1 e2 e3 hU
    revert ho key
    generalize outs t = a
    generalize outs t' = b
    generalize literals [] s = c
    intro ho key
    induction ho generalizing b with
    | nil => cases key; exact .nil
    | cons k _ ih =>
      cases key with
      | cons f fs =>
        refine .cons ?_ (ih _ fs)
        obtain ⟨⟨f1, f2, f3, f4⟩, g⟩ := f
        refine ⟨by rw [← k.name]; exact f1, by rw [← k.attrs]; exact f2, by rw [← k.uses]; exact f3, ?_⟩
        have := g.aliased
        rw [funext k.nodes] at this
        dsimp only
        rw [f4]
        exact this

/-- C86, the table of aliases.  The `xsl:namespace-alias` elements come in increasing import precedence.  The stylesheet
is rejected exactly if a namespace has several of the highest precedence; otherwise the alias of a namespace is that of
the highest precedence. -/
theorem C86_aliases (ds : List AliasDecl) (hs : ds.Pairwise (fun a b => a.prec ≤ b.prec)) :
    (aliases ds = none ↔ Clash ds) ∧
    ∀ al, aliases ds = some al → ∀ n r p, al n = some (r, p) ↔ ∃ d, Highest ds d ∧ d.ns = n ∧ d.result = r ∧ d.pfx = p := by
  have h := aliases_spec hs
  cases ha : aliases ds with
  | none => rw [ha] at h; exact ⟨⟨fun _ => h, fun _ => rfl⟩, nofun⟩
  | some al => rw [ha] at h; exact ⟨⟨nofun, fun hc => absurd hc h.1⟩, fun al' e => by cases e; exact h.2⟩

/-- C86, attribute sets, if there is one of each name.  With a stack that is deep enough the attributes of `xsl:element`
and `xsl:copy` are those of the sets, in the order of XSLT, before those of the content; however deep it is nothing else
comes out; and there is an end exactly if XSLT gives the sets attributes (they are defined and not circular). -/
theorem C86_attribute_sets_partial (sets : List (AttrSet V)) (hu : ∀ s ∈ sets, ∀ s' ∈ sets, s.name = s'.name → s = s')
    (uses : List (Ns × UStr)) (content r : List (Name × V)) :
    (∃ depth, ∀ more, elementAttrs sets (depth + more) uses content = .ok r) ↔ ∃ as, Adds sets uses as ∧ r = as ++ content := by
  constructor
  · rintro ⟨depth, h⟩
    have := h 0
    rw [elementAttrs] at this
    cases ha : setAttrs sets (depth + 0) uses with
    | ok as => rw [ha] at this; cases this; exact ⟨as, setAttrs_adds hu _ _ _ ha, rfl⟩
    | undefined => rw [ha] at this; cases this
    | endless => rw [ha] at this; cases this
  · rintro ⟨as, h, rfl⟩
    obtain ⟨f, e⟩ := adds_setAttrs h
    exact ⟨f, fun more => by rw [elementAttrs, setAttrs_mono f more _ _ e]⟩

/-- C86, attribute sets in any depth of the stack: what comes out is as XSLT says. -/
theorem C86_attribute_sets_sound_partial (sets : List (AttrSet V)) (hu : ∀ s ∈ sets, ∀ s' ∈ sets, s.name = s'.name → s = s')
    (uses : List (Ns × UStr)) (content r : List (Name × V)) (depth : Nat) (h : elementAttrs sets depth uses content = .ok r) :
    ∃ as, Adds sets uses as ∧ r = as ++ content := by
  rw [elementAttrs] at h
  cases ha : setAttrs sets depth uses with
  | ok as => rw [ha] at h; cases h; exact ⟨as, setAttrs_adds hu _ _ _ ha, rfl⟩
  | undefined => rw [ha] at h; cases h
  | endless => rw [ha] at h; cases h

/-- C86, attribute sets of literal result elements: the value of every attribute is that of XSLT (the sets first, then
the attributes of the element, which replace them) if no attribute of the element is in the sets. -/
theorem C86_literal_sets_partial (sets : List (AttrSet V)) (hu : ∀ s ∈ sets, ∀ s' ∈ sets, s.name = s'.name → s = s')
    (uses : List (Ns × UStr)) (own as : List (Name × V)) (ha : Adds sets uses as)
    (hd : ∀ a ∈ own, ∀ b ∈ as, (a.1.ns, a.1.loc) ≠ (b.1.ns, b.1.loc)) :
    ∃ depth, ∀ more, ∃ r, allAttrs sets (depth + more) own uses = .ok r ∧ ∀ k, valueOf r k = valueOf (as ++ own) k := by
  obtain ⟨f, e⟩ := adds_setAttrs ha
  refine ⟨f, fun more => ⟨own ++ as, by rw [allAttrs, setAttrs_mono f more _ _ e], fun k => ?_⟩⟩
  rw [valueOf_append, valueOf_append]
  cases h1 : valueOf as k with
  | none => cases valueOf own k <;> rfl
  | some v =>
    cases h2 : valueOf own k with
    | none => rfl
    | some w =>
      obtain ⟨x, hx, ex⟩ := valueOf_mem h1
      obtain ⟨y, hy, ey⟩ := valueOf_mem h2
      exact absurd (ey.trans ex.symm) (hd y hy x hx)

/-! ### Examples: the hypotheses are met -/

/-- A stylesheet with two levels of literal elements and an alias. -/
def exSheet : Sheet Nat :=
  .elem { decls := [(some (u!! "xsl"), some xslNs), (some (u!! "x"), some (u!! "u")), (some (u!! "y"), some (u!! "v"))], ext := none, excl := some [some (u!! "y")] } none
    [.elem { decls := [], ext := none, excl := none } (some { name := ⟨some (u!! "x"), u!! "a", some (u!! "u")⟩, attrs := [(⟨some (u!! "x"), u!! "k", some (u!! "u")⟩, 1)], uses := [] })
      [.elem { decls := [(none, some (u!! "w"))], ext := none, excl := none } (some { name := ⟨none, u!! "b", some (u!! "w")⟩, attrs := [], uses := [] }) []],
     .elem { decls := [], ext := none, excl := none } (some { name := ⟨none, u!! "c", none⟩, attrs := [], uses := [] }) []]

def exAlias : Aliases := fun n => if n = some (u!! "u") then some (some (u!! "t"), some (u!! "z")) else none

example : (∀ ls ∈ levels [] exSheet, bound ls = true) ∧ Flat exAlias ∧ ∀ x ∈ literals [] exSheet, WfLit x.2 ∧ Clear exAlias (node x.1) := by
  refine ⟨by decide +kernel, ?_, ?_⟩
  · intro u r q h
    unfold exAlias at h
    split at h
    · cases h; rfl
    · cases h
  · have hc : ∀ d : Pfx → Option Ns, d (some (u!! "z")) = none → Clear exAlias d := by
      intro d hd p u r q _ h
      unfold exAlias at h
      split at h
      · cases h
        refine ⟨fun v hv => ?_, fun p' u' r' _ h' => ?_⟩
        · rw [hd] at hv; cases hv
        · unfold exAlias at h'
          split at h'
          · cases h'; rfl
          · cases h'
      · cases h
    intro x hx
    simp only [exSheet, literals, literalss, List.mem_append, List.mem_cons, List.not_mem_nil, or_false, List.append_nil, List.nil_append] at hx
    rcases hx with (rfl | rfl) | rfl
    all_goals exact ⟨by simp [WfLit], hc _ (by decide +kernel)⟩
example : ∀ ls ∈ levels [] exSheet, (∀ l ∈ ls.head?, WfLevel l) := by
  intro ls hl l h
  simp only [exSheet, levels, levelss, List.mem_append, List.mem_cons, List.not_mem_nil, or_false, List.append_nil, List.nil_append] at hl
  rcases hl with rfl | ((rfl | rfl) | rfl) <;> (cases h; unfold WfLevel; decide +kernel)
example : ∀ ls ∈ levels [] exSheet, Tidy ls := by
  have h : ∀ (l : Level) (ls : List Level), (∀ x ∈ l.decls, excluded ls x.2 = false ∧ (x.2 = some xmlNs ∨ x.2 = some xslNs → node ls x.1 = none)) → Tidy ls → Tidy (l :: ls) :=
    fun l ls h1 h2 => ⟨fun p u hd => h1 _ (get_mem hd), h2⟩
  intro ls hl
  simp only [exSheet, levels, levelss, List.mem_append, List.mem_cons, List.not_mem_nil, or_false, List.append_nil, List.nil_append] at hl
  rcases hl with rfl | ((rfl | rfl) | rfl) <;> (repeat (refine h _ _ (by decide +kernel) ?_)) <;> exact trivial
example : (sheetStarts id exAlias 2 exSheet).map (·.map (fun s => (s.name, (s.nss : List (Pfx × Ns))))) = some [
    (⟨some (u!! "z"), u!! "a", some (u!! "t")⟩, [(some (u!! "z"), some (u!! "t"))]),
    (⟨none, u!! "b", some (u!! "w")⟩, [(none, some (u!! "w")), (some (u!! "z"), some (u!! "t"))]),
    (⟨none, u!! "c", none⟩, [(some (u!! "z"), some (u!! "t"))])] := by rfl

example : (aliases [⟨1, some (u!! "a"), some (u!! "b"), none⟩, ⟨2, some (u!! "a"), some (u!! "c"), none⟩]).map (fun al => al (some (u!! "a"))) = some (some (some (u!! "c"), none)) := by decide +kernel
example : (aliases [⟨2, some (u!! "a"), some (u!! "b"), none⟩, ⟨2, some (u!! "a"), some (u!! "b"), none⟩]).isNone := by decide +kernel

def aName (s : UStr) : Name := ⟨none, s, none⟩
def exSets : List (AttrSet Nat) := [⟨(none, u!! "s"), [(none, u!! "t")], [(aName (u!! "a"), 1), (aName (u!! "b"), 1)]⟩, ⟨(none, u!! "t"), [], [(aName (u!! "a"), 2), (aName (u!! "c"), 2)]⟩]
example : elementAttrs exSets 10 [(none, u!! "s")] [(aName (u!! "b"), 3)] =
    .ok [(aName (u!! "a"), 2), (aName (u!! "c"), 2), (aName (u!! "a"), 1), (aName (u!! "b"), 1), (aName (u!! "b"), 3)] := by decide +kernel
example : ∀ s ∈ exSets, ∀ s' ∈ exSets, s.name = s'.name → s = s' := by
  intro s hs s' hs'
  simp only [exSets, List.mem_cons, List.not_mem_nil, or_false] at hs hs'
  rcases hs with rfl | rfl <;> rcases hs' with rfl | rfl <;> intro h
  · rfl
  · exact absurd h (by decide +kernel)
  · exact absurd h (by decide +kernel)
  · rfl

/-! ### Where the code differs from XSLT -/

/-- An excluded namespace that an inner element declares again is copied to the result. -/
theorem C86_refuted_excluded :
    let s : Sheet Nat := .elem { decls := [(some (u!! "x"), some (u!! "u"))], ext := none, excl := some [some (u!! "x")] } none
      [.elem { decls := [(some (u!! "y"), some (u!! "u"))], ext := none, excl := none } (some { name := ⟨none, u!! "a", none⟩, attrs := [], uses := [] }) []]
    (sheetStarts id (fun _ => none) 1 s).map (·.map (fun s => get s.nss (some (u!! "y")))) = some [some (some (u!! "u"))] ∧
    ∀ x ∈ literals [] s, node x.1 (some (u!! "y")) = none := by decide +kernel

/-- A prefix that an inner element uses for XSLT keeps its old namespace in the result. -/
theorem C86_refuted_rebound :
    let s : Sheet Nat := .elem { decls := [(some (u!! "x"), some (u!! "u"))], ext := none, excl := none } none
      [.elem { decls := [(some (u!! "x"), some xslNs)], ext := none, excl := none } (some { name := ⟨none, u!! "a", none⟩, attrs := [], uses := [] }) []]
    (sheetStarts id (fun _ => none) 1 s).map (·.map (fun s => get s.nss (some (u!! "x")))) = some [some (some (u!! "u"))] ∧
    ∀ x ∈ literals [] s, node x.1 (some (u!! "x")) = none := by decide +kernel

def exChain : Aliases := fun n => if n = some (u!! "u") then some (some (u!! "v"), some (u!! "y")) else if n = some (u!! "v") then some (some (u!! "w"), some (u!! "z")) else none
def exTwo : Sheet Nat := .elem { decls := [(some (u!! "x"), some (u!! "u"))], ext := none, excl := none } none
  [.elem { decls := [], ext := none, excl := none } (some { name := ⟨some (u!! "x"), u!! "a", some (u!! "u")⟩, attrs := [], uses := [] }) [],
   .elem { decls := [], ext := none, excl := none } (some { name := ⟨some (u!! "x"), u!! "a", some (u!! "u")⟩, attrs := [], uses := [] }) []]

/-- Elements share the dictionary, so that the alias of an alias is applied to it: the first element is in the namespace
of the first alias, but has no namespace node for it. -/
theorem C86_refuted_shared :
    (sheetStarts id exChain 1 exTwo).map (·.map (fun s => (s.name.ns, (s.nss : List (Pfx × Ns))))) =
      some [(some (u!! "v"), [(some (u!! "z"), some (u!! "w"))]), (some (u!! "v"), [(some (u!! "z"), some (u!! "w"))])] := by rfl

/-- When a further stylesheet is added, the names are changed once more. -/
theorem C86_refuted_again :
    (sheetStarts id exChain 1 exTwo).map (·.map (fun s => s.name.ns)) = some [some (u!! "v"), some (u!! "v")] ∧
    (sheetStarts id exChain 2 exTwo).map (·.map (fun s => s.name.ns)) = some [some (u!! "w"), some (u!! "w")] := by decide +kernel

/-- Aliases with the prefix of another namespace: which namespace is left depends on the order of the dictionary. -/
theorem C86_refuted_prefix :
    let al : Aliases := fun n => if n = some (u!! "u") then some (some (u!! "v"), some (u!! "y")) else if n = some (u!! "w") then some (some (u!! "t"), some (u!! "x")) else none
    let d : Dict := [(some (u!! "x"), some (u!! "u")), (some (u!! "y"), some (u!! "w"))]
    fixDict id al d = [(some (u!! "x"), some (u!! "t"))] ∧ fixDict List.reverse al d = [(some (u!! "y"), some (u!! "v"))] := by decide +kernel

/-- An attribute whose namespace has the alias of the default namespace loses its prefix, and then cannot be changed
again: ValueError. -/
theorem C86_refuted_default :
    let al : Aliases := fun n => if n = some (u!! "u") then some (some (u!! "v"), none) else if n = some (u!! "v") then some (some (u!! "w"), none) else none
    let s : Sheet Nat := .elem { decls := [(some (u!! "x"), some (u!! "u"))], ext := none, excl := none }
      (some { name := ⟨none, u!! "a", none⟩, attrs := [(⟨some (u!! "x"), u!! "k", some (u!! "u")⟩, 1)], uses := [] }) []
    (sheetStarts id al 1 s).isSome ∧ (sheetStarts id al 2 s).isNone := by decide +kernel

/-- The attributes of the sets replace those of the literal result element. -/
theorem C86_refuted_own :
    allAttrs exSets 10 [(aName (u!! "a"), 7)] [(none, u!! "t")] = .ok [(aName (u!! "a"), 7), (aName (u!! "a"), 2), (aName (u!! "c"), 2)] ∧
    valueOf [(aName (u!! "a"), 7), (aName (u!! "a"), 2), (aName (u!! "c"), 2)] (none, u!! "a") = some 2 := by decide +kernel

/-- Attribute sets of the same name are not merged: only the last is used. -/
theorem C86_refuted_merge :
    setAttrs [⟨(none, u!! "s"), [], [(aName (u!! "a"), 1)]⟩, ⟨(none, u!! "s"), [], [(aName (u!! "b"), 2)]⟩] 10 [(none, u!! "s")] =
      .ok [(aName (u!! "b"), 2)] := by decide +kernel

/-- A circular attribute set is not found: there is no end, however deep the stack. -/
theorem C86_refuted_circular (fuel : Nat) :
    setAttrs [(⟨(none, u!! "s"), [(none, u!! "s")], [(aName (u!! "a"), 1)]⟩ : AttrSet Nat)] fuel [(none, u!! "s")] = .endless := by
  induction fuel with
  | zero => rfl
  | succ n ih =>
    rw [setAttrs, show setNamed [(⟨(none, u!! "s"), [(none, u!! "s")], [(aName (u!! "a"), 1)]⟩ : AttrSet Nat)] (none, u!! "s") =
      some ⟨(none, u!! "s"), [(none, u!! "s")], [(aName (u!! "a"), 1)]⟩ from by rfl]
    dsimp only
    rw [ih]

/-- Two declarations of the same alias for one namespace are rejected, although they do not differ. -/
theorem C86_refuted_same_alias : (aliases [⟨2, some (u!! "a"), some (u!! "b"), none⟩, ⟨2, some (u!! "a"), some (u!! "b"), none⟩]).isNone := by decide +kernel

end Verif.Xslt.Lre
