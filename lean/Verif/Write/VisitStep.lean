import Verif.Write.VisitLemmas

/-
The declarations written for one element, and the scope in which a reader resolves its names.
-/
namespace Verif.Write
open Verif Verif.Write.Spec

def LegalChain (wide : Bool) (chain : List (List (Option UStr × UStr))) : Prop := ∀ ds ∈ chain, LegalDecls wide ds

theorem chain_mem {wide : Bool} {chain : List (List (Option UStr × UStr))} (h : LegalChain wide chain)
    {x : Option UStr × UStr} (hx : x ∈ chain.flatten) : legalBinding x = true ∧ LegalText wide x.2 := by
  obtain ⟨ds, h1, h2⟩ := List.mem_flatten.1 hx
  exact (h ds h1).2 x h2

theorem bound_legal {wide : Bool} {chain : List (List (Option UStr × UStr))} (h : LegalChain wide chain)
    {p : Option UStr} {u : UStr} (hb : Bound chain p u) : legalBinding (p, u) = true := by
  rcases hb with hb | ⟨rfl, rfl⟩
  · rw [nearest_eq] at hb
    exact (chain_mem h (dget_mem hb)).1
  · decide

theorem legal_xml {p : Option UStr} {u : UStr} (h : legalBinding (p, u) = true) : p = some (u!! "xml") ↔ u = xmlName := by
  cases p with
  | none =>
    simp only [legalBinding, Bool.and_eq_true, decide_eq_true_eq] at h
    constructor
    · intro h2; cases h2
    · intro h2; exact absurd h2 h.1
  | some q =>
    simp only [legalBinding, Bool.and_eq_true, decide_eq_true_eq, beq_iff_eq] at h
    have h2 := h.2
    constructor
    · intro h3
      cases h3
      simpa using h2
    · intro h3
      have : decide (q = u!! "xml") = true := by rw [h2]; simp [h3]
      rw [of_decide_eq_true this]

theorem legal_nonempty {q u : UStr} (h : legalBinding (some q, u) = true) : u ≠ [] ∧ u ≠ xmlnsName ∧ q ≠ u!! "xmlns" := by
  simp only [legalBinding, Bool.and_eq_true, decide_eq_true_eq, beq_iff_eq] at h
  exact ⟨h.1.1.2, h.1.2, h.1.1.1.2⟩

theorem bound_unique {wide : Bool} {chain : List (List (Option UStr × UStr))} (h : LegalChain wide chain)
    {p : Option UStr} {u v : UStr} (hu : Bound chain p u) (hv : Bound chain p v) : u = v := by
  by_cases hp : p = some (u!! "xml")
  · rw [(legal_xml (bound_legal h hu)).1 hp, (legal_xml (bound_legal h hv)).1 hp]
  · rcases hu with hu | hu
    · rcases hv with hv | hv
      · rw [hu] at hv; cases hv; rfl
      · exact absurd hv.1 hp
    · exact absurd hu.1 hp

/-- The condition on the name of an element. -/
def NameOk (chain : List (List (Option UStr × UStr))) (ns pfx : Option UStr) : Prop :=
  match ns with
  | none => pfx = none
  | some u => u ≠ [] ∧ Bound chain pfx u

theorem orNone_of {wide : Bool} {chain : List (List (Option UStr × UStr))} (h : LegalChain wide chain)
    {ns pfx : Option UStr} (hn : NameOk chain ns pfx) : orNone pfx = pfx ∧ ∀ q, pfx = some q → ncName q = true := by
  cases ns with
  | none => simp only [NameOk] at hn; subst hn; exact ⟨rfl, fun q h => by cases h⟩
  | some u =>
    have hl := legalBinding_nc (bound_legal h hn.2)
    refine ⟨?_, hl⟩
    match pfx, hl with
    | none, _ => rfl
    | some [], hl => have := hl [] rfl; simp [ncName, isName] at this
    | some (_ :: _), _ => rfl

theorem own_get {ns pfx : Option UStr} (ho : orNone pfx = pfx) (hns : ∀ u, ns = some u → u ≠ [])
    (d : List (Option UStr × UStr)) (p : Option UStr) :
    dget (ownBinding ns pfx d) p =
      if p = pfx ∧ (ns.isSome ∨ truthy (dget d none) = true) then some (ns.getD []) else dget d p := by
  unfold ownBinding
  rw [ho]
  have ht : truthy ns = ns.isSome := by
    cases ns with
    | none => rfl
    | some u => cases u with
      | nil => exact absurd rfl (hns [] rfl)
      | cons c s => rfl
  by_cases hc : (truthy ns || truthy (dget d none)) = true
  · rw [if_pos hc]
    have hc2 : ns.isSome ∨ truthy (dget d none) = true := by
      rw [ht, Bool.or_eq_true] at hc; exact hc
    by_cases he : (dget d pfx).isSome ∧ dget d pfx = ns
    · rw [if_pos he]
      by_cases hp : p = pfx
      · subst hp
        rw [if_pos ⟨rfl, hc2⟩]
        obtain ⟨h1, h2⟩ := he
        rw [h2] at h1 ⊢
        cases ns with
        | none => cases h1
        | some u => rfl
      · rw [if_neg (fun h => hp h.1)]
    · rw [if_neg he, dget_dset]
      by_cases hp : p = pfx
      · subst hp; simp [hc2]
      · rw [if_neg (Ne.symm hp), if_neg (fun h => hp h.1)]
  · rw [if_neg hc, if_neg]
    rw [ht, Bool.or_eq_true] at hc
    exact fun h => hc h.2

theorem own_nodup {ns pfx : Option UStr} {d : List (Option UStr × UStr)} (h : (d.map (·.1)).Nodup) :
    ((ownBinding ns pfx d).map (·.1)).Nodup := by
  unfold ownBinding
  split
  · split
    · exact h
    · exact dset_nodup h _ _
  · exact h

theorem nsFromAttrs {current d : List (Option UStr × UStr)} {attrs : List Attr}
    (h : ∀ a ∈ attrs, a.ns ≠ some xmlnsNs) : attrs.foldl (nsFromAttr current) d = d := by
  induction attrs generalizing d with
  | nil => rfl
  | cons a as ih =>
    rw [List.foldl_cons, nsFromAttr, if_neg (h a (by simp))]
    exact ih fun b hb => h b (by simp [hb])

/-- What the visitor believes to be in scope of the output, and what a reader finds in scope, which may be
more: other prefixes, but no default namespace. -/
structure Inv (cur : List (Option UStr × UStr)) (chain : List (List (Option UStr × UStr)))
    (scope : List (Option UStr × UStr)) : Prop where
  agree : ∀ p u, dget cur p = some u → dget scope p = some u ∨ (dget scope p = none ∧ p = some (u!! "xml") ∧ u = xmlNs)
  free : dget cur none = none → dget scope none = none ∨ dget scope none = some []
  xml : dget cur (some (u!! "xml")) = some xmlNs
  dflt : ∀ u, dget cur none = some u → u ≠ [] → (dget (scopeDict chain) none).isSome

theorem inv_free {chain : List (List (Option UStr × UStr))} {scope : List (Option UStr × UStr)}
    (hx : ∀ u, dget scope (some (u!! "xml")) = some u → u = xmlNs)
    (h : dget scope none = none ∨ dget scope none = some []) : Inv initialNs chain scope := by
  refine ⟨?_, fun _ => h, rfl, ?_⟩
  · intro p u hp
    simp only [initialNs, dget] at hp
    split at hp
    · rename_i he
      cases hp; subst he
      cases hs : dget scope (some (u!! "xml")) with
      | none => exact Or.inr ⟨rfl, rfl, rfl⟩
      | some v => rw [hx v hs]; exact Or.inl rfl
    · cases hp
  · intro u h; simp [initialNs, dget] at h

theorem inv_initial (chain : List (List (Option UStr × UStr))) : Inv initialNs chain [] :=
  inv_free (fun u h => by simp [dget] at h) (Or.inl rfl)

/-- A reader resolves prefixes as the visitor's dictionary says. -/
theorem namespaceOf_cur {cur : List (Option UStr × UStr)} {chain : List (List (Option UStr × UStr))}
    {scope : List (Option UStr × UStr)} (h : Inv cur chain scope) {p : Option UStr} (hp : p = none ∨ (dget cur p).isSome) :
    namespaceOf scope p = match dget cur p with
      | some u => if u = [] then (if p = none then some none else none) else some (some u)
      | none => some none := by
  unfold namespaceOf
  rw [nearest_eq]
  cases hs : dget cur p with
  | some u =>
    rcases h.agree p u hs with h1 | ⟨h1, rfl, rfl⟩
    · rw [h1]
    · rw [h1]; rfl
  | none =>
    have hp : p = none := by
      rcases hp with hp | hp
      · exact hp
      · rw [hs] at hp; cases hp
    subst hp
    rcases h.free hs with h1 | h1 <;> rw [h1] <;> rfl

theorem emitted_step {wide : Bool} {cur : List (Option UStr × UStr)} {chain : List (List (Option UStr × UStr))}
    {scope : List (Option UStr × UStr)} (hi : Inv cur chain scope) {decls : List (Option UStr × UStr)}
    (hc : LegalChain wide (decls :: chain)) {ns pfx : Option UStr} (hn : NameOk (decls :: chain) ns pfx)
    {attrs : List Attr} (hx : ∀ a ∈ attrs, a.ns ≠ some xmlnsNs)
    {em : List (Option UStr × UStr)} (hem : em.Perm (emitted cur (decls :: chain) ns pfx attrs)) :
    (em.map (·.1)).Nodup ∧ (∀ e ∈ em, legalBinding e = true ∧ LegalText wide e.2) ∧
    Inv (dupdate cur (emitted cur (decls :: chain) ns pfx attrs)) (decls :: chain) (em ++ scope) ∧
    namespaceOf (em ++ scope) pfx = some ns ∧
    ∀ q u, Bound (decls :: chain) (some q) u → namespaceOf (em ++ scope) (some q) = some (some u) := by
  obtain ⟨ho, hnc⟩ := orNone_of hc hn
  have hns : ∀ u, ns = some u → u ≠ [] := by intro u hu; subst hu; exact hn.1
  generalize hsd : scopeDict (decls :: chain) = sd
  have hsdn : (sd.map (·.1)).Nodup := hsd ▸ scopeDict_nodup _
  generalize hfull : ownBinding ns pfx sd = full
  have hfn : (full.map (·.1)).Nodup := hfull ▸ own_nodup hsdn
  have hget : ∀ p, dget full p = if p = pfx ∧ (ns.isSome ∨ truthy (dget sd none) = true) then some (ns.getD []) else dget sd p := by
    intro p; rw [← hfull]; exact own_get ho hns sd p
  have heq : emitted cur (decls :: chain) ns pfx attrs = full.filter fun e => dget cur e.1 ≠ some e.2 := by
    unfold emitted
    rw [nsFromAttrs hx]
    unfold scopeDict at hsd
    rw [hsd, hfull]
  have hen : ((emitted cur (decls :: chain) ns pfx attrs).map (·.1)).Nodup := by
    rw [heq]; exact filter_keys_nodup hfn _
  have hcur : ∀ p, dget (dupdate cur (emitted cur (decls :: chain) ns pfx attrs)) p = (dget full p).or (dget cur p) := by
    intro p
    rw [dget_dupdate _ _ hen, heq, dget_filter hfn]
    cases hf : dget full p with
    | none => rfl
    | some u =>
      simp only [Option.filter]
      by_cases h2 : dget cur p = some u
      · simp [h2]
      · simp [h2]
  have hinv : Inv (dupdate cur (emitted cur (decls :: chain) ns pfx attrs)) (decls :: chain) (em ++ scope) := by
    refine ⟨?_, ?_, ?_, ?_⟩
    · intro p u hp
      rw [dget_dupdate _ _ hen] at hp
      rw [dget_append, dget_perm hem ((hem.map _).nodup_iff.2 hen)]
      cases hg : dget (emitted cur (decls :: chain) ns pfx attrs) p with
      | some v => rw [hg] at hp; exact Or.inl hp
      | none => rw [hg, Option.none_or] at hp; rw [Option.none_or]; exact hi.agree p u hp
    · intro hp
      rw [dget_dupdate _ _ hen] at hp
      rw [dget_append, dget_perm hem ((hem.map _).nodup_iff.2 hen)]
      cases hg : dget (emitted cur (decls :: chain) ns pfx attrs) none with
      | some v => rw [hg] at hp; cases hp
      | none => rw [hg, Option.none_or] at hp; rw [Option.none_or]; exact hi.free hp
    · rw [hcur, hget, hi.xml]
      split
      · rename_i h
        cases ns with
        | none => simp only [NameOk] at hn; rw [hn] at h; cases h.1
        | some u =>
          have := (legal_xml (bound_legal hc hn.2)).1 h.1.symm
          rw [this]; rfl
      · rw [← hsd, dget_scope, if_pos rfl]; rfl
    · intro u hu hne
      rw [hsd]
      rw [hcur, hget] at hu
      split at hu
      · rename_i h
        cases ns with
        | none => cases hu; exact absurd rfl hne
        | some v =>
          have hb := hn.2
          rw [← h.1] at hb
          rw [← hsd, scope_of_bound hb hn.1 (by simp)]; rfl
      · cases hs : dget sd none with
        | some v => rfl
        | none =>
          rw [hs, Option.none_or] at hu
          have := scope_default_mono (ds := decls) (hi.dflt u hu hne)
          rw [hsd, hs] at this; exact this
  have hbound : ∀ q u, Bound (decls :: chain) (some q) u →
      dget (dupdate cur (emitted cur (decls :: chain) ns pfx attrs)) (some q) = some u := by
    intro q u hb
    by_cases hq : some q = some (u!! "xml")
    · rw [hq, hinv.xml, (legal_xml (bound_legal hc hb)).1 hq]; rfl
    · rw [hcur, hget]
      split
      · rename_i h
        cases ns with
        | none => simp only [NameOk] at hn; rw [hn] at h; cases h.1
        | some v =>
          have hb2 := hn.2
          rw [← h.1] at hb2
          rw [bound_unique hc hb hb2]; rfl
      · rw [← hsd, scope_of_bound hb (legal_nonempty (bound_legal hc hb)).1 hq]; rfl
  refine ⟨(hem.map _).nodup_iff.2 hen, ?_, hinv, ?_, ?_⟩
  · intro e he
    have he' := hem.mem_iff.1 he
    rw [heq] at he'
    obtain ⟨h1, h2⟩ := List.mem_filter.1 he'
    obtain ⟨p, u⟩ := e
    have h3 := mem_dget hfn h1
    simp only [ne_eq, decide_not, Bool.not_eq_true', decide_eq_false_iff_not] at h2
    rw [hget] at h3
    split at h3
    · rename_i h
      cases ns with
      | none =>
        cases h3
        simp only [NameOk] at hn
        rw [h.1, hn]
        exact ⟨by decide, fun c hc => by cases hc⟩
      | some v =>
        cases h3
        have hb := hn.2
        rw [← h.1] at hb
        refine ⟨bound_legal hc hb, ?_⟩
        rcases hb with hb | ⟨hb, rfl⟩
        · rw [nearest_eq] at hb
          exact (chain_mem hc (dget_mem hb)).2
        · exact absurd (by rw [hb]; exact hi.xml) h2
    · rw [← hsd] at h3
      exact chain_mem hc (scope_mem h3).2
  · cases ns with
    | some u =>
      have hu := hn.1
      rw [namespaceOf_cur hinv (Or.inr (by rw [hcur, hget, if_pos ⟨rfl, Or.inl rfl⟩]; rfl)), hcur, hget,
        if_pos ⟨rfl, Or.inl rfl⟩]
      simp [hu]
    | none =>
      simp only [NameOk] at hn
      subst hn
      rw [namespaceOf_cur hinv (Or.inl rfl), hcur, hget]
      by_cases ht : truthy (dget sd none) = true
      · rw [if_pos ⟨rfl, Or.inr ht⟩]; rfl
      · rw [if_neg (by simp [ht])]
        cases hs : dget sd none with
        | some v =>
          rw [hs] at ht
          cases v with
          | nil => rfl
          | cons c s => exact absurd rfl ht
        | none =>
          rw [Option.none_or]
          cases hcn : dget cur none with
          | none => rfl
          | some v =>
            by_cases hv : v = []
            · subst hv; rfl
            · have := scope_default_mono (ds := decls) (hi.dflt v hcn hv)
              rw [hsd, hs] at this; cases this
  · intro q u hb
    rw [namespaceOf_cur hinv (Or.inr (by rw [hbound q u hb]; rfl)), hbound q u hb]
    simp [(legal_nonempty (bound_legal hc hb)).1]

end Verif.Write
