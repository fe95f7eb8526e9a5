import Verif.Write.TreeSpec
import Verif.Write.CallLemmas

/-
Lemmas about dictionaries, scopes and names, for C34 and C54.
-/
namespace Verif.Write
open Verif Verif.Write.Spec

section dict
variable {α : Type} [DecidableEq α]

theorem dget_dset (d : List (α × UStr)) (k : α) (v : UStr) (j : α) :
    dget (dset d k v) j = if k = j then some v else dget d j := by
  induction d with
  | nil => simp [dset, dget]
  | cons e d ih =>
    obtain ⟨k', v'⟩ := e
    unfold dset
    by_cases h : k' = k
    · subst h
      rw [if_pos rfl]
      simp only [dget]
      by_cases h2 : k' = j <;> simp [h2]
    · rw [if_neg h]
      simp only [dget]
      by_cases h2 : k' = j
      · subst h2
        simp [Ne.symm h]
      · simp [h2, ih]

theorem dset_keys (d : List (α × UStr)) (k : α) (v : UStr) :
    (dset d k v).map (·.1) = if k ∈ d.map (·.1) then d.map (·.1) else d.map (·.1) ++ [k] := by
  induction d with
  | nil => simp [dset]
  | cons e d ih =>
    obtain ⟨k', v'⟩ := e
    unfold dset
    by_cases h : k' = k
    · subst h; simp
    · rw [if_neg h]
      simp only [List.map_cons, ih, List.mem_cons]
      by_cases h2 : k ∈ d.map (·.1)
      · simp [h2]
      · rw [if_neg h2, if_neg (fun h3 => h3.elim (fun h3 => h h3.symm) h2)]
        simp

theorem dset_nodup {d : List (α × UStr)} (h : (d.map (·.1)).Nodup) (k : α) (v : UStr) :
    ((dset d k v).map (·.1)).Nodup := by
  rw [dset_keys]
  split
  · exact h
  · rename_i hk
    rw [List.nodup_append]
    exact ⟨h, by simp, fun a ha b hb => by simp at hb; subst hb; intro h2; subst h2; exact hk ha⟩

theorem dget_mem {d : List (α × UStr)} {k : α} {v : UStr} (h : dget d k = some v) : (k, v) ∈ d := by
  induction d with
  | nil => simp [dget] at h
  | cons e d ih =>
    obtain ⟨k', v'⟩ := e
    simp only [dget] at h
    split at h
    · rename_i hk; cases h; subst hk; simp
    · simp [ih h]

theorem mem_dget {d : List (α × UStr)} (hn : (d.map (·.1)).Nodup) {k : α} {v : UStr} (h : (k, v) ∈ d) :
    dget d k = some v := by
  induction d with
  | nil => simp at h
  | cons e d ih =>
    obtain ⟨k', v'⟩ := e
    simp only [List.map_cons, List.nodup_cons] at hn
    simp only [dget]
    rcases List.mem_cons.1 h with h | h
    · cases h; simp
    · by_cases hk : k' = k
      · subst hk
        exact absurd (List.mem_map.2 ⟨_, h, rfl⟩) hn.1
      · rw [if_neg hk]; exact ih hn.2 h

theorem dget_perm {d e : List (α × UStr)} (hp : d.Perm e) (hn : (d.map (·.1)).Nodup) (k : α) : dget d k = dget e k := by
  have hn' : (e.map (·.1)).Nodup := (hp.map _).nodup_iff.1 hn
  cases h : dget d k with
  | some v => exact (mem_dget hn' (hp.mem_iff.1 (dget_mem h))).symm
  | none =>
    cases h2 : dget e k with
    | none => rfl
    | some v =>
      have := mem_dget hn (hp.mem_iff.2 (dget_mem h2))
      rw [h] at this; cases this

theorem dget_filter {d : List (α × UStr)} (hn : (d.map (·.1)).Nodup) (f : α × UStr → Bool) (k : α) :
    dget (d.filter f) k = (dget d k).filter fun v => f (k, v) := by
  induction d with
  | nil => simp [dget]
  | cons e d ih =>
    obtain ⟨k', v'⟩ := e
    simp only [List.map_cons, List.nodup_cons] at hn
    simp only [dget, List.filter_cons]
    by_cases hk : k' = k
    · subst hk
      rw [if_pos rfl]
      cases hf : f (k', v') with
      | true => simp [dget, hf, Option.filter]
      | false =>
        simp only [Bool.false_eq_true, if_false, Option.filter, hf]
        cases hg : dget (d.filter f) k' with
        | none => rfl
        | some v =>
          have := (List.mem_filter.1 (dget_mem hg)).1
          exact absurd (List.mem_map.2 ⟨_, this, rfl⟩) hn.1
    · rw [if_neg hk]
      split
      · simp only [dget, if_neg hk]; exact ih hn.2
      · exact ih hn.2

omit [DecidableEq α] in
theorem filter_keys_nodup {d : List (α × UStr)} (hn : (d.map (·.1)).Nodup) (f : α × UStr → Bool) :
    ((d.filter f).map (·.1)).Nodup := by
  exact hn.sublist ((List.filter_sublist).map _)

theorem dget_dupdate (d e : List (α × UStr)) (hn : (e.map (·.1)).Nodup) (k : α) :
    dget (dupdate d e) k = (dget e k).or (dget d k) := by
  unfold dupdate
  induction e generalizing d with
  | nil => simp [dget]
  | cons x e ih =>
    obtain ⟨j, v⟩ := x
    simp only [List.map_cons, List.nodup_cons] at hn
    rw [List.foldl_cons, ih _ hn.2, dget_dset]
    simp only [dget]
    by_cases hj : j = k
    · subst hj
      have : dget e j = none := by
        cases h : dget e j with
        | none => rfl
        | some v => exact absurd (List.mem_map.2 ⟨_, dget_mem h, rfl⟩) hn.1
      simp [this]
    · simp [hj]

end dict

theorem nearest_eq (l : List (Option UStr × UStr)) (p : Option UStr) : nearest l p = dget l p := by
  induction l with
  | nil => rfl
  | cons e l ih => obtain ⟨q, u⟩ := e; simp [nearest, dget, ih]

theorem dget_append {α : Type} [DecidableEq α] (d e : List (α × UStr)) (k : α) : dget (d ++ e) k = (dget d k).or (dget e k) := by
  induction d with
  | nil => simp [dget]
  | cons x d ih =>
    obtain ⟨j, v⟩ := x
    simp only [List.cons_append, dget, ih]
    split <;> simp

/-! In-scope namespaces -/

/-- A declaration that `Element_InscopeNamespaces` passes over. -/
def skipped (x : Option UStr × UStr) : Bool := x.2 = [] && x.1 = none

theorem dget_addScope (l d : List (Option UStr × UStr)) (p : Option UStr) :
    dget (l.foldl addScope d) p = (dget d p).or (dget (l.filter fun x => !skipped x) p) := by
  induction l generalizing d with
  | nil => simp [dget]
  | cons x l ih =>
    obtain ⟨q, u⟩ := x
    rw [List.foldl_cons, ih, List.filter_cons]
    unfold addScope
    by_cases hs : u = [] ∧ q = none
    · rw [if_pos hs]
      simp [skipped, hs]
    · rw [if_neg hs]
      have hs2 : (!skipped (q, u)) = true := by
        simp only [skipped, Bool.not_eq_true', Bool.and_eq_false_iff, decide_eq_false_iff_not]
        by_cases h : u = []
        · exact Or.inr (fun h2 => hs ⟨h, h2⟩)
        · exact Or.inl h
      rw [if_pos hs2]
      cases hg : dget d q with
      | some v =>
        dsimp only
        simp only [dget]
        by_cases hq : q = p
        · subst hq; simp [hg]
        · simp [hq]
      | none =>
        dsimp only
        rw [dget_dset]
        simp only [dget]
        by_cases hq : q = p
        · subst hq; simp [hg]
        · simp [hq]

theorem addScope_nodup (l d : List (Option UStr × UStr)) (h : (d.map (·.1)).Nodup) :
    ((l.foldl addScope d).map (·.1)).Nodup := by
  induction l generalizing d with
  | nil => exact h
  | cons x l ih =>
    rw [List.foldl_cons]
    refine ih _ ?_
    unfold addScope
    split
    · exact h
    · split
      · exact h
      · exact dset_nodup h _ _

/-- `xml_namespaces` without `xml`. -/
def scopeDict (chain : List (List (Option UStr × UStr))) : List (Option UStr × UStr) :=
  ddel (inscope chain) (some (u!! "xml"))

theorem scopeDict_nodup (chain : List (List (Option UStr × UStr))) : ((scopeDict chain).map (·.1)).Nodup :=
  filter_keys_nodup (addScope_nodup _ _ (by simp)) _

theorem dget_scope (chain : List (List (Option UStr × UStr))) (p : Option UStr) :
    dget (scopeDict chain) p = if p = some (u!! "xml") then none else dget (chain.flatten.filter fun x => !skipped x) p := by
  unfold scopeDict ddel inscope
  rw [dget_filter (addScope_nodup _ _ (by simp)), dget_addScope]
  by_cases hp : p = some (u!! "xml")
  · subst hp
    rw [if_pos rfl]
    simp [dget]
  · rw [if_neg hp]
    have : dget [(some (u!! "xml"), xmlNs)] p = none := by simp [dget, Ne.symm hp]
    rw [this, Option.none_or]
    cases dget (chain.flatten.filter fun x => !skipped x) p <;> simp [Option.filter, hp]

theorem dget_filter_nearest {l : List (Option UStr × UStr)} {p : Option UStr} {u : UStr} (h : dget l p = some u)
    (hs : skipped (p, u) = false) : dget (l.filter fun x => !skipped x) p = some u := by
  induction l with
  | nil => simp [dget] at h
  | cons x l ih =>
    obtain ⟨q, v⟩ := x
    simp only [dget] at h
    rw [List.filter_cons]
    by_cases hq : q = p
    · rw [if_pos hq] at h
      cases h; subst hq
      simp [hs, dget]
    · rw [if_neg hq] at h
      split
      · simp only [dget, if_neg hq]; exact ih h
      · exact ih h

/-- A bound prefix is in the dictionary. -/
theorem scope_of_bound {chain : List (List (Option UStr × UStr))} {p : Option UStr} {u : UStr} (h : Bound chain p u)
    (hu : u ≠ []) (hp : p ≠ some (u!! "xml")) : dget (scopeDict chain) p = some u := by
  rw [dget_scope, if_neg hp]
  rcases h with h | h
  · rw [nearest_eq] at h
    exact dget_filter_nearest h (by simp [skipped, hu])
  · exact absurd h.1 hp

theorem scope_mem {chain : List (List (Option UStr × UStr))} {p : Option UStr} {u : UStr}
    (h : dget (scopeDict chain) p = some u) : p ≠ some (u!! "xml") ∧ (p, u) ∈ chain.flatten := by
  rw [dget_scope] at h
  split at h
  · cases h
  · rename_i hp
    exact ⟨hp, (List.mem_filter.1 (dget_mem h)).1⟩

theorem scope_default_mono {chain : List (List (Option UStr × UStr))} {ds : List (Option UStr × UStr)}
    (h : (dget (scopeDict chain) none).isSome) : (dget (scopeDict (ds :: chain)) none).isSome := by
  rw [dget_scope, if_neg (by simp)] at *
  rw [List.flatten_cons, List.filter_append, dget_append]
  cases dget (ds.filter fun x => !skipped x) none with
  | some v => rfl
  | none => simpa using h

/-! Names -/

theorem ncName_name {n : UStr} (h : ncName n = true) : isName n = true ∧ (58 : Nat) ∉ n := by
  unfold ncName at h
  simp only [Bool.and_eq_true, Bool.not_eq_true', List.contains_eq_mem, decide_eq_false_iff_not] at h
  exact h

theorem isName_qname {p l : UStr} (hp : ncName p = true) (hl : ncName l = true) : isName (p ++ u!! ":" ++ l) = true := by
  have h1 := (ncName_name hp).1
  have h2 := (ncName_name hl).1
  cases p with
  | nil => simp [isName] at h1
  | cons a p =>
    cases l with
    | nil => simp [isName] at h2
    | cons b l =>
      simp only [isName, Bool.and_eq_true, List.all_eq_true] at h1 h2 ⊢
      simp only [List.cons_append, List.append_assoc, List.nil_append, Bool.and_eq_true, List.all_append,
        List.all_cons, List.all_eq_true]
      refine ⟨h1.1, h1.2, by decide, ?_, h2.2⟩
      unfold nameChar; simp [h2.1]

theorem splitName_nc {n : UStr} (h : ncName n = true) : splitName n = some (none, n) := by
  have h2 := (ncName_name h).2
  have hall : ∀ x ∈ n, decide (x ≠ 58) = true := by
    intro x hx
    simp only [ne_eq, decide_not, Bool.not_eq_true', decide_eq_false_iff_not]
    intro h3; subst h3; exact h2 hx
  have : n.dropWhile (· ≠ 58) = [] := by
    rw [← List.append_nil n, List.dropWhile_append_of_pos hall]
    rfl
  unfold splitName
  rw [this]
  simp [h]

theorem splitName_prefix {p l : UStr} (hp : ncName p = true) (hl : ncName l = true) :
    splitName (p ++ u!! ":" ++ l) = some (some p, l) := by
  have h2 := (ncName_name hp).2
  have hall : ∀ x ∈ p, decide (x ≠ 58) = true := by
    intro x hx
    simp only [ne_eq, decide_not, Bool.not_eq_true', decide_eq_false_iff_not]
    intro h3; subst h3; exact h2 hx
  have h3 : (p ++ u!! ":" ++ l).dropWhile (· ≠ 58) = 58 :: l := by
    rw [List.append_assoc, List.dropWhile_append_of_pos hall]
    simp
  have h4 : (p ++ u!! ":" ++ l).takeWhile (· ≠ 58) = p := by
    rw [List.append_assoc, List.takeWhile_append_of_pos hall]
    simp
  unfold splitName
  rw [h3, h4]
  simp [hp, hl]

theorem splitName_qname {p : Option UStr} {l : UStr} (hp : ∀ q, p = some q → ncName q = true) (hl : ncName l = true) :
    splitName (qname p l) = some (p, l) := by
  cases p with
  | none => exact splitName_nc hl
  | some q => exact splitName_prefix (hp q rfl) hl

theorem ncName_xmlns : ncName (u!! "xmlns") = true := by decide

/-- Prefixes that can be declared. -/
theorem declName_split {p : Option UStr} (hp : ∀ q, p = some q → ncName q = true) :
    (isName (declName p) = true) ∧ ∀ u, declOf (declName p, u) = some (p, u) := by
  cases p with
  | none =>
    refine ⟨by decide, fun u => ?_⟩
    simp [declOf, declName, splitName_nc ncName_xmlns]
  | some q =>
    have hq := hp q rfl
    cases q with
    | nil => simp [ncName, isName] at hq
    | cons c s =>
      have hn : declName (some (c :: s)) = u!! "xmlns" ++ u!! ":" ++ (c :: s) := rfl
      rw [hn]
      refine ⟨isName_qname ncName_xmlns hq, fun u => ?_⟩
      simp only [declOf, splitName_prefix ncName_xmlns hq, if_pos]

theorem legalBinding_nc {p : Option UStr} {u : UStr} (h : legalBinding (p, u) = true) : ∀ q, p = some q → ncName q = true := by
  intro q hq; subst hq
  simp only [legalBinding, Bool.and_eq_true] at h
  exact h.1.1.1.1

end Verif.Write
