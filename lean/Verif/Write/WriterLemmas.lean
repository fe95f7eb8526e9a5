import Verif.Write.WriterSpec
import Verif.Write.StructLemmas
import Verif.Write.ReadLemmas
import Verif.Content.Closure

/-
Dictionaries of namespaces in scope, and the start tag that the writer makes of them.
-/
namespace Verif.Write.XmlWriter
open Verif Verif.Write.Spec Verif.Write.XmlWriter.Spec

/-! ## Dictionaries -/

section
variable {α β : Type} [DecidableEq α]

theorem get_put (d : List (α × β)) (k : α) (v : β) (j : α) : get (put d k v) j = if k = j then some v else get d j := by
  induction d with
  | nil => simp [put, get]
  | cons e d ih =>
    obtain ⟨k', v'⟩ := e
    by_cases h : k' = k
    · subst h
      by_cases h2 : k' = j <;> simp [put, get, h2]
    · simp only [put, if_neg h, get, ih]
      by_cases h2 : k' = j
      · subst h2; simp [Ne.symm h]
      · simp [h2]

theorem get_mem {d : List (α × β)} {k : α} {v : β} (h : get d k = some v) : (k, v) ∈ d := by
  induction d with
  | nil => cases h
  | cons e d ih =>
    obtain ⟨k', v'⟩ := e
    simp only [get] at h
    split at h
    · rename_i hk; cases h; subst hk; simp
    · exact List.mem_cons_of_mem _ (ih h)

theorem get_none {d : List (α × β)} {k : α} : get d k = none ↔ k ∉ d.map (·.1) := by
  induction d with
  | nil => simp [get]
  | cons e d ih =>
    obtain ⟨k', v'⟩ := e
    simp only [get, List.map_cons, List.mem_cons]
    by_cases h : k' = k
    · simp [h]
    · simp [h, ih, Ne.symm h]

theorem mem_get {d : List (α × β)} (hn : (d.map (·.1)).Nodup) {k : α} {v : β} (h : (k, v) ∈ d) : get d k = some v := by
  induction d with
  | nil => cases h
  | cons e d ih =>
    obtain ⟨k', v'⟩ := e
    simp only [List.map_cons, List.nodup_cons] at hn
    rcases List.mem_cons.1 h with h | h
    · cases h; simp [get]
    · have : k' ≠ k := by
        intro e; subst e
        exact hn.1 (List.mem_map.2 ⟨_, h, rfl⟩)
      simp only [get, if_neg this]
      exact ih hn.2 h

theorem put_mem {d : List (α × β)} {k : α} {v : β} {j : α} (h : j ∈ (put d k v).map (·.1)) :
    j = k ∨ j ∈ d.map (·.1) := by
  induction d with
  | nil => simp [put] at h; exact Or.inl h
  | cons e d ih =>
    obtain ⟨k', v'⟩ := e
    simp only [put] at h
    split at h
    · rename_i hk; subst hk
      simp only [List.map_cons, List.mem_cons] at h ⊢
      exact Or.inr h
    · simp only [List.map_cons, List.mem_cons] at h ⊢
      rcases h with h | h
      · exact Or.inr (Or.inl h)
      · rcases ih h with h | h
        · exact Or.inl h
        · exact Or.inr (Or.inr h)

theorem put_nodup {d : List (α × β)} (hn : (d.map (·.1)).Nodup) (k : α) (v : β) : ((put d k v).map (·.1)).Nodup := by
  induction d with
  | nil => simp [put]
  | cons e d ih =>
    obtain ⟨k', v'⟩ := e
    simp only [List.map_cons, List.nodup_cons] at hn
    simp only [put]
    split
    · rename_i hk; subst hk
      simpa using hn
    · rename_i hk
      simp only [List.map_cons, List.nodup_cons]
      refine ⟨fun h => ?_, ih hn.2⟩
      rcases put_mem h with h | h
      · exact hk h
      · exact hn.1 h

theorem get_update (d e : List (α × β)) (hn : (e.map (·.1)).Nodup) (k : α) :
    get (update d e) k = (get e k).or (get d k) := by
  induction e generalizing d with
  | nil => simp [update, get]
  | cons x e ih =>
    obtain ⟨k', v'⟩ := x
    simp only [List.map_cons, List.nodup_cons] at hn
    simp only [update, ih _ hn.2, get_put, get]
    by_cases h : k' = k
    · subst h
      have : get e k' = none := get_none.2 hn.1
      simp [this]
    · simp [h]

theorem update_nodup {d e : List (α × β)} (hn : (d.map (·.1)).Nodup) : ((update d e).map (·.1)).Nodup := by
  induction e generalizing d with
  | nil => exact hn
  | cons x e ih => obtain ⟨k, v⟩ := x; exact ih (put_nodup hn _ _)

theorem put_map {γ : Type} (f : β → γ) (d : List (α × β)) (k : α) (v : β) :
    (put d k v).map (fun e => (e.1, f e.2)) = put (d.map fun e => (e.1, f e.2)) k (f v) := by
  induction d with
  | nil => rfl
  | cons e d ih =>
    obtain ⟨k', v'⟩ := e
    simp only [put, List.map_cons]
    split
    · rfl
    · simp [ih]

theorem nodup_of_keys {d : List (α × β)} (hn : (d.map (·.1)).Nodup) : d.Nodup := by
  induction d with
  | nil => simp
  | cons e d ih =>
    simp only [List.map_cons, List.nodup_cons] at hn ⊢
    exact ⟨fun h => hn.1 (List.mem_map.2 ⟨e, h, rfl⟩), ih hn.2⟩

theorem perm_of_get {d e : List (α × β)} (hd : (d.map (·.1)).Nodup) (he : (e.map (·.1)).Nodup)
    (h : ∀ k, get d k = get e k) : d.Perm e := by
  rw [List.perm_ext_iff_of_nodup (nodup_of_keys hd) (nodup_of_keys he)]
  rintro ⟨k, v⟩
  constructor
  · intro hm; exact get_mem (by rw [← h]; exact mem_get hd hm)
  · intro hm; exact get_mem (by rw [h]; exact mem_get he hm)

end

/-! ## Attributes -/

/-- The attributes after some were added, by namespace and local name. -/
def putAll (d : List (XName × UStr)) : List (XName × UStr) → List (XName × UStr)
  | [] => d
  | (k, v) :: l => putAll (put d k v) l

theorem putAll_append (d a b : List (XName × UStr)) : putAll d (a ++ b) = putAll (putAll d a) b := by
  induction a generalizing d with
  | nil => rfl
  | cons x a ih => obtain ⟨k, v⟩ := x; exact ih _

theorem lastOnes_mem {l : List (XName × UStr)} {k : XName} : k ∈ (lastOnes l).map (·.1) ↔ k ∈ l.map (·.1) := by
  induction l with
  | nil => simp [lastOnes]
  | cons a l ih =>
    simp only [lastOnes]
    split
    · rename_i h
      rw [ih]
      simp only [List.map_cons, List.mem_cons]
      constructor
      · exact Or.inr
      · rintro (h' | h')
        · rw [h']; exact h
        · exact h'
    · simp only [List.map_cons, List.mem_cons, ih]

theorem lastOnes_nodup (l : List (XName × UStr)) : ((lastOnes l).map (·.1)).Nodup := by
  induction l with
  | nil => simp [lastOnes]
  | cons a l ih =>
    simp only [lastOnes]
    split
    · exact ih
    · rename_i h
      simp only [List.map_cons, List.nodup_cons]
      exact ⟨fun h' => h (lastOnes_mem.1 h'), ih⟩

theorem get_putAll (l d : List (XName × UStr)) (k : XName) : get (putAll d l) k = (get (lastOnes l) k).or (get d k) := by
  induction l generalizing d with
  | nil => simp [putAll, lastOnes, get]
  | cons a l ih =>
    obtain ⟨k', v⟩ := a
    simp only [putAll, ih, get_put, lastOnes]
    by_cases h : k' ∈ l.map (·.1)
    · rw [if_pos h]
      by_cases hk : k' = k
      · subst hk
        have : get (lastOnes l) k' ≠ none := by
          intro hc; exact (get_none.1 hc) (lastOnes_mem.2 h)
        cases hg : get (lastOnes l) k' with
        | none => exact absurd hg this
        | some x => simp
      · simp [hk]
    · rw [if_neg h]
      simp only [get]
      by_cases hk : k' = k
      · subst hk
        have : get (lastOnes l) k' = none := by rw [get_none, lastOnes_mem]; exact h
        simp [this]
      · simp [hk]

theorem putAll_nodup {d : List (XName × UStr)} (hn : (d.map (·.1)).Nodup) (l : List (XName × UStr)) :
    ((putAll d l).map (·.1)).Nodup := by
  induction l generalizing d with
  | nil => exact hn
  | cons x l ih => obtain ⟨k, v⟩ := x; exact ih (put_nodup hn _ _)

theorem putAll_perm (l : List (XName × UStr)) : (putAll [] l).Perm (lastOnes l) := by
  refine perm_of_get (putAll_nodup (by simp) l) (lastOnes_nodup l) fun k => ?_
  rw [get_putAll]; simp [get]

/-! ## Names -/

theorem splitQ_eq {q : UStr} {p : Option UStr} {l : UStr} (h : splitName q = some (p, l)) : splitQ q = (p, l) := by
  unfold splitName at h
  unfold splitQ
  split at h
  · rename_i e; rw [e]; split at h
    · cases h; rfl
    · cases h
  · rename_i x l' e; rw [e]; split at h
    · cases h; rfl
    · cases h

theorem splitName_nc' {q : UStr} {p : Option UStr} {l : UStr} (h : splitName q = some (p, l)) :
    ncName l = true ∧ ∀ r, p = some r → ncName r = true := by
  unfold splitName at h
  split at h
  · split at h
    · rename_i hn; cases h; exact ⟨hn, fun r hr => by cases hr⟩
    · cases h
  · split at h
    · rename_i hn
      rw [Bool.and_eq_true] at hn
      cases h; exact ⟨hn.2, fun r hr => by cases hr; exact hn.1⟩
    · cases h

theorem splitName_isName {q : UStr} {p : Option UStr} {l : UStr} (h : splitName q = some (p, l)) : isName q = true := by
  unfold splitName at h
  split at h
  · split at h
    · rename_i hn; exact (ncName_name hn).1
    · cases h
  · rename_i x l' e
    split at h
    · rename_i hn
      rw [Bool.and_eq_true] at hn
      have hx : x = 58 := by
        have := List.head?_dropWhile_not (fun c : Nat => decide (c ≠ 58)) q
        rw [e] at this
        simpa using this
      subst hx
      have : q = q.takeWhile (· ≠ 58) ++ u!! ":" ++ l' := by
        conv => lhs; rw [← List.takeWhile_append_dropWhile (p := (· ≠ 58)) (l := q), e]
        simp
      rw [this]
      exact isName_qname hn.1 hn.2
    · cases h

theorem nc_ne {p : UStr} (h : ncName p = true) : p ≠ [] := by
  rintro rfl; simp [ncName, isName] at h

theorem generated_nc (n : Nat) : ncName (generated n) = true := by
  have hd := decimal_digits n
  unfold ncName generated
  rw [Bool.and_eq_true]
  constructor
  · show isName (111 :: (u!! "rg.4suite.4xslt.ns" ++ decimal n)) = true
    simp only [isName, Bool.and_eq_true, List.all_append]
    refine ⟨by decide, by decide, List.all_eq_true.2 fun c hc => ?_⟩
    have := hd c hc
    simp [nameChar, this.1, this.2]
  · have h2 : (58 : Nat) ∉ u!! "org.4suite.4xslt.ns" ++ decimal n := by
      intro h
      rcases List.mem_append.1 h with h | h
      · exact absurd h (by decide)
      · have := hd _ h; omega
    simpa using h2

theorem decimal_inj {m n : Nat} (h : decimal m = decimal n) : m = n := by
  have h1 := digits_decimal m
  rw [h, digits_decimal] at h1
  cases h1; rfl

theorem generated_inj {m n : Nat} (h : generated m = generated n) : m = n :=
  decimal_inj (List.append_cancel_left h)

theorem fresh_spec (d : Scope) : ∃ n, fresh d = generated n ∧ get d (some (fresh d)) = none := by
  unfold fresh
  cases h : ((List.range (d.length + 1)).map generated).find? fun p => (get d (some p)).isNone with
  | some p =>
    have h1 := List.find?_some h
    have h2 := List.mem_of_find?_eq_some h
    obtain ⟨n, -, rfl⟩ := List.mem_map.1 h2
    exact ⟨n, rfl, by simpa using h1⟩
  | none =>
    exfalso
    rw [List.find?_eq_none] at h
    have hsub : ∀ x ∈ ((List.range (d.length + 1)).map fun n => some (generated n)), x ∈ d.map (·.1) := by
      intro x hx
      obtain ⟨n, hn, rfl⟩ := List.mem_map.1 hx
      have := h (generated n) (List.mem_map.2 ⟨n, hn, rfl⟩)
      refine Classical.byContradiction fun hc => this ?_
      rw [get_none.2 hc]; rfl
    have hnd : ((List.range (d.length + 1)).map fun n => some (generated n)).Nodup := by
      refine nodup_map_of (g := id) (by simpa using List.nodup_range) ?_
      intro a _ b _ he
      simp only [Option.some.injEq] at he
      exact generated_inj he
    have := Content.length_le_of_subset hnd hsub
    simp at this
    omega

/-! ## Dictionaries of namespaces -/

structure DictLegal (wide : Bool) (d : Scope) : Prop where
  nodup : (d.map (·.1)).Nodup
  dflt : get d none ≠ none
  xml : get d (some (u!! "xml")) = some (some xmlNs)
  xmlns : get d (some (u!! "xmlns")) = some (some xmlnsNs)
  legal : ∀ p v, get d p = some v → p ≠ some (u!! "xmlns") → LegalDecl wide (p, v)

/-- The namespace that a reader finds; u'' is none. -/
def norm (v : Option UStr) : Option UStr := if v = some [] then none else v

/-- A reader finds what is in the dictionary. -/
def Agree (R : List (Option UStr × UStr)) (d : Scope) : Prop :=
  ∀ p v, get d p = some v → p ≠ some (u!! "xmlns") → namespaceOf R p = some (norm v)

theorem legalText_uri (wide : Bool) (s : UStr) (h : ∀ c ∈ s, 32 ≤ c ∧ c < 128) : LegalText wide s := by
  intro c hc
  have := h c hc
  refine ⟨?_, Or.inr (by omega)⟩
  unfold Legal; omega

theorem base_legal (wide : Bool) : DictLegal wide baseScope := by
  refine ⟨by decide, by decide, by decide, by decide, ?_⟩
  intro p v h hp
  have := get_mem h
  simp only [baseScope, List.mem_cons, List.not_mem_nil, or_false, Prod.mk.injEq] at this
  rcases this with ⟨rfl, rfl⟩ | ⟨rfl, rfl⟩ | ⟨rfl, rfl⟩
  · rfl
  · exact ⟨by decide, legalText_uri wide _ (by decide)⟩
  · exact absurd rfl hp

theorem base_agree : Agree [] baseScope := by
  intro p v h hp
  have := get_mem h
  simp only [baseScope, List.mem_cons, List.not_mem_nil, or_false, Prod.mk.injEq] at this
  rcases this with ⟨rfl, rfl⟩ | ⟨rfl, rfl⟩ | ⟨rfl, rfl⟩
  · decide
  · decide
  · exact absurd rfl hp

/-- A new entry for a prefix that is not there. -/
theorem DictLegal.put_new {wide : Bool} {d : Scope} (h : DictLegal wide d) {p : UStr} {u : UStr}
    (hp : get d (some p) = none) (hl : LegalDecl wide (some p, some u)) : DictLegal wide (put d (some p) (some u)) := by
  have hx : some p ≠ some (u!! "xml") := by intro e; rw [e, h.xml] at hp; cases hp
  have hx' : some p ≠ some (u!! "xmlns") := by intro e; rw [e, h.xmlns] at hp; cases hp
  refine ⟨put_nodup h.nodup _ _, ?_, ?_, ?_, ?_⟩
  · rw [get_put]; simpa using h.dflt
  · rw [get_put, if_neg hx]; exact h.xml
  · rw [get_put, if_neg hx']; exact h.xmlns
  · intro q v hq hqx
    rw [get_put] at hq
    split at hq
    · rename_i e; cases hq; rw [← e]; exact hl
    · exact h.legal q v hq hqx

/-- The dictionary for a new element. -/
theorem DictLegal.push {wide : Bool} {d : Scope} (h : DictLegal wide d) {name : UStr} {ns : Option UStr} {namespaces : Scope}
    (hn : LegalName wide name ns) (hk : (namespaces.map (·.1)).Nodup) (hl : ∀ e ∈ namespaces, LegalDecl wide e) :
    DictLegal wide (put (update d namespaces) (prefixName name) ns) := by
  have hname : LegalDecl wide (prefixName name, ns) := by
    cases ns with
    | none => exact hn.2
    | some u => exact hn.2.2
  have key : ∀ p v, get (put (update d namespaces) (prefixName name) ns) p = some v →
      LegalDecl wide (p, v) ∨ (get d p = some v) := by
    intro p v hv
    rw [get_put, get_update _ _ hk] at hv
    split at hv
    · rename_i e; cases hv; rw [← e]; exact Or.inl hname
    · cases he : get namespaces p with
      | none => rw [he] at hv; exact Or.inr (by simpa using hv)
      | some v' =>
        rw [he] at hv
        simp at hv
        subst hv
        exact Or.inl (hl _ (get_mem he))
  have keep : ∀ p v, get d p = some v → ∃ v', get (put (update d namespaces) (prefixName name) ns) p = some v' := by
    intro p v hv
    rw [get_put, get_update _ _ hk, hv]
    split
    · exact ⟨_, rfl⟩
    · cases get namespaces p with
      | none => exact ⟨_, rfl⟩
      | some v' => exact ⟨_, rfl⟩
  refine ⟨put_nodup (update_nodup h.nodup) _ _, ?_, ?_, ?_, ?_⟩
  · cases hd : get d none with
    | none => exact absurd hd h.dflt
    | some v => obtain ⟨v', hv'⟩ := keep _ _ hd; rw [hv']; simp
  · obtain ⟨v', hv'⟩ := keep _ _ h.xml
    rw [hv']
    rcases key _ _ hv' with hl | hd
    · cases v' with
      | none => cases hl
      | some u => rw [(legal_xml hl.1).1 rfl]; rfl
    · rw [h.xml] at hd; exact hd.symm
  · obtain ⟨v', hv'⟩ := keep _ _ h.xmlns
    rw [hv']
    rcases key _ _ hv' with hl | hd
    · cases v' with
      | none => cases hl
      | some u => exact absurd rfl (legal_nonempty hl.1).2.2
    · rw [h.xmlns] at hd; exact hd.symm
  · intro p v hv hp
    rcases key _ _ hv with hl | hd
    · exact hl
    · exact h.legal p v hd hp

theorem DictLegal.nc {wide : Bool} {d : Scope} (h : DictLegal wide d) {p u : UStr} (hg : get d (some p) = some (some u))
    (hu : u ≠ xmlnsName) : p ≠ u!! "xmlns" ∧ ncName p = true ∧ u ≠ [] ∧ LegalText wide u ∧ legalBinding (some p, u) = true := by
  have hp : some p ≠ some (u!! "xmlns") := by
    intro e
    rw [e, h.xmlns] at hg
    cases hg; exact hu rfl
  have hl := h.legal _ _ hg hp
  exact ⟨fun e => hp (by rw [e]), legalBinding_nc hl.1 p rfl, (legal_nonempty hl.1).1, hl.2, hl.1⟩

theorem findPrefix_some {it : Iter} (hit : GoodIter it) {wide : Bool} {d : Scope} (h : DictLegal wide d) {u p : UStr}
    (hf : findPrefix it d u = some p) : get d (some p) = some (some u) := by
  unfold findPrefix at hf
  obtain ⟨e, he, hfe⟩ := List.exists_of_findSome?_eq_some hf
  have hm := (hit.1 d).mem_iff.1 he
  obtain ⟨q, v⟩ := e
  cases q with
  | none => cases hfe
  | some q =>
    simp only at hfe
    split at hfe
    · rename_i hc
      cases hfe
      rw [← hc.2]
      exact mem_get h.nodup hm
    · cases hfe

theorem findPrefix_none {it : Iter} (hit : GoodIter it) {d : Scope} {u : UStr}
    (hf : findPrefix it d u = none) {p : UStr} (hp : p ≠ []) : get d (some p) ≠ some (some u) := by
  intro hg
  unfold findPrefix at hf
  rw [List.findSome?_eq_none_iff] at hf
  have := hf _ ((hit.1 d).mem_iff.2 (get_mem hg))
  simp [hp] at this

/-- A new prefix for a namespace that has none. -/
theorem legal_new {it : Iter} (hit : GoodIter it) {wide : Bool} {d : Scope} (h : DictLegal wide d) {u p : UStr}
    (hf : findPrefix it d u = none) (hp : get d (some p) = none) (hnc : ncName p = true)
    (hu : u ≠ [] ∧ u ≠ xmlnsName ∧ LegalText wide u) : LegalDecl wide (some p, some u) := by
  have hx : p ≠ u!! "xml" := by intro e; rw [e, h.xml] at hp; cases hp
  have hx' : p ≠ u!! "xmlns" := by intro e; rw [e, h.xmlns] at hp; cases hp
  have hux : u ≠ xmlName := by
    intro e
    exact findPrefix_none hit hf (p := u!! "xml") (by decide) (by rw [h.xml, e]; rfl)
  refine ⟨?_, hu.2.2⟩
  simp [legalBinding, hnc, hx, hx', hu.1, hu.2.1, hux]

/-- What `d` grows to. -/
def Grows (d d' : Scope) : Prop := ∀ p v, get d p = some v → get d' p = some v

theorem grows_put {d : Scope} {k : Option UStr} {v : Option UStr} (h : get d k = none) : Grows d (put d k v) := by
  intro p v' hp
  rw [get_put]
  split
  · rename_i e; rw [← e, h] at hp; cases hp
  · exact hp

theorem reuse_spec {it : Iter} (hit : GoodIter it) {wide : Bool} {d : Scope} (h : DictLegal wide d) {u : UStr}
    (hu : u ≠ [] ∧ u ≠ xmlnsName ∧ LegalText wide u) :
    DictLegal wide (reuse it d u).2 ∧ Grows d (reuse it d u).2 ∧
      get (reuse it d u).2 (some (reuse it d u).1) = some (some u) := by
  unfold reuse
  cases hf : findPrefix it d u with
  | some p => exact ⟨h, fun _ _ h => h, findPrefix_some hit h hf⟩
  | none =>
    obtain ⟨n, hn, hg⟩ := fresh_spec d
    refine ⟨h.put_new hg (legal_new hit h hf hg (by rw [hn]; exact generated_nc n) hu), grows_put hg, ?_⟩
    rw [get_put, if_pos rfl]

theorem choose_spec {it : Iter} (hit : GoodIter it) {wide : Bool} {d : Scope} (h : DictLegal wide d) {u : UStr}
    (hu : u ≠ [] ∧ u ≠ xmlnsName ∧ LegalText wide u) {pfx : Option UStr} (hp : ∀ p, pfx = some p → ncName p = true) :
    DictLegal wide (choose it d pfx u).2 ∧ Grows d (choose it d pfx u).2 ∧
      get (choose it d pfx u).2 (some (choose it d pfx u).1) = some (some u) := by
  unfold choose
  cases pfx with
  | none => exact reuse_spec hit h hu
  | some p =>
    simp only
    split
    · exact reuse_spec hit h hu
    · cases hg : get d (some p) with
      | none =>
        simp only
        cases hf : findPrefix it d u with
        | some q => exact ⟨h, fun _ _ h => h, findPrefix_some hit h hf⟩
        | none =>
          refine ⟨h.put_new hg (legal_new hit h hf hg (hp p rfl) hu), grows_put hg, ?_⟩
          rw [get_put, if_pos rfl]
      | some v =>
        simp only
        split
        · exact reuse_spec hit h hu
        · rename_i hv
          have : v = some u := Classical.not_not.mp hv
          exact ⟨h, fun _ _ h => h, by rw [hg, this]⟩

/-! ## The start tag -/

structure AttrsOk (wide : Bool) (d : Scope) (A : Attrs) : Prop where
  nodup : (A.map (·.1)).Nodup
  ok : ∀ ns l qn v, ((ns, l), (qn, v)) ∈ A → LegalText wide v ∧ ncName l = true ∧
    match ns with
    | none => qn = l ∧ l ≠ u!! "xmlns"
    | some u => ∃ p : UStr, qn = p ++ u!! ":" ++ l ∧ get d (some p) = some (some u) ∧ u ≠ xmlnsName

theorem AttrsOk.grows {wide : Bool} {d d' : Scope} {A : Attrs} (h : AttrsOk wide d A) (hg : Grows d d') : AttrsOk wide d' A := by
  refine ⟨h.nodup, fun ns l qn v hm => ?_⟩
  obtain ⟨h1, h2, h3⟩ := h.ok ns l qn v hm
  refine ⟨h1, h2, ?_⟩
  cases ns with
  | none => exact h3
  | some u => obtain ⟨p, e, hp, hu⟩ := h3; exact ⟨p, e, hg _ _ hp, hu⟩

theorem put_mem_entry {α β : Type} [DecidableEq α] {d : List (α × β)} {k : α} {v : β} {e : α × β} (h : e ∈ put d k v) :
    e = (k, v) ∨ e ∈ d := by
  induction d with
  | nil => simp [put] at h; exact Or.inl h
  | cons x d ih =>
    obtain ⟨k', v'⟩ := x
    simp only [put] at h
    split at h
    · rcases List.mem_cons.1 h with h | h
      · exact Or.inl h
      · exact Or.inr (List.mem_cons_of_mem _ h)
    · rcases List.mem_cons.1 h with h | h
      · exact Or.inr (by rw [h]; simp)
      · rcases ih h with h | h
        · exact Or.inl h
        · exact Or.inr (List.mem_cons_of_mem _ h)

theorem AttrsOk.put {wide : Bool} {d : Scope} {A : Attrs} (h : AttrsOk wide d A) {ns : Option UStr} {l qn v : UStr}
    (hv : LegalText wide v) (hl : ncName l = true)
    (hq : match ns with
      | none => qn = l ∧ l ≠ u!! "xmlns"
      | some u => ∃ p : UStr, qn = p ++ u!! ":" ++ l ∧ get d (some p) = some (some u) ∧ u ≠ xmlnsName) :
    AttrsOk wide d (put A (ns, l) (qn, v)) := by
  refine ⟨put_nodup h.nodup _ _, fun ns' l' qn' v' hm => ?_⟩
  rcases put_mem_entry hm with e | hm
  · cases e; exact ⟨hv, hl, hq⟩
  · exact h.ok _ _ _ _ hm

/-- The expanded name that a written name has. -/
theorem attr_reads {wide : Bool} {d : Scope} (hd : DictLegal wide d) {A : Attrs} (hA : AttrsOk wide d A)
    {S : List (Option UStr × UStr)} (hS : Agree S d) {e : (Option UStr × UStr) × (UStr × UStr)} (he : e ∈ A) :
    isName e.2.1 = true ∧ declOf e.2 = none ∧ expandAttr S e.2.1 = some e.1 := by
  obtain ⟨⟨ns, l⟩, ⟨qn, v⟩⟩ := e
  obtain ⟨h1, h2, h3⟩ := hA.ok _ _ _ _ he
  cases ns with
  | none =>
    obtain ⟨rfl, hx⟩ := h3
    have hs := splitName_nc h2
    refine ⟨(ncName_name h2).1, ?_, ?_⟩
    · simp only [declOf, hs, if_neg hx]
    · simp only [expandAttr, hs]
  | some u =>
    obtain ⟨p, rfl, hg, hu⟩ := h3
    obtain ⟨n1, n2, n3, n4, -⟩ := hd.nc hg hu
    have hs := splitName_prefix n2 h2
    refine ⟨isName_qname n2 h2, ?_, ?_⟩
    · simp only [declOf, hs, if_neg n1]
    · simp only [expandAttr, hs]
      rw [hS _ _ hg (by simpa using n1)]
      simp [norm, n3]

theorem newDecls_mem {it : Iter} (hit : GoodIter it) {wide : Bool} {top below : Scope} (h : DictLegal wide top)
    {p : Option UStr} {u : UStr} : (p, u) ∈ newDecls it top below ↔
      ∃ v, get top p = some v ∧ get below p ≠ some v ∧ u = v.getD [] := by
  unfold newDecls
  rw [List.mem_filterMap]
  constructor
  · rintro ⟨⟨q, v⟩, hm, he⟩
    simp only at he
    split at he
    · cases he
    · rename_i hne
      simp only [Option.some.injEq, Prod.mk.injEq] at he
      obtain ⟨rfl, rfl⟩ := he
      exact ⟨v, mem_get h.nodup ((hit.1 top).mem_iff.1 hm), hne, rfl⟩
  · rintro ⟨v, h1, h2, rfl⟩
    exact ⟨(p, v), (hit.1 top).mem_iff.2 (get_mem h1), by simp [h2]⟩

theorem newDecls_nodup {it : Iter} (hit : GoodIter it) {wide : Bool} {top below : Scope} (h : DictLegal wide top) :
    ((newDecls it top below).map (·.1)).Nodup := by
  have hp : ((it.scope top).map (·.1)).Nodup := ((hit.1 top).map _).nodup_iff.2 h.nodup
  unfold newDecls
  generalize it.scope top = l at hp
  induction l with
  | nil => simp
  | cons e l ih =>
    simp only [List.map_cons, List.nodup_cons] at hp
    rw [List.filterMap_cons]
    split
    · exact ih hp.2
    · rename_i b hb
      have hb1 : b.1 = e.1 := by
        split at hb
        · cases hb
        · cases hb; rfl
      simp only [List.map_cons, List.nodup_cons]
      refine ⟨fun hm => hp.1 ?_, ih hp.2⟩
      obtain ⟨x, hx, hx1⟩ := List.mem_map.1 hm
      obtain ⟨y, hy, hy1⟩ := List.mem_filterMap.1 hx
      refine List.mem_map.2 ⟨y, hy, ?_⟩
      split at hy1
      · cases hy1
      · cases hy1; rw [← hb1, ← hx1]

theorem namespaceOf_congr {R S : List (Option UStr × UStr)} {p : Option UStr} (h : nearest R p = nearest S p) :
    namespaceOf R p = namespaceOf S p := by simp only [namespaceOf, h]

/-- The scope of a reader. -/
theorem agree_decls {it : Iter} (hit : GoodIter it) {wide : Bool} {R : List (Option UStr × UStr)} {top below : Scope}
    (ht : DictLegal wide top) (hR : Agree R below) {D' : List (Option UStr × UStr)} (hD' : D'.Perm (newDecls it top below)) :
    Agree (D' ++ R) top := by
  intro p v hv hp
  have hnd := newDecls_nodup hit ht (below := below)
  by_cases hbel : get below p = some v
  · have : nearest (D' ++ R) p = nearest R p := by
      rw [nearest_eq, dget_append, dget_perm hD' ((hD'.map _).nodup_iff.2 hnd), nearest_eq]
      have : dget (newDecls it top below) p = none := by
        cases hd : dget (newDecls it top below) p with
        | none => rfl
        | some u =>
          obtain ⟨v', h1, h2, -⟩ := (newDecls_mem hit ht).1 (dget_mem hd)
          rw [hv] at h1; cases h1
          exact absurd hbel h2
      rw [this]; rfl
    rw [namespaceOf_congr this]
    exact hR p v hbel hp
  · have hm : (p, v.getD []) ∈ newDecls it top below := (newDecls_mem hit ht).2 ⟨v, hv, hbel, rfl⟩
    have : nearest (D' ++ R) p = some (v.getD []) := by
      rw [nearest_eq, dget_append, dget_perm hD' ((hD'.map _).nodup_iff.2 hnd), Write.mem_dget hnd hm]; rfl
    simp only [namespaceOf, this]
    have hl := ht.legal p v hv hp
    cases v with
    | none =>
      have : p = none := hl
      subst this
      rfl
    | some u =>
      simp only [Option.getD_some, norm]
      by_cases hu : u = []
      · subst hu
        cases p with
        | none => rfl
        | some q => exact absurd rfl (legal_nonempty hl.1).1
      · simp [hu]

structure TagFacts (wide : Bool) (R : List (Option UStr × UStr)) (d : Scope) (A : Attrs)
    (D : List (Option UStr × UStr)) (as0 : List (UStr × UStr)) : Prop where
  decls : ∀ e ∈ D, isName (declName e.1) = true ∧ LegalText wide e.2
  attrs : ∀ a ∈ as0, isName a.1 = true ∧ LegalText wide a.2
  nodup : (D.map (fun e => declName e.1) ++ as0.map (·.1)).Nodup
  read : ∀ as : List (UStr × UStr), as.Perm (D.map (fun e => (declName e.1, e.2)) ++ as0) →
    (as.filterMap declOf).all legalBinding = true ∧
    (∃ ys, expandAttrs (as.filterMap declOf ++ R) as = some ys ∧
      ys.Perm (A.map fun e => (e.1, e.2.2)) ∧ (ys.map (·.1)).Nodup) ∧
    Agree (as.filterMap declOf ++ R) d

theorem tag_facts {it : Iter} (hit : GoodIter it) {wide : Bool} {R : List (Option UStr × UStr)} {top below : Scope}
    (ht : DictLegal wide top) (hb : DictLegal wide below) (hR : Agree R below) {A : Attrs} (hA : AttrsOk wide top A) :
    TagFacts wide R top A (newDecls it top below) ((it.attrs A).map (·.2)) := by
  have hleg : ∀ e ∈ newDecls it top below, legalBinding e = true ∧ LegalText wide e.2 := by
    rintro ⟨p, u⟩ he
    obtain ⟨v, h1, h2, rfl⟩ := (newDecls_mem hit ht).1 he
    have hp : p ≠ some (u!! "xmlns") := by
      intro e; subst e
      rw [ht.xmlns] at h1; cases h1
      exact h2 hb.xmlns
    have hl := ht.legal p v h1 hp
    cases v with
    | none =>
      have : p = none := hl
      subst this
      exact ⟨by decide, fun c hc => by cases hc⟩
    | some u => exact hl
  obtain ⟨d1, d2⟩ := filterMap_declOf fun e he => (hleg e he).1
  have hperm := hit.2 A
  have hmem : ∀ a ∈ (it.attrs A).map (·.2), ∃ e ∈ A, e.2 = a := by
    intro a ha
    obtain ⟨e, he, rfl⟩ := List.mem_map.1 ha
    exact ⟨e, hperm.mem_iff.1 he, rfl⟩
  have hagree : ∀ D' : List (Option UStr × UStr), D'.Perm (newDecls it top below) → Agree (D' ++ R) top :=
    fun D' hD' => agree_decls hit ht hR hD'
  have hag := hagree _ (List.Perm.refl _)
  have hnil : ∀ a ∈ (it.attrs A).map (·.2), declOf a = none := by
    intro a ha
    obtain ⟨e, he, rfl⟩ := hmem a ha
    exact (attr_reads ht hA hag he).2.1
  have d3 : ((it.attrs A).map (·.2)).filterMap declOf = [] := by
    rw [List.filterMap_eq_nil_iff]; exact hnil
  have d4 : (((it.attrs A).map (·.2)).filter fun a => (declOf a).isNone) = (it.attrs A).map (·.2) := by
    rw [List.filter_eq_self]
    intro a ha; rw [hnil a ha]; rfl
  refine ⟨?_, ?_, ?_, ?_⟩
  · intro e he
    exact ⟨(declName_split (legalBinding_nc (u := e.2) (hleg e he).1)).1, (hleg e he).2⟩
  · intro a ha
    obtain ⟨e, he, rfl⟩ := hmem a ha
    exact ⟨(attr_reads ht hA hag he).1, (hA.ok _ _ _ _ he).1⟩
  · rw [List.nodup_append]
    refine ⟨?_, ?_, ?_⟩
    · refine nodup_map_of (newDecls_nodup hit ht) ?_
      intro a ha b hb he
      have h7 := (declName_split (legalBinding_nc (u := a.2) (hleg a ha).1)).2 []
      have h8 := (declName_split (legalBinding_nc (u := b.2) (hleg b hb).1)).2 []
      rw [he, h8] at h7
      simp only [Option.some.injEq, Prod.mk.injEq, and_true] at h7
      exact h7.symm
    · rw [List.map_map]
      have hn : ((it.attrs A).map (·.1)).Nodup := (hperm.map _).nodup_iff.2 hA.nodup
      refine nodup_map_of hn ?_
      intro a ha b hb he
      have h1 := (attr_reads ht hA hag (hperm.mem_iff.1 ha)).2.2
      have h2 := (attr_reads ht hA hag (hperm.mem_iff.1 hb)).2.2
      simp only [Function.comp] at he
      rw [he, h2] at h1
      exact (Option.some.inj h1).symm
    · intro x hx y hy hxy
      subst hxy
      obtain ⟨e, he, rfl⟩ := List.mem_map.1 hx
      obtain ⟨a, ha, hae⟩ := List.mem_map.1 hy
      have h7 := (declName_split (legalBinding_nc (u := e.2) (hleg e he).1)).2 a.2
      have h8 := hnil a ha
      rw [← hae] at h7
      have : (a.1, a.2) = a := rfl
      rw [this, h8] at h7; cases h7
  · intro as has
    have hp1 : (as.filterMap declOf).Perm (newDecls it top below) := by
      have := has.filterMap declOf
      rw [List.filterMap_append, d1, d3, List.append_nil] at this
      exact this
    have hp2 : (as.filter fun a => (declOf a).isNone).Perm ((it.attrs A).map (·.2)) := by
      have := has.filter fun a => (declOf a).isNone
      rw [List.filter_append, d2, d4, List.nil_append] at this
      exact this
    have hag' := hagree _ hp1
    refine ⟨List.all_eq_true.2 fun e he => (hleg e (hp1.mem_iff.1 he)).1, ?_, hag'⟩
    have hex : ∀ a ∈ as, (declOf a).isNone = true → (expandAttr (as.filterMap declOf ++ R) a.1).isSome = true := by
      intro a ha hd
      have : a ∈ as.filter fun a => (declOf a).isNone := List.mem_filter.2 ⟨ha, hd⟩
      obtain ⟨e, he, rfl⟩ := hmem a (hp2.mem_iff.1 this)
      rw [(attr_reads ht hA hag' he).2.2]; rfl
    have hp3 := hp2.map fun a => (xnameOf (as.filterMap declOf ++ R) a, a.2)
    have heq : ((it.attrs A).map (·.2)).map (fun a => (xnameOf (as.filterMap declOf ++ R) a, a.2)) =
        (it.attrs A).map fun e => (e.1, e.2.2) := by
      rw [List.map_map]
      refine List.map_congr_left fun e he => ?_
      simp only [Function.comp, xnameOf, (attr_reads ht hA hag' (hperm.mem_iff.1 he)).2.2, Option.getD_some]
    rw [heq] at hp3
    have hp4 := hp3.trans (hperm.map _)
    refine ⟨_, expandAttrs_eq hex, hp4, (hp4.map _).nodup_iff.2 ?_⟩
    rw [List.map_map]
    exact hA.nodup

end Verif.Write.XmlWriter
