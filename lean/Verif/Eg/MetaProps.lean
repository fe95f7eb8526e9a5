/-
C92: metadata extraction gives the statements the cues of the example stand
for, and `metadata_dict` gathers them by resource and relationship.
-/
import Verif.Eg.MetaSpec

namespace Verif.Eg.Meta
open Verif.Write (UStr)
open Verif.Eg (Name)
open Verif.Eg.Meta.Spec

/-! ### The cues -/

theorem setupCues_other (m : Models) (es : List (Name × Attrs)) (n : Name)
    (h : ∀ e ∈ es, e.1 ≠ n) : setupCues m es n = m n := by
  induction es generalizing m with
  | nil => rfl
  | cons e es ih =>
    obtain ⟨k, a⟩ := e
    rw [setupCues, ih _ (fun e he => h e (List.mem_cons_of_mem _ he)),
      if_neg (fun hk => h (k, a) (by simp) hk.symm)]

theorem applyCues_fresh (a : Attrs) : applyCues {} a = cuesOf a := by
  obtain ⟨r, l, v, c, o⟩ := a
  cases r <;> cases l <;> cases v <;> rfl

/-- **C92 (cues).**  For every example: an element that occurs in it once has
in its model exactly the cues it carries, with their defaults, and one that
does not occur has none.  Missing: elements that occur more than once in the
example, where the cues of one occurrence are changed by the others. -/
theorem C92_cues_partial (es : List (Name × Attrs)) (n : Name) :
    ((∀ e ∈ es, e.1 ≠ n) → setupCues noCues es n = {}) ∧
    ∀ a, es.filter (fun e => e.1 = n) = [(n, a)] → setupCues noCues es n = cuesOf a := by
  refine ⟨fun h => setupCues_other _ _ _ h, fun a h => ?_⟩
  have gen : ∀ m : Models, m n = {} → setupCues m es n = cuesOf a := by
    induction es with
    | nil => exact absurd h (by simp)
    | cons e es ih =>
      intro m hm
      obtain ⟨k, b⟩ := e
      rw [setupCues]
      by_cases hk : k = n
      · subst hk
        simp only [List.filter_cons, decide_true, if_true, List.cons.injEq, Prod.mk.injEq, true_and] at h
        obtain ⟨rfl, h⟩ := h
        rw [setupCues_other]
        · simp only [if_true, hm, applyCues_fresh]
        · intro e he hn
          have : e ∈ es.filter (fun e => decide (e.1 = k)) := List.mem_filter.2 ⟨he, by simp [hn]⟩
          rw [h] at this
          exact absurd this (by simp)
      · simp only [List.filter_cons, hk, decide_false] at h
        refine ih h _ ?_
        rw [if_neg (Ne.symm hk)]
        exact hm
  exact gen noCues rfl

/-! ### The statements -/

theorem inContext_eq (env : Env) (m : Models) (e : El) :
    inContext env (m e.name) e.id = admitted env m e := rfl

theorem newResource_eq (env : Env) (m : Models) (e : El) :
    newResource env (m e.name) e.id = resourceId env m e := by
  simp only [newResource, resourceId]
  cases (m e.name).resource with
  | none => rfl
  | some r =>
    simp only [Option.map_some]
    show (if r = marker then _ else _) = some (if r = marker then _ else _)
    split <;> rfl

theorem relValue_eq (env : Env) (m : Models) (e : El) :
    relValue env (m e.name) e.id (resourceId env m e) = value env m e := by
  simp only [relValue, value]
  cases (m e.name).value <;> cases resourceId env m e <;> rfl

theorem owner_cons (env : Env) (m : Models) (base : UStr) (e : El) (above : List El) :
    owner env m base (e :: above) = (resourceId env m e).getD (owner env m base above) := by
  simp only [owner, List.findSome?_cons]
  cases resourceId env m e <;> rfl

theorem own_eq (env : Env) (m : Models) (base : UStr) (e : El) (above : List El) :
    ownRel env (m e.name) e.id (owner env m base above) (resourceId env m e) ++
      otherRels env (m e.name) e.id ((resourceId env m e).getD (owner env m base above)) =
    statements env m base e above := by
  simp only [statements, ownRel, otherRels, owner_cons, relValue_eq]
  cases (m e.name).rel <;> rfl

/-- The part of the specification below a place. -/
def part (env : Env) (m : Models) (base : UStr) (cs : List (El × List El)) : List Triple :=
  (cs.filter fun c => (c.1 :: c.2).all (admitted env m)).flatMap fun c => statements env m base c.1 c.2

theorem part_append (env : Env) (m : Models) (base : UStr) (a b : List (El × List El)) :
    part env m base (a ++ b) = part env m base a ++ part env m base b := by
  simp [part]

mutual
theorem chain_above (above : List El) (e : El) : ∀ c ∈ chain above e, ∀ x ∈ above, x ∈ c.2 := by
  match e with
  | .elem n i ks =>
    intro c hc x hx
    rw [chain] at hc
    rcases List.mem_cons.1 hc with rfl | hc
    · exact hx
    · exact chains_above _ ks c hc x (List.mem_cons_of_mem _ hx)
theorem chains_above (above : List El) (es : List El) :
    ∀ c ∈ chains above es, ∀ x ∈ above, x ∈ c.2 := by
  match es with
  | [] => intro c hc; rw [chains] at hc; cases hc
  | e :: es =>
    intro c hc
    rw [chains] at hc
    rcases List.mem_append.1 hc with hc | hc
    · exact chain_above above e c hc
    · exact chains_above above es c hc
end

theorem part_out (env : Env) (m : Models) (base : UStr) (e : El) (above : List El) (es : List El)
    (h : admitted env m e = false) : part env m base (chains (e :: above) es) = [] := by
  have : (chains (e :: above) es).filter (fun c => (c.1 :: c.2).all (admitted env m)) = [] := by
    rw [List.filter_eq_nil_iff]
    intro c hc hall
    rw [List.all_eq_true] at hall
    have := hall e (List.mem_cons_of_mem _ (chains_above _ _ c hc e (by simp)))
    rw [h] at this
    cases this
  rw [part, this]
  rfl

mutual
theorem handle_spec (env : Env) (m : Models) (base : UStr) (above : List El)
    (ha : above.all (admitted env m) = true) (e : El) :
    handle env m e (owner env m base above) = part env m base (chain above e) := by
  match e with
  | .elem n i ks =>
    have hc := inContext_eq env m (.elem n i ks)
    have hn := newResource_eq env m (.elem n i ks)
    have ho := own_eq env m base (.elem n i ks) above
    simp only [El.name, El.id] at hc hn ho
    rw [handle, chain, hc, hn]
    cases hadm : admitted env m (.elem n i ks) with
    | false =>
      rw [show (El.elem n i ks, above) :: chains (El.elem n i ks :: above) ks =
        [(El.elem n i ks, above)] ++ chains (El.elem n i ks :: above) ks from rfl, part_append,
        part_out env m base _ above ks hadm]
      simp [part, hadm]
    | true =>
      rw [show (El.elem n i ks, above) :: chains (El.elem n i ks :: above) ks =
        [(El.elem n i ks, above)] ++ chains (El.elem n i ks :: above) ks from rfl, part_append]
      have hks := handles_spec env m base (.elem n i ks :: above)
        (by rw [List.all_cons, hadm, ha]; rfl) ks
      rw [owner_cons] at hks
      simp only [if_true]
      rw [hks, ← List.append_assoc, ho]
      congr 1
      simp only [part, List.filter_cons, List.all_cons, hadm, ha, Bool.and_self, if_true,
        List.filter_nil, List.flatMap_cons, List.flatMap_nil, List.append_nil]
theorem handles_spec (env : Env) (m : Models) (base : UStr) (above : List El)
    (ha : above.all (admitted env m) = true) (es : List El) :
    handles env m es (owner env m base above) = part env m base (chains above es) := by
  match es with
  | [] => rw [handles, chains]; rfl
  | e :: es =>
    rw [handles, chains, part_append, handle_spec env m base above ha e,
      handles_spec env m base above ha es]
end

/-- **C92 (statements).**  For every model, document and evaluation of the
cues, the metadata are exactly the statements the document makes: in
document order, each element whose context and whose ancestors' contexts are
met states its own relationship about the nearest resource around it - about
the document if there is none - and the further relationships of its class
about itself, if it is a resource, or else about the nearest resource around
it. -/
theorem C92_statements (env : Env) (m : Models) (tops : List El) (base : UStr) :
    generateMetadata env m tops base = metadata env m tops base :=
  handles_spec env m base [] rfl tops

/-! ### The dictionary -/

def rowsOf (rows : List Triple) (rid : UStr) : List Triple := rows.filter fun r => r.1 = rid

theorem insertRow_perm (x : Triple) (l : List Triple) : (insertRow x l).Perm (x :: l) := by
  induction l with
  | nil => exact List.Perm.refl _
  | cons y ys ih =>
    rw [insertRow]
    split
    · exact List.Perm.refl _
    · exact (ih.cons y).trans (List.Perm.swap x y ys)

theorem sortRows_perm (l : List Triple) : (sortRows l).Perm l := by
  induction l with
  | nil => exact List.Perm.refl _
  | cons x xs ih => exact (insertRow_perm x _).trans (ih.cons x)

def Sorted (l : List Triple) : Prop := l.Pairwise fun a b => a.1 ≤ b.1

theorem insertRow_sorted (x : Triple) (l : List Triple) (h : Sorted l) : Sorted (insertRow x l) := by
  induction l with
  | nil => exact List.pairwise_singleton _ _
  | cons y ys ih =>
    rw [insertRow]
    have hy := List.pairwise_cons.1 h
    split
    · rename_i hle
      refine List.pairwise_cons.2 ⟨fun z hz => ?_, h⟩
      rcases List.mem_cons.1 hz with rfl | hz
      · exact hle
      · exact List.le_trans hle (hy.1 z hz)
    · rename_i hle
      refine List.pairwise_cons.2 ⟨fun z hz => ?_, ih hy.2⟩
      rcases List.mem_cons.1 ((insertRow_perm x ys).mem_iff.1 hz) with rfl | hz
      · exact (List.le_total y.1 z.1).resolve_right hle
      · exact hy.1 z hz

theorem sortRows_sorted (l : List Triple) : Sorted (sortRows l) := by
  induction l with
  | nil => exact List.Pairwise.nil
  | cons x xs ih => exact insertRow_sorted x _ ih

theorem insertRow_stable (x : Triple) (l : List Triple) (rid : UStr) (h : Sorted l) :
    rowsOf (insertRow x l) rid = rowsOf (x :: l) rid := by
  induction l with
  | nil => rfl
  | cons y ys ih =>
    rw [insertRow]
    split
    · rfl
    · rename_i hle
      have := ih (List.pairwise_cons.1 h).2
      simp only [rowsOf, List.filter_cons] at this ⊢
      rw [this]
      by_cases hx : x.1 = rid
      · by_cases hy : y.1 = rid
        · exact absurd (by rw [hx, hy]; exact List.le_refl _) hle
        · simp [hx, hy]
      · simp [hx]

theorem sortRows_stable (l : List Triple) (rid : UStr) : rowsOf (sortRows l) rid = rowsOf l rid := by
  induction l with
  | nil => rfl
  | cons x xs ih =>
    rw [sortRows, insertRow_stable x _ rid (sortRows_sorted xs)]
    simp only [rowsOf, List.filter_cons] at ih ⊢
    rw [ih]

/-- The groups of sorted rows. -/
theorem groupRows_spec (l : List Triple) (h : Sorted l) :
    (groupRows l).Pairwise (fun a b => a.1 ≤ b.1 ∧ a.1 ≠ b.1) ∧
    (∀ g ∈ groupRows l, g.2 = rowsOf l g.1 ∧ g.2 ≠ []) ∧
    (∀ r ∈ l, ∃ g ∈ groupRows l, g.1 = r.1) ∧
    ((groupRows l).head?.map (·.1) = l.head?.map (·.1)) := by
  induction l with
  | nil => exact ⟨List.Pairwise.nil, (nofun), (nofun), rfl⟩
  | cons x xs ih =>
    obtain ⟨hx, hs⟩ := List.pairwise_cons.1 h
    obtain ⟨i1, i2, i3, i4⟩ := ih hs
    have hmem : ∀ g ∈ groupRows xs, ∃ r ∈ xs, r.1 = g.1 := by
      intro g hg
      obtain ⟨h1, h2⟩ := i2 g hg
      cases hgr : g.2 with
      | nil => exact absurd hgr h2
      | cons r rs =>
        have : r ∈ rowsOf xs g.1 := by rw [← h1, hgr]; simp
        simp only [rowsOf, List.mem_filter, decide_eq_true_eq] at this
        exact ⟨r, this.1, this.2⟩
    rw [groupRows]
    cases hg : groupRows xs with
    | nil =>
      have hxs : xs = [] := by
        cases xs with
        | nil => rfl
        | cons y ys =>
          obtain ⟨g, hgm, _⟩ := i3 y (by simp)
          rw [hg] at hgm
          cases hgm
      subst hxs
      refine ⟨List.pairwise_singleton _ _, ?_, ?_, rfl⟩
      · intro g hgm
        rw [List.mem_singleton.1 hgm]
        exact ⟨by simp [rowsOf], by simp⟩
      · intro r hr
        rw [List.mem_singleton.1 hr]
        exact ⟨_, List.mem_singleton.2 rfl, rfl⟩
    | cons g gs =>
      obtain ⟨rid, g⟩ := g
      rw [hg] at i1 i2 i3 i4 hmem
      have hp := List.pairwise_cons.1 i1
      dsimp only
      split
      · rename_i he
        refine ⟨List.pairwise_cons.2 ⟨hp.1, hp.2⟩, ?_, ?_, by simp [he]⟩
        · intro g' hg'
          rcases List.mem_cons.1 hg' with rfl | hg'
          · refine ⟨?_, by simp⟩
            have := (i2 (rid, g) (by simp)).1
            simp only [rowsOf, List.filter_cons] at this ⊢
            simp [he, ← this]
          · have := i2 g' (List.mem_cons_of_mem _ hg')
            refine ⟨?_, this.2⟩
            have hne : x.1 ≠ g'.1 := by rw [he]; exact (hp.1 g' hg').2
            simp only [rowsOf, List.filter_cons] at this ⊢
            simp [hne, this.1]
        · intro r hr
          rcases List.mem_cons.1 hr with rfl | hr
          · exact ⟨(rid, r :: g), by simp, he.symm⟩
          · obtain ⟨g', hg', hr'⟩ := i3 r hr
            rcases List.mem_cons.1 hg' with rfl | hg'
            · exact ⟨(rid, x :: g), by simp, hr'⟩
            · exact ⟨g', List.mem_cons_of_mem _ hg', hr'⟩
      · rename_i hne
        have hle : ∀ g' ∈ (rid, g) :: gs, x.1 ≤ g'.1 ∧ x.1 ≠ g'.1 := by
          intro g' hg'
          obtain ⟨r, hr, hr'⟩ := hmem g' hg'
          refine ⟨hr' ▸ hx r hr, fun heq => ?_⟩
          rcases List.mem_cons.1 hg' with rfl | hg''
          · exact hne heq
          · obtain ⟨r0, hr0, hr0'⟩ := hmem (rid, g) (by simp)
            have h1 : x.1 ≤ rid := by
              have := hx r0 hr0
              rw [hr0'] at this
              exact this
            have h2 := (hp.1 g' hg'')
            rw [← heq] at h2
            exact h2.2 (List.le_antisymm h2.1 h1)
        refine ⟨List.pairwise_cons.2 ⟨hle, i1⟩, ?_, ?_, rfl⟩
        · intro g' hg'
          rcases List.mem_cons.1 hg' with rfl | hg'
          · refine ⟨?_, by simp⟩
            have hnil : xs.filter (fun r => decide (r.1 = x.1)) = [] := by
              rw [List.filter_eq_nil_iff]
              intro r hr hr'
              obtain ⟨g', hg', hg1⟩ := i3 r hr
              exact (hle g' hg').2 (by rw [hg1]; exact (of_decide_eq_true hr').symm)
            simp [rowsOf, hnil]
          · have := i2 g' hg'
            refine ⟨?_, this.2⟩
            have hne := (hle g' hg').2
            simp only [rowsOf, List.filter_cons] at this ⊢
            simp [hne, this.1]
        · intro r hr
          rcases List.mem_cons.1 hr with rfl | hr
          · exact ⟨_, List.mem_cons_self, rfl⟩
          · obtain ⟨g', hg', hr'⟩ := i3 r hr
            exact ⟨g', List.mem_cons_of_mem _ hg', hr'⟩

theorem get_set {α : Type} (d : Dict α) (k k' : UStr) (v : α) :
    Dict.get? (Dict.set d k v) k' = if k = k' then some v else Dict.get? d k' := by
  induction d with
  | nil =>
    by_cases h : k = k' <;> simp [Dict.set, Dict.get?, h]
  | cons kv d ih =>
    obtain ⟨k0, v0⟩ := kv
    rw [Dict.set]
    split
    · rename_i h0
      subst h0
      by_cases h : k0 = k' <;> simp [Dict.get?, h]
    · rename_i h0
      simp only [Dict.get?] at ih ⊢
      by_cases h1 : k0 = k'
      · subst h1
        simp [Ne.symm h0]
      · have : (k0 == k') = false := by simp [h1]
        simp only [List.find?_cons, this, ih]

/-- What a key becomes when values are added. -/
def grow : Option Val → List Val → Option Val
  | o, [] => o
  | none, v :: vs => grow (some v) vs
  | some (.list l), v :: vs => grow (some (.list (l ++ [v]))) vs
  | some (.atom a), v :: vs => grow (some (.list [.atom a, v])) vs
  | some (.node i), v :: vs => grow (some (.list [.node i, v])) vs

theorem get_addRow (d : Dict Val) (key k : UStr) (v : Val) :
    Dict.get? (addRow d key v) k = if key = k then grow (Dict.get? d k) [v] else Dict.get? d k := by
  rw [addRow]
  split
  · rename_i h
    rw [get_set]
    split
    · rename_i hk; subst hk; rw [h]; rfl
    · rfl
  · rename_i h1 h
    rw [get_set]
    split
    · rename_i hk; subst hk; rw [h]
      cases h1' : ‹Val› with
      | list vs => subst h1'; exact absurd rfl (h1 vs)
      | atom _ => rfl
      | node _ => rfl
    · rfl
  · rename_i h
    rw [get_set]
    split
    · rename_i hk; subst hk; rw [h]; rfl
    · rfl

theorem grow_cons (o : Option Val) (v : Val) (vs : List Val) :
    grow o (v :: vs) = grow (grow o [v]) vs := by
  cases o with
  | none => rfl
  | some w => cases w <;> rfl

theorem get_rowsDict (rows : List Triple) (d : Dict Val) (k : UStr) :
    Dict.get? (rowsDict rows d) k =
      grow (Dict.get? d k) ((rows.filter fun r => r.2.1 = k).map (·.2.2)) := by
  induction rows generalizing d with
  | nil => simp [rowsDict, grow]
  | cons r rows ih =>
    obtain ⟨i, key, v⟩ := r
    rw [rowsDict, ih, get_addRow]
    by_cases h : key = k
    · simp only [h, if_true, List.filter_cons, decide_true, List.map_cons]
      exact (grow_cons _ v _).symm
    · simp only [h, if_false, List.filter_cons, decide_false]
      rfl

theorem grow_list (l vs : List Val) : grow (some (.list l)) vs = some (.list (l ++ vs)) := by
  induction vs generalizing l with
  | nil => simp [grow]
  | cons v vs ih => rw [grow, ih]; simp

theorem grow_entry (vs : List Val) (h : ∀ l, vs.head? ≠ some (.list l)) : grow none vs = entry vs := by
  match vs with
  | [] => rfl
  | [v] => rfl
  | v :: w :: vs =>
    cases v with
    | list l => exact absurd rfl (h l)
    | atom a => simp only [grow, grow_list, entry]; rfl
    | node i => simp only [grow, grow_list, entry]; rfl

theorem get_nest (gs : List (UStr × Dict Val)) (acc : Dict (Dict Val)) (rid : UStr)
    (h : gs.Pairwise fun a b => a.1 ≠ b.1) :
    Dict.get? (nest gs acc) rid = (Dict.get? gs rid).or (Dict.get? acc rid) := by
  induction gs generalizing acc with
  | nil => simp [nest, Dict.get?]
  | cons g gs ih =>
    obtain ⟨r, d⟩ := g
    obtain ⟨h1, h2⟩ := List.pairwise_cons.1 h
    rw [nest, ih _ h2, get_set]
    by_cases hr : r = rid
    · subst hr
      have : Dict.get? gs r = none := by
        simp only [Dict.get?, Option.map_eq_none_iff, List.find?_eq_none]
        intro x hx hx'
        exact h1 x hx (beq_iff_eq.1 hx').symm
      rw [this]
      simp [Dict.get?]
    · have : (r == rid) = false := by simp [hr]
      simp [Dict.get?, this, hr]

theorem resourceDicts_spec (rows : List Triple) :
    (resourceDicts rows).Pairwise (fun a b => a.1 ≤ b.1 ∧ a.1 ≠ b.1) ∧
    (∀ rid, rid ∈ (resourceDicts rows).map (·.1) ↔ ∃ r ∈ rows, r.1 = rid) ∧
    (∀ e ∈ resourceDicts rows, ∀ key, Dict.get? e.2 key = grow none (valuesOf rows e.1 key)) := by
  obtain ⟨h1, h2, h3, _⟩ := groupRows_spec (sortRows rows) (sortRows_sorted rows)
  have hperm := sortRows_perm rows
  refine ⟨?_, ?_, ?_⟩
  · rw [resourceDicts, List.pairwise_map]
    exact h1
  · intro rid
    simp only [resourceDicts, List.map_map, List.mem_map, Function.comp]
    constructor
    · rintro ⟨g, hg, rfl⟩
      obtain ⟨e1, e2⟩ := h2 g hg
      cases hgr : g.2 with
      | nil => exact absurd hgr e2
      | cons r rs =>
        have : r ∈ rowsOf (sortRows rows) g.1 := by rw [← e1, hgr]; simp
        simp only [rowsOf, List.mem_filter, decide_eq_true_eq] at this
        exact ⟨r, hperm.mem_iff.1 this.1, this.2⟩
    · rintro ⟨r, hr, rfl⟩
      obtain ⟨g, hg, he⟩ := h3 r (hperm.mem_iff.2 hr)
      exact ⟨g, hg, he⟩
  · intro e he key
    simp only [resourceDicts, List.mem_map] at he
    obtain ⟨g, hg, rfl⟩ := he
    obtain ⟨e1, _⟩ := h2 g hg
    dsimp only
    rw [get_rowsDict, e1, sortRows_stable]
    simp only [Dict.get?, List.find?_nil, Option.map_none, rowsOf, valuesOf, List.filter_filter]
    congr 2
    refine List.filter_congr fun r _ => ?_
    by_cases a : r.1 = g.1 <;> by_cases b : r.2.1 = key <;> simp [a, b]

/-- **C92 (dictionary).**  For every list of statements: the dictionary
`metadata_dict` makes of it has exactly the resources statements are about;
under a resource and a relationship it has the value stated, or the list of
the values in the order they are stated, unless the first of them is a list;
and with `nesteddict=False` the same dictionaries are listed in increasing
order of the resources, without repetition.  The identifier returned beside
it is the least.  Missing: first values that are lists themselves, among
them all node-sets. -/
theorem C92_dict_partial (rows : List Triple) :
    (∀ rid, (Dict.get? (metadataDict rows).1 rid).isSome ↔ ∃ r ∈ rows, r.1 = rid) ∧
    (∀ rid key d, Dict.get? (metadataDict rows).1 rid = some d →
      (∀ l, (valuesOf rows rid key).head? ≠ some (.list l)) →
      Dict.get? d key = entry (valuesOf rows rid key)) ∧
    (∀ rid d, (rid, d) ∈ (metadataList rows).1 ↔ Dict.get? (metadataDict rows).1 rid = some d) ∧
    (metadataList rows).1.Pairwise (fun a b => a.1 ≤ b.1 ∧ a.1 ≠ b.1) ∧
    (∀ i, (metadataDict rows).2 = some i ↔ (∃ r ∈ rows, r.1 = i) ∧ ∀ r ∈ rows, i ≤ r.1) ∧
    (metadataList rows).2 = (metadataDict rows).2 := by
  obtain ⟨h1, h2, h3⟩ := resourceDicts_spec rows
  have hget : ∀ rid, Dict.get? (metadataDict rows).1 rid = Dict.get? (resourceDicts rows) rid := by
    intro rid
    rw [metadataDict, get_nest _ _ _ (h1.imp fun h => h.2)]
    cases Dict.get? (resourceDicts rows) rid <;> rfl
  have hmem : ∀ rid d, (rid, d) ∈ resourceDicts rows ↔ Dict.get? (resourceDicts rows) rid = some d := by
    intro rid d
    generalize resourceDicts rows = gs at h1
    clear h2 h3 hget
    induction gs with
    | nil => simp [Dict.get?]
    | cons g gs ih =>
      obtain ⟨r, d'⟩ := g
      obtain ⟨p1, p2⟩ := List.pairwise_cons.1 h1
      by_cases hr : r = rid
      · subst hr
        simp only [List.mem_cons, Prod.mk.injEq, true_and, Dict.get?, List.find?_cons, beq_self_eq_true,
          Option.map_some, Option.some.injEq]
        constructor
        · rintro (rfl | h)
          · rfl
          · exact absurd rfl (p1 _ h).2
        · rintro rfl
          exact .inl rfl
      · have : (r == rid) = false := by simp [hr]
        have ih' := ih p2
        simp only [Dict.get?] at ih' ⊢
        simp only [List.mem_cons, Prod.mk.injEq, Ne.symm hr, false_and, false_or, List.find?_cons, this,
          ih']
  have hsome : ∀ rid, (Dict.get? (metadataDict rows).1 rid).isSome ↔ ∃ r ∈ rows, r.1 = rid := by
    intro rid
    rw [hget, ← h2 rid, List.mem_map]
    constructor
    · intro h
      obtain ⟨d, hd⟩ := Option.isSome_iff_exists.1 h
      exact ⟨(rid, d), (hmem rid d).2 hd, rfl⟩
    · rintro ⟨⟨r, d⟩, hm, rfl⟩
      rw [(hmem r d).1 hm]
      rfl
  refine ⟨hsome, ?_, ?_, h1, ?_, rfl⟩
  · intro rid key d hd hl
    rw [hget] at hd
    rw [h3 (rid, d) ((hmem rid d).2 hd) key]
    exact grow_entry _ hl
  · intro rid d
    rw [hget]
    exact hmem rid d
  · intro i
    simp only [metadataDict]
    cases hg : resourceDicts rows with
    | nil =>
      simp only [List.head?_nil, Option.map_none]
      constructor
      · exact nofun
      · rintro ⟨h, _⟩
        have := (h2 i).2 h
        rw [hg] at this
        exact absurd this (by simp)
    | cons g gs =>
      simp only [List.head?_cons, Option.map_some, Option.some.injEq]
      have hfirst : ∀ r ∈ rows, g.1 ≤ r.1 := by
        intro r hr
        have := (h2 r.1).2 ⟨r, hr, rfl⟩
        rw [hg, List.map_cons] at this
        rcases List.mem_cons.1 this with h | h
        · rw [h]; exact List.le_refl _
        · obtain ⟨g', hg', he⟩ := List.mem_map.1 h
          rw [hg] at h1
          rw [← he]
          exact ((List.pairwise_cons.1 h1).1 g' hg').1
      have hin : ∃ r ∈ rows, r.1 = g.1 := (h2 g.1).1 (by rw [hg]; simp)
      constructor
      · rintro rfl
        exact ⟨hin, hfirst⟩
      · rintro ⟨⟨r, hr, rfl⟩, hmin⟩
        obtain ⟨r', hr', he'⟩ := hin
        refine List.le_antisymm (hfirst r hr) ?_
        rw [← he']
        exact hmin r' hr'

/-! ### Where the code does not do it -/

/-- Node-sets are lists: of two statements whose values are node-sets (the
default value of a relationship), the second is put into the first instead
of beside it. -/
theorem C92_refuted_nodesets : ∃ rows rid key d,
    Dict.get? (metadataDict rows).1 rid = some d ∧
    valuesOf rows rid key = [.list [.node 1], .list [.node 2]] ∧
    Dict.get? d key = some (.list [.node 1, .list [.node 2]]) ∧
    entry (valuesOf rows rid key) = some (.list [.list [.node 1], .list [.node 2]]) :=
  ⟨[(u!! "r", u!! "k", .list [.node 1]), (u!! "r", u!! "k", .list [.node 2])], u!! "r", u!! "k",
    [(u!! "k", .list [.node 1, .list [.node 2]])], rfl, rfl, rfl, rfl⟩

/-- Two elements of one name in the example: the second, without cues, takes
away the context of the first; and with the same further relationships on
both each of them is stated twice. -/
theorem C92_refuted_repeated (n : Name) :
    (let a : Attrs := { rel := some [], context := some (u!! "../x") }
     (cuesOf a).context = some (u!! "../x") ∧ (setupCues noCues [(n, a), (n, {})] n).context = none) ∧
    (let a : Attrs := { rels := [(u!! "'r'", u!! ".")] }
     (setupCues noCues [(n, a), (n, a)] n).others = [(u!! "'r'", u!! "."), (u!! "'r'", u!! ".")]) := by
  refine ⟨⟨rfl, ?_⟩, ?_⟩ <;> simp [setupCues, applyCues, setDefaults, setContext, setValue, setRel,
    setResource, noCues, localName, dot]

/-! ### The hypotheses are met -/

private def nm (l : UStr) : Name := ⟨none, l⟩

/-- The cues of an example with labels that are resources and a quotation
that is a relationship. -/
private def es : List (Name × Attrs) :=
  [(nm (u!! "labels"), {}), (nm (u!! "label"), { resource := some [], rel := some (u!! "'label'") }),
   (nm (u!! "quote"), { rel := some [], rels := [(u!! "'s'", u!! "@source")] }),
   (nm (u!! "name"), { value := some (u!! "string(.)"), context := some (u!! "..//x") })]

example : setupCues noCues es (nm (u!! "label")) =
    { resource := some (u!! "generate-id()"), rel := some (u!! "'label'") } :=
  (C92_cues_partial es (nm (u!! "label"))).2 { resource := some [], rel := some (u!! "'label'") } (by decide)

example : setupCues noCues es (nm (u!! "name")) =
    { rel := some (u!! "local-name()"), value := some (u!! "string(.)"), context := some (u!! "..//x") } :=
  (C92_cues_partial es (nm (u!! "name"))).2
    { value := some (u!! "string(.)"), context := some (u!! "..//x") } (by decide)

private def env : Env where
  str e _ := e
  val e i := .list [.atom e, .node i]
  test _ i := i == 5
  nodeId i := [i]

/-- The statements of `<labels><label><quote/><name/></label></labels>`: the
label is stated about the document, the quotation about the label, and the
name is out of context. -/
example : generateMetadata env (setupCues noCues es)
    [.elem (nm (u!! "labels")) 1 [.elem (nm (u!! "label")) 2
      [.elem (nm (u!! "quote")) 3 [], .elem (nm (u!! "name")) 4 []]]] (u!! "base") =
    [(u!! "base", u!! "'label'", .atom [2]), ([2], u!! "local-name()", .list [.atom (u!! "."), .node 3]),
     ([2], u!! "'s'", .list [.atom (u!! "@source"), .node 3])] := by rfl

/-- Two values of one relationship, and resources out of order. -/
example : ∃ d, Dict.get? (metadataDict [(u!! "r", u!! "k", .atom (u!! "v")), (u!! "q", u!! "k", .node 3),
      (u!! "r", u!! "k", .list [])]).1 (u!! "r") = some d ∧
    Dict.get? d (u!! "k") = some (.list [.atom (u!! "v"), .list []]) := ⟨_, rfl, rfl⟩

end Verif.Eg.Meta
