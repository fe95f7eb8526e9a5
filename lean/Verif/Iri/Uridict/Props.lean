import Verif.Iri.Uridict.Canon
/-
C88: dictionaries of URIs, and document().
-/
namespace Verif.Iri.Uridict
open Verif.Iri Verif.Iri.Spec Verif.Iri.Uridict.Spec

/-! ### Specification -/

/-- The URI of an operation. -/
def Op.uri {V : Type} : Op V → Str
  | .get u => u
  | .set u _ => u
  | .del u => u
  | .mem u => u
  | .hasKey u => u

/-- The operation changes what there is for the URI: an assignment or deletion with an equivalent URI. -/
def Touches {V : Type} (o : Op V) (u : Str) : Prop :=
  match o with
  | .set u' _ => Equiv u' u
  | .del u' => Equiv u' u
  | _ => False

/-- After the history there is the value for the URI: it was assigned to an equivalent URI, and since then nothing has
been assigned to or deleted for an equivalent one. -/
def Holds {V : Type} (hist : List (Op V)) (u : Str) (v : V) : Prop :=
  ∃ before u' after, hist = before ++ .set u' v :: after ∧ Equiv u' u ∧ ∀ o ∈ after, ¬ Touches o u

/-- The URI that a string means with a base URI, if it has one (`absolute`: an absolute URI, or C03 with the base). -/
def Means (s : Str) (base : Option Str) (u : Str) : Prop := absolute s base = .ok u

/-- The URIs a call of document() is for: XSLT 12.1.  The base URI is that of the first node of the second argument, else of
the node, else of the instruction. -/
inductive Wanted : Call → Str → Prop
  | str {inst s u} : Means s inst u → Wanted ⟨inst, .str s, none⟩ u
  | strBase {inst s b bs u} : Means s b u → Wanted ⟨inst, .str s, some (b :: bs)⟩ u
  | node {inst l s b u} : (s, b) ∈ l → Means s b u → Wanted ⟨inst, .nodes l, none⟩ u
  | nodeBase {inst l s b' b bs u} : (s, b') ∈ l → Means s b u → Wanted ⟨inst, .nodes l, some (b :: bs)⟩ u

/-! ### Dictionaries -/

theorem get_set {V : Type} (d : Dict V) (k : Str) (v : V) (k' : Str) : (d.set k v).get k' = if k' = k then some v else d.get k' := by
  induction d with
  | nil =>
    by_cases h : k' = k
    · simp [Dict.set, Dict.get, List.lookup, h]
    · simp [Dict.set, Dict.get, List.lookup, h]
      split
      · rename_i e; exact absurd (beq_iff_eq.1 e) h
      · rfl
  | cons x d ih =>
    obtain ⟨a, b⟩ := x
    unfold Dict.get at ih ⊢
    rw [Dict.set]
    by_cases h : a = k
    · subst h
      rw [if_pos rfl, List.lookup_cons, List.lookup_cons]
      by_cases h' : k' = a
      · subst h'; simp
      · rw [if_neg h']
        simp [h', beq_eq_false_iff_ne.2 h']
    · rw [if_neg h, List.lookup_cons, List.lookup_cons]
      by_cases h' : k' = a
      · subst h'; simp [h]
      · rw [beq_eq_false_iff_ne.2 h']
        simpa using ih

theorem get_del {V : Type} (d : Dict V) (k k' : Str) : (d.del k).get k' = if k' = k then none else d.get k' := by
  induction d with
  | nil => simp [Dict.del, Dict.get]
  | cons x d ih =>
    obtain ⟨a, b⟩ := x
    unfold Dict.get Dict.del at ih ⊢
    rw [List.filter_cons]
    by_cases h : a = k
    · subst h
      rw [if_neg (by simp), ih, List.lookup_cons]
      by_cases h' : k' = a
      · rw [if_pos h', if_pos h']
      · rw [if_neg h', if_neg h', beq_eq_false_iff_ne.2 h']
    · rw [if_pos (by simpa using h), List.lookup_cons, List.lookup_cons]
      by_cases h' : k' = a
      · subst h'; simp [h]
      · rw [beq_eq_false_iff_ne.2 h']
        exact ih

theorem keys_set {V : Type} (d : Dict V) (k : Str) (v : V) : keys (d.set k v) = if k ∈ keys d then keys d else keys d ++ [k] := by
  induction d with
  | nil => simp [keys, Dict.set]
  | cons x d ih =>
    obtain ⟨a, b⟩ := x
    rw [Dict.set]
    by_cases h : a = k
    · subst h; simp [keys]
    · rw [if_neg h]
      simp only [keys, List.map_cons, List.mem_cons] at ih ⊢
      rw [ih]
      have h' : ¬ k = a := fun e => h e.symm
      by_cases hk : k ∈ d.map Prod.fst
      · simp [hk]
      · simp [hk, h']

theorem mem_keys {V : Type} (d : Dict V) (k : Str) : k ∈ keys d ↔ ∃ v, d.get k = some v := by
  induction d with
  | nil => simp [keys, Dict.get]
  | cons x d ih =>
    obtain ⟨a, b⟩ := x
    unfold Dict.get at ih ⊢
    simp only [keys, List.map_cons, List.mem_cons, List.lookup_cons] at ih ⊢
    by_cases h : k = a
    · subst h; simp
    · simp only [h, false_or, beq_eq_false_iff_ne.2 h, ih]

/-! ### Histories -/

theorem holds_snoc {V : Type} (hist : List (Op V)) (o : Op V) (u : Str) (v : V) :
    Holds (hist ++ [o]) u v ↔ (∃ u', o = .set u' v ∧ Equiv u' u) ∨ (¬ Touches o u ∧ Holds hist u v) := by
  constructor
  · rintro ⟨b, u', a, e, h1, h2⟩
    rcases List.eq_nil_or_concat a with rfl | ⟨a', x, rfl⟩
    · have := List.append_inj' e rfl
      left
      exact ⟨u', (List.cons.inj this.2).1, h1⟩
    · right
      rw [List.concat_eq_append, show b ++ Op.set u' v :: (a' ++ [x]) = (b ++ Op.set u' v :: a') ++ [x] by simp] at e
      have := List.append_inj' e rfl
      obtain rfl := (List.cons.inj this.2).1
      exact ⟨h2 o (by simp), b, u', a', this.1, h1, fun x hx => h2 x (by simp [hx])⟩
  · rintro (⟨u', rfl, h⟩ | ⟨h, b, u', a, rfl, h1, h2⟩)
    · exact ⟨hist, u', [], rfl, h, nofun⟩
    · refine ⟨b, u', a ++ [o], by simp, h1, fun x hx => ?_⟩
      rcases List.mem_append.1 hx with hx | hx
      · exact h2 x hx
      · rw [List.mem_singleton.1 hx]; exact h

theorem run_snoc {V : Type} (d : Dict V) (hist : List (Op V)) (o : Op V) : run d (hist ++ [o]) = (step (run d hist) o).1 := by
  induction hist generalizing d with
  | nil => rfl
  | cons x hist ih => exact ih _

structure Inv {V : Type} (hist : List (Op V)) (d : Dict V) : Prop where
  nodup : (keys d).Nodup
  normal : ∀ k ∈ keys d, ∃ u, Good u ∧ k = norm u
  get : ∀ u v, Good u → (d.get (norm u) = some v ↔ Holds hist u v)

theorem inv_step {V : Type} {hist : List (Op V)} {d : Dict V} (i : Inv hist d) (o : Op V) (ho : Good o.uri) : Inv (hist ++ [o]) (step d o).1 := by
  have hk := key_eq ho.1 ho.2
  have same : (¬ ∃ u v, o = .set u v) → (∀ u, ¬ Touches o u) → (step d o).1 = d → Inv (hist ++ [o]) (step d o).1 := by
    intro h1 h2 h3
    rw [h3]
    refine ⟨i.nodup, i.normal, fun u v hu => ?_⟩
    rw [i.get u v hu, holds_snoc]
    constructor
    · intro h; exact .inr ⟨h2 u, h⟩
    · rintro (⟨u', e, _⟩ | h)
      · exact absurd ⟨u', v, e⟩ h1
      · exact h.2
  cases o with
  | get u => exact same (by simp) (fun _ h => h) (by simp only [Op.uri] at hk; simp only [step, hk]; split <;> rfl)
  | mem u => exact same (by simp) (fun _ h => h) (by simp only [Op.uri] at hk; simp only [step, hk])
  | hasKey u => exact same (by simp) (fun _ h => h) (by simp only [Op.uri] at hk; simp only [step, hk])
  | set u v =>
    simp only [Op.uri] at hk ho
    simp only [step, hk]
    refine ⟨?_, ?_, ?_⟩
    · rw [keys_set]
      split
      · exact i.nodup
      · rename_i h
        rw [List.nodup_append]
        exact ⟨i.nodup, by simp, fun a ha b hb e => by rw [List.mem_singleton.1 hb] at e; exact h (e ▸ ha)⟩
    · intro k hk'
      rw [keys_set] at hk'
      split at hk'
      · exact i.normal k hk'
      · rcases List.mem_append.1 hk' with h | h
        · exact i.normal k h
        · exact ⟨u, ho, List.mem_singleton.1 h⟩
    · intro u' v' hu'
      rw [get_set, holds_snoc]
      by_cases h : norm u' = norm u
      · have he := (norm_iff ho.1 hu'.1).1 h.symm
        rw [if_pos h]
        constructor
        · intro e; cases e; exact .inl ⟨u, rfl, he⟩
        · rintro (⟨_, e, _⟩ | ⟨h, _⟩)
          · cases e; rfl
          · exact absurd he h
      · have he : ¬ Equiv u u' := fun he => h (norm_of_equiv he).symm
        rw [if_neg h, i.get u' v' hu']
        constructor
        · intro h; exact .inr ⟨he, h⟩
        · rintro (⟨_, e, h⟩ | ⟨_, h⟩)
          · cases e; exact absurd h he
          · exact h
  | del u =>
    simp only [Op.uri] at hk ho
    simp only [step, hk]
    have hdel : ∀ d' : Dict V, (∀ k, d'.get k = if k = norm u then none else d.get k) → ∀ u' v', Good u' →
        (d'.get (norm u') = some v' ↔ Holds (hist ++ [Op.del u]) u' v') := by
      intro d' hd' u' v' hu'
      rw [hd', holds_snoc]
      by_cases h : norm u' = norm u
      · have he := (norm_iff ho.1 hu'.1).1 h.symm
        rw [if_pos h]
        constructor
        · intro e; cases e
        · rintro (⟨_, e, _⟩ | ⟨h, _⟩)
          · cases e
          · exact absurd he h
      · have he : ¬ Equiv u u' := fun he => h (norm_of_equiv he).symm
        rw [if_neg h, i.get u' v' hu']
        constructor
        · intro h; exact .inr ⟨he, h⟩
        · rintro (⟨_, e, h⟩ | ⟨_, h⟩)
          · cases e
          · exact h
    cases hg : d.get (norm u) with
    | none =>
      refine ⟨i.nodup, i.normal, hdel d fun k => ?_⟩
      split
      · rename_i h; rw [h, hg]
      · rfl
    | some w =>
      have hsub : List.Sublist (keys (d.del (norm u))) (keys d) := by
        unfold keys Dict.del; exact List.Sublist.map _ List.filter_sublist
      exact ⟨i.nodup.sublist hsub, fun k hk => i.normal k (hsub.subset hk), hdel _ (get_del d _)⟩

theorem inv_run {V : Type} (hist : List (Op V)) (h : ∀ o ∈ hist, Good o.uri) : Inv hist (run [] hist) := by
  suffices ∀ (n : Nat) (hist : List (Op V)), hist.length = n → (∀ o ∈ hist, Good o.uri) → Inv hist (run [] hist) from this _ hist rfl h
  intro n
  induction n with
  | zero =>
    intro hist hl _
    cases hist with
    | nil =>
      refine ⟨List.nodup_nil, nofun, fun u v _ => ?_⟩
      constructor
      · intro e; cases e
      · rintro ⟨b, _, _, e, _⟩; cases b <;> cases e
    | cons => cases hl
  | succ n ih =>
    intro hist hl h
    rcases List.eq_nil_or_concat hist with rfl | ⟨b, o, rfl⟩
    · cases hl
    · rw [List.concat_eq_append] at hl h ⊢
      rw [run_snoc]
      exact inv_step (ih b (by simpa using hl) fun x hx => h x (by simp [hx])) o (h o (by simp))

/-! ### The theorems -/

/-- C88, keys. Two URIs have the same key exactly if they are equivalent. -/
theorem C88_keys_partial (u v : Str) (hu : Good u) (hv : Good v) : key u = key v ↔ Equiv u v := by
  rw [key_eq hu.1 hu.2, key_eq hv.1 hv.2, ← norm_iff hu.1 hv.1]
  constructor
  · intro e; exact Except.ok.inj e
  · intro e; rw [e]

/-- C88, dictionaries. After every history of operations, a lookup with a URI gives the value last assigned to an
equivalent URI if it has not been deleted; `in` and `has_key` tell whether there is one; an assignment succeeds, and a
deletion succeeds if there is a value. -/
theorem C88_dictionary_partial {V : Type} (hist : List (Op V)) (hh : ∀ o ∈ hist, Good o.uri) (u : Str) (hu : Good u) :
    (∀ v, (step (run [] hist) (.get u)).2 = .value v ↔ Holds hist u v) ∧
    ((step (run [] hist) (.get u)).2 = .keyError ↔ ¬ ∃ v, Holds hist u v) ∧
    ((step (run [] hist) (.mem u)).2 = .bool true ↔ ∃ v, Holds hist u v) ∧
    ((step (run [] hist) (.mem u)).2 = .bool false ↔ ¬ ∃ v, Holds hist u v) ∧
    ((step (run [] hist) (.hasKey u)).2 = (step (run [] hist) (.mem u)).2) ∧
    (∀ v, (step (run [] hist) (.set u v)).2 = .done) ∧
    ((step (run [] hist) (.del u)).2 = .done ↔ ∃ v, Holds hist u v) ∧
    ((step (run [] hist) (.del u)).2 = .keyError ↔ ¬ ∃ v, Holds hist u v) := by
  have i := inv_run hist hh
  have hg := fun v => i.get u v hu
  generalize run [] hist = d at *
  simp only [step, key_eq hu.1 hu.2, ← hg]
  cases d.get (norm u) with
  | none => simp
  | some w => simp

/-- C88, iteration. Each item is a URI with its value, there is one for each URI that has a value, and no two are
equivalent. -/
theorem C88_items_partial {V : Type} (hist : List (Op V)) (hh : ∀ o ∈ hist, Good o.uri) :
    (∀ k r, (k, r) ∈ iteritems (run [] hist) → ∃ v, r = .value v ∧ Holds hist k v) ∧
    (∀ u v, Good u → Holds hist u v → ∃ k, (k, .value v) ∈ iteritems (run [] hist) ∧ Equiv k u) ∧
    (keys (run [] hist)).Pairwise (fun k k' => ¬ Equiv k k') := by
  have i := inv_run hist hh
  generalize run [] hist = d at *
  have hval : ∀ k ∈ keys d, ∃ v, (step d (.get k)).2 = .value v ∧ d.get k = some v ∧ Good k ∧ norm k = k := by
    intro k hk
    obtain ⟨u, hu, rfl⟩ := i.normal k hk
    obtain ⟨v, hv⟩ := (mem_keys d _).1 hk
    have hgood : Good (norm u) := norm_uri hu.1
    refine ⟨v, ?_, hv, hgood, norm_idem hu.1⟩
    simp only [step, key_eq hgood.1 hgood.2, norm_idem hu.1, hv]
  refine ⟨?_, ?_, ?_⟩
  · intro k r h
    obtain ⟨k', hk', e⟩ := List.mem_map.1 h
    cases e
    obtain ⟨v, h1, h2, h3, h4⟩ := hval k hk'
    exact ⟨v, h1, (i.get k v h3).1 (by rw [h4]; exact h2)⟩
  · intro u v hu h
    have hv := (i.get u v hu).2 h
    have hk : norm u ∈ keys d := (mem_keys d _).2 ⟨v, hv⟩
    obtain ⟨v', h1, h2, _⟩ := hval _ hk
    rw [hv] at h2
    cases h2
    exact ⟨norm u, List.mem_map.2 ⟨norm u, hk, by rw [h1]⟩, (equiv_norm hu.1).symm⟩
  · refine i.nodup.imp_of_mem ?_
    intro a b ha hb hne he
    obtain ⟨_, _, _, _, ea⟩ := hval a ha
    obtain ⟨_, _, _, _, eb⟩ := hval b hb
    exact hne (by rw [← ea, ← eb]; exact norm_of_equiv he)

/-! ### document() -/

structure CtxInv (c : Ctx) : Prop where
  good : ∀ p ∈ c.parsed, Good p.1
  get : ∀ u d, Good u → (c.docs.get (norm u) = some d ↔ ∃ u', (u', d) ∈ c.parsed ∧ Equiv u' u)
  apart : c.parsed.Pairwise (fun p q => ¬ Equiv p.1 q.1 ∧ p.2 ≠ q.2)
  fresh : ∀ p ∈ c.parsed, p.2 < c.next

theorem one_spec {w : World} {c c' : Ctx} {u : Str} {d : Nat} (i : CtxInv c) (hu : Good u) (h : one w c u = .ok (c', d)) :
    CtxInv c' ∧ c'.docs.get (norm u) = some d ∧ ∀ k x, c.docs.get k = some x → c'.docs.get k = some x := by
  unfold one at h
  simp only [step, key_eq hu.1 hu.2] at h
  cases hg : c.docs.get (norm u) with
  | some x =>
    rw [hg] at h
    simp only [Option.isSome_some] at h
    cases h
    exact ⟨i, hg, fun _ _ h => h⟩
  | none =>
    rw [hg] at h
    simp only [Option.isSome_none] at h
    split at h
    · cases h
      have hnone : ∀ p ∈ c.parsed, ¬ Equiv p.1 u := by
        intro p hp he
        have := (i.get u p.2 hu).2 ⟨p.1, hp, he⟩
        rw [hg] at this
        cases this
      refine ⟨⟨?_, ?_, ?_, ?_⟩, ?_, ?_⟩
      · intro p hp
        rcases List.mem_append.1 hp with hp | hp
        · exact i.good p hp
        · rw [List.mem_singleton.1 hp]; exact hu
      · intro u' d' hu'
        dsimp only
        rw [get_set]
        by_cases e : norm u' = norm u
        · have he := (norm_iff hu.1 hu'.1).1 e.symm
          rw [if_pos e]
          constructor
          · intro e; cases e; exact ⟨u, by simp, he⟩
          · rintro ⟨u'', hm, he'⟩
            rcases List.mem_append.1 hm with hm | hm
            · exact absurd (he'.trans he.symm) (hnone _ hm)
            · cases List.mem_singleton.1 hm; rfl
        · rw [if_neg e, i.get u' d' hu']
          constructor
          · rintro ⟨u'', hm, he⟩; exact ⟨u'', List.mem_append_left _ hm, he⟩
          · rintro ⟨u'', hm, he⟩
            rcases List.mem_append.1 hm with hm | hm
            · exact ⟨u'', hm, he⟩
            · cases List.mem_singleton.1 hm
              exact absurd (norm_of_equiv he).symm e
      · refine List.pairwise_append.2 ⟨i.apart, List.pairwise_singleton _ _, ?_⟩
        intro p hp q hq
        rw [List.mem_singleton.1 hq]
        exact ⟨hnone p hp, fun e => by have := i.fresh p hp; dsimp only at e; omega⟩
      · intro p hp
        rcases List.mem_append.1 hp with hp | hp
        · exact Nat.lt_succ_of_lt (i.fresh p hp)
        · rw [List.mem_singleton.1 hp]; exact Nat.lt_succ_self _
      · dsimp only; rw [get_set, if_pos rfl]
      · intro k x hx
        dsimp only
        rw [get_set, if_neg, hx]
        rintro rfl
        rw [hg] at hx
        cases hx
    · cases h

theorem all_spec {w : World} : ∀ {us : List Str} {c c' : Ctx} {ds : List Nat}, CtxInv c → (∀ u ∈ us, Good u) → all w c us = .ok (c', ds) →
    CtxInv c' ∧ us.map (fun u => c'.docs.get (norm u)) = ds.map some ∧ ∀ k x, c.docs.get k = some x → c'.docs.get k = some x
  | [], c, c', ds, i, _, h => by cases h; exact ⟨i, rfl, fun _ _ h => h⟩
  | u :: us, c, c', ds, i, hg, h => by
    rw [all] at h
    cases h1 : one w c u with
    | error e => rw [h1] at h; cases h
    | ok p =>
      obtain ⟨c1, d⟩ := p
      rw [h1] at h
      dsimp only at h
      cases h2 : all w c1 us with
      | error e => rw [h2] at h; cases h
      | ok p =>
        obtain ⟨c2, ds'⟩ := p
        rw [h2] at h
        cases h
        obtain ⟨i1, g1, m1⟩ := one_spec i (hg u (.head _)) h1
        obtain ⟨i2, g2, m2⟩ := all_spec i1 (fun x hx => hg x (.tail _ hx)) h2
        exact ⟨i2, by rw [List.map_cons, List.map_cons, g2, m2 _ _ g1], fun k x hx => m2 k x (m1 k x hx)⟩

theorem nodeUris_mem {base : Option (Option Str)} : ∀ {l : List (Str × Option Str)} {us : List Str}, nodeUris base l = .ok us →
    ∀ a, a ∈ us ↔ ∃ s b, (s, b) ∈ l ∧ Means s (base.getD b) a
  | [], us, h, a => by cases h; simp
  | (s, b) :: l, us, h, a => by
    rw [nodeUris] at h
    cases h1 : absolute s (base.getD b) with
    | error e => rw [h1] at h; cases h
    | ok x =>
      rw [h1] at h
      dsimp only at h
      cases h2 : nodeUris base l with
      | error e => rw [h2] at h; cases h
      | ok us' =>
        rw [h2] at h
        have h := Except.ok.inj h
        have ih := nodeUris_mem h2 a
        have hm : a ∈ us ↔ a = x ∨ a ∈ us' := by
          rw [← h]
          by_cases hx : x ∈ us'
          · rw [if_pos hx]
            constructor
            · exact .inr
            · rintro (rfl | h)
              · exact hx
              · exact h
          · rw [if_neg hx, List.mem_cons]
        rw [hm, ih]
        constructor
        · rintro (rfl | ⟨s', b', hm, ha⟩)
          · exact ⟨s, b, .head _, h1⟩
          · exact ⟨s', b', .tail _ hm, ha⟩
        · rintro ⟨s', b', hm, ha⟩
          rcases List.mem_cons.1 hm with e | hm
          · cases e
            unfold Means at ha
            rw [h1] at ha
            exact .inl (Except.ok.inj ha).symm
          · exact .inr ⟨s', b', hm, ha⟩

theorem uris_mem {hash : List Str → List Str} (hp : ∀ l, (hash l).Perm l) {call : Call} {us : List Str}
    (h : uris hash call.inst call.arg call.second = .ok us) (u : Str) : u ∈ us ↔ Wanted call u := by
  obtain ⟨inst, arg, second⟩ := call
  dsimp only at h
  unfold uris at h
  have single : ∀ {s b}, (match absolute s b with | .ok a => Except.ok [a] | .error e => .error e) = .ok us → (u ∈ us ↔ Means s b u) := by
    intro s b h
    cases h1 : absolute s b with
    | error e => rw [h1] at h; cases h
    | ok x =>
      rw [h1] at h
      have := (Except.ok.inj h).symm
      subst this
      unfold Means
      rw [h1, List.mem_singleton]
      exact ⟨fun e => by rw [e], fun e => (Except.ok.inj e).symm⟩
  have many : ∀ {base l}, (match nodeUris base l with | .ok us => Except.ok (hash us) | .error e => .error e) = .ok us →
      (u ∈ us ↔ ∃ s b, (s, b) ∈ l ∧ Means s (base.getD b) u) := by
    intro base l h
    cases h1 : nodeUris base l with
    | error e => rw [h1] at h; cases h
    | ok x =>
      rw [h1] at h
      have := (Except.ok.inj h).symm
      subst this
      rw [(hp x).mem_iff]
      exact nodeUris_mem h1 u
  split at h
  · cases h
  · split at h
    · rw [single h]
      constructor
      · exact .strBase
      · intro h; cases h; assumption
    · rw [many h]
      constructor
      · rintro ⟨s, b, hm, ha⟩; exact .nodeBase hm ha
      · intro h; cases h with
        | nodeBase hm ha => exact ⟨_, _, hm, ha⟩
  · split at h
    · rw [single h]
      constructor
      · exact .str
      · intro h; cases h; assumption
    · rw [many h]
      constructor
      · rintro ⟨s, b, hm, ha⟩; exact .node hm ha
      · intro h; cases h with
        | node hm ha => exact ⟨_, _, hm, ha⟩

theorem transform_spec {hash : List Str → List Str} (hp : ∀ l, (hash l).Perm l) {w : World} :
    ∀ {calls : List Call} {c c' : Ctx} {rs : List (List Nat)}, CtxInv c → (∀ call ∈ calls, ∀ u, Wanted call u → Good u) →
    transform hash w c calls = .ok (c', rs) →
    CtxInv c' ∧ (∀ k x, c.docs.get k = some x → c'.docs.get k = some x) ∧ rs.length = calls.length ∧
    ∀ (i : Nat) (call : Call) (r : List Nat), calls[i]? = some call → rs[i]? = some r → (∀ d, d ∈ r ↔ ∃ u, Wanted call u ∧ c'.docs.get (norm u) = some d) ∧
      ∀ u, Wanted call u → ∃ d, c'.docs.get (norm u) = some d
  | [], c, c', rs, i, _, h => by cases h; exact ⟨i, fun _ _ h => h, rfl, by simp⟩
  | call :: calls, c, c', rs, i, hg, h => by
    rw [transform] at h
    cases h1 : document hash w c call with
    | error e => rw [h1] at h; cases h
    | ok p =>
      obtain ⟨c1, r1⟩ := p
      rw [h1] at h
      dsimp only at h
      cases h2 : transform hash w c1 calls with
      | error e => rw [h2] at h; cases h
      | ok p =>
        obtain ⟨c2, rs'⟩ := p
        rw [h2] at h
        cases h
        unfold document at h1
        cases h3 : uris hash call.inst call.arg call.second with
        | error e => rw [h3] at h1; cases h1
        | ok us =>
          rw [h3] at h1
          dsimp only at h1
          have hm := uris_mem hp h3
          obtain ⟨i1, g1, m1⟩ := all_spec i (fun u hu => hg call (.head _) u ((hm u).1 hu)) h1
          obtain ⟨i2, m2, l2, g2⟩ := transform_spec hp i1 (fun x hx => hg x (.tail _ hx)) h2
          refine ⟨i2, fun k x hx => m2 k x (m1 k x hx), by simp [l2], ?_⟩
          intro n call' r hc hr
          cases n with
          | succ n => exact g2 n call' r hc hr
          | zero =>
            cases hc
            cases hr
            have hex : ∀ u, Wanted call u → ∃ d, d ∈ r1 ∧ c1.docs.get (norm u) = some d := by
              intro u hu
              have : c1.docs.get (norm u) ∈ r1.map some := by rw [← g1]; exact List.mem_map.2 ⟨u, (hm u).2 hu, rfl⟩
              obtain ⟨d, hd, e⟩ := List.mem_map.1 this
              exact ⟨d, hd, e.symm⟩
            constructor
            · intro d
              constructor
              · intro hd
                have : some d ∈ us.map (fun u => c1.docs.get (norm u)) := by rw [g1]; exact List.mem_map.2 ⟨d, hd, rfl⟩
                obtain ⟨u, hu, e⟩ := List.mem_map.1 this
                exact ⟨u, (hm u).1 hu, m2 _ _ e⟩
              · rintro ⟨u, hu, e⟩
                obtain ⟨d', hd', e'⟩ := hex u hu
                have := m2 _ _ e'
                rw [e] at this
                cases this
                exact hd'
            · intro u hu
              obtain ⟨d, _, e⟩ := hex u hu
              exact ⟨d, m2 _ _ e⟩

theorem start_inv (base : Option Str) (hb : ∀ b, base = some b → Good b) : CtxInv (start base) ∧ ∀ b, base = some b → (start base).docs.get (norm b) = some 0 := by
  have empty : CtxInv { docs := [], next := 1, parsed := [] } :=
    ⟨nofun, fun u d _ => ⟨nofun, fun ⟨_, h, _⟩ => absurd h (by simp)⟩, List.Pairwise.nil, nofun⟩
  cases base with
  | none => exact ⟨empty, nofun⟩
  | some b =>
    have hg := hb b rfl
    have hne : b ≠ [] := by
      rintro rfl
      obtain ⟨s, r, e, _⟩ := hg.1
      cases s <;> cases e
    unfold start
    dsimp only
    rw [if_neg hne]
    simp only [step, key_eq hg.1 hg.2]
    refine ⟨⟨?_, ?_, List.pairwise_singleton _ _, ?_⟩, ?_⟩
    · intro p hp; rw [List.mem_singleton.1 hp]; exact hg
    · intro u d hu
      dsimp only
      rw [get_set]
      by_cases e : norm u = norm b
      · rw [if_pos e]
        constructor
        · intro h; cases h; exact ⟨b, by simp, (norm_iff hg.1 hu.1).1 e.symm⟩
        · rintro ⟨u', hm, _⟩; cases List.mem_singleton.1 hm; rfl
      · rw [if_neg e]
        constructor
        · intro h; cases h
        · rintro ⟨u', hm, he⟩; cases List.mem_singleton.1 hm; exact absurd (norm_of_equiv he).symm e
    · intro p hp; rw [List.mem_singleton.1 hp]; exact Nat.zero_lt_one
    · intro b' e; cases e; rw [get_set, if_pos rfl]

/-- C88, document(). During a transformation document() is a function from URIs to documents: every call gives the
documents of the URIs it is for; two URIs have the same document exactly if they are equivalent, and the source document is
that of its base URI. For no two equivalent URIs a document is made. -/
theorem C88_document_partial (hash : List Str → List Str) (hp : ∀ l, (hash l).Perm l) (w : World) (base : Option Str)
    (hb : ∀ b, base = some b → Good b) (calls : List Call) (hg : ∀ call ∈ calls, ∀ u, Wanted call u → Good u) (c : Ctx) (results : List (List Nat))
    (h : transform hash w (start base) calls = .ok (c, results)) :
    ∃ doc : Str → Nat,
      (∀ b, base = some b → doc b = 0) ∧
      results.length = calls.length ∧
      (∀ (i : Nat) (call : Call) (r : List Nat), calls[i]? = some call → results[i]? = some r → ∀ d, d ∈ r ↔ ∃ u, Wanted call u ∧ doc u = d) ∧
      (∀ call ∈ calls, ∀ u, Wanted call u → ∀ call' ∈ calls, ∀ v, Wanted call' v → (doc u = doc v ↔ Equiv u v)) ∧
      (∀ b, base = some b → ∀ call ∈ calls, ∀ u, Wanted call u → (doc u = 0 ↔ Equiv b u)) ∧
      (c.parsed.map Prod.fst).Pairwise (fun u v => ¬ Equiv u v) := by
  obtain ⟨i0, hb0⟩ := start_inv base hb
  obtain ⟨i, mono, hl, hr⟩ := transform_spec hp i0 hg h
  have inj : ∀ u v d, Good u → Good v → c.docs.get (norm u) = some d → c.docs.get (norm v) = some d → Equiv u v := by
    intro u v d hu hv h1 h2
    obtain ⟨u', m1, e1⟩ := (i.get u d hu).1 h1
    obtain ⟨v', m2, e2⟩ := (i.get v d hv).1 h2
    have : u' = v' := by
      have := i.apart
      rcases List.mem_iff_getElem.1 m1 with ⟨a, ha, ea⟩
      rcases List.mem_iff_getElem.1 m2 with ⟨b, hb, eb⟩
      rcases Nat.lt_trichotomy a b with hab | hab | hab
      · have := (List.pairwise_iff_getElem.1 i.apart a b ha hb hab).2
        rw [ea, eb] at this; exact absurd rfl this
      · subst hab; rw [ea] at eb; cases eb; rfl
      · have := (List.pairwise_iff_getElem.1 i.apart b a hb ha hab).2
        rw [ea, eb] at this; exact absurd rfl this
    subst this
    exact e1.symm.trans e2
  have hdoc : ∀ call ∈ calls, ∀ u, Wanted call u → ∃ d, c.docs.get (norm u) = some d := by
    intro call hc u hu
    obtain ⟨n, hn, e⟩ := List.mem_iff_getElem.1 hc
    have hn' : n < results.length := by rw [hl]; exact hn
    exact (hr n call results[n] (by rw [List.getElem?_eq_getElem hn, e]) (List.getElem?_eq_getElem hn')).2 u hu
  refine ⟨fun u => (c.docs.get (norm u)).getD 0, ?_, hl, ?_, ?_, ?_, ?_⟩
  · intro b e
    show (c.docs.get (norm b)).getD 0 = 0
    rw [mono _ _ (hb0 b e)]; rfl
  · intro n call r hc hr' d
    rw [(hr n call r hc hr').1 d]
    have hm : call ∈ calls := List.mem_of_getElem? hc
    constructor
    · rintro ⟨u, hu, e⟩; exact ⟨u, hu, by dsimp only; rw [e]; rfl⟩
    · rintro ⟨u, hu, e⟩
      obtain ⟨d', e'⟩ := hdoc call hm u hu
      dsimp only at e
      rw [e'] at e
      exact ⟨u, hu, by rw [e']; exact congrArg some e⟩
  · intro call hc u hu call' hc' v hv
    obtain ⟨d, e⟩ := hdoc call hc u hu
    obtain ⟨d', e'⟩ := hdoc call' hc' v hv
    constructor
    · intro h
      simp only [e, e', Option.getD_some] at h
      subst h
      exact inj u v d (hg call hc u hu) (hg call' hc' v hv) e e'
    · intro h; dsimp only; rw [norm_of_equiv h]
  · intro b hb' call hc u hu
    obtain ⟨d, e⟩ := hdoc call hc u hu
    have e0 := mono _ _ (hb0 b hb')
    constructor
    · intro h
      simp only [e, Option.getD_some] at h
      subst h
      exact inj b u 0 (hb b hb') (hg call hc u hu) e0 e
    · intro h; dsimp only; rw [← norm_of_equiv h, e0]; rfl
  · rw [List.pairwise_map]
    exact i.apart.imp fun h => h.1

/-! ### Examples -/

theorem good_plain {s r : Str} (hs : IsScheme s) (hr : '%' ∉ r) (hn : '\n' ∉ r) : Good (s ++ ':' :: r) := by
  have : ∀ {x : Str}, '%' ∉ x → OneCased x := by
    intro x hx
    induction x with
    | nil => exact .nil
    | cons c x ih => exact .char c _ (by rintro rfl; exact hx (.head _)) (ih fun hc => hx (.tail _ hc))
  refine ⟨⟨s, r, rfl, hs, wf_plain hr, hn⟩, this ?_⟩
  intro h
  rcases List.mem_append.1 h with h | h
  · exact (scheme_char hs h).1 rfl
  · rcases List.mem_cons.1 h with h | h
    · exact absurd h (by decide)
    · exact hr h

/-- The three URIs of the documentation of `uridict` are equivalent. -/
theorem example_equiv : Equiv (s!! "HTTP://spam/%7ex/") (s!! "http://spam/~x/") := by
  refine (norm_iff ⟨s!! "HTTP", s!! "//spam/%7ex/", rfl, ⟨'H', s!! "TTP", rfl, by decide, by decide⟩, ?_, by decide⟩
    ⟨s!! "http", s!! "//spam/~x/", rfl, ⟨'h', s!! "ttp", rfl, by decide, by decide⟩, wf_plain (by decide), by decide⟩).1 (by decide +kernel)
  exact wf_append (x := s!! "//spam/") (wf_plain (by decide)) (.triplet '7' 'e' (s!! "x/") (by decide) (by decide) (wf_plain (by decide)))

example : ¬ Equiv (s!! "http://spam/a") (s!! "http://spam/A") := fun h => absurd (norm_of_equiv h) (by decide +kernel)

/-- A history with a value that is assigned twice, under two spellings, and one that is deleted. -/
example : (step (run ([] : Dict Nat) [.set (s!! "file:///x") 1, .set (s!! "FILE://localhost/x") 2, .set (s!! "http://a/") 3, .del (s!! "HTTP://a/")])
    (.get (s!! "file:///x"))).2 = .value 2 := by decide +kernel
example : keys (run ([] : Dict Nat) [.set (s!! "file:///x") 1, .set (s!! "FILE://localhost/x") 2, .set (s!! "http://a/") 3, .del (s!! "HTTP://a/")])
    = [s!! "file:///x"] := by decide +kernel
example : Good (s!! "FILE://localhost/x") := good_plain (s := s!! "FILE") (r := s!! "//localhost/x") ⟨'F', s!! "ILE", rfl, by decide, by decide⟩ (by decide) (by decide)

/-- A transformation: the source document, another one twice, and a node-set. -/
def exampleCalls : List Call := [⟨some (s!! "http://a/style/x.xsl"), .str (s!! "../doc.xml"), none⟩,
  ⟨some (s!! "http://a/style/x.xsl"), .nodes [(s!! "n.xml", some (s!! "http://a/doc.xml")), (s!! "doc.xml", some (s!! "HTTP://a/")), (s!! "n.xml", some (s!! "http://a/b.xml"))], none⟩,
  ⟨some (s!! "http://a/style/x.xsl"), .str (s!! "n.xml"), some [some (s!! "http://a/doc.xml")]⟩]
example : (transform id (fun _ _ => true) (start (some (s!! "http://a/doc.xml"))) exampleCalls).toOption.map (fun p => (p.2, p.1.parsed))
    = some ([[0], [0, 1], [1]], [(s!! "http://a/doc.xml", 0), (s!! "http://a/n.xml", 1)]) := by decide +kernel
example : Wanted ⟨some (s!! "http://a/style/x.xsl"), .str (s!! "../doc.xml"), none⟩ (s!! "http://a/doc.xml") := .str (by
  show absolute _ _ = _; decide +kernel)

/-! ### Where the code differs -/

/-- Triplets with a lower and an upper case letter are not normalised: equivalent URIs have different keys. -/
theorem C88_refuted_mixed : Equiv (s!! "http://a/%aB") (s!! "http://a/%AB") ∧ key (s!! "http://a/%aB") ≠ key (s!! "http://a/%AB") := by
  refine ⟨Equiv.hex (s!! "http://a/") [] 'a' 'B' 'A' 'B' ?_ (by decide) (by decide) (by decide) (by decide) (by decide) (by decide), fun h => ?_⟩
  · exact ⟨s!! "http", s!! "//a/%aB", rfl, ⟨'h', s!! "ttp", rfl, by decide, by decide⟩,
      wf_append (x := s!! "//a/") (wf_plain (by decide)) (.triplet 'a' 'B' [] (by decide) (by decide) .nil), by decide⟩
  · have h1 : key (s!! "http://a/%aB") = .ok (s!! "http://a/%aB") := by rfl
    have h2 : key (s!! "http://a/%AB") = .ok (s!! "http://a/%AB") := by rfl
    rw [h1, h2] at h
    exact absurd (Except.ok.inj h) (by decide)

/-- A malformed URI whose item cannot be read: normalisation is not idempotent, and `iteritems` raises KeyError. -/
theorem C88_refuted_items : iteritems (run ([] : Dict Nat) [.set (s!! "http://a/%%341") 1]) = [(s!! "http://a/%41", .keyError)] := by decide +kernel

/-- The methods that are not overridden do not normalise: `get`, and the arguments of the constructor or of `update`. -/
theorem C88_refuted_inherited :
    (step (run ([] : Dict Nat) [.set (s!! "HTTP://a/") 1]) (.get (s!! "HTTP://a/"))).2 = .value 1 ∧
    plainGet (run ([] : Dict Nat) [.set (s!! "HTTP://a/") 1]) (s!! "HTTP://a/") = none ∧
    (step (plainUpdate ([] : Dict Nat) [(s!! "HTTP://a/", 1)]) (.get (s!! "HTTP://a/"))).2 = .keyError := by decide +kernel

/-- **C88 (relative URIs).**  A relative URI reference that has no base URI - neither from the second argument nor from the
instruction or the node it comes from - is never loaded: the call raises, whatever else it asks for. -/
theorem C88_relative (hash : List Str → List Str) (w : World) (c : Ctx) (call : Call)
    (h : (∃ u, call.arg = .str u ∧ isAbsolute u = false ∧
            ((call.second = none ∧ (call.inst = none ∨ call.inst = some [])) ∨ ∃ b l, call.second = some (b :: l) ∧ (b = none ∨ b = some []))) ∨
         (∃ l u b, call.arg = .nodes l ∧ (u, b) ∈ l ∧ isAbsolute u = false ∧
            ((call.second = none ∧ (b = none ∨ b = some [])) ∨ ∃ b' l', call.second = some (b' :: l') ∧ (b' = none ∨ b' = some [])))) :
    ∃ e, document hash w c call = .error e := by
  have rel : ∀ u b, isAbsolute u = false → (b = none ∨ b = some []) → absolute u b = .error .noBase := by
    rintro u b hu (rfl | rfl) <;> simp [absolute, hu]
  have nodes : ∀ (base : Option (Option Str)) l u b, (u, b) ∈ l → isAbsolute u = false →
      (base.getD b = none ∨ base.getD b = some []) → ∃ e, nodeUris base l = .error e := by
    intro base l u b hm hu hb
    induction l with
    | nil => cases hm
    | cons x l ih =>
      obtain ⟨v, b'⟩ := x
      rw [nodeUris]
      rcases List.mem_cons.1 hm with hx | hx
      · obtain ⟨rfl, rfl⟩ := Prod.mk.inj hx
        rw [rel u _ hu hb]
        exact ⟨_, rfl⟩
      · obtain ⟨e, he⟩ := ih hx
        cases absolute v (base.getD b') with
        | error e' => exact ⟨_, rfl⟩
        | ok a => rw [he]; exact ⟨_, rfl⟩
  obtain ⟨inst, arg, second⟩ := call
  dsimp only at h
  rcases h with ⟨u, rfl, hu, ⟨rfl, hi⟩ | ⟨b, l, rfl, hb⟩⟩ | ⟨l, u, b, rfl, hm, hu, ⟨rfl, hb⟩ | ⟨b', l', rfl, hb⟩⟩
  · simp only [document, uris, rel u inst hu hi]
    exact ⟨_, rfl⟩
  · simp only [document, uris, rel u b hu hb]
    exact ⟨_, rfl⟩
  · obtain ⟨e, he⟩ := nodes none l u b hm hu hb
    simp only [document, uris, he]
    exact ⟨_, rfl⟩
  · obtain ⟨e, he⟩ := nodes (some b') l u b hm hu hb
    simp only [document, uris, he]
    exact ⟨_, rfl⟩

/-- A node with a relative URI beside one with an absolute URI. -/
example (hash : List Str → List Str) (w : World) (c : Ctx) :
    ∃ e, document hash w c ⟨none, .nodes [(s!! "http://a/", none), (s!! "b.xml", none)], none⟩ = .error e :=
  C88_relative hash w c _ (.inr ⟨_, s!! "b.xml", none, rfl, by simp, by decide +kernel, .inl ⟨rfl, .inl rfl⟩⟩)

/-- Equivalent URIs in one node-set: the document is twice in the result. -/
theorem C88_refuted_twice : (document id (fun _ _ => true) (start none) ⟨none, .nodes [(s!! "http://a/~x", none), (s!! "http://a/%7Ex", none)], none⟩).toOption.map Prod.snd
    = some [1, 1] := by decide +kernel

/-- A fragment identifier gives another document, although XSLT 12.1 treats URIs that differ in it as the same document. -/
theorem C88_refuted_fragment : (transform id (fun _ _ => true) (start none) [⟨none, .str (s!! "http://a/x"), none⟩, ⟨none, .str (s!! "http://a/x#f"), none⟩]).toOption.map Prod.snd
    = some [[1], [2]] := by decide +kernel

/-- An empty second argument is a NameError, not the error of XSLT. -/
theorem C88_refuted_empty (hash : List Str → List Str) (w : World) (c : Ctx) (inst : Option Str) (arg : Arg) :
    document hash w c ⟨inst, arg, some []⟩ = .error .name := rfl

end Verif.Iri.Uridict
