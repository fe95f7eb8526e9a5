import Verif.Xslt.Lre.Lemmas
/-
Namespace aliases: the dictionaries are shared and changed in place, in any order of their items.
-/
namespace Verif.Xslt.Lre
open Verif.Write (UStr)
open Spec
variable {V : Type}

/-- Some item of a list has the alias `(v, q)`. -/
def Target (al : Aliases) (l : List (Pfx × Ns)) (q : Pfx) (v : Ns) : Prop := ∃ p u, (p, u) ∈ l ∧ al u = some (v, q)

theorem keys_fixItem {al : Aliases} {x : Pfx × Ns} {d : Dict} (h : Keys d) : Keys (fixItem al x d) := by
  rw [fixItem]
  cases al x.2 with
  | none => exact h
  | some r => exact keys_set (keys_del h _) _ _

theorem keys_fixItems {al : Aliases} : ∀ (l : List (Pfx × Ns)) {d : Dict}, Keys d → Keys (fixItems al l d)
  | [], _, h => h
  | _ :: l, _, h => keys_fixItems l (keys_fixItem h)

/-- The loop, with the items that are done and those that are left. -/
theorem fixItems_spec {al : Aliases} (hflat : Flat al) {D : Dict} (hD : Keys D) (hc : Clear al (get D)) :
    ∀ (todo done : List (Pfx × Ns)) (d : Dict), Keys d → (todo.map Prod.fst).Nodup →
    (∀ x ∈ done, x ∈ D) → (∀ x ∈ todo, x ∈ D) →
    (∀ q v, get d q = some v ↔ Target al done q v ∨ ((¬ ∃ w, Target al done q w) ∧ get D q = some v ∧ (al v = none ∨ (q, v) ∈ todo))) →
    ∀ q v, get (fixItems al todo d) q = some v ↔ Target al (done ++ todo) q v ∨
      ((¬ ∃ w, Target al (done ++ todo) q w) ∧ get D q = some v ∧ al v = none)
  | [], done, d, _, _, _, _, hi, q, v => by
    rw [fixItems, hi, List.append_nil]
    simp
  | (p, u) :: todo, done, d, hk, hn, hd, ht, hi, q, v => by
    rw [fixItems]
    simp only [List.map_cons, List.nodup_cons] at hn
    have hmem : ∀ x ∈ done ++ [(p, u)], x ∈ D := by
      intro x hx
      rcases List.mem_append.1 hx with h | h
      · exact hd x h
      · rw [List.mem_singleton.1 h]; exact ht _ (.head _)
    have hpu : get D p = some u := get_of_mem hD (ht _ (.head _))
    have hpt : ∀ w, (p, w) ∉ todo := fun w h => hn.1 (List.mem_map.2 ⟨_, h, rfl⟩)
    have := fixItems_spec hflat hD hc todo (done ++ [(p, u)]) (fixItem al (p, u) d) (keys_fixItem hk) hn.2 hmem
      (fun x hx => ht x (.tail _ hx)) ?_ q v
    · rw [this, List.append_assoc]; rfl
    intro q v
    have htar : ∀ q v, Target al (done ++ [(p, u)]) q v ↔ Target al done q v ∨ al u = some (v, q) := by
      intro q v
      constructor
      · rintro ⟨p', u', hm, ha⟩
        rcases List.mem_append.1 hm with h | h
        · exact .inl ⟨p', u', h, ha⟩
        · cases List.mem_singleton.1 h; exact .inr ha
      · rintro (⟨p', u', hm, ha⟩ | ha)
        · exact ⟨p', u', List.mem_append_left _ hm, ha⟩
        · exact ⟨p, u, List.mem_append_right _ (.head _), ha⟩
    rw [fixItem]
    cases hau : al u with
    | none =>
      dsimp only
      have htar' : ∀ q v, Target al (done ++ [(p, u)]) q v ↔ Target al done q v := by
        intro q v; rw [htar, hau]; simp
      rw [hi]
      simp only [htar']
      constructor
      · rintro (h | ⟨h1, h2, h3⟩)
        · exact .inl h
        · refine .inr ⟨h1, h2, ?_⟩
          rcases h3 with h3 | h3
          · exact .inl h3
          · rcases List.mem_cons.1 h3 with h | h
            · cases h; exact .inl hau
            · exact .inr h
      · rintro (h | ⟨h1, h2, h3⟩)
        · exact .inl h
        · exact .inr ⟨h1, h2, h3.imp id (.tail _)⟩
    | some r =>
      obtain ⟨r, rp⟩ := r
      dsimp only
      rw [get_set (keys_del hk _), get_del hk]
      obtain ⟨c2, c3⟩ := hc p u r rp hpu hau
      by_cases hq : q = rp
      · subst hq
        rw [if_pos rfl]
        have hT : Target al (done ++ [(p, u)]) q r := (htar _ _).2 (.inr hau)
        constructor
        · intro h; cases h; exact .inl hT
        · rintro (h | ⟨h, _⟩)
          · rcases (htar _ _).1 h with ⟨p', u', hm, ha⟩ | h
            · rw [c3 p' u' v (get_of_mem hD (hd _ hm)) ha]
            · rw [hau] at h; cases h; rfl
          · exact absurd ⟨_, hT⟩ h
      · rw [if_neg hq]
        have htar' : ∀ v, Target al (done ++ [(p, u)]) q v ↔ Target al done q v := by
          intro v; rw [htar, hau]
          constructor
          · rintro (h | h)
            · exact h
            · cases h; exact absurd rfl hq
          · exact .inl
        simp only [htar']
        by_cases hqp : q = p
        · subst hqp
          rw [if_pos rfl]
          constructor
          · intro h; cases h
          · rintro (⟨p', u', hm, ha⟩ | ⟨_, h2, h3⟩)
            · obtain ⟨d2, _⟩ := hc p' u' v q (get_of_mem hD (hd _ hm)) ha
              rcases d2 u hpu with h | h
              · subst h
                rw [hflat u' u q ha] at hau; cases hau
              · rw [h] at hau; cases hau; exact absurd rfl hq
            · rw [hpu] at h2; cases h2
              rcases h3 with h3 | h3
              · rw [h3] at hau; cases hau
              · exact absurd h3 (hpt _)
        · rw [if_neg hqp, hi]
          have : ∀ v, (q, v) ∈ (p, u) :: todo ↔ (q, v) ∈ todo := by
            intro v
            constructor
            · intro h
              rcases List.mem_cons.1 h with h | h
              · cases h; exact absurd rfl hqp
              · exact h
            · exact .tail _
          simp only [this]

/-- No namespace of the dictionary has an alias. -/
def Done (al : Aliases) (d : Dict) : Prop := ∀ x ∈ d, al x.2 = none

/-- `d` has been changed to `d'`. -/
structure Fixed (al : Aliases) (d d' : Dict) : Prop where
  keys : Keys d'
  done : Done al d'
  aliased : Aliased al (get d) (get d')

/-- An order of the items of a dictionary. -/
def Order (items : Dict → List (Pfx × Ns)) : Prop := ∀ d, (items d).Perm d

theorem fixDict_spec {items : Dict → List (Pfx × Ns)} (ho : Order items) {al : Aliases} (hflat : Flat al) {d : Dict} (hk : Keys d)
    (hc : Clear al (get d)) : Fixed al d (fixDict items al d) := by
  have hm : ∀ x, x ∈ items d ↔ x ∈ d := fun x => (ho d).mem_iff
  have hk' : ((items d).map Prod.fst).Nodup := ((ho d).map _).nodup_iff.2 hk
  have h := fixItems_spec hflat hk hc (items d) [] d hk hk' nofun (fun x hx => (hm x).1 hx) (fun q v => by
    constructor
    · intro h
      exact .inr ⟨fun ⟨w, p, u, hx, _⟩ => (nomatch hx), h, .inr ((hm _).2 (get_mem h))⟩
    · rintro (⟨p, u, hx, _⟩ | ⟨_, h, _⟩)
      · cases hx
      · exact h)
  have hal : Aliased al (get d) (get (fixDict items al d)) := by
    intro q v
    rw [fixDict, h, List.nil_append]
    have ht : ∀ v, Target al (items d) q v ↔ ∃ p u, get d p = some u ∧ al u = some (v, q) := fun v =>
      ⟨fun ⟨p, u, hx, ha⟩ => ⟨p, u, get_of_mem hk ((hm _).1 hx), ha⟩, fun ⟨p, u, hx, ha⟩ => ⟨p, u, (hm _).2 (get_mem hx), ha⟩⟩
    rw [ht]
    constructor
    · rintro (h | ⟨_, h2, h3⟩)
      · exact .inl h
      · exact .inr ⟨h2, h3⟩
    · rintro (h | ⟨h2, h3⟩)
      · exact .inl h
      · by_cases hw : ∃ w, Target al (items d) q w
        · obtain ⟨w, hw⟩ := hw
          obtain ⟨p, u, hp, ha⟩ := (ht w).1 hw
          rcases (hc p u w q hp ha).1 v h2 with rfl | h
          · exact .inl ⟨p, u, hp, ha⟩
          · rw [h] at h3; cases h3
        · exact .inr ⟨hw, h2, h3⟩
  refine ⟨keys_fixItems _ hk, ?_, hal⟩
  rintro ⟨q, v⟩ hx
  rcases (hal q v).1 (get_of_mem (keys_fixItems _ hk) hx) with ⟨p, u, _, ha⟩ | ⟨_, h⟩
  · exact hflat _ _ _ ha
  · exact h

theorem fixItems_done {al : Aliases} : ∀ (l : List (Pfx × Ns)) (d : Dict), (∀ x ∈ l, al x.2 = none) → fixItems al l d = d
  | [], _, _ => rfl
  | x :: l, d, h => by
    rw [fixItems, fixItem, h x (.head _)]
    exact fixItems_done l d (fun y hy => h y (.tail _ hy))

theorem fixDict_done {items : Dict → List (Pfx × Ns)} (ho : Order items) {al : Aliases} {d : Dict} (h : Done al d) :
    fixDict items al d = d :=
  fixItems_done _ _ (fun x hx => h x ((ho d).mem_iff.1 hx))

/-! ### The tree -/

/-- The dictionaries: some have been changed, those of `S` surely; they need be right only for the indices of `U`. -/
structure Between (al : Aliases) (U : Nat → Prop) (S : Nat → Prop) (h0 h : Heap) : Prop where
  length : h.length = h0.length
  either : ∀ i, i < h0.length → U i → h.at i = h0.at i ∨ Fixed al (h0.at i) (h.at i)
  fixed : ∀ i, i < h0.length → U i → S i → Fixed al (h0.at i) (h.at i)

/-- The element after the aliases: once or more often. -/
def FixedOut (al : Aliases) (o o' : Out V) : Prop :=
  o'.name = Spec.aliased al o.name ∧ o'.attrs = o.attrs.map (fun a => (Spec.aliasedAttr al a.1, a.2)) ∧ o'.uses = o.uses ∧ o'.out = o.out

theorem fixAttrs_spec {al : Aliases} : ∀ (as : List (Name × V)), (∀ a ∈ as, a.1.ns ≠ none → a.1.pfx ≠ none ∨ al a.1.ns = none) →
    fixAttrs al as = some (as.map (fun a => (Spec.aliasedAttr al a.1, a.2)))
  | [], _ => rfl
  | (n, v) :: as, h => by
    have ih := fixAttrs_spec as (fun a ha => h a (.tail _ ha))
    have h1 := h _ (.head _)
    rw [fixAttrs, ih]
    obtain ⟨pfx, loc, ns⟩ := n
    cases ns with
    | none => rfl
    | some u =>
      dsimp only at h1 ⊢
      cases ha : al (some u) with
      | none => simp [Spec.aliasedAttr, Spec.aliased, ha]
      | some r =>
        obtain ⟨r, q⟩ := r
        have : pfx.isNone = false := by
          rcases h1 nofun with h | h
          · cases pfx with
            | none => exact absurd rfl h
            | some _ => rfl
          · rw [h] at ha; cases ha
        simp [Spec.aliasedAttr, Spec.aliased, ha, this]

theorem set_at (h : Heap) (i j : Nat) (d : Dict) (hj : j < h.length) : Heap.at (List.set h i d) j = if i = j then d else h.at j := by
  simp only [Heap.at, List.getElem?_set]
  split
  · rename_i e; subst e; simp [hj]
  · rfl

theorem change {items : Dict → List (Pfx × Ns)} (ho : Order items) {al : Aliases} (hflat : Flat al) {U S : Nat → Prop} {h0 h : Heap}
    (hU : ∀ i, i < h0.length → U i → Keys (h0.at i) ∧ Clear al (get (h0.at i))) (hb : Between al U S h0 h) (i : Nat) (hi : i < h0.length) :
    Between al U (fun j => S j ∨ j = i) h0 (List.set h i (fixDict items al (h.at i))) := by
  have hf : U i → Fixed al (h0.at i) (fixDict items al (h.at i)) := by
    intro hu
    rcases hb.either i hi hu with e | e
    · rw [e]; exact fixDict_spec ho hflat (hU i hi hu).1 (hU i hi hu).2
    · rw [fixDict_done ho e.done]; exact e
  refine ⟨by rw [List.length_set]; exact hb.length, fun j hj hu => ?_, fun j hj hu hs => ?_⟩
  · rw [set_at _ _ _ _ (by rw [hb.length]; exact hj)]
    split
    · rename_i e; subst e; exact .inr (hf hu)
    · exact hb.either j hj hu
  · rw [set_at _ _ _ _ (by rw [hb.length]; exact hj)]
    split
    · rename_i e; subst e; exact hf hu
    · rename_i e
      rcases hs with hs | hs
      · exact hb.fixed j hj hu hs
      · exact absurd hs.symm e

/-- What a pass over the tree needs. -/
def Ready (al : Aliases) (h0 : Heap) (o : Out V) : Prop :=
  o.out < h0.length ∧ ∀ a ∈ o.attrs, a.1.ns ≠ none → a.1.pfx ≠ none ∨ al a.1.ns = none

mutual
theorem fixTree_spec {items : Dict → List (Pfx × Ns)} (ho : Order items) {al : Aliases} (hflat : Flat al) {U : Nat → Prop} {h0 : Heap}
    (hU : ∀ i, i < h0.length → U i → Keys (h0.at i) ∧ Clear al (get (h0.at i))) :
    ∀ (t : Tree V) (S : Nat → Prop) (h : Heap), Between al U S h0 h → (∀ o ∈ outs t, Ready al h0 o) →
    ∃ h' t', fixTree items al t h = some (h', t') ∧ All₂ (FixedOut al) (outs t) (outs t') ∧
      Between al U (fun j => S j ∨ ∃ o ∈ outs t, j = o.out) h0 h'
  | .node none kids, S, h, hb, hr => by
    rw [outs] at hr
    obtain ⟨h', ts, e1, e2, e3⟩ := fixTrees_spec ho hflat hU kids S h hb hr
    exact ⟨h', .node none ts, by rw [fixTree, e1], e2, e3⟩
  | .node (some o) kids, S, h, hb, hr => by
    rw [outs] at hr
    have h1 := hr o (.head _)
    obtain ⟨h', ts, e1, e2, e3⟩ := fixTrees_spec ho hflat hU kids _ _ (change ho hflat hU hb o.out h1.1) (fun x hx => hr x (.tail _ hx))
    refine ⟨h', .node (some { o with name := fixName al o.name, attrs := _ }) ts, by rw [fixTree, fixAttrs_spec _ h1.2]; dsimp only; rw [e1],
      .cons ⟨?_, rfl, rfl, rfl⟩ e2, ⟨e3.length, e3.either, fun j hj hu hs => e3.fixed j hj hu ?_⟩⟩
    · dsimp only
      rw [fixName, Spec.aliased]
      cases al o.name.ns <;> rfl
    · rcases hs with hs | ⟨x, hx, e⟩
      · exact .inl (.inl hs)
      · rw [outs] at hx
        rcases List.mem_cons.1 hx with h | h
        · subst h; exact .inl (.inr e)
        · exact .inr ⟨x, h, e⟩
theorem fixTrees_spec {items : Dict → List (Pfx × Ns)} (ho : Order items) {al : Aliases} (hflat : Flat al) {U : Nat → Prop} {h0 : Heap}
    (hU : ∀ i, i < h0.length → U i → Keys (h0.at i) ∧ Clear al (get (h0.at i))) :
    ∀ (ts : List (Tree V)) (S : Nat → Prop) (h : Heap), Between al U S h0 h → (∀ o ∈ outss ts, Ready al h0 o) →
    ∃ h' ts', fixTrees items al ts h = some (h', ts') ∧ All₂ (FixedOut al) (outss ts) (outss ts') ∧
      Between al U (fun j => S j ∨ ∃ o ∈ outss ts, j = o.out) h0 h'
  | [], S, h, hb, _ => ⟨h, [], rfl, .nil, hb.length, hb.either, fun j hj hu hs => hb.fixed j hj hu (by
      rcases hs with hs | ⟨x, hx, _⟩
      · exact hs
      · cases hx)⟩
  | t :: ts, S, h, hb, hr => by
    rw [outss] at hr
    obtain ⟨h1, t', a1, a2, a3⟩ := fixTree_spec ho hflat hU t S h hb (fun x hx => hr x (List.mem_append_left _ hx))
    obtain ⟨h2, ts', b1, b2, b3⟩ := fixTrees_spec ho hflat hU ts _ h1 a3 (fun x hx => hr x (List.mem_append_right _ hx))
    refine ⟨h2, t' :: ts', by rw [fixTrees, a1]; dsimp only; rw [b1], all₂_append a2 b2, b3.length, b3.either, fun j hj hu hs => b3.fixed j hj hu ?_⟩
    rcases hs with hs | ⟨x, hx, e⟩
    · exact .inl (.inl hs)
    · rw [outss] at hx
      rcases List.mem_append.1 hx with h | h
      · exact .inl (.inr ⟨x, h, e⟩)
      · exact .inr ⟨x, h, e⟩
end

theorem aliased_flat {al : Aliases} (hflat : Flat al) (n : Name) : al (Spec.aliased al n).ns = none := by
  unfold Spec.aliased
  cases h : al n.ns with
  | none => exact h
  | some r => obtain ⟨r, q⟩ := r; exact hflat _ _ _ h

theorem aliased_twice {al : Aliases} (hflat : Flat al) (n : Name) : Spec.aliased al (Spec.aliased al n) = Spec.aliased al n := by
  have := aliased_flat hflat n
  rw [Spec.aliased, this]

theorem aliasedAttr_ns {al : Aliases} (hflat : Flat al) (n : Name) : (Spec.aliasedAttr al n).ns ≠ none → al (Spec.aliasedAttr al n).ns = none := by
  unfold Spec.aliasedAttr
  split
  · rename_i h; intro h'; exact absurd h h'
  · intro _; exact aliased_flat hflat n

theorem aliasedAttr_twice {al : Aliases} (hflat : Flat al) (n : Name) : Spec.aliasedAttr al (Spec.aliasedAttr al n) = Spec.aliasedAttr al n := by
  by_cases h : (Spec.aliasedAttr al n).ns = none
  · rw [Spec.aliasedAttr, if_pos h]
  · rw [Spec.aliasedAttr, if_neg h, Spec.aliased, aliasedAttr_ns hflat n h]

theorem fixedOut_trans {al : Aliases} (hflat : Flat al) {o o' o'' : Out V} (h1 : FixedOut al o o') (h2 : FixedOut al o' o'') : FixedOut al o o'' := by
  obtain ⟨a1, a2, a3, a4⟩ := h1
  obtain ⟨b1, b2, b3, b4⟩ := h2
  refine ⟨by rw [b1, a1, aliased_twice hflat], ?_, b3.trans a3, b4.trans a4⟩
  rw [b2, a2, List.map_map]
  congr 1
  funext x
  simp [aliasedAttr_twice hflat]

theorem all₂_trans {α : Type} {R S T : α → α → Prop} (f : ∀ a b c, R a b → S b c → T a c) {a b c : List α} (h1 : All₂ R a b) (h2 : All₂ S b c) :
    All₂ T a c := by
  induction h1 generalizing c with
  | nil => cases h2; exact .nil
  | cons h _ ih => cases h2 with | cons h' t => exact .cons (f _ _ _ h h') (ih t)

theorem all₂_mem {α β : Type} {R : α → β → Prop} {a : List α} {b : List β} (h : All₂ R a b) {y : β} (hy : y ∈ b) : ∃ x ∈ a, R x y := by
  induction h with
  | nil => cases hy
  | cons h _ ih =>
    rcases List.mem_cons.1 hy with e | hy
    · subst e; exact ⟨_, .head _, h⟩
    · obtain ⟨x, hx, hr⟩ := ih hy; exact ⟨x, .tail _ hx, hr⟩

theorem all₂_refl {α : Type} {R : α → α → Prop} : ∀ (l : List α), (∀ x ∈ l, R x x) → All₂ R l l
  | [], _ => .nil
  | _ :: l, h => .cons (h _ (.head _)) (all₂_refl l (fun x hx => h x (.tail _ hx)))

/-- One pass or more. -/
theorem setups_spec {items : Dict → List (Pfx × Ns)} (ho : Order items) {al : Aliases} (hflat : Flat al) {U : Nat → Prop} {h0 : Heap}
    (hU : ∀ i, i < h0.length → U i → Keys (h0.at i) ∧ Clear al (get (h0.at i))) :
    ∀ (n : Nat) (t : Tree V) (S : Nat → Prop) (h : Heap), Between al U S h0 h → (∀ o ∈ outs t, Ready al h0 o) →
    ∃ h' t', setups items al (n + 1) h t = some (h', t') ∧ All₂ (FixedOut al) (outs t) (outs t') ∧
      Between al U (fun j => S j ∨ ∃ o ∈ outs t, j = o.out) h0 h'
  | 0, t, S, h, hb, hr => by
    obtain ⟨h', t', e1, e2, e3⟩ := fixTree_spec ho hflat hU t S h hb hr
    exact ⟨h', t', by rw [setups, e1]; rfl, e2, e3⟩
  | n + 1, t, S, h, hb, hr => by
    obtain ⟨h1, t1, e1, e2, e3⟩ := fixTree_spec ho hflat hU t S h hb hr
    obtain ⟨h', t', b1, b2, b3⟩ := setups_spec ho hflat hU n t1 _ h1 e3 (fun o ho' => by
      obtain ⟨x, hx, f1, f2, f3, f4⟩ := all₂_mem e2 ho'
      refine ⟨by rw [f4]; exact (hr x hx).1, fun a ha hn => .inr ?_⟩
      rw [f2] at ha
      obtain ⟨y, _, rfl⟩ := List.mem_map.1 ha
      exact aliasedAttr_ns hflat _ hn)
    exact ⟨h', t', by rw [setups, e1]; exact b1, all₂_trans (R := FixedOut al) (S := FixedOut al) (T := FixedOut al) (fun _ _ _ x y => fixedOut_trans hflat x y) e2 b2, b3.length, b3.either,
      fun j hj hu hs => b3.fixed j hj hu (.inl hs)⟩

mutual
theorem starts_eq (h : Heap) : ∀ t : Tree V, starts h t = (outs t).map (fun o => { name := o.name, attrs := o.attrs, uses := o.uses, nss := h.at o.out })
  | .node none kids => by rw [starts, outs]; exact startss_eq h kids
  | .node (some o) kids => by rw [starts, outs, List.map_cons, startss_eq h kids]
theorem startss_eq (h : Heap) : ∀ ts : List (Tree V), startss h ts = (outss ts).map (fun o => { name := o.name, attrs := o.attrs, uses := o.uses, nss := h.at o.out })
  | [] => rfl
  | t :: ts => by rw [startss, outss, List.map_append, starts_eq h t, startss_eq h ts]
end

end Verif.Xslt.Lre
