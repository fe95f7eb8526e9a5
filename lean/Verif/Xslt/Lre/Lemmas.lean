import Verif.Xslt.Lre.Spec
/-
Dictionaries, the namespaces that the reader keeps, and aliases.
-/
namespace Verif.Xslt.Lre
open Verif.Write (UStr)
open Spec
variable {V : Type}

/-! ### Dictionaries -/

abbrev Keys (d : Dict) : Prop := (d.map Prod.fst).Nodup

theorem get_mem {d : Dict} {p : Pfx} {u : Ns} (h : get d p = some u) : (p, u) ∈ d := by
  induction d with
  | nil => cases h
  | cons x d ih =>
    obtain ⟨q, w⟩ := x
    rw [get] at h
    split at h
    · rename_i e; cases h; subst e; exact .head _
    · exact .tail _ (ih h)

theorem get_of_mem {d : Dict} (hk : Keys d) {p : Pfx} {u : Ns} (h : (p, u) ∈ d) : get d p = some u := by
  induction d with
  | nil => cases h
  | cons x d ih =>
    obtain ⟨q, w⟩ := x
    simp only [Keys, List.map_cons, List.nodup_cons] at hk
    rw [get]
    rcases List.mem_cons.1 h with e | h'
    · cases e; rw [if_pos rfl]
    · rw [if_neg, ih hk.2 h']
      rintro rfl
      exact hk.1 (List.mem_map.2 ⟨_, h', rfl⟩)

theorem get_iff {d : Dict} (hk : Keys d) {p : Pfx} {u : Ns} : get d p = some u ↔ (p, u) ∈ d := ⟨get_mem, get_of_mem hk⟩

theorem get_append {d e : Dict} {p : Pfx} : get (d ++ e) p = match get d p with | some u => some u | none => get e p := by
  induction d with
  | nil => rfl
  | cons x d ih =>
    obtain ⟨q, w⟩ := x
    rw [List.cons_append, get, get]
    split
    · rfl
    · exact ih

theorem keys_filter {d : Dict} (hk : Keys d) (f : Pfx × Ns → Bool) : Keys (d.filter f) :=
  hk.sublist (List.filter_sublist.map _)

theorem get_filter {d : Dict} (hk : Keys d) (f : Pfx × Ns → Bool) (p : Pfx) :
    get (d.filter f) p = match get d p with | some u => if f (p, u) then some u else none | none => none := by
  cases h : get d p with
  | some u =>
    dsimp only
    split
    · exact get_of_mem (keys_filter hk f) (List.mem_filter.2 ⟨get_mem h, by assumption⟩)
    · rename_i hf
      cases h' : get (d.filter f) p with
      | none => rfl
      | some v =>
        have := List.mem_filter.1 (get_mem h')
        rw [get_of_mem hk this.1] at h
        cases h
        exact absurd this.2 hf
  | none =>
    cases h' : get (d.filter f) p with
    | none => rfl
    | some v =>
      have := List.mem_filter.1 (get_mem h')
      rw [get_of_mem hk this.1] at h; cases h

theorem get_del {d : Dict} (hk : Keys d) (p q : Pfx) : get (del d p) q = if q = p then none else get d q := by
  rw [del, get_filter hk]
  cases get d q <;> simp

theorem get_set {d : Dict} (hk : Keys d) (p : Pfx) (u : Ns) (q : Pfx) :
    get (set d p u) q = if q = p then some u else get d q := by
  rw [set, get_append, get_del hk, get]
  split
  · rename_i e
    by_cases hq : q = p <;> simp_all [get]
  · rename_i e
    by_cases hq : q = p
    · simp_all
    · simp only [hq, if_false, get] at e ⊢
      exact e.symm

theorem keys_del {d : Dict} (hk : Keys d) (p : Pfx) : Keys (del d p) := keys_filter hk _

theorem keys_set {d : Dict} (hk : Keys d) (p : Pfx) (u : Ns) : Keys (set d p u) := by
  rw [Keys, set, List.map_append, List.nodup_append]
  refine ⟨keys_del hk p, by simp, ?_⟩
  intro a ha b hb
  simp only [List.map_cons, List.map_nil, List.mem_singleton] at hb
  subst hb
  obtain ⟨x, hx, rfl⟩ := List.mem_map.1 ha
  simpa using (List.mem_filter.1 hx).2

theorem get_removeUri {d : Dict} (hk : Keys d) (u : Ns) (p : Pfx) :
    get (removeUri d u) p = match get d p with | some v => if v = u then none else some v | none => none := by
  rw [removeUri, get_filter hk]
  cases get d p <;> simp

/-! ### The reader -/

theorem outputDecls_get : ∀ (ds d : Dict), Keys ds → Keys d → Keys (outputDecls ds d) ∧ ∀ p,
    get (outputDecls ds d) p = match get ds p with
      | some u => if u = some xmlNs ∨ u = some xslNs then get d p else some u
      | none => get d p
  | [], d, _, hd => ⟨hd, fun _ => rfl⟩
  | (q, w) :: ds, d, hs, hd => by
    simp only [Keys, List.map_cons, List.nodup_cons] at hs
    have hd' : Keys (if w = some xmlNs ∨ w = some xslNs then d else set d q w) := by
      split
      · exact hd
      · exact keys_set hd _ _
    obtain ⟨h1, h2⟩ := outputDecls_get ds _ hs.2 hd'
    refine ⟨h1, fun p => ?_⟩
    rw [outputDecls, h2, get]
    by_cases hp : p = q
    · subst hp
      have : get ds p = none := by
        cases h : get ds p with
        | none => rfl
        | some v => exact absurd (List.mem_map.2 ⟨_, get_mem h, rfl⟩) hs.1
      rw [this, if_pos rfl]
      dsimp only
      split
      · rfl
      · rw [get_set hd, if_pos rfl]
    · rw [if_neg hp]
      have : get (if w = some xmlNs ∨ w = some xslNs then d else set d q w) p = get d p := by
        split
        · rfl
        · rw [get_set hd, if_neg hp]
      rw [this]

theorem update_get : ∀ (ds d : Dict), Keys ds → Keys d → Keys (update ds d) ∧ ∀ p,
    get (update ds d) p = match get ds p with
      | some u => some u
      | none => get d p
  | [], d, _, hd => ⟨hd, fun _ => rfl⟩
  | (q, w) :: ds, d, hs, hd => by
    simp only [Keys, List.map_cons, List.nodup_cons] at hs
    obtain ⟨h1, h2⟩ := update_get ds _ hs.2 (keys_set hd q w)
    refine ⟨h1, fun p => ?_⟩
    rw [update, h2, get]
    by_cases hp : p = q
    · subst hp
      have : get ds p = none := by
        cases h : get ds p with
        | none => rfl
        | some v => exact absurd (List.mem_map.2 ⟨_, get_mem h, rfl⟩) hs.1
      rw [this, if_pos rfl]
      dsimp only
      rw [get_set hd, if_pos rfl]
    · rw [if_neg hp, get_set hd, if_neg hp]

/-- What the loop over prefixes leaves. -/
theorem removePrefixes_get (cur : Dict) : ∀ (ps : List Pfx) (d : Dict), Keys d →
    match removePrefixes cur ps d with
    | some d' => (ps.all (fun p => (get cur p).isSome) = true) ∧ Keys d' ∧ ∀ p,
        get d' p = match get d p with | some v => if ps.any (fun q => get cur q = some v) then none else some v | none => none
    | none => ps.all (fun p => (get cur p).isSome) = false
  | [], d, hd => ⟨rfl, hd, fun p => by cases get d p <;> rfl⟩
  | q :: ps, d, hd => by
    rw [removePrefixes]
    cases hq : get cur q with
    | none => simp [hq]
    | some u =>
      dsimp only
      have ih := removePrefixes_get cur ps (removeUri d u) (keys_filter hd _)
      cases h : removePrefixes cur ps (removeUri d u) with
      | none => rw [h] at ih; simp [ih]
      | some d' =>
        rw [h] at ih
        dsimp only at ih ⊢
        refine ⟨by simp [hq, ih.1], ih.2.1, fun p => ?_⟩
        rw [ih.2.2 p, get_removeUri hd]
        cases hp : get d p with
        | none => rfl
        | some v =>
          dsimp only
          rw [List.any_cons, hq]
          by_cases e : v = u
          · subst e; simp
          · have : ¬ some u = some v := fun h => e (by cases h; rfl)
            simp [e, this]

/-- A state of the reader at an element. -/
structure At (ls : List Level) (cur : Dict) (h : Heap) (out : Nat) : Prop where
  keys : Keys cur
  scope : ∀ p, get cur p = Spec.scope ls p
  room : out < h.length
  okeys : Keys (h.at out)
  nodes : ∀ p, get (h.at out) p = Spec.node ls p

theorem new_at (h : Heap) (d : Dict) : Heap.at (h ++ [d]) h.length = d := by simp [Heap.at]

theorem old_at {h : Heap} {i : Nat} (hi : i < h.length) (e : Heap) : Heap.at (h ++ e) i = h.at i := by
  simp [Heap.at, List.getElem?_append_left hi]

/-- One exclusion: what remains, in a dictionary that may be new. -/
theorem exclude_get (cur : Dict) (a : Option (List Pfx)) (h : Heap) (out : Nat) (hr : out < h.length) (hk : Keys (h.at out)) :
    match exclude cur a h out with
    | some (h', out') => (a.getD []).all (fun p => (get cur p).isSome) = true ∧ out' < h'.length ∧ Keys (h'.at out') ∧ (∃ e, h' = h ++ e) ∧
        ∀ p, get (h'.at out') p = match get (h.at out) p with
          | some v => if (a.getD []).any (fun q => get cur q = some v) then none else some v
          | none => none
    | none => (a.getD []).all (fun p => (get cur p).isSome) = false := by
  cases a with
  | none =>
    refine ⟨rfl, hr, hk, ⟨[], (List.append_nil _).symm⟩, fun p => ?_⟩
    cases get (h.at out) p <;> rfl
  | some ps =>
    have := removePrefixes_get cur ps (h.at out) hk
    rw [exclude]
    cases hd : removePrefixes cur ps (h.at out) with
    | none => rw [hd] at this; exact this
    | some d =>
      rw [hd] at this
      dsimp only [Heap.new] at this ⊢
      refine ⟨this.1, by simp, by rw [new_at]; exact this.2.1, ⟨[d], rfl⟩, fun p => ?_⟩
      rw [new_at]
      exact this.2.2 p

theorem excludes_get (cur : Dict) (l : Level) (h : Heap) (out : Nat) (hr : out < h.length) (hk : Keys (h.at out)) :
    match excludes cur l h out with
    | some (h', out') => (prefixes l).all (fun p => (get cur p).isSome) = true ∧ out' < h'.length ∧ Keys (h'.at out') ∧ (∃ e, h' = h ++ e) ∧
        ∀ p, get (h'.at out') p = match get (h.at out) p with
          | some v => if (prefixes l).any (fun q => get cur q = some v) then none else some v
          | none => none
    | none => (prefixes l).all (fun p => (get cur p).isSome) = false := by
  have h1 := exclude_get cur (if l.extFirst then l.ext else l.excl) h out hr hk
  rw [excludes]
  cases he : exclude cur (if l.extFirst then l.ext else l.excl) h out with
  | none =>
    rw [he] at h1
    dsimp only at h1 ⊢
    cases hf : l.extFirst <;> simp only [hf, if_true, Bool.false_eq_true, if_false] at h1 <;>
      simp only [prefixes, List.all_append, h1, Bool.false_and, Bool.and_false]
  | some r =>
    obtain ⟨h', out'⟩ := r
    rw [he] at h1
    dsimp only at h1 ⊢
    obtain ⟨a1, a2, a3, ⟨e1, a4⟩, a5⟩ := h1
    have h2 := exclude_get cur (if l.extFirst then l.excl else l.ext) h' out' a2 a3
    cases he2 : exclude cur (if l.extFirst then l.excl else l.ext) h' out' with
    | none =>
      rw [he2] at h2
      dsimp only at h2 ⊢
      cases hf : l.extFirst <;> simp only [hf, if_true, Bool.false_eq_true, if_false] at h2 <;>
      simp only [prefixes, List.all_append, h2, Bool.false_and, Bool.and_false]
    | some r2 =>
      obtain ⟨h'', out''⟩ := r2
      rw [he2] at h2
      dsimp only at h2 ⊢
      obtain ⟨b1, b2, b3, ⟨e2, b4⟩, b5⟩ := h2
      refine ⟨?_, b2, b3, ⟨e1 ++ e2, by rw [b4, a4, List.append_assoc]⟩, fun p => ?_⟩
      · cases hf : l.extFirst <;> simp only [hf, if_true, Bool.false_eq_true, if_false] at a1 b1 <;>
          simp only [prefixes, List.all_append, a1, b1, Bool.and_self]
      · rw [b5, a5]
        cases get (h.at out) p with
        | none => rfl
        | some v =>
          dsimp only
          simp only [prefixes, List.any_append]
          cases hf : l.extFirst <;>
            cases hx : (l.ext.getD []).any (fun q => decide (get cur q = some v)) <;>
            cases hy : (l.excl.getD []).any (fun q => decide (get cur q = some v)) <;> simp [hx, hy]

/-- The reader enters an element. -/
theorem enter_spec (l : Level) (ls : List Level) (cur : Dict) (h : Heap) (out : Nat) (hw : WfLevel l) (ht : Tidy (l :: ls))
    (ha : At ls cur h out) :
    match enter l cur h out with
    | some (cur', h', out') => Spec.bound (l :: ls) = true ∧ At (l :: ls) cur' h' out' ∧ ∃ e, h' = h ++ e
    | none => Spec.bound (l :: ls) = false := by
  have hcur : Keys (if l.decls.isEmpty then cur else update l.decls cur) ∧
      ∀ p, get (if l.decls.isEmpty then cur else update l.decls cur) p = Spec.scope (l :: ls) p := by
    have hs : ∀ p, Spec.scope (l :: ls) p = match get l.decls p with | some u => some u | none => Spec.scope ls p := by
      intro p
      rw [Spec.scope, declared, declares]
      cases get l.decls p <;> rfl
    cases hd : l.decls with
    | nil => exact ⟨ha.keys, fun p => by rw [hs, hd]; exact ha.scope p⟩
    | cons x xs =>
      have hu := update_get l.decls cur hw ha.keys
      rw [hd] at hu
      refine ⟨hu.1, fun p => ?_⟩
      rw [hs, hd]
      simp only [List.isEmpty_cons, Bool.false_eq_true, if_false]
      rw [hu.2, ha.scope]
  have hout : ∃ h' out', (if l.decls.isEmpty then (h, out) else h.new (outputDecls l.decls (h.at out))) = (h', out') ∧
      out' < h'.length ∧ Keys (h'.at out') ∧ (∃ e, h' = h ++ e) ∧ ∀ p, get (h'.at out') p =
        match declares l p with
        | some u => if u = some xmlNs ∨ u = some xslNs then Spec.node ls p else some u
        | none => Spec.node ls p := by
    cases hd : l.decls with
    | nil => exact ⟨h, out, rfl, ha.room, ha.okeys, ⟨[], (List.append_nil _).symm⟩, fun p => by rw [declares, hd]; exact ha.nodes p⟩
    | cons x xs =>
      have hu := outputDecls_get l.decls (h.at out) hw ha.okeys
      rw [hd] at hu
      refine ⟨_, _, rfl, by simp, by rw [new_at]; exact hu.1, ⟨_, rfl⟩, fun p => ?_⟩
      rw [new_at, hu.2, declares, hd, ha.nodes]
  obtain ⟨h', out', e1, e2, e3, ⟨e, e4⟩, e5⟩ := hout
  rw [enter]
  dsimp only
  rw [e1]
  dsimp only
  have hx := excludes_get (if l.decls.isEmpty then cur else update l.decls cur) l h' out' e2 e3
  have hb : Spec.bound (l :: ls) = (prefixes l).all (fun p => (get (if l.decls.isEmpty then cur else update l.decls cur) p).isSome) := by
    rw [Spec.bound]
    congr 1
    funext p
    rw [hcur.2]
  cases hex : excludes (if l.decls.isEmpty then cur else update l.decls cur) l h' out' with
  | none =>
    rw [hex] at hx
    exact hb.trans hx
  | some r =>
    obtain ⟨h'', out''⟩ := r
    rw [hex] at hx
    dsimp only at hx ⊢
    obtain ⟨x1, x2, x3, ⟨e', x4⟩, x5⟩ := hx
    refine ⟨hb.trans x1, ⟨hcur.1, hcur.2, x2, x3, fun p => ?_⟩, ⟨e ++ e', by rw [x4, e4, List.append_assoc]⟩⟩
    rw [x5, e5]
    simp only [hcur.2]
    have hdec : declared (l :: ls) p = match declares l p with | some u => some u | none => declared ls p := rfl
    rw [show Spec.node (l :: ls) p = match declared (l :: ls) p with
      | some u => if u = some xmlNs ∨ u = some xslNs ∨ excluded (l :: ls) u then none else some u
      | none => none from rfl, hdec]
    cases hdp : declares l p with
    | some u =>
      dsimp only
      obtain ⟨t1, t2⟩ := ht.1 p u hdp
      by_cases hu : u = some xmlNs ∨ u = some xslNs
      · rw [if_pos hu, t2 hu]
        dsimp only
        rw [if_pos (by rcases hu with h | h; exact .inl h; exact .inr (.inl h))]
      · rw [if_neg hu]
        dsimp only
        rw [excluded, t1, Bool.or_false]
        have : (u = some xmlNs ∨ u = some xslNs ∨ ((prefixes l).any fun p => decide (Spec.scope (l :: ls) p = some u)) = true) ↔
            ((prefixes l).any fun p => decide (Spec.scope (l :: ls) p = some u)) = true :=
          ⟨fun h => by rcases h with h | h | h; exact absurd (.inl h) hu; exact absurd (.inr h) hu; exact h, fun h => .inr (.inr h)⟩
        simp only [this]
    | none =>
      dsimp only
      rw [Spec.node]
      cases declared ls p with
      | none => rfl
      | some u =>
        dsimp only
        rw [excluded]
        by_cases h1 : u = some xmlNs ∨ u = some xslNs ∨ excluded ls u = true
        · rw [if_pos h1, if_pos]
          rcases h1 with h | h | h
          · exact .inl h
          · exact .inr (.inl h)
          · exact .inr (.inr (by rw [h, Bool.or_true]))
        · rw [if_neg h1]
          dsimp only
          have h2 : ¬ (u = some xmlNs) := fun h => h1 (.inl h)
          have h3 : ¬ (u = some xslNs) := fun h => h1 (.inr (.inl h))
          have h4 : excluded ls u = false := by
            cases h : excluded ls u with
            | false => rfl
            | true => exact absurd (.inr (.inr h)) h1
          simp only [h2, h3, h4, Bool.or_false, false_or]

/-- What the reader makes of a literal result element. -/
structure LitOk (h : Heap) (x : List Level × Lit V) (o : Out V) : Prop where
  name : o.name = x.2.name
  attrs : o.attrs = x.2.attrs
  uses : o.uses = x.2.uses
  room : o.out < h.length
  keys : Keys (h.at o.out)
  nodes : ∀ p, get (h.at o.out) p = Spec.node x.1 p

theorem LitOk.grow {h : Heap} {x : List Level × Lit V} {o : Out V} (k : LitOk h x o) (e : Heap) : LitOk (h ++ e) x o :=
  ⟨k.name, k.attrs, k.uses, by have := k.room; simp; omega, by rw [old_at k.room]; exact k.keys, by rw [old_at k.room]; exact k.nodes⟩

mutual
/-- The literal result elements of a tree. -/
def outs : Tree V → List (Out V)
  | .node none kids => outss kids
  | .node (some l) kids => l :: outss kids
def outss : List (Tree V) → List (Out V)
  | [] => []
  | t :: ts => outs t ++ outss ts
end

theorem all₂_append {α β : Type} {R : α → β → Prop} {a b : List α} {c d : List β} (h1 : All₂ R a c) (h2 : All₂ R b d) :
    All₂ R (a ++ b) (c ++ d) := by
  induction h1 with
  | nil => exact h2
  | cons h _ ih => exact .cons h ih

theorem all₂_imp {α β : Type} {R S : α → β → Prop} (f : ∀ a b, R a b → S a b) {a : List α} {c : List β} (h1 : All₂ R a c) :
    All₂ S a c := by
  induction h1 with
  | nil => exact .nil
  | cons h _ ih => exact .cons (f _ _ h) ih

/-- Everything that is asked of the elements of a stylesheet. -/
def Fine (s : List (List Level)) : Prop := ∀ ls ∈ s, (∀ l ∈ ls.head?, WfLevel l) ∧ Tidy ls

mutual
theorem read_spec : ∀ (s : Sheet V) (ls : List Level) (cur : Dict) (h : Heap) (out : Nat), Fine (levels ls s) → At ls cur h out →
    match read s cur h out with
    | some (h', t) => (levels ls s).all Spec.bound = true ∧ (∃ e, h' = h ++ e) ∧ All₂ (LitOk h') (literals ls s) (outs t)
    | none => (levels ls s).all Spec.bound = false
  | .elem l lit kids, ls, cur, h, out, hf, ha => by
    rw [levels] at hf
    have hl := hf _ (.head _)
    have he := enter_spec l ls cur h out (hl.1 l rfl) hl.2 ha
    rw [read]
    cases hen : enter l cur h out with
    | none => rw [hen] at he; simp only [levels, List.all_cons]; rw [he]; rfl
    | some r =>
      obtain ⟨cur', h', out'⟩ := r
      rw [hen] at he
      dsimp only at he ⊢
      obtain ⟨e1, e2, e3, e4⟩ := he
      have hk := reads_spec kids (l :: ls) cur' h' out' (fun x hx => hf x (.tail _ hx)) e2
      cases hrd : reads kids cur' h' out' with
      | none => rw [hrd] at hk; simp only [levels, List.all_cons]; rw [e1, hk]; rfl
      | some r =>
        obtain ⟨h'', ts⟩ := r
        rw [hrd] at hk
        dsimp only at hk ⊢
        obtain ⟨k1, ⟨k2, k3⟩, k4⟩ := hk
        refine ⟨by simp only [levels, List.all_cons]; rw [e1, k1]; rfl, ⟨e3 ++ k2, by rw [k3, e4, List.append_assoc]⟩, ?_⟩
        cases lit with
        | none => exact k4
        | some x =>
          refine .cons ?_ k4
          rw [k3]
          exact LitOk.grow (h := h') ⟨rfl, rfl, rfl, e2.room, e2.okeys, e2.nodes⟩ k2
theorem reads_spec : ∀ (ss : List (Sheet V)) (ls : List Level) (cur : Dict) (h : Heap) (out : Nat), Fine (levelss ls ss) → At ls cur h out →
    match reads ss cur h out with
    | some (h', ts) => (levelss ls ss).all Spec.bound = true ∧ (∃ e, h' = h ++ e) ∧ All₂ (LitOk h') (literalss ls ss) (outss ts)
    | none => (levelss ls ss).all Spec.bound = false
  | [], ls, cur, h, out, _, _ => ⟨rfl, ⟨[], (List.append_nil _).symm⟩, .nil⟩
  | s :: ss, ls, cur, h, out, hf, ha => by
    rw [levelss] at hf
    have h1 := read_spec s ls cur h out (fun x hx => hf x (List.mem_append_left _ hx)) ha
    rw [reads]
    cases hr : read s cur h out with
    | none => rw [hr] at h1; simp only [levelss, List.all_append]; rw [h1]; rfl
    | some r =>
      obtain ⟨h', t⟩ := r
      rw [hr] at h1
      dsimp only at h1 ⊢
      obtain ⟨a1, ⟨a2, a3⟩, a4⟩ := h1
      have ha' : At ls cur h' out := by
        subst a3
        exact ⟨ha.keys, ha.scope, by have := ha.room; simp; omega, by rw [old_at ha.room]; exact ha.okeys, by rw [old_at ha.room]; exact ha.nodes⟩
      have h2 := reads_spec ss ls cur h' out (fun x hx => hf x (List.mem_append_right _ hx)) ha'
      cases hrs : reads ss cur h' out with
      | none => rw [hrs] at h2; simp only [levelss, List.all_append]; rw [a1, h2]; rfl
      | some r =>
        obtain ⟨h'', ts⟩ := r
        rw [hrs] at h2
        dsimp only at h2 ⊢
        obtain ⟨b1, ⟨b2, b3⟩, b4⟩ := h2
        refine ⟨by simp only [levelss, List.all_append]; rw [a1, b1]; rfl, ⟨a2 ++ b2, by rw [b3, a3, List.append_assoc]⟩, ?_⟩
        rw [literalss, outss]
        refine all₂_append (all₂_imp (fun x o k => ?_) a4) b4
        rw [b3]; exact k.grow b2
end

end Verif.Xslt.Lre
