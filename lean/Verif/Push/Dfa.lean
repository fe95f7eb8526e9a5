import Verif.Push.Trees
import Verif.Content.Closure

/-
The states of the DFA and of the machine.
-/
namespace Verif.Push
open Verif.Push.Spec

theorem filter_subs (f : Nat → Bool) : ∀ l : List Nat, l.filter f ∈ Content.subs l
  | [] => by simp [Content.subs]
  | x :: xs => by
    rw [List.filter_cons, Content.subs]
    split
    · exact List.mem_append.2 (Or.inl (List.mem_map.2 ⟨_, filter_subs f xs, rfl⟩))
    · exact List.mem_append.2 (Or.inr (filter_subs f xs))

theorem pushNew_spec : ∀ (ss seen todo : List (List Nat)), seen.Nodup →
    (pushNew ss seen todo).1.Nodup ∧
    (∀ s, s ∈ (pushNew ss seen todo).1 ↔ s ∈ seen ∨ s ∈ ss) ∧
    (∀ s, s ∈ (pushNew ss seen todo).2 → s ∈ todo ∨ s ∈ ss) ∧
    (∀ s, s ∈ todo → s ∈ (pushNew ss seen todo).2) ∧
    (∀ s, s ∈ ss → s ∈ seen ∨ s ∈ (pushNew ss seen todo).2) ∧
    (pushNew ss seen todo).1.length + todo.length = seen.length + (pushNew ss seen todo).2.length
  | [], seen, todo => fun h => by simp [pushNew, h]
  | x :: ss, seen, todo => fun h => by
    rw [pushNew]
    split
    · rename_i hx
      obtain ⟨h1, h2, h3, h4, h5, h6⟩ := pushNew_spec ss seen todo h
      refine ⟨h1, fun s => ?_, fun s hs => ?_, h4, fun s hs => ?_, h6⟩
      · rw [h2]; simp only [List.mem_cons]
        constructor
        · rintro (h | h)
          · exact Or.inl h
          · exact Or.inr (Or.inr h)
        · rintro (h | rfl | h)
          · exact Or.inl h
          · exact Or.inl hx
          · exact Or.inr h
      · rcases h3 s hs with h | h
        · exact Or.inl h
        · exact Or.inr (by simp [h])
      · rcases List.mem_cons.1 hs with rfl | hs
        · exact Or.inl hx
        · exact h5 s hs
    · rename_i hx
      obtain ⟨h1, h2, h3, h4, h5, h6⟩ := pushNew_spec ss (x :: seen) (x :: todo) (List.nodup_cons.2 ⟨hx, h⟩)
      refine ⟨h1, fun s => ?_, fun s hs => ?_, fun s hs => h4 s (by simp [hs]), fun s hs => ?_, ?_⟩
      · rw [h2]; simp only [List.mem_cons]
        constructor
        · rintro ((h | h) | h)
          · exact Or.inr (Or.inl h)
          · exact Or.inl h
          · exact Or.inr (Or.inr h)
        · rintro (h | h | h)
          · exact Or.inl (Or.inr h)
          · exact Or.inl (Or.inl h)
          · exact Or.inr h
      · rcases h3 s hs with h | h
        · rcases List.mem_cons.1 h with h | h
          · exact Or.inr (by simp [h])
          · exact Or.inl h
        · exact Or.inr (by simp [h])
      · rcases List.mem_cons.1 hs with rfl | hs
        · exact Or.inr (h4 _ (by simp))
        · rcases h5 s hs with h | h
          · rcases List.mem_cons.1 h with rfl | h
            · exact Or.inr (h4 _ (by simp))
            · exact Or.inl h
          · exact Or.inr h
      · simp only [List.length_cons] at h6; omega

def tableOf (ord : List Nat → List Nat) (m : Nfa) (s : List Nat) : Table := makeTable (allTransitions ord m s)

/-- The list of states is complete. -/
structure DfaOk (ord : List Nat → List Nat) (m : Nfa) (done : List (List Nat × Table)) : Prop where
  first : ∃ tb rest, done = ([0], tb) :: rest
  table : ∀ st ∈ done, st.2 = tableOf ord m st.1
  closed : ∀ st ∈ done, ∀ s ∈ finals m st.2, s ∈ done.map Prod.fst
  dom : ∀ st ∈ done, ∀ i ∈ st.1, i = 0 ∨ i ∈ m.nodes

theorem dfaLoop_ok (ord : List Nat → List Nat) (m : Nfa) : ∀ (fuel : Nat) (todo seen : List (List Nat))
    (done : List (List Nat × Table)),
    seen.Nodup → (∀ s ∈ seen, s ∈ done.map Prod.fst ∨ s ∈ todo) → (∀ s ∈ seen, s = [0] ∨ s ∈ Content.subs m.nodes) →
    done.length + todo.length = seen.length → done.length + fuel = 2 ^ m.nodes.length + 1 →
    (∀ st ∈ done, st.2 = tableOf ord m st.1) → (∀ st ∈ done, ∀ s ∈ finals m st.2, s ∈ seen) →
    ((done = [] ∧ todo = [[0]]) ∨ ∃ tb rest, done = ([0], tb) :: rest) →
    (∀ st ∈ done, ∀ i ∈ st.1, i = 0 ∨ i ∈ m.nodes) → (∀ s ∈ todo, ∀ i ∈ s, i = 0 ∨ i ∈ m.nodes) →
    ∃ done', dfaLoop ord m fuel todo seen done = some done' ∧ DfaOk ord m done' := by
  intro fuel
  induction fuel with
  | zero =>
    intro todo seen done hn hs hsub hlen hf ht hc h0 hdd hdt
    cases todo with
    | nil =>
      refine ⟨done, rfl, ?_, ht, fun st hst s hs' => ?_, hdd⟩
      · rcases h0 with ⟨_, h⟩ | h
        · cases h
        · exact h
      · rcases hs s (hc st hst s hs') with h | h
        · exact h
        · cases h
    | cons s todo =>
      exfalso
      have := Content.length_le_of_subset (k := [0] :: Content.subs m.nodes) hn (by
        intro x hx
        rcases hsub x hx with rfl | h
        · simp
        · exact List.mem_cons_of_mem _ h)
      rw [List.length_cons, Content.length_subs] at this
      simp only [List.length_cons] at hlen
      omega
  | succ fuel ih =>
    intro todo seen done hn hs hsub hlen hf ht hc h0 hdd hdt
    cases todo with
    | nil =>
      refine ⟨done, by rw [dfaLoop], ?_, ht, fun st hst s hs' => ?_, hdd⟩
      · rcases h0 with ⟨_, h⟩ | h
        · cases h
        · exact h
      · rcases hs s (hc st hst s hs') with h | h
        · exact h
        · cases h
    | cons s todo =>
      rw [dfaLoop]
      have hp := pushNew_spec (finals m (makeTable (allTransitions ord m s))) seen todo hn
      obtain ⟨p1, p2, p3, p4, p5, p6⟩ := hp
      refine ih _ _ _ p1 ?_ ?_ ?_ ?_ ?_ ?_ ?_ ?_ ?_
      · intro x hx
        rcases (p2 x).1 hx with h | h
        · rcases hs x h with h | h
          · exact Or.inl (by simp only [List.map_append, List.mem_append]; exact Or.inl h)
          · rcases List.mem_cons.1 h with rfl | h
            · exact Or.inl (by simp)
            · exact Or.inr (p4 x h)
        · rcases p5 x h with h | h
          · rcases hs x h with h | h
            · exact Or.inl (by simp only [List.map_append, List.mem_append]; exact Or.inl h)
            · rcases List.mem_cons.1 h with rfl | h
              · exact Or.inl (by simp)
              · exact Or.inr (p4 x h)
          · exact Or.inr h
      · intro x hx
        rcases (p2 x).1 hx with h | h
        · exact hsub x h
        · right
          unfold finals at h
          obtain ⟨l, _, rfl⟩ := List.mem_map.1 h
          exact filter_subs _ _
      · simp only [List.length_cons, List.length_append, List.length_nil] at hlen p6 ⊢; omega
      · simp only [List.length_append, List.length_cons, List.length_nil] at hf ⊢; omega
      · intro st hst
        rcases List.mem_append.1 hst with h | h
        · exact ht st h
        · simp at h; subst h; rfl
      · intro st hst x hx
        rw [p2]
        rcases List.mem_append.1 hst with h | h
        · exact Or.inl (hc st h x hx)
        · simp at h; subst h; exact Or.inr hx
      · right
        rcases h0 with ⟨rfl, h⟩ | ⟨tb, rest, rfl⟩
        · injection h with h1 h2; subst h1; exact ⟨_, [], rfl⟩
        · exact ⟨tb, rest ++ [_], rfl⟩
      · intro st hst
        rcases List.mem_append.1 hst with h | h
        · exact hdd st h
        · simp at h; subst h; exact hdt s (by simp)
      · intro x hx
        rcases p3 x hx with h | h
        · exact hdt x (by simp [h])
        · unfold finals at h
          obtain ⟨l, _, rfl⟩ := List.mem_map.1 h
          intro i hi
          exact Or.inr (List.mem_filter.1 hi).1

/-- `nfa_to_dfa` ends, with a complete list of states. -/
theorem nfaToDfa_ok (ord : List Nat → List Nat) (m : Nfa) : ∃ done, nfaToDfa ord m = some done ∧ DfaOk ord m done := by
  refine dfaLoop_ok ord m _ _ _ _ (by simp) (by simp) (by simp) (by simp) (by simp) (by simp) (by simp) (Or.inl ⟨rfl, rfl⟩)
    (by simp) (by simp)

theorem mem_freeze {m : Nfa} {s : List Nat} {i : Nat} : i ∈ freeze m s ↔ i ∈ m.nodes ∧ i ∈ s := by
  simp [freeze]

theorem freeze_congr (m : Nfa) {s s' : List Nat} (h : ∀ i, i ∈ s ↔ i ∈ s') : freeze m s = freeze m s' := by
  unfold freeze
  congr 1
  funext i
  simp [h]

section
variable {ord : List Nat → List Nat} {m : Nfa} {lo hi : Nat} {done : List (List Nat × Table)}

theorem number_ne (hw : WF m lo hi) (hd : DfaOk ord m done) (s : List Nat) : number m done s ≠ 0 := by
  obtain ⟨tb, rest, rfl⟩ := hd.first
  unfold number
  rw [List.map_cons, List.idxOf_cons]
  have : ¬ ([0] : List Nat) = freeze m s := by
    intro h
    have h0 : 0 ∈ freeze m s := by rw [← h]; simp
    exact hw.nz (mem_freeze.1 h0).1 rfl
  have hb : (([0] : List Nat) == freeze m s) = false := by simpa using this
  rw [hb]
  simp

theorem number_get (hd : DfaOk ord m done) {s : List Nat} (h : freeze m s ∈ done.map Prod.fst) :
    done[number m done s]? = some (freeze m s, tableOf ord m (freeze m s)) := by
  have hlt : number m done s < (done.map Prod.fst).length := List.idxOf_lt_length_of_mem h
  have hlt' : number m done s < done.length := by simpa using hlt
  have hg : (done.map Prod.fst)[number m done s] = freeze m s := List.getElem_idxOf hlt
  rw [List.getElem_map] at hg
  rw [List.getElem?_eq_getElem hlt']
  have ht := hd.table done[number m done s] (List.getElem_mem hlt')
  rw [hg] at ht
  congr 1
  exact Prod.ext hg ht

theorem allTransitions_mem (hord : ∀ l, (ord l).Perm l) (s : List Nat) (e : Edge) :
    e ∈ allTransitions ord m s ↔ ∃ i ∈ s, e ∈ m.out i := by
  unfold allTransitions
  rw [List.mem_flatMap]
  constructor
  · rintro ⟨i, hi, h⟩; exact ⟨i, (hord s).mem_iff.1 hi, h⟩
  · rintro ⟨i, hi, h⟩; exact ⟨i, (hord s).mem_iff.2 hi, h⟩

/-- The targets of a state are nodes. -/
theorem leaf_nodes (hw : WF m lo hi) (hord : ∀ l, (ord l).Perm l) {s : List Nat} (hs : ∀ i ∈ s, i = 0 ∨ i ∈ m.nodes) :
    (∀ l ∈ leaves (tableOf ord m s).node, ∀ i ∈ l, i ∈ m.nodes) ∧
    (∀ l ∈ leaves (tableOf ord m s).attr, ∀ i ∈ l, i ∈ m.nodes) := by
  obtain ⟨h1, h2⟩ := leaves_targets (allTransitions ord m s)
  have key : ∀ i, (∃ e ∈ allTransitions ord m s, e.1 = i) → i ∈ m.nodes := by
    rintro i ⟨e, he, rfl⟩
    obtain ⟨j, hj, he⟩ := (allTransitions_mem hord s e).1 he
    exact (hw.closed j (hs j hj) e (out_sub he)).1
  exact ⟨fun l hl i hi => key i (h1 l hl i hi), fun l hl i hi => key i (h2 l hl i hi)⟩

theorem freeze_ne {l : List Nat} (hn : l ≠ []) (hl : ∀ i ∈ l, i ∈ m.nodes) : freeze m l ≠ [] := by
  cases l with
  | nil => exact absurd rfl hn
  | cons x l =>
    intro h
    have : x ∈ freeze m (x :: l) := mem_freeze.2 ⟨hl x (by simp), by simp⟩
    rw [h] at this; cases this

end

end Verif.Push
