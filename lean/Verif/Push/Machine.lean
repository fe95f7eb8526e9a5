import Verif.Push.Dfa

/-
The machine calls its handlers for the words that the NFA accepts.
-/
namespace Verif.Push
open Verif.Push.Spec

/-- What the compiler and the machine need: where there is an edge for any element there is one with a name test;
no name satisfies two different tests at a time. -/
structure Fit (m : Nfa) (N A : QN → Prop) : Prop where
  guard : ∀ i, i = 0 ∨ i ∈ m.nodes → (∃ e ∈ m.out i, e.2 = .any) → ∃ e ∈ m.out i, ∃ t, e.2 = .node t
  sepN : ∀ u i j e e' t t' n, Reach m u i → Reach m u j → e ∈ m.out i → e' ∈ m.out j → N n →
    e.2 = .node t → e'.2 = .node t' → t.ok n = true → t'.ok n = true → t = t'
  sepA : ∀ u i j e e' t t' n, Reach m u i → Reach m u j → e ∈ m.out i → e' ∈ m.out j → A n →
    e.2 = .attr t → e'.2 = .attr t' → t.ok n = true → t'.ok n = true → t = t'

noncomputable def acc (m : Nfa) (w : List Sym) : Bool := truth (Acc m w)

theorem acc_iff {m : Nfa} {w : List Sym} : acc m w = true ↔ Acc m w := by simp [acc, truth]

theorem acc_eq {m : Nfa} {w : List Sym} {b : Bool} (h : b = true ↔ Acc m w) : b = acc m w := by
  rw [Bool.eq_iff_iff, acc_iff, h]

theorem acc_false {m : Nfa} {w : List Sym} (h : ∀ i, ¬ Reach m w i) : acc m w = false := by
  rw [← Bool.not_eq_true, acc_iff]
  rintro ⟨k, _, hr⟩
  exact h k hr

theorem reach_no {m : Nfa} {w : List Sym} (h : ∀ i, ¬ Reach m w i) (x : Sym) : ∀ i, ¬ Reach m (w ++ [x]) i := by
  intro i hr
  obtain ⟨j, _, hj, _⟩ := reach_snoc.1 hr
  exact h j hj

section
variable {ord : List Nat → List Nat} {m : Nfa} {lo hi : Nat} {done : List (List Nat × Table)} {mc : Machine}
variable {N A : QN → Prop}

/-- The state for a word. -/
def IsState (m : Nfa) (u : List Sym) (s : List Nat) : Prop := ∀ i, i ∈ s ↔ Reach m u i

def Top (ord : List Nat → List Nat) (m : Nfa) (done : List (List Nat × Table)) (u : List Sym) (q : Option Nat) : Prop :=
  (q = none ∧ ∀ i, ¬ Reach m u i) ∨
  ∃ k s, q = some k ∧ IsState m u s ∧ done[k]? = some (s, tableOf ord m s)

theorem isState_dom (hw : WF m lo hi) {u : List Sym} {s : List Nat} (h : IsState m u s) : ∀ i ∈ s, i = 0 ∨ i ∈ m.nodes := by
  intro i hi
  rcases reach_dom hw ((h i).1 hi) with ⟨_, e⟩ | ⟨_, e⟩
  · exact Or.inl e
  · exact Or.inr e

theorem buildState_ok (hord : ∀ l, (ord l).Perm l) (hf : Fit m N A) {s : List Nat}
    (hs : ∀ i ∈ s, i = 0 ∨ i ∈ m.nodes) :
    ∃ aops, attrOps (number m done) (tableOf ord m s).attr = some aops ∧
      buildState m done (s, tableOf ord m s) =
        some ⟨s.any (· ∈ m.terminal), chainOps (number m done) 0 (tableOf ord m s).node, aops⟩ := by
  have hc := node_chain (allTransitions ord m s)
  obtain ⟨aops, ha⟩ := attrOps_some (number m done) (attr_chain (allTransitions ord m s)).1
  refine ⟨aops, ha, ?_⟩
  have hl : ∀ l, (tableOf ord m s).node = .leaf l → l = [] := by
    intro l hl
    cases l with
    | nil => rfl
    | cons x l =>
      exfalso
      have hno : ∀ e ∈ allTransitions ord m s, ∀ t, e.2 ≠ .node t := by
        intro e he t h
        have := (tests_node (allTransitions ord m s) t).2 ⟨e, he, h⟩
        rw [show (makeTable (allTransitions ord m s)).node = .leaf (x :: l) from hl] at this
        simp [testsOf] at this
      have hx : x ∈ evalT (fun t => t.ok (none, [])) (makeTable (allTransitions ord m s)).node := by
        rw [show (makeTable (allTransitions ord m s)).node = .leaf (x :: l) from hl]; simp [evalT]
      rw [mem_node _ _ (fun e he e' he' t t' h => absurd h (hno e he t))] at hx
      obtain ⟨e, he, hok, _⟩ := hx
      obtain ⟨i, hi, he'⟩ := (allTransitions_mem hord s e).1 he
      have hany : e.2 = .any := by
        obtain ⟨k, t⟩ := e
        cases t with
        | any => rfl
        | node t => exact absurd rfl (hno _ he t)
        | attr t => simp [Test.okS] at hok
      obtain ⟨e2, h2, t, ht⟩ := hf.guard i (hs i hi) ⟨e, he', hany⟩
      exact hno e2 ((allTransitions_mem hord s e2).2 ⟨i, hi, h2⟩) t ht
  unfold buildState
  simp only [nodeOps_chain (number m done) hc hl, tableOf] at ha ⊢
  rw [ha]

theorem mapM_get {α β : Type} (f : α → Option β) : ∀ (l : List α), (∀ x ∈ l, ∃ y, f x = some y) →
    ∃ l', l.mapM f = some l' ∧ ∀ k : Nat, l'[k]? = l[k]?.bind f
  | [], _ => ⟨[], rfl, by simp⟩
  | x :: l, h => by
    obtain ⟨y, hy⟩ := h x (by simp)
    obtain ⟨l', h1, h2⟩ := mapM_get f l (fun z hz => h z (by simp [hz]))
    refine ⟨y :: l', ?_, ?_⟩
    · rw [List.mapM_cons, hy, h1]; rfl
    · intro k
      cases k with
      | zero => simp [hy]
      | succ k => simpa using h2 k

/-- The machine can be built, and its states are those of the DFA. -/
theorem build_ok (hord : ∀ l, (ord l).Perm l) (hf : Fit m N A) (hd : DfaOk ord m done) :
    ∃ mc, done.mapM (buildState m done) = some mc ∧ ∀ k : Nat, mc[k]? = done[k]?.bind (buildState m done) := by
  refine mapM_get _ _ fun st hst => ?_
  obtain ⟨s, tb⟩ := st
  have ht := hd.table _ hst
  simp only at ht
  subst ht
  obtain ⟨_, _, h⟩ := buildState_ok (done := done) hord hf (hd.dom _ hst)
  exact ⟨_, h⟩

theorem state_get (hw : WF m lo hi) (hord : ∀ l, (ord l).Perm l) (hf : Fit m N A)
    (hmc : ∀ k : Nat, mc[k]? = done[k]?.bind (buildState m done)) {u : List Sym} {s : List Nat} (hs : IsState m u s) {k : Nat}
    (hk : done[k]? = some (s, tableOf ord m s)) :
    ∃ aops, attrOps (number m done) (tableOf ord m s).attr = some aops ∧
      mc[k]? = some ⟨acc m u, chainOps (number m done) 0 (tableOf ord m s).node, aops⟩ := by
  obtain ⟨aops, h1, h2⟩ := buildState_ok (done := done) hord hf (isState_dom hw hs)
  refine ⟨aops, h1, ?_⟩
  rw [hmc, hk, Option.bind_some, h2]
  congr 2
  refine acc_eq ?_
  simp only [List.any_eq_true, decide_eq_true_eq]
  constructor
  · rintro ⟨i, hi, ht⟩; exact ⟨i, ht, (hs i).1 hi⟩
  · rintro ⟨i, ht, hi⟩; exact ⟨i, (hs i).2 hi, ht⟩

theorem sepN_of (hord : ∀ l, (ord l).Perm l) (hf : Fit m N A) {u : List Sym} {s : List Nat} (hs : IsState m u s)
    {n : QN} (hn : N n) : SepN (allTransitions ord m s) n := by
  intro e he e' he' t t' h1 h2 h3 h4
  obtain ⟨i, hi, he⟩ := (allTransitions_mem hord s e).1 he
  obtain ⟨j, hj, he'⟩ := (allTransitions_mem hord s e').1 he'
  exact hf.sepN u i j e e' t t' n ((hs i).1 hi) ((hs j).1 hj) he he' hn h1 h2 h3 h4

theorem sepA_of (hord : ∀ l, (ord l).Perm l) (hf : Fit m N A) {u : List Sym} {s : List Nat} (hs : IsState m u s)
    {n : QN} (hn : A n) : SepA (allTransitions ord m s) n := by
  intro e he e' he' t t' h1 h2 h3 h4
  obtain ⟨i, hi, he⟩ := (allTransitions_mem hord s e).1 he
  obtain ⟨j, hj, he'⟩ := (allTransitions_mem hord s e').1 he'
  exact hf.sepA u i j e e' t t' n ((hs i).1 hi) ((hs j).1 hj) he he' hn h1 h2 h3 h4

/-- The next state after an element. -/
theorem next_elem (hord : ∀ l, (ord l).Perm l) (hf : Fit m N A) {u : List Sym} {s : List Nat} (hs : IsState m u s)
    {n : QN} (hn : N n) : IsState m (u ++ [.elem n]) (evalT (fun t => t.ok n) (tableOf ord m s).node) := by
  intro i
  rw [tableOf, mem_node _ _ (sepN_of hord hf hs hn), reach_snoc]
  constructor
  · rintro ⟨e, he, hok, rfl⟩
    obtain ⟨j, hj, he⟩ := (allTransitions_mem hord s e).1 he
    exact ⟨j, e, (hs j).1 hj, he, hok, rfl⟩
  · rintro ⟨j, e, hj, he, hok, rfl⟩
    exact ⟨e, (allTransitions_mem hord s e).2 ⟨j, (hs j).2 hj, he⟩, hok, rfl⟩

theorem next_attr (hord : ∀ l, (ord l).Perm l) (hf : Fit m N A) {u : List Sym} {s : List Nat} (hs : IsState m u s)
    {n : QN} (hn : A n) : IsState m (u ++ [.attr n]) (evalT (fun t => t.ok n) (tableOf ord m s).attr) := by
  intro i
  rw [tableOf, mem_attr _ _ (sepA_of hord hf hs hn), reach_snoc]
  constructor
  · rintro ⟨e, he, hok, rfl⟩
    obtain ⟨j, hj, he⟩ := (allTransitions_mem hord s e).1 he
    exact ⟨j, e, (hs j).1 hj, he, hok, rfl⟩
  · rintro ⟨j, e, hj, he, hok, rfl⟩
    exact ⟨e, (allTransitions_mem hord s e).2 ⟨j, (hs j).2 hj, he⟩, hok, rfl⟩

/-- A set that a table leads to has a number. -/
theorem numbered (hw : WF m lo hi) (hord : ∀ l, (ord l).Perm l) (hd : DfaOk ord m done) {u w : List Sym} {s l : List Nat}
    (hs : IsState m u s) {k : Nat} (hk : done[k]? = some (s, tableOf ord m s))
    (hl : l ∈ leaves (tableOf ord m s).node ++ leaves (tableOf ord m s).attr) (hne : l ≠ []) (hw' : IsState m w l) :
    IsState m w (freeze m l) ∧ done[number m done l]? = some (freeze m l, tableOf ord m (freeze m l)) := by
  have hmem : (s, tableOf ord m s) ∈ done := List.mem_of_getElem? hk
  obtain ⟨h1, h2⟩ := leaf_nodes hw hord (isState_dom hw hs)
  have hnodes : ∀ i ∈ l, i ∈ m.nodes := by
    rcases List.mem_append.1 hl with h | h
    · exact h1 l h
    · exact h2 l h
  constructor
  · intro i
    rw [mem_freeze, ← hw']
    exact ⟨fun h => h.2, fun h => ⟨hnodes i h, h⟩⟩
  · refine number_get hd (hd.closed _ hmem _ ?_)
    unfold finals
    exact List.mem_map.2 ⟨l, List.mem_filter.2 ⟨hl, by simpa using hne⟩, rfl⟩

theorem handles_eq (hw : WF m lo hi) (hord : ∀ l, (ord l).Perm l) (hf : Fit m N A)
    (hmc : ∀ k : Nat, mc[k]? = done[k]?.bind (buildState m done)) {u : List Sym} {s : List Nat} (hs : IsState m u s) {k : Nat}
    (hk : done[k]? = some (s, tableOf ord m s)) : handles mc k = acc m u := by
  obtain ⟨_, _, h⟩ := state_get hw hord hf hmc hs hk
  simp [handles, h]

theorem attrCalls_eq (hw : WF m lo hi) (hord : ∀ l, (ord l).Perm l) (hf : Fit m N A) (hd : DfaOk ord m done)
    (hmc : ∀ k : Nat, mc[k]? = done[k]?.bind (buildState m done)) {u : List Sym} {s : List Nat} (hs : IsState m u s) {k : Nat}
    (hk : done[k]? = some (s, tableOf ord m s)) (p : Pos) (as : List QN) (ha : ∀ a ∈ as, A a) :
    attrCalls mc k p as = as.flatMap fun a => if acc m (u ++ [.attr a]) then [.attrMatch p a] else [] := by
  obtain ⟨aops, h1, h2⟩ := state_get hw hord hf hmc hs hk
  unfold attrCalls
  simp only [h2, Option.map_some, Option.getD_some]
  induction as with
  | nil => rfl
  | cons a as ih =>
    rw [List.flatMap_cons, List.flatMap_cons, ih fun b hb => ha b (by simp [hb])]
    congr 1
    have hch := attr_chain (allTransitions ord m s)
    have hev := next_attr (n := a) hord hf hs (ha a (by simp))
    have hsp := sepA_of (n := a) hord hf hs (ha a (by simp))
    have key := attrOps_calls (number m done) a (fun q => if handles mc q then [Call.attrMatch p a] else []) hch.1 hch.2
      (fun t ht t' ht' h3 h4 => by
        obtain ⟨e, he, het⟩ := tests_attr _ t ht
        obtain ⟨e', he', het'⟩ := tests_attr _ t' ht'
        exact hsp e he e' he' t t' het het' h3 h4) aops h1
    have hsame : (aops.flatMap fun op => if (op.1.ok a && handles mc op.2) = true then [Call.attrMatch p a] else []) =
        aops.flatMap fun op => if op.1.ok a = true then (if handles mc op.2 then [Call.attrMatch p a] else []) else [] := by
      congr 1
      funext op
      cases op.1.ok a <;> simp
    rw [hsame, key]
    by_cases h0 : evalT (fun t => t.ok a) (tableOf ord m s).attr = []
    · rw [show evalT (fun t => t.ok a) (makeTable (allTransitions ord m s)).attr = [] from h0, if_pos rfl]
      rw [acc_false]
      · rfl
      · intro i hi
        have := (hev i).2 hi
        rw [h0] at this; cases this
    · rw [show makeTable (allTransitions ord m s) = tableOf ord m s from rfl, if_neg h0]
      obtain ⟨h5, h6⟩ := numbered hw hord hd hs hk (List.mem_append.2 (Or.inr (eval_leaves _ _))) h0 hev
      rw [handles_eq hw hord hf hmc h5 h6]

theorem startElement_eq (hw : WF m lo hi) (hord : ∀ l, (ord l).Perm l) (hf : Fit m N A) (hd : DfaOk ord m done)
    (hmc : ∀ k : Nat, mc[k]? = done[k]?.bind (buildState m done)) {u : List Sym} {q : Option Nat} (hq : Top ord m done u q)
    (p : Pos) (n : QN) (as : List QN) (hn : N n) (ha : ∀ a ∈ as, A a) :
    ∃ q', Top ord m done (u ++ [.elem n]) q' ∧ startElement mc q p n as =
      .ok (q', (if acc m (u ++ [.elem n]) then [.startMatch p] else []) ++
        as.flatMap fun a => if acc m (u ++ [.elem n] ++ [.attr a]) then [.attrMatch p a] else []) := by
  have dead : (∀ i, ¬ Reach m (u ++ [.elem n]) i) →
      (if acc m (u ++ [.elem n]) then [Call.startMatch p] else []) ++
        (as.flatMap fun a => if acc m (u ++ [.elem n] ++ [.attr a]) then [Call.attrMatch p a] else []) = [] := by
    intro h
    rw [acc_false h]
    simp only [Bool.false_eq_true, if_false, List.nil_append, List.flatMap_eq_nil_iff]
    intro a _
    rw [acc_false (reach_no h _)]
    rfl
  rcases hq with ⟨rfl, hno⟩ | ⟨k, s, rfl, hs, hk⟩
  · refine ⟨none, Or.inl ⟨rfl, reach_no hno _⟩, ?_⟩
    rw [dead (reach_no hno _)]
    rfl
  · obtain ⟨aops, h1, h2⟩ := state_get hw hord hf hmc hs hk
    have hev := next_elem (n := n) hord hf hs hn
    have hch := node_chain (allTransitions ord m s)
    have hnone : evalT (fun t => t.ok n) (tableOf ord m s).node = [] → ∀ i, ¬ Reach m (u ++ [.elem n]) i := by
      intro h0 i hi
      have := (hev i).2 hi
      rw [h0] at this; cases this
    unfold startElement
    simp only [h2, Option.map_some, Option.getD_some]
    by_cases hops : chainOps (number m done) 0 (tableOf ord m s).node = []
    · rw [if_pos hops]
      have h0 : evalT (fun t => t.ok n) (tableOf ord m s).node = [] := by
        have hlen := length_chainOps (number m done) hch 0
        rw [show (makeTable (allTransitions ord m s)) = tableOf ord m s from rfl, hops] at hlen
        have hleaf : ∃ l, (tableOf ord m s).node = .leaf l := by
          cases ht : (tableOf ord m s).node with
          | leaf l => exact ⟨l, rfl⟩
          | branch t a b => rw [ht] at hlen; simp [branches] at hlen; omega
        obtain ⟨l, hl⟩ := hleaf
        rw [hl, evalT]
        -- the leaf is empty
        obtain ⟨_, _, hb⟩ := buildState_ok (done := done) hord hf (isState_dom hw hs)
        unfold buildState at hb
        simp only [hl] at hb
        cases l with
        | nil => rfl
        | cons x l =>
          simp only [nodeOps, h1] at hb
          simp [chainOps] at hb
      exact ⟨none, Or.inl ⟨rfl, hnone h0⟩, by rw [dead (hnone h0)]⟩
    · rw [if_neg hops]
      have hwalk := walk_ops (number m done) (number_ne hw hd) n hch hops
      rw [show makeTable (allTransitions ord m s) = tableOf ord m s from rfl] at hwalk
      rw [hwalk]
      unfold refResult
      by_cases h0 : evalT (fun t => t.ok n) (tableOf ord m s).node = []
      · rw [if_pos h0]
        exact ⟨none, Or.inl ⟨rfl, hnone h0⟩, by rw [dead (hnone h0)]⟩
      · rw [if_neg h0]
        obtain ⟨h5, h6⟩ := numbered hw hord hd hs hk (List.mem_append.2 (Or.inl (eval_leaves _ _))) h0 hev
        refine ⟨some _, Or.inr ⟨_, _, rfl, h5, h6⟩, ?_⟩
        simp only
        rw [handles_eq hw hord hf hmc h5 h6, attrCalls_eq hw hord hf hd hmc h5 h6 p as ha]

theorem endElement_eq (hw : WF m lo hi) (hord : ∀ l, (ord l).Perm l) (hf : Fit m N A)
    (hmc : ∀ k : Nat, mc[k]? = done[k]?.bind (buildState m done)) {u : List Sym} {q : Option Nat} (hq : Top ord m done u q)
    (p : Pos) : endElement mc q p = if acc m u then [.endMatch p] else [] := by
  rcases hq with ⟨rfl, hno⟩ | ⟨k, s, rfl, hs, hk⟩
  · rw [acc_false hno]; rfl
  · unfold endElement
    simp only [handles_eq hw hord hf hmc hs hk]

mutual
/-- The calls for an element below the word `u`. -/
def calls (a : List Sym → Bool) (u : List Sym) : Elem → Pos → List Call
  | .mk n as cs, p =>
    ((if a (u ++ [.elem n]) then [.startMatch p] else []) ++
      as.flatMap fun x => if a (u ++ [.elem n] ++ [.attr x]) then [.attrMatch p x] else []) ++
    (callsAll a (u ++ [.elem n]) cs p 0 ++ if a (u ++ [.elem n]) then [.endMatch p] else [])
def callsAll (a : List Sym → Bool) (u : List Sym) : List Elem → Pos → Nat → List Call
  | [], _, _ => []
  | c :: cs, p, i => calls a u c (p ++ [i]) ++ callsAll a u cs p (i + 1)
end

def prepend (cs : List Call) : Except Err (List Call) → Except Err (List Call)
  | .error e => .error e
  | .ok rest => .ok (cs ++ rest)

theorem prepend_append (a b : List Call) (r : Except Err (List Call)) : prepend (a ++ b) r = prepend a (prepend b r) := by
  cases r <;> simp [prepend]

mutual
theorem run_elem (hw : WF m lo hi) (hord : ∀ l, (ord l).Perm l) (hf : Fit m N A) (hd : DfaOk ord m done)
    (hmc : ∀ k : Nat, mc[k]? = done[k]?.bind (buildState m done)) :
    ∀ (e : Elem) (p : Pos) (u : List Sym) (q : Option Nat) (st : List (Option Nat)) (evs : List Ev),
    Top ord m done u q → (∀ n ∈ elemNames e, N n) → (∀ a ∈ attrNames e, A a) →
    runMachine mc (events e p ++ evs) (q :: st) = prepend (calls (acc m) u e p) (runMachine mc evs (q :: st))
  | .mk n as cs, p, u, q, st, evs => fun hq hN hA => by
    obtain ⟨q', hq', h⟩ := startElement_eq hw hord hf hd hmc hq p n as (hN n (by simp [elemNames]))
      (fun a ha => hA a (by simp [attrNames, ha]))
    have hr := run_all hw hord hf hd hmc cs p 0 _ q' (q :: st) (.endElement p :: evs) hq'
      (fun x hx => hN x (by simp [elemNames, hx])) (fun x hx => hA x (by simp [attrNames, hx]))
    have he := endElement_eq hw hord hf hmc hq' p
    rw [events, List.cons_append, List.cons_append, List.append_assoc, List.singleton_append, runMachine, List.headD_cons, h]
    simp only
    rw [hr]
    rw [calls]
    rw [runMachine, List.tail_cons, List.headD_cons, he]
    cases runMachine mc evs (q :: st) with
    | error e => rfl
    | ok rest => simp [prepend]
theorem run_all (hw : WF m lo hi) (hord : ∀ l, (ord l).Perm l) (hf : Fit m N A) (hd : DfaOk ord m done)
    (hmc : ∀ k : Nat, mc[k]? = done[k]?.bind (buildState m done)) :
    ∀ (cs : List Elem) (p : Pos) (i : Nat) (u : List Sym) (q : Option Nat) (st : List (Option Nat)) (evs : List Ev),
    Top ord m done u q → (∀ n ∈ elemNamesAll cs, N n) → (∀ a ∈ attrNamesAll cs, A a) →
    runMachine mc (eventsAll cs p i ++ evs) (q :: st) = prepend (callsAll (acc m) u cs p i) (runMachine mc evs (q :: st))
  | [], p, i, u, q, st, evs => fun _ _ _ => by
    rw [eventsAll, callsAll, List.nil_append]
    cases runMachine mc evs (q :: st) <;> rfl
  | c :: cs, p, i, u, q, st, evs => fun hq hN hA => by
    rw [eventsAll, callsAll, List.append_assoc, prepend_append]
    rw [run_elem hw hord hf hd hmc c (p ++ [i]) u q st _ hq (fun x hx => hN x (by simp [elemNamesAll, hx]))
      (fun x hx => hA x (by simp [attrNamesAll, hx]))]
    rw [run_all hw hord hf hd hmc cs p (i + 1) u q st evs hq (fun x hx => hN x (by simp [elemNamesAll, hx]))
      (fun x hx => hA x (by simp [attrNamesAll, hx]))]
end

/-- The machine for an NFA. -/
theorem machine_calls (hw : WF m lo hi) (hord : ∀ l, (ord l).Perm l) (hf : Fit m N A) (doc : Elem)
    (hN : ∀ n ∈ elemNames doc, N n) (hA : ∀ a ∈ attrNames doc, A a) :
    ∃ mc, ((nfaToDfa ord m).bind fun done => done.mapM (buildState m done)) = some mc ∧
      runMachine mc (eventsAll [doc] [] 0) [some 0] = .ok (callsAll (acc m) [] [doc] [] 0) := by
  obtain ⟨done, h1, hd⟩ := nfaToDfa_ok ord m
  obtain ⟨mc, h2, hmc⟩ := build_ok hord hf hd
  refine ⟨mc, by rw [h1]; exact h2, ?_⟩
  have htop : Top ord m done [] (some 0) := by
    obtain ⟨tb, rest, hdone⟩ := hd.first
    refine Or.inr ⟨0, [0], rfl, ?_, ?_⟩
    · intro i; rw [reach_nil hw]; simp
    · have := hd.table ([0], tb) (by rw [hdone]; simp)
      simp only at this
      rw [hdone, this]; rfl
  have := run_all hw hord hf hd hmc [doc] [] 0 [] (some 0) [] [] htop (by simpa [elemNamesAll] using hN)
    (by simpa [attrNamesAll] using hA)
  rw [List.append_nil] at this
  rw [this]
  simp [runMachine, prepend]

end

end Verif.Push
