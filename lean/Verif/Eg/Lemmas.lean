/-
Lemmas for `Verif.Eg.Props`.
-/
import Verif.Eg.Spec

namespace Verif.Eg
open Verif.Write (UStr)
open Verif.Eg.Spec

theorem mem_constraintsOf {added : List (Key × Con)} {k : Key} {c : Con} :
    c ∈ constraintsOf added k ↔ (k, c) ∈ added := by
  simp only [constraintsOf, List.mem_map, List.mem_filter, decide_eq_true_eq]
  constructor
  · rintro ⟨⟨k', c'⟩, ⟨h, rfl⟩, rfl⟩
    exact h
  · intro h
    exact ⟨(k, c), ⟨h, rfl⟩, rfl⟩

theorem checkCon_ok {nss : Nss} {ks : List Doc} {c : Con} :
    checkCon nss ks c = .ok () ↔ holds nss ks c = .ok true := by
  simp only [checkCon]
  cases h : holds nss ks c with
  | error e => simp [Bind.bind, Except.bind]
  | ok b => cases b <;> simp [Bind.bind, Except.bind]

theorem checkAll_ok {nss : Nss} {ks : List Doc} {cs : List Con} :
    checkAll nss ks cs = .ok () ↔ ∀ c ∈ cs, holds nss ks c = .ok true := by
  induction cs with
  | nil => simp [checkAll]
  | cons c cs ih =>
    simp only [checkAll, List.mem_cons, forall_eq_or_imp, ← ih]
    rw [← checkCon_ok (c := c)]
    cases checkCon nss ks c <;> simp [Bind.bind, Except.bind]

theorem validateAll_ok {added : List (Key × Con)} {ns : List Node} :
    validateAll added ns = .ok () ↔ ∀ n ∈ ns, validateNode added n = .ok () := by
  induction ns with
  | nil => simp [validateAll]
  | cons c cs ih =>
    simp only [validateAll, List.mem_cons, forall_eq_or_imp, ← ih]
    cases validateNode added c <;> simp [Bind.bind, Except.bind]

/-! ### The iteration -/

def nodeSize : Node → Nat
  | .root ks => Doc.sizes ks + 1
  | .el d => d.size

def itSize : List Node → Nat
  | [] => 0
  | n :: ns => nodeSize n + itSize ns

def stackSize : List (List Node) → Nat
  | [] => 0
  | it :: st => itSize it + 1 + stackSize st

theorem stackSize_append (a b : List (List Node)) : stackSize (a ++ b) = stackSize a + stackSize b := by
  induction a with
  | nil => simp [stackSize]
  | cons x xs ih => simp [stackSize, ih]; omega

theorem stackSize_reverse (a : List (List Node)) : stackSize a.reverse = stackSize a := by
  induction a with
  | nil => rfl
  | cons x xs ih => simp [stackSize_append, stackSize, ih]; omega

theorem itSize_el (ks : List Doc) : itSize (ks.map Node.el) = Doc.sizes ks := by
  induction ks with
  | nil => simp [itSize, Doc.sizes]
  | cons k ks ih => simp [itSize, Doc.sizes, ih, nodeSize]

theorem nodeSize_kids (n : Node) : itSize (n.kids.map Node.el) + 1 = nodeSize n := by
  rw [itSize_el]
  cases n with
  | root ks => rfl
  | el d => cases d; simp [Node.kids, nodeSize, Doc.size, Doc.kids]

theorem stackSize_kids (it : List Node) :
    stackSize (it.map fun n => n.kids.map Node.el) = itSize it := by
  induction it with
  | nil => rfl
  | cons n ns ih =>
    simp only [List.map_cons, stackSize, itSize, ih, ← nodeSize_kids n]

/-- `n` is `m` or below it. -/
def Under (m n : Node) : Prop := n = m ∨ ∃ d, n = .el d ∧ InDoc m.kids d

theorem under_iff (m n : Node) : Under m n ↔ n = m ∨ ∃ d ∈ m.kids, Under (.el d) n := by
  constructor
  · rintro (rfl | ⟨d, rfl, h⟩)
    · exact .inl rfl
    · cases h with
      | here h => exact .inr ⟨d, h, .inl rfl⟩
      | deeper h h' => exact .inr ⟨_, h, .inr ⟨d, rfl, h'⟩⟩
  · rintro (rfl | ⟨d, hd, rfl | ⟨e, rfl, he⟩⟩)
    · exact .inl rfl
    · exact .inr ⟨d, rfl, .here hd⟩
    · exact .inr ⟨e, rfl, .deeper hd he⟩

theorem mem_drain (k : Nat) (st : List (List Node)) (hk : stackSize st ≤ k) (n : Node) :
    n ∈ drain k st ↔ ∃ it ∈ st, ∃ m ∈ it, Under m n := by
  induction k generalizing st with
  | zero =>
    cases st with
    | nil => simp [drain]
    | cons it st => simp [stackSize] at hk
  | succ k ih =>
    cases st with
    | nil => simp [drain]
    | cons it st =>
      simp only [stackSize] at hk
      have hs : stackSize ((it.map fun n => n.kids.map Node.el).reverse ++ st) ≤ k := by
        rw [stackSize_append, stackSize_reverse, stackSize_kids]; omega
      simp only [drain, List.mem_append, ih _ hs, List.mem_reverse, List.mem_map]
      constructor
      · rintro (h | ⟨_, ⟨m, hm, rfl⟩ | hit, x, hx, hu⟩)
        · exact ⟨it, by simp, n, h, .inl rfl⟩
        · simp only [List.mem_map] at hx
          obtain ⟨d, hd, rfl⟩ := hx
          exact ⟨it, by simp, m, hm, (under_iff _ _).2 (.inr ⟨d, hd, hu⟩)⟩
        · exact ⟨_, by simp [hit], x, hx, hu⟩
      · rintro ⟨it', hit, m, hm, hu⟩
        simp only [List.mem_cons] at hit
        rcases hit with rfl | hit
        · rcases (under_iff _ _).1 hu with rfl | ⟨d, hd, hu⟩
          · exact .inl hm
          · exact .inr ⟨_, .inl ⟨m, hm, rfl⟩, .el d, List.mem_map.2 ⟨d, hd, rfl⟩, hu⟩
        · exact .inr ⟨it', .inr hit, m, hm, hu⟩

theorem mem_iter (m n : Node) : n ∈ elementSubtreeIter m ↔ Under m n := by
  cases m with
  | root ks =>
    rw [elementSubtreeIter, mem_drain _ _ (by simp [stackSize, itSize, nodeSize])]
    simp
  | el d =>
    rw [elementSubtreeIter, mem_drain _ _ (by simp [stackSize, itSize, nodeSize])]
    simp

/-- A node and what is below it, in document order. -/
def preorder : Node → List Node
  | .root ks => .root ks :: (docOrders ks).map .el
  | .el d => (docOrder d).map .el

theorem docOrders_eq (ks : List Doc) : docOrders ks = ks.flatMap docOrder := by
  induction ks with
  | nil => rfl
  | cons k ks ih => simp [docOrders, ih]

theorem preorder_eq (n : Node) : preorder n = n :: (n.kids.map Node.el).flatMap preorder := by
  have h : ∀ ks : List Doc, (docOrders ks).map Node.el = (ks.map Node.el).flatMap preorder := by
    intro ks
    rw [docOrders_eq]
    induction ks with
    | nil => rfl
    | cons k ks ih => simp [preorder, ← ih]
  cases n with
  | root ks => simp only [preorder, Node.kids, h]
  | el d => cases d; simp only [preorder, Node.kids, Doc.kids, docOrder, List.map_cons, h]

theorem flatMap_preorder (it : List Node) : (it.flatMap preorder).Perm
    (it ++ ((it.map fun n => n.kids.map Node.el).reverse.flatten.flatMap preorder)) := by
  induction it with
  | nil => exact List.Perm.refl _
  | cons n ns ih =>
    rw [List.flatMap_cons, preorder_eq]
    simp only [List.cons_append, List.map_cons, List.reverse_cons, List.flatten_append,
      List.flatMap_append, List.flatten_cons, List.flatten_nil, List.append_nil]
    refine List.Perm.cons _ ?_
    refine (List.Perm.append_left _ ih).trans ?_
    refine List.perm_append_comm.trans ?_
    rw [List.append_assoc]

theorem drain_perm (k : Nat) (st : List (List Node)) (hk : stackSize st ≤ k) :
    (drain k st).Perm (st.flatten.flatMap preorder) := by
  induction k generalizing st with
  | zero =>
    cases st with
    | nil => exact List.Perm.refl _
    | cons it st => simp [stackSize] at hk
  | succ k ih =>
    cases st with
    | nil => exact List.Perm.refl _
    | cons it st =>
      simp only [stackSize] at hk
      have hs : stackSize ((it.map fun n => n.kids.map Node.el).reverse ++ st) ≤ k := by
        rw [stackSize_append, stackSize_reverse, stackSize_kids]; omega
      rw [drain]
      refine (List.Perm.append_left it (ih _ hs)).trans ?_
      simp only [List.flatten_append, List.flatMap_append, List.flatten_cons]
      rw [← List.append_assoc]
      exact List.Perm.append_right _ (flatMap_preorder it).symm

theorem iter_perm (n : Node) : (elementSubtreeIter n).Perm (preorder n) := by
  cases n with
  | root ks =>
    have := drain_perm (Doc.sizes ks + 2) [[.root ks]] (by simp [stackSize, itSize, nodeSize])
    simpa [elementSubtreeIter] using this
  | el d =>
    have := drain_perm (d.size + 1) [[.el d]] (by simp [stackSize, itSize, nodeSize])
    simpa [elementSubtreeIter] using this

theorem inEx_kid {xs : List Ex} {x y : Ex} (hx : InEx xs x) (hy : y ∈ x.kids) : InEx xs y := by
  induction hx with
  | here h => exact .deeper h (.here hy)
  | deeper h _ ih => exact .deeper h (ih hy)

mutual
/-- The elements of an example. -/
def exAll : Ex → List Ex
  | .elem n o s ks => .elem n o s ks :: exAlls ks
def exAlls : List Ex → List Ex
  | [] => []
  | e :: es => exAll e ++ exAlls es
end

mutual
theorem mem_exAll (e x : Ex) : x ∈ exAll e ↔ x = e ∨ InEx e.kids x := by
  match e with
  | .elem n o s ks => simp only [exAll, List.mem_cons, Ex.kids, mem_exAlls ks x]
theorem mem_exAlls (es : List Ex) (x : Ex) : x ∈ exAlls es ↔ InEx es x := by
  match es with
  | [] =>
    simp only [exAlls, List.not_mem_nil, false_iff]
    intro h
    cases h with
    | here h => exact absurd h (by simp)
    | deeper h _ => exact absurd h (by simp)
  | e :: es =>
    rw [exAlls, List.mem_append, mem_exAll e x, mem_exAlls es x]
    constructor
    · rintro ((rfl | h) | h)
      · exact .here (by simp)
      · exact .deeper (x := e) (by simp) h
      · cases h with
        | here h => exact .here (List.mem_cons_of_mem _ h)
        | deeper h h' => exact .deeper (List.mem_cons_of_mem _ h) h'
    · intro h
      cases h with
      | here h =>
        rcases List.mem_cons.1 h with rfl | h
        · exact .inl (.inl rfl)
        · exact .inr (.here h)
      | deeper h h' =>
        rcases List.mem_cons.1 h with rfl | h
        · exact .inl (.inr h')
        · exact .inr (.deeper h h')
end

mutual
theorem mem_docOrder (e x : Doc) : x ∈ docOrder e ↔ x = e ∨ InDoc e.kids x := by
  match e with
  | .elem p n s ks => simp only [docOrder, List.mem_cons, Doc.kids, mem_docOrders ks x]
theorem mem_docOrders (es : List Doc) (x : Doc) : x ∈ docOrders es ↔ InDoc es x := by
  match es with
  | [] =>
    simp only [docOrders, List.not_mem_nil, false_iff]
    intro h
    cases h with
    | here h => exact absurd h (by simp)
    | deeper h _ => exact absurd h (by simp)
  | e :: es =>
    rw [docOrders, List.mem_append, mem_docOrder e x, mem_docOrders es x]
    constructor
    · rintro ((rfl | h) | h)
      · exact .here (by simp)
      · exact .deeper (d := e) (by simp) h
      · cases h with
        | here h => exact .here (List.mem_cons_of_mem _ h)
        | deeper h h' => exact .deeper (List.mem_cons_of_mem _ h) h'
    · intro h
      cases h with
      | here h =>
        rcases List.mem_cons.1 h with rfl | h
        · exact .inl (.inl rfl)
        · exact .inr (.here h)
      | deeper h h' =>
        rcases List.mem_cons.1 h with rfl | h
        · exact .inl (.inr h')
        · exact .inr (.deeper h h')
end

theorem asDocs_eq (xs : List Ex) : asDocs xs = xs.map asDoc := by
  induction xs with
  | nil => rfl
  | cons x xs ih => simp [asDocs, ih]

theorem asDoc_name (x : Ex) : (asDoc x).name = x.name := by
  cases x; rfl

theorem asDoc_kids (x : Ex) : (asDoc x).kids = x.kids.map asDoc := by
  cases x; simp [asDoc, Doc.kids, Ex.kids, asDocs_eq]

theorem asDoc_nss (x : Ex) : (asDoc x).nss = x.nss := by
  cases x; rfl

theorem asDoc_pre (x : Ex) : (asDoc x).pre = none := by
  cases x; rfl

theorem inDoc_asDocs {ks : List Doc} {d : Doc} (h : InDoc ks d) :
    ∀ xs : List Ex, ks = xs.map asDoc → ∃ x, InEx xs x ∧ d = asDoc x := by
  induction h with
  | here h =>
    rintro xs rfl
    obtain ⟨x, hx, rfl⟩ := List.mem_map.1 h
    exact ⟨x, .here hx, rfl⟩
  | deeper h _ ih =>
    rintro xs rfl
    obtain ⟨x, hx, rfl⟩ := List.mem_map.1 h
    obtain ⟨y, hy, rfl⟩ := ih x.kids (asDoc_kids x)
    exact ⟨y, .deeper hx hy, rfl⟩

theorem occurrences_asDoc (n : Name) (xs : List Ex) :
    occurrences n (xs.map asDoc) = (xs.filter fun y => y.name = n).length := by
  simp only [occurrences, List.filter_map, List.length_map]
  congr 1
  refine List.filter_congr fun x _ => ?_
  simp [asDoc_name]

theorem filter_names (n : Name) (xs ys : List Ex) (h : xs.map Ex.name = ys.map Ex.name) :
    (xs.filter fun y => y.name = n).length = (ys.filter fun y => y.name = n).length := by
  have e : ∀ zs : List Ex, (zs.filter fun y => y.name = n).length =
      ((zs.map Ex.name).filter fun m => m = n).length := by
    intro zs
    simp only [List.filter_map, List.length_map]
    rfl
  rw [e, e, h]

/-! ### The constraints -/

/-- What one node of the example adds to the model of its key. -/
def Adds (k : Key) (nss : Nss) (kids : List Ex) (a : Key × Con) : Prop :=
  a = (k, lastCon nss kids) ∨ ∃ x ∈ kids, a ∈ occursCons k nss x.name x.occurs

theorem inEx_nil (x : Ex) : ¬ InEx [] x := by
  intro h
  cases h with
  | here h => exact absurd h (by simp)
  | deeper h _ => exact absurd h (by simp)

theorem inEx_cons (e : Ex) (es : List Ex) (x : Ex) :
    InEx (e :: es) x ↔ x = e ∨ InEx e.kids x ∨ InEx es x := by
  constructor
  · intro h
    cases h with
    | here h =>
      rcases List.mem_cons.1 h with rfl | h
      · exact .inl rfl
      · exact .inr (.inr (.here h))
    | deeper h h' =>
      rcases List.mem_cons.1 h with rfl | h
      · exact .inr (.inl h')
      · exact .inr (.inr (.deeper h h'))
  · rintro (rfl | h | h)
    · exact .here (by simp)
    · exact .deeper (x := e) (by simp) h
    · cases h with
      | here h => exact .here (List.mem_cons_of_mem _ h)
      | deeper h h' => exact .deeper (List.mem_cons_of_mem _ h) h'

mutual
theorem mem_setupChild (parent : Key) (pnss : Nss) (e : Ex) (a : Key × Con) :
    a ∈ setupChild parent pnss e ↔ a ∈ occursCons parent pnss e.name e.occurs ∨
      Adds (some e.name) e.nss e.kids a ∨
      ∃ x, InEx e.kids x ∧ Adds (some x.name) x.nss x.kids a := by
  match e with
  | .elem n occurs nss kids =>
    rw [setupChild]
    simp only [List.mem_append, mem_setupChildren (some n) nss kids a, List.mem_singleton, Ex.name,
      Ex.occurs, Ex.kids, Ex.nss, Adds]
    constructor
    · rintro (h | (h | h) | h)
      · exact .inl h
      · exact .inr (.inl (.inr h))
      · exact .inr (.inr h)
      · exact .inr (.inl (.inl h))
    · rintro (h | (h | h) | h)
      · exact .inl h
      · exact .inr (.inr h)
      · exact .inr (.inl (.inl h))
      · exact .inr (.inl (.inr h))
theorem mem_setupChildren (parent : Key) (pnss : Nss) (es : List Ex) (a : Key × Con) :
    a ∈ setupChildren parent pnss es ↔ (∃ x ∈ es, a ∈ occursCons parent pnss x.name x.occurs) ∨
      ∃ x, InEx es x ∧ Adds (some x.name) x.nss x.kids a := by
  match es with
  | [] => simp [setupChildren, inEx_nil]
  | e :: es =>
    rw [setupChildren]
    simp only [List.mem_append, mem_setupChild parent pnss e a, mem_setupChildren parent pnss es a,
      List.mem_cons, inEx_cons]
    constructor
    · rintro ((h | h | ⟨x, hx, h⟩) | (⟨x, hx, h⟩ | ⟨x, hx, h⟩))
      · exact .inl ⟨e, .inl rfl, h⟩
      · exact .inr ⟨e, .inl rfl, h⟩
      · exact .inr ⟨x, .inr (.inl hx), h⟩
      · exact .inl ⟨x, .inr hx, h⟩
      · exact .inr ⟨x, .inr (.inr hx), h⟩
    · rintro (⟨x, rfl | hx, h⟩ | ⟨x, rfl | hx | hx, h⟩)
      · exact .inl (.inl h)
      · exact .inr (.inl ⟨x, hx, h⟩)
      · exact .inl (.inr (.inl h))
      · exact .inl (.inr (.inr ⟨x, hx, h⟩))
      · exact .inr (.inr ⟨x, hx, h⟩)
end

theorem mem_exampleModel (xs : List Ex) (a : Key × Con) :
    a ∈ exampleModel xs ↔ Adds none (xs.flatMap Ex.nss) xs a ∨
      ∃ x, InEx xs x ∧ Adds (some x.name) x.nss x.kids a := by
  simp only [exampleModel, setupModel, List.mem_append, mem_setupChildren, List.mem_singleton, Adds]
  constructor
  · rintro ((h | h) | h)
    · exact .inl (.inr h)
    · exact .inr h
    · exact .inl (.inl h)
  · rintro ((h | h) | h)
    · exact .inr h
    · exact .inl (.inl h)
    · exact .inl (.inr h)

theorem key_occursCons {k k' : Key} {nss : Nss} {n : Name} {o : Option UStr} {c : Con}
    (h : (k', c) ∈ occursCons k nss n o) : k' = k := by
  simp only [occursCons, List.mem_append] at h
  rcases h with h | h <;> split at h <;> simp_all

theorem key_adds {k k' : Key} {nss : Nss} {xs : List Ex} {c : Con}
    (h : Adds k nss xs (k', c)) : k' = k := by
  rcases h with h | ⟨x, _, h⟩
  · exact (Prod.mk.inj h).1
  · exact key_occursCons h

/-! ### Evaluation -/

/-- No prefix is bound to the namespace of `n`. -/
def Unbound (n : Name) (nss : Nss) : Prop := ∀ u, n.ns = some u → ∀ p, (some p, u) ∉ nss

theorem namedNodeTest_unbound {n : Name} {nss : Nss} (hu : Unbound n nss) (hn : n.ns ≠ some []) :
    (n.ns = none ∧ namedNodeTest n nss = .plain n.loc) ∨
    ∃ u, n.ns = some u ∧ namedNodeTest n nss = .general u n.loc := by
  obtain ⟨ns, l⟩ := n
  match ns, hn with
  | none, _ => exact .inl ⟨rfl, rfl⟩
  | some [], hn => exact absurd rfl hn
  | some (c :: cs), _ =>
    refine .inr ⟨c :: cs, rfl, ?_⟩
    simp only [namedNodeTest]
    split
    · rename_i p u hf
      have h1 := List.find?_some hf
      have h2 := List.mem_of_find?_eq_some hf
      simp only [beq_iff_eq] at h1
      subst h1
      exact absurd h2 (hu _ rfl p)
    · rfl
    · rfl

theorem select_named {n : Name} {nss nss' : Nss} {ks : List Doc} (hu : Unbound n nss)
    (hn : n.ns ≠ some []) :
    select nss' ks (namedNodeTest n nss) = .ok (ks.filter fun d => d.name = n) := by
  obtain ⟨ns, l⟩ := n
  rcases namedNodeTest_unbound hu hn with ⟨h, ht⟩ | ⟨u, h, ht⟩
  · simp only at h; subst h; rw [ht]; rfl
  · simp only at h; subst h; rw [ht]; rfl

theorem selectAny_named {xs : List Ex} {nss nss' : Nss} {ks : List Doc}
    (hu : ∀ x ∈ xs, Unbound x.name nss ∧ x.name.ns ≠ some []) :
    ∃ r, selectAny nss' ks (xs.map fun e => namedNodeTest e.name nss) = .ok r ∧
      ∀ d, r d = true ↔ ∃ x ∈ xs, x.name = d.name := by
  induction xs with
  | nil => exact ⟨_, rfl, by simp⟩
  | cons x xs ih =>
    obtain ⟨r, hr, hd⟩ := ih (fun y hy => hu y (List.mem_cons_of_mem _ hy))
    have hx := hu x (by simp)
    simp only [List.map_cons]
    rcases namedNodeTest_unbound hx.1 hx.2 with ⟨h, ht⟩ | ⟨u, h, ht⟩
    · rw [ht, selectAny, hr]
      refine ⟨_, rfl, fun d => ?_⟩
      simp only [Bool.or_eq_true, decide_eq_true_eq, hd, List.mem_cons, exists_eq_or_imp]
      have : (⟨none, x.name.loc⟩ : Name) = x.name := by rw [← h]
      rw [this]
      exact or_congr ⟨Eq.symm, Eq.symm⟩ Iff.rfl
    · rw [ht, selectAny, hr]
      refine ⟨_, rfl, fun d => ?_⟩
      simp only [Bool.or_eq_true, decide_eq_true_eq, hd, List.mem_cons, exists_eq_or_imp]
      have : (⟨some u, x.name.loc⟩ : Name) = x.name := by rw [← h]
      rw [this]
      exact or_congr ⟨Eq.symm, Eq.symm⟩ Iff.rfl

theorem holds_child {n : Name} {nss : Nss} {ks : List Doc} (hu : Unbound n nss)
    (hn : n.ns ≠ some []) :
    holds nss ks (.child n) = .ok true ↔ 1 ≤ occurrences n ks := by
  have hs := select_named (nss' := nss) (ks := ks) hu hn
  obtain ⟨ns, l⟩ := n
  have key : holds nss ks (.child ⟨ns, l⟩) =
      (do let r ← select nss ks (namedNodeTest ⟨ns, l⟩ nss); .ok (!r.isEmpty)) := by
    match ns, hn with
    | none, _ => rfl
    | some [], hn => exact absurd rfl hn
    | some (c :: cs), _ => rfl
  rw [key, hs]
  simp only [Bind.bind, Except.bind, occurrences, Except.ok.injEq]
  cases ks.filter fun d => decide (d.name = ⟨ns, l⟩) <;> simp

theorem holds_one {n : Name} {nss nss' : Nss} {ks : List Doc} (hu : Unbound n nss)
    (hn : n.ns ≠ some []) :
    holds nss' ks (.one (namedNodeTest n nss)) = .ok true ↔ occurrences n ks = 1 := by
  simp [holds, select_named hu hn, Bind.bind, Except.bind, occurrences]

theorem holds_last {xs : List Ex} {nss nss' : Nss} {ks : List Doc}
    (hu : ∀ x ∈ xs, Unbound x.name nss ∧ x.name.ns ≠ some []) :
    holds nss' ks (lastCon nss xs) = .ok true ↔ ∀ d ∈ ks, ∃ x ∈ xs, x.name = d.name := by
  match xs with
  | [] =>
    simp only [lastCon, holds]
    cases ks with
    | nil => simp
    | cons d ds =>
      constructor
      · intro h
        simp at h
      · intro h
        obtain ⟨x, hx, _⟩ := h d (by simp)
        exact absurd hx (by simp)
  | x :: xs =>
    simp only [lastCon]
    obtain ⟨r, hr, hd⟩ := selectAny_named (nss' := nss') (ks := ks) hu
    simp only [holds, hr, Bind.bind, Except.bind, Except.ok.injEq, beq_iff_eq,
      List.length_filter_eq_length_iff, hd]

theorem holds_occurs {n : Name} {o : Option UStr} {k : Key} {nss nss' : Nss} {ks : List Doc}
    (hu : Unbound n nss) (hu' : Unbound n nss') (hn : n.ns ≠ some []) (ho : o ≠ some (u!! "?")) :
    (∀ c, (k, c) ∈ occursCons k nss n o → holds nss' ks c = .ok true) ↔
      Allowed o (occurrences n ks) := by
  have hc := holds_child (ks := ks) hu' hn
  have h1 := holds_one (ks := ks) (nss' := nss') hu hn
  unfold occursCons Allowed
  rw [if_neg ho]
  by_cases hp : o = some (u!! "+")
  · subst hp
    simp [hc]
  · by_cases hs : o = some (u!! "*")
    · subst hs
      simp
    · simp only [ho, hs, hp, or_self, if_false]
      simp only [List.singleton_append, List.mem_cons, Prod.mk.injEq, true_and, List.not_mem_nil,
        or_false, forall_eq_or_imp, forall_eq, hc, h1]
      omega

/-- What one node of the example demands. -/
theorem holds_adds {xs : List Ex} {k : Key} {nss nss' : Nss} {ks : List Doc}
    (hu : ∀ x ∈ xs, Unbound x.name nss ∧ x.name.ns ≠ some []) (hu' : ∀ x ∈ xs, Unbound x.name nss')
    (ho : ∀ x ∈ xs, x.occurs ≠ some (u!! "?")) :
    (∀ c, Adds k nss xs (k, c) → holds nss' ks c = .ok true) ↔ Like xs ks := by
  constructor
  · intro h
    refine ⟨fun x hx => ?_, (holds_last hu).1 (h _ (.inl rfl))⟩
    exact (holds_occurs (k := k) (hu x hx).1 (hu' x hx) (hu x hx).2 (ho x hx)).1
      (fun c hc => h c (.inr ⟨x, hx, hc⟩))
  · rintro ⟨hc, hk⟩ c (hl | ⟨x, hx, hm⟩)
    · rw [(Prod.mk.inj hl).2]
      exact (holds_last hu).2 hk
    · exact (holds_occurs (k := k) (hu x hx).1 (hu' x hx) (hu x hx).2 (ho x hx)).2 (hc x hx) c hm

end Verif.Eg
