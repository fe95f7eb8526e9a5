import Verif.Util.Iter

/-
C41 and C43.
-/
namespace Verif.Util.Spec
open Verif

/-- The pieces of a string between the separators, from the left: each piece ends where the separator
occurs for the first time. -/
inductive IsSplit (sep : Str) : Str → List Str → Prop
  | last {s : Str} (h : ∀ a b, s ≠ a ++ sep ++ b) : IsSplit sep s [s]
  | more {p s : Str} {ps : List Str} (first : ∀ a b, p ++ sep = a ++ sep ++ b → b = []) (rest : IsSplit sep s ps) :
      IsSplit sep (p ++ sep ++ s) (p :: ps)

mutual
/-- The elements of the subtree below a node, in document order. -/
def below : Nd → List Nd
  | .mk _ _ _ cs => belowAll cs
def belowAll : List Nd → List Nd
  | [] => []
  | c :: cs => (if c.isElement then [c] ++ below c else []) ++ belowAll cs
end

end Verif.Util.Spec

namespace Verif.Util
open Verif Verif.Util.Spec

/-! C41 -/

theorem splitLoop_spec {sep : Str} (hs : sep ≠ []) (fuel : Nat) (acc s : Str) (hf : s.length ≤ fuel)
    (hacc : ∀ a b, acc.reverse ++ s = a ++ sep ++ b → acc.length ≤ a.length) :
    IsSplit sep (acc.reverse ++ s) (splitLoop sep fuel acc s) := by
  have hlen : 0 < sep.length := List.length_pos_iff.2 hs
  have hnil : ∀ acc : Str, (∀ a b, acc.reverse ++ [] = a ++ sep ++ b → acc.length ≤ a.length) →
      IsSplit sep (acc.reverse ++ []) [acc.reverse] := by
    intro acc hacc
    rw [List.append_nil]
    refine .last fun a b h => ?_
    have h1 := hacc a b (by rw [List.append_nil]; exact h)
    have h2 := congrArg List.length h
    simp only [List.length_append, List.length_reverse] at h2
    omega
  induction fuel generalizing acc s with
  | zero =>
    have : s = [] := List.length_eq_zero_iff.1 (Nat.le_zero.1 hf)
    subst this
    exact hnil acc hacc
  | succ fuel ih =>
    match s with
    | [] => exact hnil acc hacc
    | c :: cs =>
      rw [splitLoop]
      split
      · rename_i hp
        obtain ⟨s', hs'⟩ := List.isPrefixOf_iff_prefix.1 hp
        rw [← hs', List.drop_left, ← List.append_assoc]
        refine .more (fun a b h => ?_) ?_
        · have h1 := hacc a (b ++ s') (by rw [← hs', ← List.append_assoc, h]; simp)
          have h2 := congrArg List.length h
          simp only [List.length_append, List.length_reverse] at h2
          exact List.length_eq_zero_iff.1 (by omega)
        · refine ih [] s' ?_ (fun _ _ _ => Nat.zero_le _)
          have h2 := congrArg List.length hs'
          rw [List.length_append] at h2
          omega
      · rename_i hp
        have e : acc.reverse ++ c :: cs = (c :: acc).reverse ++ cs := by simp
        rw [e]
        refine ih (c :: acc) cs (by simpa using hf) fun a b h => ?_
        have h1 := hacc a b (e.trans h)
        rcases Nat.lt_or_eq_of_le h1 with h1 | h1
        · exact h1
        · exfalso
          rw [← e, List.append_assoc] at h
          have := (List.append_inj h (by simpa using h1)).2
          exact hp (List.isPrefixOf_iff_prefix.2 ⟨b, this.symm⟩)

/-- Splitting the rest of a text that has been split up to some point. -/
theorem isSplit_extend {sep x y : Str} {ps qs : List Str} (h : IsSplit sep x ps)
    (hq : IsSplit sep (ps.getLastD [] ++ y) qs) : IsSplit sep (x ++ y) (ps.dropLast ++ qs) := by
  induction h with
  | last _ => simpa using hq
  | @more p s ps first rest ih =>
    match ps, rest with
    | q :: ps, rest =>
      have := ih (by simpa using hq)
      rw [List.dropLast_cons_of_ne_nil (by simp), List.cons_append, List.append_assoc]
      exact .more first this

theorem isSplit_lastPiece {sep s : Str} {ps : List Str} (h : IsSplit sep s ps) :
    ∀ a b, ps.getLastD [] ≠ a ++ sep ++ b := by
  induction h with
  | last h => exact h
  | @more p s ps first rest ih =>
    match ps, rest with
    | q :: ps, rest => simpa using ih

/-- There is only one way to split a string. -/
theorem C41_unique {sep s : Str} {ps qs : List Str} (h : IsSplit sep s ps) (h' : IsSplit sep s qs) : ps = qs := by
  induction h generalizing qs with
  | last h =>
    cases h' with
    | last _ => rfl
    | more _ _ => exact absurd rfl (h _ _)
  | @more p s ps first rest ih =>
    generalize hx : p ++ sep ++ s = x at h'
    cases h' with
    | last h => exact absurd hx.symm (h _ _)
    | @more q t qs first' rest' =>
      have key : ∀ {p q s t : Str}, p ++ sep ++ s = q ++ sep ++ t → (∀ a b, q ++ sep = a ++ sep ++ b → b = []) →
          q.length ≤ p.length := by
        intro p q s t he hq
        rcases Nat.lt_or_ge p.length q.length with hlt | hge
        · exfalso
          rcases List.append_eq_append_iff.1 he with ⟨a, h1, _⟩ | ⟨a, h1, _⟩
          · have := hq p a h1
            subst this
            have := congrArg List.length h1
            simp at this
            omega
          · have := congrArg List.length h1
            simp at this
            omega
        · exact hge
      have hl : p.length = q.length := Nat.le_antisymm (key hx.symm first) (key hx first')
      rw [List.append_assoc, List.append_assoc] at hx
      obtain ⟨h1, h2⟩ := List.append_inj hx hl
      subst h1
      rw [List.append_cancel_left_eq] at h2
      subst h2
      rw [ih rest']

theorem sepLoop_spec {sep : Str} (hs : sep ≠ []) (leftover : Str) (chunks : List Str)
    (hl : ∀ a b, leftover ≠ a ++ sep ++ b) :
    ∃ out, sepLoop sep leftover chunks = some out ∧ IsSplit sep (leftover ++ chunks.flatten) out := by
  induction chunks generalizing leftover with
  | nil => exact ⟨_, rfl, by simpa using .last hl⟩
  | cons next more ih =>
    have h := splitLoop_spec hs (leftover ++ next).length [] (leftover ++ next) (Nat.le_refl _) (fun _ _ _ => Nat.zero_le _)
    rw [List.reverse_nil, List.nil_append] at h
    obtain ⟨out, h1, h2⟩ := ih _ (isSplit_lastPiece h)
    refine ⟨_, by simp only [sepLoop, pySplit, if_neg hs, h1]; rfl, ?_⟩
    rw [List.flatten_cons, ← List.append_assoc]
    exact isSplit_extend h h2

theorem reads_flatten {n : Int} (hn : n ≠ 0) (fuel : Nat) (s : Str) (hf : s.length < fuel) :
    (reads n fuel s).flatten = s := by
  induction fuel generalizing s with
  | zero => omega
  | succ fuel ih =>
    rw [reads]
    split
    · split <;> simp_all
    · dsimp only
      have hp : 0 < n.toNat := by omega
      split
      · rename_i h
        rw [List.take_eq_nil_iff] at h
        rcases h with h | h
        · omega
        · simp [h]
      · rename_i h
        have hl : 0 < s.length := List.length_pos_iff.2 (fun e => h (by simp [e]))
        rw [List.flatten_cons, ih _ (by rw [List.length_drop]; omega), List.take_append_drop]

/-- The pieces are those of the whole contents, for each separator and each buffer size but 0. -/
theorem C41_pieces (contents sep : Str) (buffersize : Int) (hs : sep ≠ []) (hb : buffersize ≠ 0) :
    ∃ out, readbysep contents sep buffersize = some out ∧ IsSplit sep contents out := by
  have hl : ∀ a b, ([] : Str) ≠ a ++ sep ++ b := by
    intro a b h
    have := (List.append_eq_nil_iff.1 h.symm).1
    exact hs (List.append_eq_nil_iff.1 this).2
  obtain ⟨out, h1, h2⟩ := sepLoop_spec hs [] (reads buffersize (contents.length + 1) contents) hl
  refine ⟨out, h1, ?_⟩
  rwa [List.nil_append, reads_flatten hb _ _ (Nat.lt_succ_self _)] at h2

/-- Neither do the pieces depend on how the file object divides its contents among the calls of `read`. -/
theorem C41_chunks (chunks : List Str) (sep : Str) (hs : sep ≠ []) :
    ∃ out, sepLoop sep [] chunks = some out ∧ IsSplit sep chunks.flatten out := by
  obtain ⟨out, h1, h2⟩ := sepLoop_spec hs [] chunks (by
    intro a b h
    have := (List.append_eq_nil_iff.1 h.symm).1
    exact hs (List.append_eq_nil_iff.1 this).2)
  exact ⟨out, h1, by simpa using h2⟩

/-- A separator that lies across a boundary; the end of the contents is a piece, even if it is empty (the
docstring of `readbysep` says otherwise). -/
example : readbysep (s!! "a--b---c--") (s!! "--") 2 = some [s!! "a", s!! "b", s!! "-c", []] := by decide +kernel

/-- A buffer size of 0 reads nothing. -/
theorem C41_refuted_zero (contents sep : Str) : readbysep contents sep 0 = some [[]] := by
  simp [readbysep, reads, sepLoop]

/-! C43 -/

theorem sizes_append (a b : List Nd) : sizes (a ++ b) = sizes a + sizes b := by
  induction a with
  | nil => simp [sizes]
  | cons x a ih => rw [List.cons_append, sizes, sizes, ih]; omega

theorem sizes_filter (p : Nd → Bool) (l : List Nd) : sizes (l.filter p) ≤ sizes l := by
  induction l with
  | nil => simp [sizes]
  | cons x l ih =>
    rw [List.filter_cons]
    split <;> simp only [sizes] <;> omega

theorem size_eq (n : Nd) : size n = 1 + sizes n.children := by
  cases n; rfl

theorem sizes_elementChildren (n : Nd) : sizes (elementChildren n) + 1 ≤ size n := by
  have := sizes_filter Nd.isElement n.children
  rw [size_eq]
  unfold elementChildren
  omega

/-- The subtrees' nodes, for a list of elements. -/
def forest : List Nd → List Nd
  | [] => []
  | n :: ns => n :: below n ++ forest ns

theorem belowAll_eq (l : List Nd) : belowAll l = forest (l.filter Nd.isElement) := by
  induction l with
  | nil => simp [belowAll, forest]
  | cons c l ih =>
    rw [belowAll, ih, List.filter_cons]
    cases c.isElement <;> simp [forest]

theorem below_eq (n : Nd) : below n = forest (elementChildren n) := by
  cases n with
  | mk i e t cs => rw [below, belowAll_eq]; rfl

theorem forest_perm (l : List Nd) : (forest l).Perm (l ++ (l.map fun n => forest (elementChildren n)).flatten) := by
  induction l with
  | nil => exact .refl _
  | cons n l ih =>
    rw [forest, List.map_cons, List.flatten_cons, List.cons_append, List.cons_append, below_eq]
    refine .cons _ ?_
    refine (ih.append_left _).trans ?_
    rw [← List.append_assoc, ← List.append_assoc]
    exact List.perm_append_comm.append_right _

theorem flatten_reverse_perm {α : Type} (l : List (List α)) : l.reverse.flatten.Perm l.flatten := by
  induction l with
  | nil => exact .refl _
  | cons x l ih =>
    rw [List.reverse_cons, List.flatten_append, List.flatten_cons]
    simpa using (ih.append_right x).trans List.perm_append_comm

theorem iterLoop_perm (fuel : Nat) (stack : List (List Nd)) (hf : stack.length + sizes stack.flatten ≤ fuel) :
    (iterLoop fuel stack).Perm (stack.map forest).flatten := by
  induction fuel generalizing stack with
  | zero =>
    have : stack = [] := List.length_eq_zero_iff.1 (by omega)
    subst this
    exact .refl _
  | succ fuel ih =>
    match stack with
    | [] => exact .refl _
    | curr :: stack =>
      rw [iterLoop, List.map_cons, List.flatten_cons]
      have hb : (curr.map elementChildren).length + sizes (curr.map elementChildren).flatten ≤ sizes curr := by
        clear hf ih
        induction curr with
        | nil => simp [sizes]
        | cons n l ih =>
          rw [List.map_cons, List.flatten_cons, sizes_append, List.length_cons, sizes]
          have := sizes_elementChildren n
          omega
      have hsz : ∀ l : List (List Nd), sizes l.reverse.flatten = sizes l.flatten := by
        intro l
        induction l with
        | nil => rfl
        | cons x l ih =>
          rw [List.reverse_cons, List.flatten_append, sizes_append, ih, List.flatten_singleton, List.flatten_cons,
            sizes_append]
          omega
      have := ih ((curr.map elementChildren).reverse ++ stack) (by
        rw [List.flatten_append, sizes_append, hsz, List.length_append, List.length_reverse]
        rw [List.length_cons, List.flatten_cons, sizes_append] at hf
        omega)
      refine (this.append_left curr).trans ?_
      rw [List.map_append, List.flatten_append, ← List.append_assoc]
      refine List.Perm.append_right _ ?_
      refine List.Perm.trans ?_ (forest_perm curr).symm
      refine List.Perm.append_left _ ?_
      rw [List.map_reverse, List.map_map]
      exact flatten_reverse_perm _

/-- Each element below the node is visited once.  The node itself comes in addition if it is an element, or
if it is an entity and `include_root` is true.  (Missing: the order; and an element is visited itself even if
`include_root` is false.) -/
theorem C43_once_partial (n : Nd) (includeRoot : Bool) :
    (elementSubtreeIter n includeRoot).Perm
      ((if n.isElement || (includeRoot && n.isEntity) then [n] else []) ++ below n) := by
  unfold elementSubtreeIter
  dsimp only
  split
  · refine (iterLoop_perm _ _ ?_).trans ?_
    · simp [sizes]; omega
    · simp [forest]
  · refine (iterLoop_perm _ _ ?_).trans ?_
    · have := sizes_elementChildren n
      simp; omega
    · simp [below_eq]

/-- `<a><b><c/></b>text<d/></a>` -/
def sampleTree : Nd := .mk 1 true false [.mk 2 true false [.mk 3 true false []], .mk 4 false false [], .mk 5 true false []]

example : (below sampleTree).map Nd.id = [2, 3, 5] := by decide +kernel

/-- The elements are not in document order: the third comes last (util.py:31 appends, 29 pops from the
end). -/
theorem C43_refuted_order : (elementSubtreeIter sampleTree true).map Nd.id = [1, 2, 5, 3] ∧
    (sampleTree :: below sampleTree).map Nd.id = [1, 2, 3, 5] := by decide +kernel

/-- An element is visited itself, with or without `include_root` (util.py:23). -/
theorem C43_refuted_root : (elementSubtreeIter sampleTree false).map Nd.id = [1, 2, 5, 3] := by decide +kernel

end Verif.Util
