import Verif.Parse.Ast
import Verif.Parse.GrammarSpec
/-
The rules of XPath expressions in the tables of another parser
(xpath_grammar.bgen.frag is included in lib/xslt/expressions/avt.bgen and
lib/xslt/xpatterns/xpattern.bgen): the same rules with other numbers.
-/
namespace Verif.Parse
open Spec

/-- A token with the number it has in the other parser. -/
def mapTok (f : Nat → Nat) (t : Tok) : Tok := ⟨f t.kind, t.text⟩

mutual
/-- A tree with the numbers of the other parser. -/
def mapTree (f : Nat → Nat) (o : Nat) : Tree → Tree
  | .leaf t => .leaf (mapTok f t)
  | .node r ks => .node (r + o) (mapTrees f o ks)
def mapTrees (f : Nat → Nat) (o : Nat) : Trees → Trees
  | .nil => .nil
  | .cons t ts => .cons (mapTree f o t) (mapTrees f o ts)
end

mutual
/-- And back. -/
def unmapTree (g : Nat → Nat) (o : Nat) : Tree → Tree
  | .leaf t => .leaf (mapTok g t)
  | .node r ks => .node (r - o) (unmapTrees g o ks)
def unmapTrees (g : Nat → Nat) (o : Nat) : Trees → Trees
  | .nil => .nil
  | .cons t ts => .cons (unmapTree g o t) (unmapTrees g o ts)
end

/-- The rules of `T` are those of `T'` from `o + 1` on, with the symbols renamed
by `f` (`g` is its inverse; there are `n` symbols), and no other rule of `T'`
makes one of these symbols. -/
def checkEmbed (T T' : Tables) (f g : Nat → Nat) (o n : Nat) : Bool :=
  decide (T'.rhs.length = T.rhs.length + o) &&
  (List.range T.rhs.length).all (fun r => r == 0 ||
    (decide (T'.rhs.getD (r + o) [] = (T.rhs.getD r []).map f) &&
     decide (T'.derives.getD (r + o) 0 = f (T.derives.getD r 0)) &&
     decide (0 < T.derives.getD r 0 ∧ T.derives.getD r 0 < n) &&
     (T.rhs.getD r []).all (fun x => decide (0 < x ∧ x < n)))) &&
  (List.range (o + 1)).all (fun r => r == 0 ||
    (List.range n).all (fun x => x == 0 || decide (T'.derives.getD r 0 ≠ f x))) &&
  (List.range n).all (fun x => x == 0 ||
    (decide (g (f x) = x) && decide (0 < f x) && (decide (x < T.ntBase) == decide (f x < T'.ntBase))))

set_option linter.unusedSectionVars false

section
variable {T T' : Tables} {f g : Nat → Nat} {o n : Nat} (h : checkEmbed T T' f g o n = true)
include h

theorem embed_length : T'.rhs.length = T.rhs.length + o := by
  simp only [checkEmbed, Bool.and_eq_true, decide_eq_true_eq] at h
  exact h.1.1.1

theorem embed_rule {r : Nat} (h0 : 0 < r) (hr : r < T.rhs.length) :
    T'.rhs.getD (r + o) [] = (T.rhs.getD r []).map f ∧
    T'.derives.getD (r + o) 0 = f (T.derives.getD r 0) ∧
    (0 < T.derives.getD r 0 ∧ T.derives.getD r 0 < n) ∧
    ∀ x ∈ T.rhs.getD r [], 0 < x ∧ x < n := by
  simp only [checkEmbed, Bool.and_eq_true, decide_eq_true_eq] at h
  have := List.all_eq_true.mp h.1.1.2 r (List.mem_range.mpr hr)
  simp only [Bool.or_eq_true, beq_iff_eq, Bool.and_eq_true, decide_eq_true_eq, List.all_eq_true] at this
  rcases this with h1 | ⟨⟨⟨h1, h2⟩, h3⟩, h4⟩
  · omega
  · exact ⟨h1, h2, h3, h4⟩

theorem embed_other {r x : Nat} (h0 : 0 < r) (hr : r ≤ o) (hx : 0 < x ∧ x < n) :
    T'.derives.getD r 0 ≠ f x := by
  simp only [checkEmbed, Bool.and_eq_true, decide_eq_true_eq] at h
  have := List.all_eq_true.mp h.1.2 r (List.mem_range.mpr (by omega))
  simp only [Bool.or_eq_true, beq_iff_eq, List.all_eq_true, decide_eq_true_eq, List.mem_range] at this
  rcases this with h1 | h1
  · omega
  · exact (h1 x hx.2).resolve_left (by omega)

theorem embed_sym {x : Nat} (hx : 0 < x ∧ x < n) :
    g (f x) = x ∧ 0 < f x ∧ (x < T.ntBase ↔ f x < T'.ntBase) := by
  simp only [checkEmbed, Bool.and_eq_true, decide_eq_true_eq] at h
  have := List.all_eq_true.mp h.2 x (List.mem_range.mpr hx.2)
  simp only [Bool.or_eq_true, beq_iff_eq, Bool.and_eq_true, decide_eq_true_eq, decide_eq_decide] at this
  rcases this with h1 | ⟨⟨h1, h2⟩, h3⟩
  · omega
  · exact ⟨h1, h2, h3⟩

theorem embed_inj {x y : Nat} (hx : 0 < x ∧ x < n) (hy : 0 < y ∧ y < n) (e : f x = f y) : x = y := by
  rw [← (embed_sym h hx).1, e, (embed_sym h hy).1]

variable (hn : T.ntBase ≤ n)
include hn

mutual
theorem map_derives : ∀ {t : Tree}, Derives (grammar T) t →
    Derives (grammar T') (mapTree f o t) ∧
      root (grammar T').lhs (mapTree f o t) = f (root (grammar T).lhs t) ∧
      0 < root (grammar T).lhs t ∧ root (grammar T).lhs t < n
  | .leaf t, .leaf _ ht => by
    have hs := embed_sym h (x := t.kind) ⟨ht.1, Nat.lt_of_lt_of_le ht.2 hn⟩
    exact ⟨.leaf _ ⟨hs.2.1, hs.2.2.mp ht.2⟩, rfl, ht.1, Nat.lt_of_lt_of_le ht.2 hn⟩
  | .node r ks, .node _ _ hr he hd => by
    have hk := map_derivesAll hd
    obtain ⟨h1, h2, h3, _⟩ := embed_rule h hr.1 hr.2
    refine ⟨.node _ _ ⟨?_, ?_⟩ ?_ hk.1, h2, h3⟩
    · have : 0 < r := hr.1
      omega
    · rw [embed_length h]
      have : r < T.rhs.length := hr.2
      omega
    · rw [hk.2, he]
      exact h1.symm
theorem map_derivesAll : ∀ {ts : Trees}, DerivesAll (grammar T) ts →
    DerivesAll (grammar T') (mapTrees f o ts) ∧
      roots (grammar T').lhs (mapTrees f o ts) = (roots (grammar T).lhs ts).map f
  | .nil, _ => ⟨.nil, rfl⟩
  | .cons t ts, .cons _ _ h1 h2 => by
    have a := map_derives h1
    have b := map_derivesAll h2
    refine ⟨.cons _ _ a.1 b.1, ?_⟩
    rw [mapTrees, roots, roots, a.2.1, b.2, List.map_cons]
end

mutual
theorem unmap_derives : ∀ {t : Tree}, Derives (grammar T') t → ∀ x, 0 < x ∧ x < n →
    root (grammar T').lhs t = f x →
    Derives (grammar T) (unmapTree g o t) ∧ root (grammar T).lhs (unmapTree g o t) = x ∧
      mapTree f o (unmapTree g o t) = t
  | .leaf t, .leaf _ ht, x, hx, e => by
    have hs := embed_sym h hx
    have e : t.kind = f x := e
    have eg : g t.kind = x := by rw [e, hs.1]
    refine ⟨.leaf _ ?_, eg, ?_⟩
    · show 0 < g t.kind ∧ g t.kind < T.ntBase
      rw [eg]
      refine ⟨hx.1, hs.2.2.mpr ?_⟩
      rw [← e]
      exact ht.2
    · show Tree.leaf ⟨f (g t.kind), t.text⟩ = .leaf t
      rw [eg, ← e]
  | .node r ks, .node _ _ hr he hd, x, hx, e => by
    have e : T'.derives.getD r 0 = f x := e
    have hr1 : 0 < r := hr.1
    have hr2 : r < T'.rhs.length := hr.2
    have hro : ¬ r ≤ o := fun hle => embed_other h hr1 hle hx e
    obtain ⟨q, rfl⟩ : ∃ q, r = q + o := ⟨r - o, by omega⟩
    rw [embed_length h] at hr2
    obtain ⟨h1, h2, h3, h4⟩ := embed_rule h (r := q) (by omega) (by omega)
    have hx' : T.derives.getD q 0 = x := embed_inj h h3 hx (by rw [← h2, e])
    have hk := unmap_derivesAll hd (T.rhs.getD q []) h4 (he.trans h1)
    have eq : q + o - o = q := by omega
    refine ⟨?_, ?_, ?_⟩
    · rw [unmapTree, eq]
      exact .node _ _ ⟨show 0 < q by omega, show q < T.rhs.length by omega⟩ hk.2.1 hk.1
    · show T.derives.getD (q + o - o) 0 = x
      rw [eq, hx']
    · rw [unmapTree, eq, mapTree, hk.2.2]
theorem unmap_derivesAll : ∀ {ts : Trees}, DerivesAll (grammar T') ts → ∀ xs : List Nat,
    (∀ x ∈ xs, 0 < x ∧ x < n) → roots (grammar T').lhs ts = xs.map f →
    DerivesAll (grammar T) (unmapTrees g o ts) ∧ roots (grammar T).lhs (unmapTrees g o ts) = xs ∧
      mapTrees f o (unmapTrees g o ts) = ts
  | .nil, _, [], _, _ => ⟨.nil, rfl, rfl⟩
  | .nil, _, _ :: _, _, e => (nomatch e)
  | .cons _ _, _, [], _, e => (nomatch e)
  | .cons t ts, .cons _ _ h1 h2, x :: xs, hx, e => by
    injection e with e1 e2
    have a := unmap_derives h1 x (hx x List.mem_cons_self) e1
    have b := unmap_derivesAll h2 xs (fun y hy => hx y (List.mem_cons_of_mem _ hy)) e2
    refine ⟨.cons _ _ a.1 b.1, ?_, ?_⟩
    · rw [unmapTrees, roots, a.2.1, b.2.1]
    · rw [unmapTrees, mapTrees, a.2.2, b.2.2]
end

end

mutual
theorem map_yield (f : Nat → Nat) (o : Nat) : ∀ t : Tree,
    yield (mapTree f o t) = (yield t).map (mapTok f)
  | .leaf _ => rfl
  | .node _ ks => map_yields f o ks
theorem map_yields (f : Nat → Nat) (o : Nat) : ∀ ts : Trees,
    yields (mapTrees f o ts) = (yields ts).map (mapTok f)
  | .nil => rfl
  | .cons t ts => by rw [mapTrees, yields, yields, map_yield, map_yields, List.map_append]
end

mutual
theorem map_room (f : Nat → Nat) (o : Nat) : ∀ t : Tree, room (mapTree f o t) = room t
  | .leaf _ => rfl
  | .node _ ks => by rw [mapTree, room, room, map_roomAll]
theorem map_roomAll (f : Nat → Nat) (o : Nat) : ∀ ts : Trees, roomAll (mapTrees f o ts) = roomAll ts
  | .nil => rfl
  | .cons t ts => by rw [mapTrees, roomAll, roomAll, map_room, map_roomAll]
end

end Verif.Parse
