import Verif.Xslt.ImportSpec
import Verif.Content.Closure

/-
Lemmas about reading stylesheets.
-/
namespace Verif.Xslt
open Verif Verif.Template Spec

variable {α : Type} {files : Str → Option (SheetDoc α)}

theorem andThen_ok {r : ReadRes α} {k : Nat → ReadRes α} {out n} (h : andThen r k = some (.ok (out, n))) :
    ∃ a i b, r = some (.ok (a, i)) ∧ k i = some (.ok (b, n)) ∧ out = a ++ b := by
  unfold andThen at h
  split at h
  · rename_i a i
    split at h
    · rename_i b i' e
      simp only [Option.some.injEq, Except.ok.injEq, Prod.mk.injEq] at h
      exact ⟨a, i, b, rfl, by rw [e, h.2], h.1.symm⟩
    · rename_i hne
      exact absurd h (hne _ _)
  · rename_i hne
    exact absurd h (hne _ _)

theorem andThen_error {r : ReadRes α} {k : Nat → ReadRes α} {e} (h : andThen r k = some (.error e)) :
    r = some (.error e) ∨ ∃ i, k i = some (.error e) := by
  unfold andThen at h
  split at h
  · rename_i a i
    split at h
    · exact nomatch h
    · exact .inr ⟨_, h⟩
  · exact .inl h

theorem andThen_none {r : ReadRes α} {k : Nat → ReadRes α} (h : andThen r k = none) : r = none ∨ ∃ i, k i = none := by
  unfold andThen at h
  split at h
  · split at h
    · exact nomatch h
    · exact .inr ⟨_, h⟩
  · exact .inl h

/-! The numbering of the code on the unfolded stylesheet -/

mutual
def num : Whole α → Nat → List (α × Nat) × Nat
  | .mk is ps, i => ((numAll is i).1 ++ (numParts ps (numAll is i).2).1, (numParts ps (numAll is i).2).2)

def numAll : Wholes α → Nat → List (α × Nat) × Nat
  | .nil, i => ([], i)
  | .cons m ms, i => ((num m i).1 ++ (numAll ms ((num m i).2 + 1)).1, (numAll ms ((num m i).2 + 1)).2)

def numParts : Parts α → Nat → List (α × Nat) × Nat
  | .nil, i => ([], i)
  | .decl x ps, i => ((x, i) :: (numParts ps i).1, (numParts ps i).2)
  | .incl m ps, i => ((num m i).1 ++ (numParts ps (num m i).2).1, (numParts ps (num m i).2).2)
end

theorem readImports_num {rd : Str → Nat → ReadRes α} {visited}
    (hrd : ∀ {u i out n}, rd u i = some (.ok (out, n)) → ∃ m, Unfolds files u m ∧ num m i = (out, n)) :
    ∀ {us i out n}, readImports rd visited us i = some (.ok (out, n)) →
      ∃ ms, UnfoldsAll files us ms ∧ numAll ms i = (out, n)
  | [], i, out, n, h => by
    simp only [readImports, Option.some.injEq, Except.ok.injEq] at h
    exact ⟨.nil, .nil, h⟩
  | u :: us, i, out, n, h => by
    simp only [readImports] at h
    split at h
    · exact nomatch h
    · obtain ⟨a, j, b, h1, h2, rfl⟩ := andThen_ok h
      obtain ⟨m, hm, e⟩ := hrd h1
      obtain ⟨ms, hms, e'⟩ := readImports_num hrd h2
      exact ⟨.cons m ms, .cons hm hms, by simp [numAll, e, e']⟩

theorem readItems_num {rd : Str → Nat → ReadRes α} {visited}
    (hrd : ∀ {u i out n}, rd u i = some (.ok (out, n)) → ∃ m, Unfolds files u m ∧ num m i = (out, n)) :
    ∀ {its i out n}, readItems rd visited its i = some (.ok (out, n)) →
      ∃ ps, UnfoldsParts files its ps ∧ numParts ps i = (out, n)
  | [], i, out, n, h => by
    simp only [readItems, Option.some.injEq, Except.ok.injEq] at h
    exact ⟨.nil, .nil, h⟩
  | .decl x :: its, i, out, n, h => by
    simp only [readItems] at h
    obtain ⟨a, j, b, h1, h2, rfl⟩ := andThen_ok h
    simp only [Option.some.injEq, Except.ok.injEq, Prod.mk.injEq] at h1
    obtain ⟨rfl, rfl⟩ := h1
    obtain ⟨ps, hps, e'⟩ := readItems_num hrd h2
    exact ⟨.decl x ps, .decl hps, by simp [numParts, e']⟩
  | .incl u :: its, i, out, n, h => by
    simp only [readItems] at h
    split at h
    · exact nomatch h
    · obtain ⟨a, j, b, h1, h2, rfl⟩ := andThen_ok h
      obtain ⟨m, hm, e⟩ := hrd h1
      obtain ⟨ps, hps, e'⟩ := readItems_num hrd h2
      exact ⟨.incl m ps, .incl hm hps, by simp [numParts, e, e']⟩

theorem readSheet_num : ∀ {fuel visited u i out n}, readSheet files fuel visited u i = some (.ok (out, n)) →
    ∃ m, Unfolds files u m ∧ num m i = (out, n)
  | 0, _, _, _, _, _, h => nomatch h
  | fuel + 1, visited, u, i, out, n, h => by
    simp only [readSheet] at h
    split at h
    · exact nomatch h
    · rename_i d hd
      obtain ⟨a, j, b, h1, h2, rfl⟩ := andThen_ok h
      obtain ⟨is, his, e⟩ := readImports_num (fun h => readSheet_num h) h1
      obtain ⟨ps, hps, e'⟩ := readItems_num (fun h => readSheet_num h) h2
      exact ⟨.mk is ps, .mk hd his hps, by simp [num, e, e']⟩

/-! The numbering against the layers -/

theorem number_append : ∀ (a b : List (List α)) (i : Nat), number (a ++ b) i = number a i ++ number b (i + a.length)
  | [], b, i => by simp [number]
  | x :: a, b, i => by
    simp only [List.cons_append, number, number_append a b, List.append_assoc, List.length_cons]
    congr 3
    omega

mutual
theorem num_layers : ∀ {m : Whole α} {i : Nat}, InOrder m →
    num m i = (number (below m) i ++ (own m).map (·, i + (below m).length), i + (below m).length)
  | .mk is ps, i, h => by
    simp only [InOrder] at h
    rw [num, numAll_layers h.1, numParts_layers h.2]
    simp only [below, own, number_append, List.length_append, List.append_assoc, Nat.add_assoc]

theorem numAll_layers : ∀ {ms : Wholes α} {i : Nat}, InOrderAll ms →
    numAll ms i = (number (belowAll ms) i, i + (belowAll ms).length)
  | .nil, i, _ => by simp [numAll, belowAll, number]
  | .cons m ms, i, h => by
    simp only [InOrderAll] at h
    rw [numAll, num_layers h.1, numAll_layers h.2]
    simp only [belowAll, number_append, List.length_append, List.append_assoc, number, List.append_nil,
      List.length_cons, List.length_nil, Nat.add_assoc, Nat.zero_add]

theorem numParts_layers : ∀ {ps : Parts α} {i : Nat}, InOrderParts ps →
    numParts ps i =
      (number (belowParts ps) i ++ (ownParts ps).map (·, i + (belowParts ps).length), i + (belowParts ps).length)
  | .nil, i, _ => by simp [numParts, belowParts, ownParts, number]
  | .decl x ps, i, h => by
    simp only [InOrderParts] at h
    rw [numParts, numParts_layers h.2]
    simp [belowParts, ownParts, h.1, number]
  | .incl m ps, i, h => by
    simp only [InOrderParts] at h
    rw [numParts, num_layers h.1, numParts_layers h.2.2]
    rcases h.2.1 with e | e
    · simp only [belowParts, ownParts, e, number_append, List.length_append, List.append_assoc, List.map_nil,
        List.nil_append, Nat.add_assoc]
    · simp only [belowParts, ownParts, e, List.append_assoc, number,
        List.append_nil, List.length_nil, Nat.add_zero, List.map_append, List.nil_append]
end

mutual
theorem num_mono : ∀ {m : Whole α} {i : Nat}, i ≤ (num m i).2 ∧ (num m i).1.Pairwise (·.2 ≤ ·.2) ∧
    ∀ x ∈ (num m i).1, i ≤ x.2 ∧ x.2 ≤ (num m i).2
  | .mk is ps, i => by
    obtain ⟨a1, a2, a3⟩ := numAll_mono (ms := is) (i := i)
    obtain ⟨b1, b2, b3⟩ := numParts_mono (ps := ps) (i := (numAll is i).2)
    simp only [num]
    refine ⟨by omega, List.pairwise_append.2 ⟨a2, b2, fun x hx y hy => ?_⟩, fun x hx => ?_⟩
    · have := a3 x hx; have := b3 y hy; omega
    · rcases List.mem_append.1 hx with h | h
      · have := a3 x h; omega
      · have := b3 x h; omega

theorem numAll_mono : ∀ {ms : Wholes α} {i : Nat}, i ≤ (numAll ms i).2 ∧ (numAll ms i).1.Pairwise (·.2 ≤ ·.2) ∧
    ∀ x ∈ (numAll ms i).1, i ≤ x.2 ∧ x.2 ≤ (numAll ms i).2
  | .nil, i => by simp [numAll]
  | .cons m ms, i => by
    obtain ⟨a1, a2, a3⟩ := num_mono (m := m) (i := i)
    obtain ⟨b1, b2, b3⟩ := numAll_mono (ms := ms) (i := (num m i).2 + 1)
    simp only [numAll]
    refine ⟨by omega, List.pairwise_append.2 ⟨a2, b2, fun x hx y hy => ?_⟩, fun x hx => ?_⟩
    · have := a3 x hx; have := b3 y hy; omega
    · rcases List.mem_append.1 hx with h | h
      · have := a3 x h; omega
      · have := b3 x h; omega

theorem numParts_mono : ∀ {ps : Parts α} {i : Nat}, i ≤ (numParts ps i).2 ∧
    (numParts ps i).1.Pairwise (·.2 ≤ ·.2) ∧ ∀ x ∈ (numParts ps i).1, i ≤ x.2 ∧ x.2 ≤ (numParts ps i).2
  | .nil, i => by simp [numParts]
  | .decl x ps, i => by
    obtain ⟨b1, b2, b3⟩ := numParts_mono (ps := ps) (i := i)
    simp only [numParts]
    refine ⟨by omega, List.pairwise_cons.2 ⟨fun y hy => (b3 y hy).1, b2⟩, fun y hy => ?_⟩
    rcases List.mem_cons.1 hy with rfl | h
    · exact ⟨Nat.le_refl _, b1⟩
    · exact b3 y h
  | .incl m ps, i => by
    obtain ⟨a1, a2, a3⟩ := num_mono (m := m) (i := i)
    obtain ⟨b1, b2, b3⟩ := numParts_mono (ps := ps) (i := (num m i).2)
    simp only [numParts]
    refine ⟨by omega, List.pairwise_append.2 ⟨a2, b2, fun x hx y hy => ?_⟩, fun x hx => ?_⟩
    · have := a3 x hx; have := b3 y hy; omega
    · rcases List.mem_append.1 hx with h | h
      · have := a3 x h; omega
      · have := b3 x h; omega
end

/-! Uniqueness -/

mutual
theorem unfolds_unique : ∀ {u} {m m' : Whole α}, Unfolds files u m → Unfolds files u m' → m = m'
  | _, _, _, .mk h1 h2 h3, .mk g1 g2 g3 => by
    cases Option.some.inj (h1.symm.trans g1)
    rw [unfoldsAll_unique h2 g2, unfoldsParts_unique h3 g3]

theorem unfoldsAll_unique : ∀ {us} {m m' : Wholes α}, UnfoldsAll files us m → UnfoldsAll files us m' → m = m'
  | _, _, _, .nil, .nil => rfl
  | _, _, _, .cons h1 h2, .cons g1 g2 => by rw [unfolds_unique h1 g1, unfoldsAll_unique h2 g2]

theorem unfoldsParts_unique : ∀ {us} {m m' : Parts α}, UnfoldsParts files us m → UnfoldsParts files us m' → m = m'
  | _, _, _, .nil, .nil => rfl
  | _, _, _, .decl h2, .decl g2 => by rw [unfoldsParts_unique h2 g2]
  | _, _, _, .incl h1 h2, .incl g1 g2 => by rw [unfolds_unique h1 g1, unfoldsParts_unique h2 g2]
end

/-! Cycles -/

mutual
def sz : Whole α → Nat
  | .mk is ps => szAll is + szParts ps + 1

def szAll : Wholes α → Nat
  | .nil => 0
  | .cons m ms => sz m + szAll ms

def szParts : Parts α → Nat
  | .nil => 0
  | .decl _ ps => szParts ps
  | .incl m ps => sz m + szParts ps
end

theorem unfoldsAll_mem : ∀ {us} {ms : Wholes α}, UnfoldsAll files us ms → ∀ v ∈ us,
    ∃ m, Unfolds files v m ∧ sz m ≤ szAll ms
  | _, _, .nil, v, hv => nomatch hv
  | _, _, .cons (m := m) (ms := ms) h1 h2, v, hv => by
    rcases List.mem_cons.1 hv with rfl | hv
    · exact ⟨m, h1, by simp [szAll]⟩
    · obtain ⟨m', hm', hs⟩ := unfoldsAll_mem h2 v hv
      exact ⟨m', hm', by simp only [szAll]; omega⟩

theorem unfoldsParts_mem : ∀ {its} {ps : Parts α}, UnfoldsParts files its ps → ∀ v, Item.incl v ∈ its →
    ∃ m, Unfolds files v m ∧ sz m ≤ szParts ps
  | _, _, .nil, v, hv => nomatch hv
  | _, _, .decl h2, v, hv => by
    rcases List.mem_cons.1 hv with h | hv
    · exact nomatch h
    · obtain ⟨m', hm', hs⟩ := unfoldsParts_mem h2 v hv
      exact ⟨m', hm', by simp only [szParts]; omega⟩
  | _, _, .incl (m := m) h1 h2, v, hv => by
    rcases List.mem_cons.1 hv with h | hv
    · cases h
      exact ⟨m, h1, by simp [szParts]⟩
    · obtain ⟨m', hm', hs⟩ := unfoldsParts_mem h2 v hv
      exact ⟨m', hm', by simp only [szParts]; omega⟩

theorem unfolds_uses {u v} {m : Whole α} (h : Unfolds files u m) (hu : Uses files u v) :
    ∃ m', Unfolds files v m' ∧ sz m' < sz m := by
  obtain ⟨d, hd, hv⟩ := hu
  cases h with
  | mk h1 h2 h3 =>
    cases Option.some.inj (h1.symm.trans hd)
    rcases hv with hv | hv
    · obtain ⟨m', a, b⟩ := unfoldsAll_mem h2 v hv
      exact ⟨m', a, by simp only [sz]; omega⟩
    · obtain ⟨m', a, b⟩ := unfoldsParts_mem h3 v hv
      exact ⟨m', a, by simp only [sz]; omega⟩

theorem unfolds_reaches {u v} {m : Whole α} (h : Unfolds files u m) (hr : Reaches files u v) :
    ∃ m', Unfolds files v m' ∧ sz m' ≤ sz m := by
  induction hr with
  | refl => exact ⟨m, h, Nat.le_refl _⟩
  | step _ hu ih =>
    obtain ⟨m1, a, b⟩ := ih
    obtain ⟨m2, c, d⟩ := unfolds_uses a hu
    exact ⟨m2, c, by omega⟩

theorem not_onCycle : ∀ (n : Nat) {u} {m : Whole α}, sz m ≤ n → Unfolds files u m → ¬ OnCycle files u
  | 0, u, .mk is ps, h, _, _ => by simp only [sz] at h; omega
  | n + 1, u, m, h, hu, ⟨b, h1, h2⟩ => by
    obtain ⟨m1, a, s1⟩ := unfolds_uses hu h1
    obtain ⟨m2, c, s2⟩ := unfolds_reaches a h2
    exact not_onCycle n (by omega) c ⟨b, h1, h2⟩

/-- What an error says. -/
def Blames (files : Str → Option (SheetDoc α)) (start : Str) : ReadErr → Prop
  | .notFound => ∃ v, Reaches files start v ∧ files v = none
  | .circular => ∃ v, Reaches files start v ∧ OnCycle files v

theorem reaches_trans {a b c : Str} (h : Reaches files a b) (g : Reaches files b c) : Reaches files a c := by
  induction g with
  | refl => exact h
  | step _ hu ih => exact .step ih hu

theorem readImports_error {rd : Str → Nat → ReadRes α} {visited} {start cur : Str} (hc : Reaches files start cur)
    (hv : ∀ v ∈ visited, Reaches files v cur)
    (hrd : ∀ {u i e}, Uses files cur u → rd u i = some (.error e) → Blames files start e) :
    ∀ {us i e}, (∀ u ∈ us, Uses files cur u) → readImports rd visited us i = some (.error e) → Blames files start e
  | [], i, e, _, h => nomatch h
  | u :: us, i, e, hu, h => by
    simp only [readImports] at h
    split at h
    · rename_i hin
      cases h
      exact ⟨cur, hc, u, hu u (by simp), hv u hin⟩
    · rcases andThen_error h with h1 | ⟨j, h1⟩
      · exact hrd (hu u (by simp)) h1
      · exact readImports_error hc hv hrd (fun x hx => hu x (by simp [hx])) h1

theorem readItems_error {rd : Str → Nat → ReadRes α} {visited} {start cur : Str} (hc : Reaches files start cur)
    (hv : ∀ v ∈ visited, Reaches files v cur)
    (hrd : ∀ {u i e}, Uses files cur u → rd u i = some (.error e) → Blames files start e) :
    ∀ {its i e}, (∀ u, Item.incl u ∈ its → Uses files cur u) → readItems rd visited its i = some (.error e) →
      Blames files start e
  | [], i, e, _, h => nomatch h
  | .decl x :: its, i, e, hu, h => by
    simp only [readItems] at h
    rcases andThen_error h with h1 | ⟨j, h1⟩
    · exact nomatch h1
    · exact readItems_error hc hv hrd (fun x hx => hu x (by simp [hx])) h1
  | .incl u :: its, i, e, hu, h => by
    simp only [readItems] at h
    split at h
    · rename_i hin
      cases h
      exact ⟨cur, hc, u, hu u (by simp), hv u hin⟩
    · rcases andThen_error h with h1 | ⟨j, h1⟩
      · exact hrd (hu u (by simp)) h1
      · exact readItems_error hc hv hrd (fun x hx => hu x (by simp [hx])) h1

theorem readSheet_error {start : Str} : ∀ {fuel visited cur i e}, Reaches files start cur →
    (∀ v ∈ visited, Reaches files v cur) → readSheet files fuel visited cur i = some (.error e) →
    Blames files start e
  | 0, _, _, _, _, _, _, h => nomatch h
  | fuel + 1, visited, cur, i, e, hc, hv, h => by
    simp only [readSheet] at h
    split at h
    · rename_i hn
      cases h
      exact ⟨cur, hc, hn⟩
    · rename_i d hd
      have hv' : ∀ v ∈ cur :: visited, Reaches files v cur := by
        intro v hin
        rcases List.mem_cons.1 hin with rfl | hin
        · exact .refl
        · exact hv v hin
      have hrd : ∀ {u i e}, Uses files cur u → readSheet files fuel (cur :: visited) u i = some (.error e) →
          Blames files start e := fun hu h => readSheet_error (.step hc hu) (fun v hin => .step (hv' v hin) hu) h
      rcases andThen_error h with h1 | ⟨j, h1⟩
      · exact readImports_error hc hv' hrd (fun u hu => ⟨d, hd, .inl hu⟩) h1
      · exact readItems_error hc hv' hrd (fun u hu => ⟨d, hd, .inr hu⟩) h1

/-! Reading ends -/

theorem readImports_none {rd : Str → Nat → ReadRes α} {visited} (hrd : ∀ u i, u ∉ visited → rd u i ≠ none) :
    ∀ us i, readImports rd visited us i ≠ none
  | [], i, h => nomatch h
  | u :: us, i, h => by
    simp only [readImports] at h
    split at h
    · exact nomatch h
    · rename_i hu
      rcases andThen_none h with h1 | ⟨j, h1⟩
      · exact hrd u i hu h1
      · exact readImports_none hrd us _ h1

theorem readItems_none {rd : Str → Nat → ReadRes α} {visited} (hrd : ∀ u i, u ∉ visited → rd u i ≠ none) :
    ∀ its i, readItems rd visited its i ≠ none
  | [], i, h => nomatch h
  | .decl x :: its, i, h => by
    simp only [readItems] at h
    rcases andThen_none h with h1 | ⟨j, h1⟩
    · exact nomatch h1
    · exact readItems_none hrd its _ h1
  | .incl u :: its, i, h => by
    simp only [readItems] at h
    split at h
    · exact nomatch h
    · rename_i hu
      rcases andThen_none h with h1 | ⟨j, h1⟩
      · exact hrd u i hu h1
      · exact readItems_none hrd its _ h1

theorem readSheet_ends {dom : List Str} (hd : ∀ u, files u ≠ none → u ∈ dom) : ∀ (fuel : Nat) (visited : List Str),
    visited.Nodup → (∀ v ∈ visited, v ∈ dom) → dom.length + 1 ≤ fuel + visited.length → ∀ u i, u ∉ visited →
    readSheet files fuel visited u i ≠ none
  | 0, visited, hn, hs, hl, u, i, hu, h => by
    have := Content.length_le_of_subset hn hs
    omega
  | fuel + 1, visited, hn, hs, hl, u, i, hu, h => by
    simp only [readSheet] at h
    split at h
    · exact nomatch h
    · rename_i d he
      have hn' : (u :: visited).Nodup := List.nodup_cons.2 ⟨hu, hn⟩
      have hs' : ∀ v ∈ u :: visited, v ∈ dom := by
        intro v hv
        rcases List.mem_cons.1 hv with rfl | hv
        · exact hd _ (by simp [he])
        · exact hs v hv
      have hrd := readSheet_ends hd fuel (u :: visited) hn' hs' (by simp only [List.length_cons]; omega)
      rcases andThen_none h with h1 | ⟨j, h1⟩
      · exact readImports_none hrd _ _ h1
      · exact readItems_none hrd _ _ h1

/-! More fuel changes nothing -/

theorem andThen_mono {r r' : ReadRes α} {k k' : Nat → ReadRes α} {v} (hr : ∀ v, r = some v → r' = some v)
    (hk : ∀ i v, k i = some v → k' i = some v) (h : andThen r k = some v) : andThen r' k' = some v := by
  unfold andThen at h ⊢
  cases r with
  | none => simp at h
  | some x =>
    rw [hr x rfl]
    cases x with
    | error e => exact h
    | ok p =>
      obtain ⟨a, i⟩ := p
      simp only at h ⊢
      cases e : k i with
      | none => simp [e] at h
      | some y => rw [hk i y e]; rw [e] at h; exact h

theorem readImports_mono {rd rd' : Str → Nat → ReadRes α} {visited} (hrd : ∀ u i v, rd u i = some v → rd' u i = some v) :
    ∀ us i v, readImports rd visited us i = some v → readImports rd' visited us i = some v
  | [], i, v, h => h
  | u :: us, i, v, h => by
    simp only [readImports] at h ⊢
    split at h
    · rename_i hin; rw [if_pos hin]; exact h
    · rename_i hin; rw [if_neg hin]
      exact andThen_mono (hrd u i) (fun i v => readImports_mono hrd us _ v) h

theorem readItems_mono {rd rd' : Str → Nat → ReadRes α} {visited} (hrd : ∀ u i v, rd u i = some v → rd' u i = some v) :
    ∀ its i v, readItems rd visited its i = some v → readItems rd' visited its i = some v
  | [], i, v, h => h
  | .decl x :: its, i, v, h => by
    simp only [readItems] at h ⊢
    exact andThen_mono (fun _ h => h) (fun i v => readItems_mono hrd its _ v) h
  | .incl u :: its, i, v, h => by
    simp only [readItems] at h ⊢
    split at h
    · rename_i hin; rw [if_pos hin]; exact h
    · rename_i hin; rw [if_neg hin]
      exact andThen_mono (hrd u i) (fun i v => readItems_mono hrd its _ v) h

theorem readSheet_mono : ∀ (fuel k : Nat) (visited : List Str) (u : Str) (i : Nat) (v : Except ReadErr (List (α × Nat) × Nat)),
    readSheet files fuel visited u i = some v → readSheet files (fuel + k) visited u i = some v
  | 0, _, _, _, _, _, h => nomatch h
  | fuel + 1, k, visited, u, i, v, h => by
    rw [Nat.succ_add]
    simp only [readSheet] at h ⊢
    cases hd : files u with
    | none =>
      simp only [hd] at h
      exact h
    | some d =>
      simp only [hd] at h
      exact andThen_mono (readImports_mono (fun u i v => readSheet_mono fuel k _ u i v) _ _)
        (fun i => readItems_mono (fun u i v => readSheet_mono fuel k _ u i v) _ i) h

/-! Declarations -/

theorem number_map {β : Type} (f : α → β) : ∀ (ls : List (List α)) (i : Nat),
    number (ls.map (·.map f)) i = (number ls i).map fun p => (f p.1, p.2)
  | [], i => rfl
  | l :: ls, i => by simp [number, number_map f ls]

theorem number_filterMap {β : Type} (f : α → Option β) : ∀ (ls : List (List α)) (i : Nat),
    number (ls.map (·.filterMap f)) i = (number ls i).filterMap fun p => (f p.1).map (·, p.2)
  | [], i => rfl
  | l :: ls, i => by
    simp only [List.map_cons, number, number_filterMap f ls, List.filterMap_append]
    congr 1
    induction l with
    | nil => rfl
    | cons x l ih => cases e : f x <;> simp [e, ih]

theorem number_fst : ∀ (ls : List (List α)) (i : Nat), (number ls i).map (·.1) = ls.flatten
  | [], i => rfl
  | l :: ls, i => by simp [number, number_fst ls, Function.comp_def]

theorem mem_number : ∀ {ls : List (List α)} {i : Nat} {x : α} {k : Nat},
    (x, k) ∈ number ls i ↔ ∃ j l, k = i + j ∧ ls[j]? = some l ∧ x ∈ l
  | [], i, x, k => by simp [number]
  | l :: ls, i, x, k => by
    simp only [number, List.mem_append, List.mem_map, Prod.mk.injEq, mem_number (ls := ls)]
    constructor
    · rintro (⟨y, hy, rfl, rfl⟩ | ⟨j, l', rfl, h1, h2⟩)
      · exact ⟨0, l, rfl, rfl, hy⟩
      · exact ⟨j + 1, l', by omega, h1, h2⟩
    · rintro ⟨j, l', rfl, h1, h2⟩
      cases j with
      | zero => cases h1; exact .inl ⟨x, h2, rfl, rfl⟩
      | succ j => exact .inr ⟨j, l', by omega, h1, h2⟩

theorem number_nodup {ls : List (List α)} {i : Nat} : (number ls i).Nodup ↔ ∀ l ∈ ls, l.Nodup := by
  induction ls generalizing i with
  | nil => simp [number]
  | cons l ls ih =>
    simp only [number, List.nodup_append, ih, List.mem_cons, forall_eq_or_imp]
    constructor
    · rintro ⟨h1, h2, _⟩
      refine ⟨?_, h2⟩
      exact (List.pairwise_map.1 h1).imp fun h e => h (by rw [e])
    · rintro ⟨h1, h2⟩
      refine ⟨List.pairwise_map.2 (h1.imp fun h e => h (Prod.mk.inj e).1), h2, ?_⟩
      rintro ⟨a, k⟩ ha ⟨b, j⟩ hb e
      obtain ⟨y, _, e1⟩ := List.mem_map.1 ha
      obtain ⟨j', _, e2, _, _⟩ := mem_number.1 hb
      cases e
      cases e1
      omega

theorem checkVars_iff : ∀ (l : List (Name × Nat)) (seen : Name → Option Nat), l.Pairwise (·.2 ≤ ·.2) →
    (∀ x j, seen x = some j → ∀ p ∈ l, j ≤ p.2) →
    (checkVars seen l = true ↔ l.Nodup ∧ ∀ p ∈ l, seen p.1 ≠ some p.2)
  | [], seen, _, _ => by simp [checkVars]
  | (x, i) :: vs, seen, hp, hs => by
    obtain ⟨hp1, hp2⟩ := List.pairwise_cons.1 hp
    have step : (checkVars (fun y => if y = x then some i else seen y) vs = true ↔
        vs.Nodup ∧ ∀ p ∈ vs, (if p.1 = x then some i else seen p.1) ≠ some p.2) := by
      apply checkVars_iff vs _ hp2
      intro y j hy p hpv
      split at hy
      · cases hy; exact hp1 p hpv
      · exact hs y j hy p (by simp [hpv])
    have goal : ∀ (_ : seen x ≠ some i), (vs.Nodup ∧ ∀ p ∈ vs, (if p.1 = x then some i else seen p.1) ≠ some p.2) ↔
        (((x, i) :: vs).Nodup ∧ ∀ p ∈ (x, i) :: vs, seen p.1 ≠ some p.2) := by
      intro hne
      simp only [List.nodup_cons, List.mem_cons, forall_eq_or_imp]
      constructor
      · rintro ⟨h1, h2⟩
        refine ⟨⟨fun hin => by simpa using h2 _ hin, h1⟩, hne, fun p hpv => ?_⟩
        have := h2 p hpv
        split at this
        · rename_i e
          rw [e]
          intro e'
          have a := hp1 p hpv
          have b := hs x p.2 e' (x, i) (by simp)
          simp only at a b
          exact this (by rw [Nat.le_antisymm a b])
        · exact this
      · rintro ⟨⟨h1, h2⟩, _, h3⟩
        refine ⟨h2, fun p hpv => ?_⟩
        split
        · rename_i e
          intro e'
          obtain ⟨y, k⟩ := p
          cases e
          cases e'
          exact h1 hpv
        · exact h3 p hpv
    simp only [checkVars]
    cases e : seen x with
    | none =>
      simp only
      rw [step]
      exact goal (by rw [e]; nofun)
    | some j =>
      simp only
      have hji := hs x j e (x, i) (by simp)
      simp only at hji
      split
      · rw [step]
        exact goal (by rw [e]; intro h; cases h; omega)
      · have : i = j := by omega
        subst this
        rw [if_pos rfl]
        constructor
        · nofun
        · rintro ⟨_, h⟩
          exact absurd e (h (x, i) (by simp))

theorem mem_keepVars {β : Type} (name : β → Name) : ∀ (l : List β) (v : β),
    v ∈ keepVars name l ↔ ∃ a b, l = a ++ v :: b ∧ ∀ w ∈ b, name w ≠ name v
  | [], v => by simp [keepVars]
  | x :: vs, v => by
    have ih := mem_keepVars name vs v
    simp only [keepVars]
    split
    · rename_i hany
      rw [ih]
      obtain ⟨w, hw, e⟩ := List.any_eq_true.1 hany
      constructor
      · rintro ⟨a, b, rfl, h⟩
        exact ⟨x :: a, b, rfl, h⟩
      · rintro ⟨a, b, e1, h⟩
        cases a with
        | nil =>
          cases e1
          exact absurd (of_decide_eq_true e) (h w hw)
        | cons y a =>
          cases e1
          exact ⟨a, b, rfl, h⟩
    · rename_i hany
      rw [List.mem_cons, ih]
      constructor
      · rintro (rfl | ⟨a, b, rfl, h⟩)
        · refine ⟨[], vs, rfl, fun w hw e => hany (List.any_eq_true.2 ⟨w, hw, decide_eq_true e⟩)⟩
        · exact ⟨x :: a, b, rfl, h⟩
      · rintro ⟨a, b, e1, h⟩
        cases a with
        | nil => cases e1; exact .inl rfl
        | cons y a => cases e1; exact .inr ⟨a, b, rfl, h⟩

theorem outputParam_eq {β : Type} (get : α → Option β) : ∀ (l : List α) (cur : Option β),
    outputParam get l cur = ((l.filterMap get).getLast?).or cur
  | [], cur => by simp [outputParam]
  | x :: xs, cur => by
    rw [outputParam, outputParam_eq get xs]
    cases e : get x with
    | none => simp [e]
    | some v =>
      simp only [List.filterMap_cons, e, List.getLast?_cons]
      cases (xs.filterMap get).getLast? <;> rfl

end Verif.Xslt
