import Verif.Parse.Cert
/-
If the certificate checks, every phrase of the grammar is accepted.
-/
namespace Verif.Parse
open Spec
set_option linter.unusedSectionVars false

theorem sub_testBit {a b i : Nat} (h : sub a b = true) (hi : a.testBit i = true) :
    b.testBit i = true := by
  have h' : a &&& b = a := by simpa [sub] using h
  rw [← h'] at hi
  simp at hi
  exact hi.2

/-- The configurations the loop goes through, with the greatest height. -/
inductive Reach (T : Tables) : Config → Config → Nat → Prop where
  | refl (c : Config) : Reach T c c c.height
  | step (c c₁ c₂ : Config) (p : Nat) : step T c = .next c₁ → Reach T c₁ c₂ p →
      Reach T c c₂ (max c.height p)

theorem Reach.trans {T : Tables} {c₁ c₂ c₃ : Config} {p q : Nat}
    (h₁ : Reach T c₁ c₂ p) (h₂ : Reach T c₂ c₃ q) : Reach T c₁ c₃ (max p q) := by
  induction h₁ with
  | refl c =>
    have hq : c.height ≤ q := by
      cases h₂ with
      | refl => exact Nat.le_refl _
      | step => omega
    rw [Nat.max_eq_right hq]
    exact h₂
  | step c c₁ c₂ p hs _ ih =>
    have := Reach.step _ _ _ _ hs (ih h₂)
    have e : max c.height (max p q) = max (max c.height p) q := by omega
    rw [← e]
    exact this

theorem run_reach {T : Tables} {c c' : Config} {p : Nat} (h : Reach T c c' p) :
    ∃ n, ∀ f, run T (n + f) c = ((run T f c').1, max p (run T f c').2) := by
  induction h with
  | refl c =>
    refine ⟨0, fun f => ?_⟩
    rw [Nat.zero_add]
    have : c.height ≤ (run T f c).2 := by
      cases f with
      | zero => simp [run]
      | succ f =>
        rw [run]
        split
        · simp
        · simp only
          omega
    exact Prod.ext rfl (by simp only; omega)
  | step c c₁ c₂ p hs _ ih =>
    obtain ⟨n, hn⟩ := ih
    refine ⟨n + 1, fun f => ?_⟩
    rw [show n + 1 + f = (n + f) + 1 by omega, run, hs]
    simp only [hn]
    exact Prod.ext rfl (by simp only; omega)

theorem run_more {T : Tables} (f k : Nat) : ∀ (c : Config), (run T f c).1 ≠ .stuck →
    run T (f + k) c = run T f c := by
  induction f with
  | zero => intro c h; exact absurd rfl h
  | succ f ih =>
    intro c h
    rw [show f + 1 + k = (f + k) + 1 by omega]
    rw [run.eq_def T (f + k + 1), run.eq_def T (f + 1)]
    rw [run] at h
    dsimp only
    cases hs : step T c with
    | done o => rfl
    | next c' =>
      rw [hs] at h
      dsimp only at h ⊢
      rw [ih c' h]

/-- Two amounts of fuel that are enough give the same result. -/
theorem run_unique {T : Tables} {f g : Nat} {c : Config} (hf : (run T f c).1 ≠ .stuck)
    (hg : (run T g c).1 ≠ .stuck) : run T f c = run T g c := by
  rcases Nat.le_total f g with h | h
  · obtain ⟨k, rfl⟩ := Nat.exists_eq_add_of_le h
    exact (run_more f k c hf).symm
  · obtain ⟨k, rfl⟩ := Nat.exists_eq_add_of_le h
    exact run_more g k c hg

section
variable {T : Tables} {C : Cert} (hC : checkComplete T C = true)
include hC

theorem cFirst : checkFirst T C = true := by
  simp only [checkComplete, Bool.and_eq_true] at hC; exact hC.1.1

theorem cItems : checkItems T C = true := by
  simp only [checkComplete, Bool.and_eq_true] at hC; exact hC.1.2

theorem cRule {r : Nat} (hr : (grammar T).isRule r) :
    T.rhsSize.getD r 0 = (T.rhs.getD r []).length ∧ r < T.derives.length := by
  have h : checkRules T = true := by
    simp only [checkComplete, Bool.and_eq_true] at hC; exact hC.2
  simp only [checkRules, List.all_eq_true, List.mem_range] at h
  have := h r hr.2
  simp only [Bool.or_eq_true, Bool.and_eq_true, beq_iff_eq, decide_eq_true_eq] at this
  rcases this with h0 | h0
  · exact absurd h0 (by have := hr.1; omega)
  · exact h0

theorem cFirst_rule {r : Nat} (hr : (grammar T).isRule r) :
    (∀ b, (firstSeq T C (T.rhs.getD r []) 0).testBit b = true →
      (firstMask T C (T.derives.getD r 0)).testBit b = true) ∧
    ((∀ x ∈ T.rhs.getD r [], C.nullable.testBit x = true) →
      C.nullable.testBit (T.derives.getD r 0) = true) ∧ T.ntBase ≤ T.derives.getD r 0 := by
  have h := cFirst hC
  simp only [checkFirst, List.all_eq_true, List.mem_range] at h
  have h := h r hr.2
  rw [Bool.or_eq_true] at h
  rcases h with h0 | h
  · simp only [beq_iff_eq] at h0
    exact absurd h0 (by have := hr.1; omega)
  simp only [Bool.and_eq_true, Bool.or_eq_true, Bool.not_eq_true', decide_eq_true_eq] at h
  refine ⟨fun b hb => sub_testBit h.1.1 hb, fun hn => ?_, h.2⟩
  rcases h.1.2 with h' | h'
  · rw [List.all_eq_false] at h'
    obtain ⟨x, hx, hx'⟩ := h'
    exact absurd (hn x hx) hx'
  · exact h'

theorem firstSeq_mono {xs : List Nat} {a b i : Nat}
    (h : ∀ i, a.testBit i = true → b.testBit i = true)
    (hi : (firstSeq T C xs a).testBit i = true) : (firstSeq T C xs b).testBit i = true := by
  induction xs with
  | nil => exact h i hi
  | cons x xs ih =>
    simp only [firstSeq, Nat.testBit_or, Bool.or_eq_true] at hi ⊢
    rcases hi with hi | hi
    · exact .inl hi
    · right
      split at hi
      · rename_i hn
        rw [if_pos hn]
        exact ih hi
      · simp at hi

mutual
theorem first_tree : ∀ (t : Tree), Derives (grammar T) t →
    (yield t = [] → C.nullable.testBit (root (grammar T).lhs t) = true) ∧
    (∀ (k : Tok) (ks : List Tok), yield t = k :: ks →
      (firstMask T C (root (grammar T).lhs t)).testBit k.kind = true)
  | .leaf t, .leaf _ ht => by
    refine ⟨fun h => (nomatch h), fun k ks h => ?_⟩
    simp only [yield, List.cons.injEq] at h
    rw [← h.1]
    have e : firstMask T C (root (grammar T).lhs (.leaf t)) = 2 ^ t.kind := if_pos ht.2
    rw [e]
    simp
  | .node r ks, .node _ _ hr hroots hks => by
    obtain ⟨h1, h2⟩ := first_trees ks hks
    obtain ⟨c1, c2, _⟩ := cFirst_rule hC hr
    refine ⟨fun h => c2 ?_, fun k ks' h => c1 _ ?_⟩
    · intro x hx
      refine h1 h x ?_
      rw [hroots]; exact hx
    · have := h2 0 k ks' h
      rw [hroots] at this
      exact this
theorem first_trees : ∀ (ts : Trees), DerivesAll (grammar T) ts →
    (yields ts = [] → ∀ x ∈ roots (grammar T).lhs ts, C.nullable.testBit x = true) ∧
    (∀ (la : Nat) (k : Tok) (ks : List Tok), yields ts = k :: ks →
      (firstSeq T C (roots (grammar T).lhs ts) la).testBit k.kind = true)
  | .nil, _ => ⟨fun _ _ hx => (nomatch hx), fun _ _ _ h => (nomatch h)⟩
  | .cons t ts, .cons _ _ ht hts => by
    obtain ⟨a1, a2⟩ := first_tree t ht
    obtain ⟨b1, b2⟩ := first_trees ts hts
    refine ⟨fun h => ?_, fun la k ks h => ?_⟩
    · simp only [yields, List.append_eq_nil_iff] at h
      intro x hx
      simp only [roots, List.mem_cons] at hx
      rcases hx with rfl | hx
      · exact a1 h.1
      · exact b1 h.2 x hx
    · simp only [roots, firstSeq, Nat.testBit_or, Bool.or_eq_true]
      simp only [yields] at h
      cases hy : yield t with
      | nil =>
        right
        rw [if_pos (a1 hy)]
        rw [hy] at h
        exact b2 la k ks h
      | cons k' ks' =>
        left
        rw [hy] at h
        simp only [List.cons_append, List.cons.injEq] at h
        rw [← h.1]
        exact a2 k' ks' hy
end

/-- The lookahead seen in front of the phrases `ts`. -/
theorem look_first {ts : Trees} (hts : DerivesAll (grammar T) ts) {rest : List Tok} {la : Nat}
    (h : la.testBit (look rest) = true) :
    (firstSeq T C (roots (grammar T).lhs ts) la).testBit (look (yields ts ++ rest)) = true := by
  obtain ⟨h1, h2⟩ := first_trees hC ts hts
  cases hy : yields ts with
  | cons k ks => exact h2 la k ks hy
  | nil =>
    have hn := h1 hy
    simp only [List.nil_append]
    clear h1 h2 hy hts
    generalize roots (grammar T).lhs ts = xs at hn
    induction xs with
    | nil => exact h
    | cons x xs ih =>
      simp only [firstSeq, Nat.testBit_or, Bool.or_eq_true]
      right
      rw [if_pos (hn x (by simp))]
      exact ih fun y hy => hn y (by simp [hy])

theorem hasMask_spec {s r d m : Nat} (h : hasMask C s r d m = true) :
    ∃ m', (r, d, m') ∈ itemsOf C s ∧ ∀ b, m.testBit b = true → m'.testBit b = true := by
  simp only [hasMask, List.any_eq_true, Bool.and_eq_true, beq_iff_eq] at h
  obtain ⟨⟨r', d', m'⟩, hm, h1, h2, h3⟩ := h
  dsimp only at h1 h2 h3
  subst h1 h2
  exact ⟨m', hm, fun b hb => sub_testBit h3 hb⟩

omit hC in
theorem itemsOf_lt {s : Nat} {i : Nat × Nat × Nat} (h : i ∈ itemsOf C s) : s < C.items.length := by
  rw [itemsOf] at h
  rcases Nat.lt_or_ge s C.items.length with hs | hs
  · exact hs
  · rw [List.getD_eq_getElem?_getD, List.getElem?_eq_none hs] at h
    exact (nomatch h)

theorem cItem {s : Nat} {i : Nat × Nat × Nat} (h : i ∈ itemsOf C s) :
    i.2.2 < 2 ^ T.ntBase ∧ checkItem T C s i = true := by
  have hI := cItems hC
  simp only [checkItems, Bool.and_eq_true, List.all_eq_true, List.mem_range,
    decide_eq_true_eq] at hI
  exact hI.1 s (itemsOf_lt h) i h

omit hC in
theorem mem_rulesOf {x p : Nat} : ∀ (l : List Nat) (n : Nat), p < l.length → l.getD p 0 = x →
    n + p ∈ rulesOf x l n := by
  induction p with
  | zero =>
    intro l n h1 h2
    cases l with
    | nil => exact (nomatch h1)
    | cons y ys =>
      simp at h2
      simp [rulesOf, h2]
  | succ p ih =>
    intro l n h1 h2
    cases l with
    | nil => exact (nomatch h1)
    | cons y ys =>
      have := ih ys (n + 1) (by simpa using h1) (by simpa using h2)
      rw [rulesOf]
      have e : n + (p + 1) = n + 1 + p := by omega
      rw [e]
      split
      · exact List.mem_cons_of_mem _ this
      · exact this

/-- Closure. -/
theorem item_closure {s r d m x p : Nat} {rest : List Nat} (hi : (r, d, m) ∈ itemsOf C s)
    (hx : (rhsX T C r).drop d = x :: rest) (hp : (grammar T).isRule p)
    (hl : (grammar T).lhs p = x) {b : Nat}
    (hb : (firstSeq T C rest m).testBit b = true) :
    ∃ m', (p, 0, m') ∈ itemsOf C s ∧ m'.testBit b = true := by
  have h := (cItem hC hi).2
  rw [checkItem, hx] at h
  dsimp only at h
  have hnt : T.ntBase ≤ x := by
    rw [← hl]
    exact (cFirst_rule hC hp).2.2
  rw [if_pos hnt, Bool.and_eq_true, List.all_eq_true] at h
  have hmem := mem_rulesOf T.derives 0 (cRule hC hp).2 hl
  rw [Nat.zero_add] at hmem
  have := h.1 p hmem
  rw [Bool.or_eq_true] at this
  rcases this with h0 | h0
  · simp only [beq_iff_eq] at h0
    exact absurd h0 (by have := hp.1; omega)
  · obtain ⟨m', h1, h2⟩ := hasMask_spec hC h0
    exact ⟨m', h1, h2 b hb⟩

/-- A step of the automaton on a terminal. -/
theorem item_shift {s r d m x : Nat} {rest : List Nat} (hi : (r, d, m) ∈ itemsOf C s)
    (hx : (rhsX T C r).drop d = x :: rest) (ht : x < T.ntBase) :
    ∃ s' m', action T s x = .shift s' ∧ (r, d + 1, m') ∈ itemsOf C s' ∧
      ∀ b, m.testBit b = true → m'.testBit b = true := by
  have h := (cItem hC hi).2
  rw [checkItem, hx] at h
  dsimp only at h
  rw [if_neg (by omega), shiftsTo] at h
  split at h
  · rename_i s' hs'
    obtain ⟨m', h1, h2⟩ := hasMask_spec hC h
    exact ⟨s', m', hs', h1, h2⟩
  · exact (nomatch h)

/-- A step of the automaton on a nonterminal. -/
theorem item_goto {s r d m x : Nat} {rest : List Nat} (hi : (r, d, m) ∈ itemsOf C s)
    (hx : (rhsX T C r).drop d = x :: rest) (ht : T.ntBase ≤ x) :
    ∃ m', (r, d + 1, m') ∈ itemsOf C (goto T s x) ∧
      ∀ b, m.testBit b = true → m'.testBit b = true := by
  have h := (cItem hC hi).2
  rw [checkItem, hx] at h
  dsimp only at h
  rw [if_pos ht, Bool.and_eq_true] at h
  exact hasMask_spec hC h.2

/-- At the end of a rule the table says to reduce. -/
theorem item_reduce {s r d m b : Nat} (hi : (r, d, m) ∈ itemsOf C s) (hr : r ≠ 0)
    (hx : (rhsX T C r).drop d = []) (hb : m.testBit b = true) :
    action T s b = .reduce r := by
  obtain ⟨hm, h⟩ := cItem hC hi
  rw [checkItem, hx] at h
  dsimp only at h hm
  rw [if_neg (by simpa using hr)] at h
  simp only [List.all_eq_true, List.mem_range, Bool.or_eq_true, Bool.not_eq_true',
    beq_iff_eq] at h
  have hlt : b < T.ntBase := by
    rcases Nat.lt_or_ge b T.ntBase with h' | h'
    · exact h'
    · exfalso
      have := Nat.testBit_lt_two_pow (Nat.lt_of_lt_of_le hm (Nat.pow_le_pow_right (by omega) h'))
      rw [this] at hb
      exact (nomatch hb)
  rcases h b hlt with h' | h'
  · rw [hb] at h'; exact (nomatch h')
  · exact h'

theorem item_accept {s m : Nat} (hi : (0, 1, m) ∈ itemsOf C s) : isAccepting T s = true := by
  have h := (cItem hC hi).2
  rw [checkItem] at h
  simpa [rhsX] using h

end

/-- The trees `ts` have been put on the stack, one after the other. -/
inductive Pushed : Trees → List (Nat × Tree) → List (Nat × Tree) → Prop where
  | nil (fs : List (Nat × Tree)) : Pushed .nil fs fs
  | cons (s : Nat) (t : Tree) (ts : Trees) (fs fs' : List (Nat × Tree)) :
      Pushed ts ((s, t) :: fs) fs' → Pushed (.cons t ts) fs fs'

def Trees.length : Trees → Nat
  | .nil => 0
  | .cons _ ts => ts.length + 1

theorem roots_length (lhs : Nat → Nat) : ∀ (ts : Trees), (roots lhs ts).length = ts.length
  | .nil => rfl
  | .cons _ ts => by simp [roots, Trees.length, roots_length lhs ts]

theorem popped_append : ∀ (a b : List (Nat × Tree)) (acc : Trees),
    popped (a ++ b) acc = popped b (popped a acc)
  | [], _, _ => rfl
  | (_, _) :: a, b, acc => by
    rw [List.cons_append, popped, popped, popped_append a b]

theorem Pushed.spec {ts : Trees} {fs fs' : List (Nat × Tree)} (h : Pushed ts fs fs') :
    ∃ p, fs' = p ++ fs ∧ p.length = ts.length ∧ ∀ acc, popped p .nil = ts ∧
      (acc = .nil → popped p acc = ts) := by
  induction h with
  | nil fs => exact ⟨[], rfl, rfl, fun acc => ⟨rfl, fun h => by rw [h]; rfl⟩⟩
  | cons s t ts fs fs' _ ih =>
    obtain ⟨p, h1, h2, h3⟩ := ih
    refine ⟨p ++ [(s, t)], by simp [h1], by simp [h2, Trees.length], fun acc => ?_⟩
    have : popped (p ++ [(s, t)]) .nil = .cons t ts := by
      rw [popped_append, (h3 .nil).1]
      rfl
    exact ⟨this, fun h => by rw [h]; exact this⟩

section
variable {T : Tables} {C : Cert} (hC : checkComplete T C = true)
include hC

mutual
theorem complete_tree : ∀ (t : Tree), Derives (grammar T) t →
    ∀ (fs : List (Nat × Tree)) (r d m : Nat) (rest : List Nat) (input : List Tok),
    (r, d, m) ∈ itemsOf C (top fs) →
    (rhsX T C r).drop d = root (grammar T).lhs t :: rest →
    (firstSeq T C rest m).testBit (look input) = true →
    ∃ s' m', Reach T ⟨fs, yield t ++ input⟩ ⟨(s', t) :: fs, input⟩ (fs.length + 1 + room t) ∧
      (r, d + 1, m') ∈ itemsOf C s' ∧ ∀ b, m.testBit b = true → m'.testBit b = true
  | .leaf t, .leaf _ ht => by
    intro fs r d m rest input hi hx _
    simp only [root] at hx
    obtain ⟨s', m', h1, h2, h3⟩ := item_shift hC hi hx ht.2
    refine ⟨s', m', ?_, h2, h3⟩
    have hs : step T ⟨fs, yield (.leaf t) ++ input⟩ = .next ⟨(s', .leaf t) :: fs, input⟩ := by
      rw [step]
      simp only [yield, List.cons_append, List.nil_append, look]
      rw [h1]
      rfl
    have := Reach.step _ _ _ _ hs (Reach.refl _)
    simpa [Config.height, room] using this
  | .node q ks, .node _ _ hq hroots hks => by
    intro fs r d m rest input hi hx hla
    simp only [root] at hx
    obtain ⟨m₀, hm₀, hb₀⟩ := item_closure hC hi hx hq rfl hla
    have hq0 : q ≠ 0 := by have := hq.1; omega
    have hrhs : rhsX T C q = (grammar T).rhs q := by
      cases q with
      | zero => exact absurd rfl hq0
      | succ q => rfl
    obtain ⟨fs', m₁, h1, h2, h3, h4⟩ := complete_trees ks hks fs q 0 m₀ input hm₀
      (by rw [hrhs, List.drop_zero]; exact hroots) hb₀
    have hred := item_reduce hC h3 hq0 (by
      rw [hrhs, ← hroots, List.drop_eq_nil_of_le]
      rw [roots_length]; omega) h4
    obtain ⟨m', h5, h6⟩ := item_goto hC hi hx (cFirst_rule hC hq).2.2
    refine ⟨goto T (top fs) ((grammar T).lhs q), m', ?_, h5, h6⟩
    obtain ⟨p, e1, e2, e3⟩ := h2.spec
    have hlen : T.rhsSize.getD q 0 = p.length := by
      rw [(cRule hC hq).1, e2, ← roots_length (grammar T).lhs ks, hroots]
      rfl
    have hs : step T ⟨fs', input⟩ =
        .next ⟨(goto T (top fs) ((grammar T).lhs q), .node q ks) :: fs, input⟩ := by
      rw [step]
      dsimp only
      rw [hred]
      dsimp only
      rw [reduce, hlen]
      dsimp only
      rw [if_pos (by rw [e1]; simp)]
      subst e1
      rw [List.drop_left, List.take_left, (e3 .nil).1]
      rfl
    have := h1.trans (Reach.step _ _ _ _ hs (Reach.refl _))
    have hp : max (fs.length + 1 + roomAll ks) (max (Config.height ⟨fs', input⟩)
        (Config.height ⟨(goto T (top fs) ((grammar T).lhs q), .node q ks) :: fs, input⟩)) =
        fs.length + 1 + room (.node q ks) := by
      simp only [Config.height, room, e1, List.length_append, List.length_cons]
      have : p.length ≤ roomAll ks := by
        rw [e2]
        exact length_le_room ks
      omega
    rw [hp] at this
    exact this
theorem complete_trees : ∀ (ks : Trees), DerivesAll (grammar T) ks →
    ∀ (fs : List (Nat × Tree)) (r d m : Nat) (input : List Tok),
    (r, d, m) ∈ itemsOf C (top fs) →
    roots (grammar T).lhs ks = (rhsX T C r).drop d →
    m.testBit (look input) = true →
    ∃ fs' m', Reach T ⟨fs, yields ks ++ input⟩ ⟨fs', input⟩ (fs.length + 1 + roomAll ks) ∧
      Pushed ks fs fs' ∧ (r, d + ks.length, m') ∈ itemsOf C (top fs') ∧
      m'.testBit (look input) = true
  | .nil, _ => by
    intro fs r d m input hi hx hla
    refine ⟨fs, m, ?_, .nil fs, hi, hla⟩
    exact Reach.refl ⟨fs, input⟩
  | .cons t ts, .cons _ _ ht hts => by
    intro fs r d m input hi hx hla
    simp only [roots] at hx
    have hlook := look_first hC hts hla
    obtain ⟨s', m', h1, h2, h3⟩ := complete_tree t ht fs r d m (roots (grammar T).lhs ts)
      (yields ts ++ input) hi hx.symm hlook
    have hx' : roots (grammar T).lhs ts = (rhsX T C r).drop (d + 1) := by
      rw [← List.drop_drop, ← hx]
      rfl
    obtain ⟨fs', m'', h4, h5, h6, h7⟩ := complete_trees ts hts ((s', t) :: fs) r (d + 1) m' input
      h2 hx' (h3 _ hla)
    refine ⟨fs', m'', ?_, .cons s' t ts fs fs' h5, ?_, h7⟩
    · have := h1.trans h4
      simp only [yields, List.append_assoc]
      have e : max (fs.length + 1 + room t) (((s', t) :: fs).length + 1 + roomAll ts) =
          fs.length + 1 + roomAll (.cons t ts) := by
        simp only [roomAll, List.length_cons]
        omega
      rw [e] at this
      exact this
    · have : d + (Trees.cons t ts).length = d + 1 + ts.length := by
        simp only [Trees.length]; omega
      rw [this]
      exact h6
theorem length_le_room : ∀ (ks : Trees), ks.length ≤ roomAll ks
  | .nil => Nat.le_refl _
  | .cons t ts => by
    have := length_le_room ts
    simp only [Trees.length, roomAll]
    omega
end

/-- Every phrase of the grammar is accepted, and its derivation tree is the
result. -/
theorem complete {t : Tree} (ht : Derives (grammar T) t)
    (hroot : root (grammar T).lhs t = C.start) :
    ∃ f, run T f ⟨[], yield t⟩ = (.accept t, max (1 + room t) 3) := by
  have hI := cItems hC
  simp only [checkItems, Bool.and_eq_true] at hI
  obtain ⟨m, hm, hm'⟩ := hasMask_spec hC hI.2
  have h0 : m.testBit 0 = true := hm' 0 (by decide)
  obtain ⟨s', m', h1, h2, _⟩ := complete_tree hC t ht [] 0 0 m [] [] hm (by rw [hroot]; rfl) h0
  have hacc := item_accept hC h2
  rw [isAccepting] at hacc
  split at hacc
  · rename_i e he
    have he' : action T e 0 = .accept := by simpa using hacc
    have hs : step T ⟨[(s', t)], []⟩ = .next ⟨[(e, .leaf ⟨0, []⟩), (s', t)], []⟩ := by
      rw [step]
      simp only [top, look, he]
      rfl
    have hr := h1.trans (Reach.step _ _ _ _ hs (Reach.refl _))
    obtain ⟨n, hn⟩ := run_reach hr
    refine ⟨n + 1, ?_⟩
    rw [List.append_nil] at hn
    rw [hn 1]
    have : run T 1 ⟨[(e, .leaf ⟨0, []⟩), (s', t)], []⟩ = (.accept t, 3) := by
      rw [run, step]
      simp only [top, look, he']
      rfl
    rw [this]
    refine Prod.ext rfl ?_
    simp only [Config.height, List.length_cons, List.length_nil]
    omega
  · exact (nomatch hacc)

end

end Verif.Parse
