import Verif.Parse.Complete
/-
If the certificate checks, whatever is accepted is a phrase of the grammar, the
stack is never popped below its bottom, and the loop ends.
-/
namespace Verif.Parse
open Spec
set_option linter.unusedSectionVars false

/-- The tokens the lexer may give: not the end of the input, and a number that
`YYTRANSLATE` gives. -/
def Tokens (kinds : Nat) (ts : List Tok) : Prop := ∀ t ∈ ts, 0 < t.kind ∧ t.kind < kinds

def matchPast (T : Tables) : List (Nat × Nat) → List (Nat × Tree) → Prop
  | [], _ => True
  | p :: ps, (_, t) :: fs =>
    root (grammar T).lhs t = p.1 ∧ p.2.testBit (top fs) = true ∧ matchPast T ps fs
  | _ :: _, [] => False

/-- What holds of the stack. -/
def Inv (T : Tables) (C : Cert) : List (Nat × Tree) → Prop
  | [] => True
  | (s, t) :: fs => (Derives (grammar T) t ∨ t = .leaf ⟨0, []⟩) ∧ s ≠ 0 ∧ s < C.past.length ∧
      matchPast T (pastOf C s) ((s, t) :: fs) ∧ Inv T C fs

def real (ts : List Tok) : List Tok := ts.filter (·.kind != 0)

/-- The tokens on the stack. -/
def eaten : List (Nat × Tree) → List Tok
  | [] => []
  | (_, t) :: fs => eaten fs ++ real (yield t)

def weights (T : Tables) (C : Cert) : List (Nat × Tree) → Nat
  | [] => 0
  | (_, t) :: fs => C.weight.getD (root (grammar T).lhs t) 0 + weights T C fs

theorem top_cons (s : Nat) (t : Tree) (fs : List (Nat × Tree)) : top ((s, t) :: fs) = s := rfl

def eofLeft (C : Cert) (s : Nat) : Nat := bif C.eofs.testBit s then 0 else 1

def extra (C : Cert) (s : Nat) : Nat := bif C.flags.testBit s then C.bonus else 0

theorem extra_le (C : Cert) (s : Nat) : extra C s ≤ C.bonus := by
  rw [extra]
  cases C.flags.testBit s <;> simp

/-- A bound for the number of turns left. -/
def measure (T : Tables) (C : Cert) (c : Config) : Nat :=
  cost C * (c.input.length + eofLeft C (top c.frames)) +
    (weights T C c.frames + extra C (top c.frames))

theorem le_foldl_max (l : List Nat) : ∀ (a : Nat), a ≤ l.foldl max a ∧
    ∀ x ∈ l, x ≤ l.foldl max a := by
  induction l with
  | nil => intro a; exact ⟨Nat.le_refl _, fun x hx => (nomatch hx)⟩
  | cons y ys ih =>
    intro a
    obtain ⟨h1, h2⟩ := ih (max a y)
    refine ⟨by simp only [List.foldl_cons]; omega, fun x hx => ?_⟩
    simp only [List.mem_cons] at hx
    simp only [List.foldl_cons]
    rcases hx with rfl | hx
    · omega
    · exact h2 x hx

theorem weight_lt (C : Cert) (k : Nat) : C.weight.getD k 0 + C.bonus < cost C := by
  have : C.weight.getD k 0 ≤ C.weight.foldl max 0 := by
    rw [List.getD_eq_getElem?_getD]
    rcases Nat.lt_or_ge k C.weight.length with h | h
    · rw [List.getElem?_eq_getElem h]
      exact (le_foldl_max C.weight 0).2 _ (List.getElem_mem h)
    · rw [List.getElem?_eq_none h]
      simp
  rw [cost]
  omega

theorem real_yields_popped : ∀ (a : List (Nat × Tree)) (acc : Trees),
    real (yields (popped a acc)) = eaten a ++ real (yields acc)
  | [], _ => rfl
  | (s, t) :: a, acc => by
    rw [popped, real_yields_popped a]
    simp [yields, eaten, real]

theorem eaten_append : ∀ (a b : List (Nat × Tree)), eaten (a ++ b) = eaten b ++ eaten a
  | [], _ => by simp [eaten]
  | (s, t) :: a, b => by
    rw [List.cons_append, eaten, eaten, eaten_append a b, List.append_assoc]

theorem weights_append (T : Tables) (C : Cert) : ∀ (a b : List (Nat × Tree)),
    weights T C (a ++ b) = weights T C a + weights T C b
  | [], _ => by simp [weights]
  | (s, t) :: a, b => by
    rw [List.cons_append, weights, weights, weights_append T C a b]
    omega

theorem Inv.drop {T : Tables} {C : Cert} : ∀ (n : Nat) (fs : List (Nat × Tree)),
    Inv T C fs → Inv T C (fs.drop n)
  | 0, _, h => h
  | _ + 1, [], _ => by simp [Inv]
  | n + 1, (_, _) :: fs, h => by
    rw [List.drop_succ_cons]
    exact Inv.drop n fs h.2.2.2.2

theorem matchPast_sub {T : Tables} : ∀ (ps qs : List (Nat × Nat)) (fs : List (Nat × Tree)),
    subPast ps qs = true → matchPast T qs fs → matchPast T ps fs
  | [], _, _, _, _ => trivial
  | _ :: _, [], _, h, _ => (nomatch h)
  | _ :: _, _ :: _, [], _, h => h
  | p :: ps, q :: qs, (s, t) :: fs, h, hm => by
    simp only [subPast, Bool.and_eq_true, beq_iff_eq] at h
    refine ⟨?_, sub_testBit h.2.1 hm.2.1, matchPast_sub ps qs fs h.2.2 hm.2.2⟩
    rw [h.1]
    exact hm.1

/-- The symbols of the `n` topmost values. -/
theorem matchPast_take {T : Tables} : ∀ (ps : List (Nat × Nat)) (n : Nat)
    (fs : List (Nat × Tree)), matchPast T ps fs → n ≤ ps.length → n ≤ fs.length ∧
    (fs.take n).map (fun f => root (grammar T).lhs f.2) = (ps.take n).map (·.1) ∧
    ∀ p, (ps.take n).getLast? = some p → p.2.testBit (top (fs.drop n)) = true
  | _, 0, _, _, _ => ⟨Nat.zero_le _, rfl, by simp⟩
  | [], _ + 1, _, _, h => (nomatch h)
  | _ :: _, _ + 1, [], h, _ => h.elim
  | p :: ps, n + 1, (s, t) :: fs, h, hn => by
    obtain ⟨h1, h2, h3⟩ := matchPast_take ps n fs h.2.2 (by simpa using hn)
    refine ⟨by simpa using h1, by simp [h.1, h2], fun q hq => ?_⟩
    rw [List.drop_succ_cons]
    cases hps : ps.take n with
    | nil =>
      rw [List.take_succ_cons, hps] at hq
      simp only [List.getLast?_singleton, Option.some.injEq] at hq
      subst hq
      have hn0 : n = 0 := by
        have : (ps.take n).length = n := by
          rw [List.length_take]
          have : n ≤ ps.length := by simpa using hn
          omega
        rw [hps] at this
        exact this.symm
      subst hn0
      exact h.2.1
    | cons a as =>
      rw [List.take_succ_cons, hps] at hq
      rw [List.getLast?_cons_cons] at hq
      exact h3 q (by rw [hps]; exact hq)

theorem roots_popped (lhs : Nat → Nat) : ∀ (a : List (Nat × Tree)) (acc : Trees),
    roots lhs (popped a acc) = (a.map (fun f => root lhs f.2)).reverse ++ roots lhs acc
  | [], _ => rfl
  | (s, t) :: a, acc => by
    rw [popped, roots_popped lhs a]
    simp [roots]

theorem derives_popped {T : Tables} {C : Cert} : ∀ (a b : List (Nat × Tree)) (acc : Trees),
    Inv T C (a ++ b) → (∀ f ∈ a, root (grammar T).lhs f.2 ≠ 0) → DerivesAll (grammar T) acc →
    DerivesAll (grammar T) (popped a acc)
  | [], _, _, _, _, h => h
  | (s, t) :: a, b, acc, hi, hr, h => by
    rw [popped]
    refine derives_popped a b _ hi.2.2.2.2 (fun f hf => hr f (by simp [hf])) (.cons _ _ ?_ h)
    rcases hi.1 with ht | ht
    · exact ht
    · exact absurd (by rw [ht]; rfl) (hr (s, t) (by simp))

mutual
theorem yield_real {T : Tables} : ∀ (t : Tree), Derives (grammar T) t →
    ∀ k ∈ yield t, 0 < k.kind
  | .leaf t, .leaf _ ht => by
    intro k hk
    simp only [yield, List.mem_singleton] at hk
    rw [hk]
    exact ht.1
  | .node _ ks, .node _ _ _ _ hks => yields_real ks hks
theorem yields_real {T : Tables} : ∀ (ts : Trees), DerivesAll (grammar T) ts →
    ∀ k ∈ yields ts, 0 < k.kind
  | .nil, _ => fun _ hk => (nomatch hk)
  | .cons t ts, .cons _ _ ht hts => by
    intro k hk
    simp only [yields, List.mem_append] at hk
    rcases hk with hk | hk
    · exact yield_real t ht k hk
    · exact yields_real ts hts k hk
end

theorem real_id {ts : List Tok} (h : ∀ k ∈ ts, 0 < k.kind) : real ts = ts := by
  rw [real, List.filter_eq_self]
  intro k hk
  have := h k hk
  simp only [bne_iff_ne, ne_eq]
  omega

theorem sumWeights_roots (T : Tables) (C : Cert) : ∀ (a : List (Nat × Tree)),
    weights T C a = sumWeights C (a.map (fun f => root (grammar T).lhs f.2))
  | [] => rfl
  | (s, t) :: a => by
    simp [weights, sumWeights, sumWeights_roots T C a]

theorem sumWeights_append (C : Cert) : ∀ (a b : List Nat),
    sumWeights C (a ++ b) = sumWeights C a + sumWeights C b
  | [], _ => by simp [sumWeights]
  | x :: a, b => by
    rw [List.cons_append, sumWeights, sumWeights, sumWeights_append C a b]
    omega

theorem sumWeights_reverse (C : Cert) : ∀ (a : List Nat), sumWeights C a.reverse = sumWeights C a
  | [] => rfl
  | x :: a => by
    rw [List.reverse_cons, sumWeights_append, sumWeights_reverse C a]
    simp only [sumWeights]
    omega

section
variable {T : Tables} {C : Cert} {kinds : Nat} (hC : checkSound T C kinds = true)
include hC

theorem sActs : checkActs T C kinds = true := by
  simp only [checkSound, Bool.and_eq_true] at hC; exact hC.1
theorem sWeights : checkWeights T C = true := by
  simp only [checkSound, Bool.and_eq_true] at hC; exact hC.2.1
theorem sStates : checkStates T C kinds = true := by
  simp only [checkSound, Bool.and_eq_true] at hC; exact hC.2.2

theorem sState0 : (0 < C.past.length ∧ 0 < kinds) ∧ pastOf C 0 = [] ∧
    C.eofs.testBit 0 = false := by
  have h := sStates hC
  simp only [checkStates, Bool.and_eq_true, decide_eq_true_eq, Bool.not_eq_true',
    List.isEmpty_iff] at h
  exact ⟨h.1.1.1, h.1.1.2, h.1.2⟩

theorem sShift_lt {s k s' : Nat} (hs : s < C.past.length) (hk : k < kinds)
    (h : action T s k = .shift s') : s' < C.past.length := by
  have h' := sStates hC
  simp only [checkStates, Bool.and_eq_true, List.all_eq_true, List.mem_range] at h'
  have := (h'.2 s hs).1 k hk
  rw [h] at this
  simpa using this

theorem sGoto_lt {s r : Nat} (hs : s < C.past.length) (hr : 0 < r ∧ r < T.rhs.length) :
    goto T s (T.derives.getD r 0) < C.past.length := by
  have h' := sStates hC
  simp only [checkStates, Bool.and_eq_true, List.all_eq_true, List.mem_range] at h'
  have := (h'.2 s hs).2 r hr.2
  rw [Bool.or_eq_true] at this
  rcases this with h0 | h0
  · simp only [beq_iff_eq] at h0
    omega
  · simpa using h0

theorem sAct {s k : Nat} (hs : s < C.past.length) (hk : k < kinds) :
    ∃ k', (k' = k ∨ ∃ r, action T s k = .reduce r) ∧ checkAct T C s k' (action T s k) = true := by
  have h := sActs hC
  simp only [checkActs, List.all_eq_true, List.mem_range] at h
  have h := h s hs
  rw [Bool.and_eq_true, List.all_eq_true] at h
  have h2 := h.2 k (List.mem_range.mpr hk)
  rw [Bool.or_eq_true] at h2
  rcases h2 with h2 | h2
  · simp only [Bool.and_eq_true, beq_iff_eq] at h2
    rw [h2.1]
    cases hd : defaultAct T s with
    | reduce r =>
      refine ⟨0, .inr ⟨r, rfl⟩, ?_⟩
      have := h.1
      rw [hd] at this
      exact this
    | error => exact ⟨k, .inl rfl, rfl⟩
    | shift s' =>
      simp only [defaultAct] at hd
      split at hd <;> exact (nomatch hd)
    | accept =>
      simp only [defaultAct] at hd
      split at hd <;> exact (nomatch hd)
  · exact ⟨k, .inl rfl, h2⟩

theorem sWeight {r : Nat} (hr : 0 < r ∧ r < T.rhs.length) :
    (∀ x ∈ T.rhs.getD r [], 0 < x) ∧ T.rhsSize.getD r 0 = (T.rhs.getD r []).length ∧
    (T.rhs.getD r [] = [] → C.weight.getD (T.derives.getD r 0) 0 < C.bonus) ∧
    (T.rhs.getD r [] ≠ [] → C.weight.getD (T.derives.getD r 0) 0 <
      sumWeights C (T.rhs.getD r [])) := by
  have h := sWeights hC
  simp only [checkWeights, List.all_eq_true, List.mem_range] at h
  have h := h r hr.2
  rw [Bool.or_eq_true] at h
  rcases h with h0 | h
  · simp only [beq_iff_eq] at h0
    omega
  simp only [Bool.and_eq_true, List.all_eq_true, decide_eq_true_eq, beq_iff_eq] at h
  refine ⟨fun x hx => h.1 x (List.mem_cons_of_mem _ hx), h.2.1, fun e => ?_, fun e => ?_⟩
  · have := h.2.2
    rw [e] at this
    simpa using this
  · have := h.2.2
    cases hx : T.rhs.getD r [] with
    | nil => exact absurd hx e
    | cons x xs =>
      rw [hx] at this
      simpa using this

theorem inv_top {fs : List (Nat × Tree)} (h : Inv T C fs) :
    top fs < C.past.length ∧ matchPast T (pastOf C (top fs)) fs := by
  cases fs with
  | nil =>
    obtain ⟨h1, h2, _⟩ := sState0 hC
    exact ⟨h1.1, by rw [top, h2]; exact trivial⟩
  | cons f fs => exact ⟨h.2.2.1, h.2.2.2.1⟩

theorem inv_push {fs : List (Nat × Tree)} (h : Inv T C fs) {s x : Nat} {t : Tree}
    (ht : Derives (grammar T) t ∨ t = .leaf ⟨0, []⟩) (hx : root (grammar T).lhs t = x)
    (hs : s ≠ 0) (hlt : s < C.past.length)
    (hp : subPast (pastOf C s) ((x, 2 ^ top fs) :: pastOf C (top fs)) = true) :
    Inv T C ((s, t) :: fs) := by
  refine ⟨ht, hs, hlt, ?_, h⟩
  refine matchPast_sub _ _ _ hp ?_
  exact ⟨hx, by simp, (inv_top hC h).2⟩

theorem sLhs {r : Nat} (hr : 0 < r ∧ r < T.rhs.length) : 0 < T.derives.getD r 0 := by
  have h := sWeights hC
  simp only [checkWeights, List.all_eq_true, List.mem_range] at h
  have h := h r hr.2
  rw [Bool.or_eq_true] at h
  rcases h with h0 | h
  · simp only [beq_iff_eq] at h0
    omega
  simp only [Bool.and_eq_true, List.all_eq_true, decide_eq_true_eq, beq_iff_eq] at h
  exact h.1 _ List.mem_cons_self

theorem inv_reduce {c : Config} (hi : Inv T C c.frames) {r : Nat}
    (hr : checkReduce T C (top c.frames) r = true) (he : C.eofs.testBit (top c.frames) = false) :
    ∃ c', reduce T r c = .next c' ∧ Inv T C c'.frames ∧ c'.input = c.input ∧
      eaten c'.frames = eaten c.frames ∧ measure T C c' < measure T C c := by
  obtain ⟨_, hm⟩ := inv_top hC hi
  rw [checkReduce] at hr
  simp only [Bool.and_eq_true, decide_eq_true_eq, beq_iff_eq] at hr
  obtain ⟨hrule, hsym, hgo⟩ := hr
  obtain ⟨w1, w2, w3, w4⟩ := sWeight hC hrule
  generalize hrhs : T.rhs.getD r [] = rhs at *
  have hlen : rhs.length ≤ (pastOf C (top c.frames)).length := by
    have := congrArg List.length hsym
    simp only [List.length_map, List.length_take, List.length_reverse] at this
    omega
  obtain ⟨m1, m2, m3⟩ := matchPast_take _ rhs.length c.frames hm hlen
  rw [hsym] at m2
  -- the state that is uncovered
  have hG : checkGoto T C r (top (c.frames.drop rhs.length)) = true ∧
      (rhs = [] → C.flags.testBit (top c.frames) = true) := by
    split at hgo
    · rename_i hnone
      have hz : rhs = [] := by
        rw [List.getLast?_eq_none_iff] at hnone
        have := congrArg List.length hnone
        simp only [List.length_take, List.length_nil] at this
        exact List.length_eq_zero_iff.mp (by omega)
      rw [Bool.and_eq_true] at hgo
      subst hz
      exact ⟨hgo.2, fun _ => hgo.1⟩
    · rename_i p hp
      rw [Bool.and_eq_true, List.all_eq_true] at hgo
      have hb := m3 p hp
      have := hgo.2 (top (c.frames.drop rhs.length))
        (List.mem_range.mpr (inv_top hC (hi.drop rhs.length _)).1)
      rw [hb] at this
      refine ⟨by simpa using this, fun hz => ?_⟩
      subst hz
      simp at hp
  obtain ⟨hG, hflag⟩ := hG
  rw [checkGoto] at hG
  simp only [Bool.and_eq_true, bne_iff_ne, ne_eq, Bool.not_eq_true'] at hG
  obtain ⟨g1, g2, g3⟩ := hG
  have hinvd := hi.drop rhs.length
  have hsplit : c.frames.take rhs.length ++ c.frames.drop rhs.length = c.frames :=
    List.take_append_drop _ _
  refine ⟨⟨(goto T (top (c.frames.drop rhs.length)) (T.derives.getD r 0),
      .node r (popped (c.frames.take rhs.length) .nil)) :: c.frames.drop rhs.length, c.input⟩,
    ?_, ?_, rfl, ?_, ?_⟩
  · rw [reduce, w2]
    dsimp only
    rw [if_pos m1]
  · refine inv_push hC hinvd (.inl (.node _ _ hrule ?_ ?_)) rfl g1
      (sGoto_lt hC (inv_top hC hinvd).1 hrule) g2
    · rw [roots_popped, m2]
      simp only [roots, List.append_nil, List.reverse_reverse]
      exact hrhs.symm
    · refine derives_popped _ (c.frames.drop rhs.length) _ (by rw [hsplit]; exact hi) ?_ .nil
      intro f hf
      have : root (grammar T).lhs f.2 ∈ rhs.reverse := by
        rw [← m2]
        exact List.mem_map_of_mem hf
      have := w1 _ (List.mem_reverse.mp this)
      omega
  · simp only [eaten, yield]
    rw [real_yields_popped]
    simp only [yields, real, List.filter_nil, List.append_nil]
    rw [← eaten_append, hsplit]
  · rw [measure, measure]
    have hw : weights T C c.frames = sumWeights C rhs +
        weights T C (c.frames.drop rhs.length) := by
      conv => lhs; rw [← hsplit, weights_append, sumWeights_roots, m2, sumWeights_reverse]
    have e1 : eofLeft C (top c.frames) = 1 := by rw [eofLeft, he]; rfl
    have e2 : eofLeft C (goto T (top (c.frames.drop rhs.length)) (T.derives.getD r 0)) ≤ 1 := by
      rw [eofLeft]
      cases C.eofs.testBit _ <;> simp
    have e3 : extra C (goto T (top (c.frames.drop rhs.length)) (T.derives.getD r 0)) = 0 := by
      rw [extra, g3]; rfl
    have e4 := Nat.mul_le_mul_left (cost C) (Nat.add_le_add_left e2 c.input.length)
    rw [e1, hw]
    simp only [top_cons, weights, root]
    rw [e3]
    have hd : (grammar T).lhs r = T.derives.getD r 0 := rfl
    rw [hd]
    by_cases hz : rhs = []
    · have f1 := w3 hz
      have f2 : extra C (top c.frames) = C.bonus := by rw [extra, hflag hz]; rfl
      rw [f2]
      omega
    · have f1 := w4 hz
      omega

/-- What one turn of the loop does. -/
theorem step_spec {c : Config} (hi : Inv T C c.frames) (ht : Tokens kinds c.input) :
    (∃ c', step T c = .next c' ∧ Inv T C c'.frames ∧ Tokens kinds c'.input ∧
      eaten c'.frames ++ c'.input = eaten c.frames ++ c.input ∧
      measure T C c' < measure T C c) ∨
    (∃ t, step T c = .done (.accept t) ∧ Derives (grammar T) t ∧
      root (grammar T).lhs t = C.start ∧ yield t = eaten c.frames ++ c.input) ∨
    step T c = .done (.error c.input) := by
  obtain ⟨hlt, hm⟩ := inv_top hC hi
  have hlook : look c.input < kinds := by
    cases hc : c.input with
    | nil => exact (sState0 hC).1.2
    | cons t ts => exact (ht t (by rw [hc]; simp)).2
  obtain ⟨k', hk', hact⟩ := sAct hC hlt hlook
  rw [step]
  cases ha : action T (top c.frames) (look c.input) with
  | error => exact .inr (.inr rfl)
  | shift s' =>
    left
    have hk : k' = look c.input := by
      rcases hk' with h | ⟨r, h⟩
      · exact h
      · rw [ha] at h; exact (nomatch h)
    rw [ha, hk, checkAct] at hact
    simp only [Bool.and_eq_true, Bool.not_eq_true', bne_iff_ne, ne_eq, beq_iff_eq,
      decide_eq_true_eq] at hact
    obtain ⟨he, hs0, hes, hnt, hp⟩ := hact
    have hlt' := sShift_lt hC hlt hlook ha
    have e1 : eofLeft C (top c.frames) = 1 := by rw [eofLeft, he]; rfl
    have e2 : eofLeft C s' = bif (look c.input == 0) then 0 else 1 := by rw [eofLeft, hes]
    have e3 := extra_le C s'
    refine ⟨shift s' c, rfl, ?_⟩
    cases hc : c.input with
    | nil =>
      rw [hc] at e2 hp
      have hsh : shift s' c = ⟨(s', .leaf ⟨0, []⟩) :: c.frames, []⟩ := by rw [shift, hc]
      rw [hsh]
      refine ⟨inv_push hC hi (.inr rfl) rfl hs0 hlt' hp, fun _ h => (nomatch h),
        by simp [eaten, yield, real], ?_⟩
      rw [measure, measure, hc, e1]
      have e2' : eofLeft C s' = 0 := e2
      have := weight_lt C 0
      simp only [List.length_nil, weights, root]
      rw [show eofLeft C (top ((s', Tree.leaf ⟨0, []⟩) :: c.frames)) = 0 from e2']
      have e5 : extra C (top ((s', Tree.leaf ⟨0, []⟩) :: c.frames)) ≤ C.bonus := e3
      omega
    | cons t ts =>
      rw [hc] at e2 hp hnt
      have htk := ht t (by rw [hc]; simp)
      have hsh : shift s' c = ⟨(s', .leaf t) :: c.frames, ts⟩ := by rw [shift, hc]
      rw [hsh]
      refine ⟨inv_push hC hi (.inl (.leaf _ ⟨htk.1, hnt⟩)) rfl hs0 hlt' hp,
        fun x h => ht x (by rw [hc]; simp [h]), ?_, ?_⟩
      · simp only [eaten, yield]
        rw [real_id (by simpa using htk.1)]
        simp
      · rw [measure, measure, hc, e1]
        have hk0 : (t.kind == 0) = false := by simp; omega
        have e2' : eofLeft C s' = 1 := by rw [e2, look, hk0]; rfl
        have := weight_lt C t.kind
        simp only [weights, root, List.length_cons]
        rw [show eofLeft C (top ((s', Tree.leaf t) :: c.frames)) = 1 from e2']
        have e5 : extra C (top ((s', Tree.leaf t) :: c.frames)) ≤ C.bonus := e3
        rw [Nat.mul_add (cost C) (ts.length + 1) 1, Nat.mul_add (cost C) ts.length 1]
        omega
  | accept =>
    right; left
    have hk : k' = look c.input := by
      rcases hk' with h | ⟨r, h⟩
      · exact h
      · rw [ha] at h; exact (nomatch h)
    rw [ha, hk, checkAct, Bool.and_eq_true, beq_iff_eq] at hact
    obtain ⟨h0, hpast⟩ := hact
    split at hpast
    · rename_i p q hpq
      simp only [Bool.and_eq_true, beq_iff_eq, bne_iff_ne, ne_eq] at hpast
      rw [hpq] at hm
      cases hf : c.frames with
      | nil => rw [hf] at hm; exact hm.elim
      | cons f fs =>
        cases fs with
        | nil => rw [hf] at hm; exact hm.2.2.elim
        | cons f' fs' =>
          rw [hf] at hm hi
          obtain ⟨e, t₀⟩ := f
          obtain ⟨s, t⟩ := f'
          obtain ⟨m1, _, m2, m3, _⟩ := hm
          have hfs : fs' = [] := by
            cases fs' with
            | nil => rfl
            | cons g gs =>
              rw [hpast.2.2.1] at m3
              have hg : g.1 ≠ 0 := hi.2.2.2.2.2.2.2.2.2.1
              simp only [top] at m3
              rw [show (1 : Nat) = 2 ^ 0 from rfl, Nat.testBit_two_pow] at m3
              simp only [decide_eq_true_eq] at m3
              exact absurd m3.symm hg
          have ht0 : Derives (grammar T) t := by
            rcases hi.2.2.2.2.1 with h | h
            · exact h
            · exfalso
              rw [h] at m2
              exact hpast.2.2.2 m2.symm
          have hin : c.input = [] := by
            cases hc : c.input with
            | nil => rfl
            | cons k ks =>
              have := (ht k (by rw [hc]; simp)).1
              rw [hc, look] at h0
              omega
          have ht₀ : real (yield t₀) = [] := by
            have hz : root (grammar T).lhs t₀ = 0 := m1.trans hpast.1
            rcases hi.1 with h | h
            · cases h with
              | leaf k hk => 
                have := hk.1
                simp only [root] at hz
                omega
              | node r ks hr h1 h2 =>
                exfalso
                have hw : 0 < (grammar T).lhs r := sLhs hC hr
                simp only [root] at hz
                omega
            · rw [h]; rfl
          refine ⟨t, rfl, ht0, m2.trans hpast.2.1, ?_⟩
          rw [hin, hfs]
          simp [eaten, ht₀, real_id (yield_real t ht0)]
    · exact (nomatch hpast)
  | reduce r =>
    left
    rw [ha, checkAct, Bool.and_eq_true, Bool.not_eq_true'] at hact
    obtain ⟨c', h1, h2, h3, h4, h5⟩ := inv_reduce hC hi hact.2 hact.1
    exact ⟨c', h1, h2, by rw [h3]; exact ht, by rw [h3, h4], h5⟩

/-- The loop ends; what it accepts is a phrase of the grammar. -/
theorem run_spec : ∀ (f : Nat) (c : Config), Inv T C c.frames → Tokens kinds c.input →
    measure T C c < f →
    (∃ t, (run T f c).1 = .accept t ∧ Derives (grammar T) t ∧
      root (grammar T).lhs t = C.start ∧ yield t = eaten c.frames ++ c.input) ∨
    (∃ pre post, (run T f c).1 = .error post ∧ eaten c.frames ++ c.input = pre ++ post)
  | 0, _, _, _, h => (nomatch h)
  | f + 1, c, hi, ht, h => by
    rw [run]
    rcases step_spec hC hi ht with ⟨c', h1, h2, h3, h4, h5⟩ | ⟨t, h1, h2⟩ | h1
    · rw [h1]
      dsimp only
      have := run_spec f c' h2 h3 (by omega)
      rw [h4] at this
      exact this
    · rw [h1]
      exact .inl ⟨t, rfl, h2⟩
    · rw [h1]
      exact .inr ⟨eaten c.frames, c.input, rfl, rfl⟩

theorem sound {ts : List Tok} (ht : Tokens kinds ts) {f : Nat} (hf : fuelFor C ts.length ≤ f) :
    (∃ t, (run T f ⟨[], ts⟩).1 = .accept t ∧ Derives (grammar T) t ∧
      root (grammar T).lhs t = C.start ∧ yield t = ts) ∨
    (∃ pre post, (run T f ⟨[], ts⟩).1 = .error post ∧ ts = pre ++ post) := by
  have h := run_spec hC f ⟨[], ts⟩ trivial ht (by
    rw [measure]
    simp only [top, weights]
    have h1 : eofLeft C 0 = 1 := by rw [eofLeft, (sState0 hC).2.2]; rfl
    have h2 := extra_le C 0
    rw [h1]
    rw [fuelFor] at hf
    omega)
  simpa [eaten] using h

end
end Verif.Parse
