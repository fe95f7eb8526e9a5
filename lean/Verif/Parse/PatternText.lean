import Verif.Parse.PatternFlow
/-
Which texts are patterns: the lexer and the parser together.
-/
namespace Verif.Parse
open Spec
open Verif.Names.Spec (NCNameStart NCNameChar)

/-! ### The order of the tokens of what the parser accepts -/

theorem no_two : ∀ r, r < 82 → 2 ∉ patternTables.rhs.getD r [] := by decide +kernel

mutual
theorem yield_two : ∀ t : Tree, Derives GP t → root GP.lhs t ≠ 2 → ∀ x ∈ yield t, x.kind ≠ 2
  | .leaf t, _, h2, x, hx => by
    rw [yield] at hx
    rw [List.mem_singleton.mp hx]
    exact h2
  | .node r ks, h, _, x, hx => by
    rw [yield] at hx
    cases h with
    | node _ _ hr hs hd =>
      refine yields_two ks hd ?_ x hx
      rw [hs]
      exact no_two r hr.2
theorem yields_two : ∀ ts : Trees, DerivesAll GP ts → 2 ∉ roots GP.lhs ts → ∀ x ∈ yields ts, x.kind ≠ 2
  | .nil, _, _, x, hx => by rw [yields] at hx; exact (nomatch hx)
  | .cons t ts, h, h2, x, hx => by
    rw [yields] at hx
    rw [roots] at h2
    cases h with
    | cons _ _ h1 h3 =>
      rcases List.mem_append.mp hx with hx | hx
      · exact yield_two t h1 (fun e => h2 (by rw [e]; exact List.mem_cons_self)) x hx
      · exact yields_two ts h3 (fun e => h2 (List.mem_cons_of_mem _ e)) x hx
end

theorem built_kinds {w : List Tok} {P : List PPath} (h : Built w P) : ∀ t ∈ w, t.kind ≠ 2 := by
  obtain ⟨t, h1, h2, rfl, _⟩ := start_has h
  exact yield_two t h1 (by rw [h2]; decide)

theorem terms_yields : ∀ ks : Trees, DerivesAll (grammar xpathTables) ks →
    (∀ x ∈ roots (grammar xpathTables).lhs ks, x < 29) →
    (yields ks).map (·.kind) = roots (grammar xpathTables).lhs ks
  | .nil, _, _ => rfl
  | .cons t ts, h, hx => by
    cases h with
    | cons _ _ h1 h2 =>
      rw [roots] at hx
      have ih := terms_yields ts h2 fun x hx' => hx x (List.mem_cons_of_mem _ hx')
      cases h1 with
      | leaf t ht =>
        rw [yields, roots, ← ih]
        rfl
      | node r ks hr hs hd =>
        have := hx _ List.mem_cons_self
        have h29 : ∀ r, r < 61 → 0 < r → 29 ≤ xpathTables.derives.getD r 0 := by decide +kernel
        have h29 := h29 r hr.2 hr.1
        have : xpathTables.derives.getD r 0 < 29 := this
        omega

theorem test_rules : ∀ r, r < 61 → xpathTables.derives.getD r 0 = 35 →
    xpathTables.rhs.getD r [] ∈ [[6], [8, 19, 20], [8, 19, 3, 20]] := by decide +kernel

theorem test_kinds {w : List Tok} {t : RawTest} (h : BuiltTest w t) :
    w.map (·.kind) ∈ [[6], [8, 19, 20], [8, 19, 3, 20]] := by
  obtain ⟨t, h1, h2, rfl, _⟩ := h
  cases h1 with
  | leaf t ht =>
    have h2 : t.kind = 35 := h2
    have : t.kind < 29 := ht.2
    omega
  | node r ks hr hs hd =>
    have h2 : xpathTables.derives.getD r 0 = 35 := h2
    have h3 := test_rules r hr.2 h2
    have hs : roots (grammar xpathTables).lhs ks = xpathTables.rhs.getD r [] := hs
    rw [yield, terms_yields ks hd ?_, hs]
    · exact h3
    · rw [hs]
      have : ∀ l ∈ [[6], [8, 19, 20], [8, 19, 3, 20]], ∀ x ∈ l, x < 29 := by decide
      exact this _ h3

theorem preds_heads : ∀ r, r < 61 → (xpathTables.derives.getD r 0 = 33 ∨ xpathTables.derives.getD r 0 = 36) →
    (xpathTables.rhs.getD r []).head? = some 21 ∨ (xpathTables.rhs.getD r []).head? = some 33 ∨
      (xpathTables.rhs.getD r []).head? = some 36 := by decide +kernel

theorem preds_first : ∀ t : Tree, Derives (grammar xpathTables) t →
    (root (grammar xpathTables).lhs t = 33 ∨ root (grammar xpathTables).lhs t = 36) →
    ∃ x xs, yield t = x :: xs ∧ x.kind = 21
  | .leaf t, h, h2 => by
    cases h with
    | leaf _ ht =>
      have h2 : t.kind = 33 ∨ t.kind = 36 := h2
      have : t.kind < 29 := ht.2
      omega
  | .node r .nil, h, h2 => by
    cases h with
    | node _ _ hr hs _ =>
      have hs : [] = xpathTables.rhs.getD r [] := hs
      have := preds_heads r hr.2 h2
      rw [← hs] at this
      rcases this with h | h | h <;> exact (nomatch h)
  | .node r (.cons k ks), h, h2 => by
    cases h with
    | node _ _ hr hs hd =>
      have hs : root (grammar xpathTables).lhs k :: roots (grammar xpathTables).lhs ks =
        xpathTables.rhs.getD r [] := hs
      have := preds_heads r hr.2 h2
      rw [← hs] at this
      rw [yield, yields]
      cases hd with
      | cons _ _ hk _ =>
        have go : ∃ x xs, yield k = x :: xs ∧ x.kind = 21 := by
          rcases this with h | h | h
          · injection h with h
            cases hk with
            | leaf t _ => exact ⟨t, [], rfl, h⟩
            | node r ks hr _ _ =>
              have h29 : ∀ r, r < 61 → 0 < r → 29 ≤ xpathTables.derives.getD r 0 := by decide +kernel
              have h29 := h29 r hr.2 hr.1
              have h : xpathTables.derives.getD r 0 = 21 := h
              omega
          · injection h with h
            exact preds_first k hk (.inl h)
          · injection h with h
            exact preds_first k hk (.inr h)
        obtain ⟨x, xs, e, hx⟩ := go
        exact ⟨x, xs ++ yields ks, by rw [e]; rfl, hx⟩

theorem preds_shape {w : List Tok} {ps : List Ast} (h : BuiltPreds w ps) :
    w = [] ∨ ∃ x xs, w = x :: xs ∧ x.kind = 21 := by
  rcases h with ⟨rfl, _⟩ | ⟨⟨t, h1, h2, rfl, _⟩, _⟩
  · exact .inl rfl
  · exact .inr (preds_first t h1 (.inl h2))

/-- The tokens may follow a step. -/
def Next (v : List Tok) : Prop := ∀ p, p ≠ 12 → Flow p v

theorem flow_plain {p : Nat} {t : Tok} {ts : List Tok} {k : Nat} (hk : t.kind = k)
    (h : k ∈ [10, 12, 21, 22, 23, 24, 25, 27]) (h1 : p = 10 ∨ p = 25 → k = 21 ∨ k = 22 ∨ k = 23)
    (h2 : p = 12 → k = 24) (hf : Flow k ts) : Flow p (t :: ts) := by
  rw [Flow, hk]
  exact .inr (.inr (.inr (.inr (.inr ⟨h1, h2, h, hf⟩))))

theorem flow_stop {p : Nat} {t : Tok} {ts : List Tok} {k : Nat} (hk : t.kind = k)
    (h : k = 28 ∨ k = 3 ∨ k = 4 ∨ k = 7) : Flow p (t :: ts) := by
  rw [Flow, hk]
  rcases h with h | h | h | h
  · exact .inl h
  · exact .inr (.inl h)
  · exact .inr (.inr (.inl h))
  · exact .inr (.inr (.inr (.inl h)))

theorem cons_kind {w : List Tok} {x : Nat} {l : List Nat} (h : w.map (·.kind) = x :: l) :
    ∃ a w', w = a :: w' ∧ a.kind = x ∧ w'.map (·.kind) = l := by
  cases w with
  | nil => exact (nomatch h)
  | cons a w' =>
    rw [List.map_cons] at h
    injection h with h1 h2
    exact ⟨a, w', rfl, h1, h2⟩

theorem test_flow {w : List Tok} {t : RawTest} (h : BuiltTest w t) {v : List Tok} (hv : Next v) (p : Nat)
    (hp : p ≠ 10 ∧ p ≠ 12 ∧ p ≠ 25) : Flow p (inPattern w ++ v) := by
  have hk := test_kinds h
  simp only [List.mem_cons, List.not_mem_nil, or_false] at hk
  rcases hk with hk | hk | hk
  · obtain ⟨a, w, rfl, ha, hk⟩ := cons_kind hk
    cases List.map_eq_nil_iff.mp hk
    exact flow_plain (k := 10) (by rw [mapTok]; dsimp only; rw [ha]; rfl) (by decide) (by omega) (by omega)
      (hv 10 (by decide))
  · obtain ⟨a, w, rfl, ha, hk⟩ := cons_kind hk
    obtain ⟨b, w, rfl, hb, hk⟩ := cons_kind hk
    obtain ⟨c, w, rfl, hc, hk⟩ := cons_kind hk
    cases List.map_eq_nil_iff.mp hk
    refine flow_plain (k := 12) (by rw [mapTok]; dsimp only; rw [ha]; rfl) (by decide) (by omega) (by omega) ?_
    refine flow_plain (k := 24) (by rw [mapTok]; dsimp only; rw [hb]; rfl) (by decide) (by omega) (by omega) ?_
    exact flow_plain (k := 25) (by rw [mapTok]; dsimp only; rw [hc]; rfl) (by decide) (by omega) (by omega)
      (hv 25 (by decide))
  · obtain ⟨a, w, rfl, ha, hk⟩ := cons_kind hk
    obtain ⟨b, w, rfl, hb, hk⟩ := cons_kind hk
    obtain ⟨c, w, rfl, hc, hk⟩ := cons_kind hk
    refine flow_plain (k := 12) (by rw [mapTok]; dsimp only; rw [ha]; rfl) (by decide) (by omega) (by omega) ?_
    refine flow_plain (k := 24) (by rw [mapTok]; dsimp only; rw [hb]; rfl) (by decide) (by omega) (by omega) ?_
    exact flow_stop (k := 7) (by rw [mapTok]; dsimp only; rw [hc]; rfl) (by decide)

theorem preds_next {w : List Tok} {ps : List Ast} (h : BuiltPreds w ps) {v : List Tok} (hv : Next v) :
    Next (inPattern w ++ v) := by
  rcases preds_shape h with rfl | ⟨x, xs, rfl, hx⟩
  · exact hv
  · intro p _
    exact flow_stop (k := 28) (by rw [mapTok]; dsimp only; rw [hx]; rfl) (.inl rfl)

theorem step_flow {w : List Tok} {s : PStep} (h : BStep w s) {v : List Tok} (hv : Next v) (p : Nat)
    (hp : p ≠ 10 ∧ p ≠ 12 ∧ p ≠ 25) : Flow p (w ++ v) := by
  cases h with
  | @mk a b c _ _ _ ha hb hc =>
    have ht := test_flow hb (preds_next hc hv)
    rw [List.append_assoc, List.append_assoc]
    cases ha with
    | none => exact ht p hp
    | «at» h => exact flow_plain (k := 27) h (by decide) (by omega) (by omega) (ht 27 (by decide))
    | child h1 h2 => exact flow_stop (k := 3) h1 (by decide)
    | «attribute» h1 h2 => exact flow_stop (k := 4) h1 (by decide)

theorem slash_next {t : Tok} {w : List Tok} (k : Nat) (ht : t.kind = k) (hk : k = 21 ∨ k = 22 ∨ k = 23)
    (hw : Flow k w) : Next (t :: w) := by
  intro p hp
  refine flow_plain (k := k) ht ?_ (fun _ => hk) (fun h => absurd h hp) hw
  rcases hk with rfl | rfl | rfl <;> decide

theorem rel_flow {w : List Tok} {r : PRel} (h : BRel w r) : ∀ {v : List Tok}, Next v → ∀ p : Nat,
    (p ≠ 10 ∧ p ≠ 12 ∧ p ≠ 25) → Flow p (w ++ v) := by
  induction h with
  | one h => exact fun hv p hp => step_flow h hv p hp
  | @slash u t w r s _ ht hs ih =>
    intro v hv p hp
    rw [List.append_assoc]
    exact ih (slash_next 23 ht (by decide) (step_flow hs hv 23 (by decide))) p hp
  | @slashes u t w r s _ ht hs ih =>
    intro v hv p hp
    rw [List.append_assoc]
    exact ih (slash_next 21 ht (by decide) (step_flow hs hv 21 (by decide))) p hp

theorem call_flow {w : List Tok} {f : Ast} (h : BuiltCall w f) (v : List Tok) (p : Nat) : Flow p (w ++ v) := by
  cases h with
  | id h1 h2 h3 h4 h5 =>
    refine .inr (.inr (.inr (.inr (.inl ⟨.inl h1, ?_⟩))))
    exact h3
  | key h1 h2 h3 h4 h5 h6 h7 =>
    refine .inr (.inr (.inr (.inr (.inl ⟨.inr h1, ?_⟩))))
    exact h3

theorem path_flow {w : List Tok} {P : PPath} (h : BPath w P) {v : List Tok} (hv : Next v) (p : Nat)
    (hp : p ≠ 10 ∧ p ≠ 12 ∧ p ≠ 25) : Flow p (w ++ v) := by
  cases h with
  | root ht => exact slash_next 23 ht (by decide) (hv 23 (by decide)) p hp.2.1
  | abs ht hr => exact slash_next 23 ht (by decide) (rel_flow hr hv 23 (by decide)) p hp.2.1
  | any ht hr => exact slash_next 21 ht (by decide) (rel_flow hr hv 21 (by decide)) p hp.2.1
  | rel hr => exact rel_flow hr hv p hp
  | call h => exact call_flow h v p
  | callSlash h => rw [List.append_assoc]; exact call_flow h _ p
  | callSlashes h => rw [List.append_assoc]; exact call_flow h _ p

theorem pattern_flow {w : List Tok} {P : List PPath} (h : Built w P) : ∀ {v : List Tok}, Next v → ∀ p : Nat,
    (p ≠ 10 ∧ p ≠ 12 ∧ p ≠ 25) → Flow p (w ++ v) := by
  induction h with
  | one h => exact fun hv p hp => path_flow h hv p hp
  | @more u t w ps q _ ht hs ih =>
    intro v hv p hp
    rw [List.append_assoc]
    exact ih (slash_next 22 ht (by decide) (path_flow hs hv 22 (by decide))) p hp

theorem built_flow {w : List Tok} {P : List PPath} (h : Built w P) : Flow 0 w := by
  have := pattern_flow h (v := []) (fun p _ => by rw [Flow]; trivial) 0 (by decide)
  rw [List.append_nil] at this
  exact this

/-! ### Only plain tokens -/

theorem digit_bad {c : Char} (h : Spec.Digit c) : c ∈ badChars := by
  have : ∀ n ∈ List.range 10, Char.ofNat (48 + n) ∈ badChars := by decide
  obtain ⟨n, hn, rfl⟩ := digit_char h
  exact this n hn

/-- Where an operator is read by XPath, a name is read here. -/
theorem operator_bad {w : Str} {k : Term} (h : (w, k) ∈ operatorNames) {rest : Str} (he : EndsName rest)
    {ts : List Tok} (ht : Toks patternLexer 2 (w ++ rest) ts) :
    (∃ t ∈ ts, t.kind = 2) ∨ ∃ t us, ts = t :: us ∧ t.kind = 10 := by
  have hw : NCName w ∧ w ∉ nodeTypes ∧ ∀ v b, (v, b) ∈ keywords → w ≠ v := by
    simp only [operatorNames, List.mem_cons, List.not_mem_nil, or_false, Prod.mk.injEq] at h
    have hv : ∀ w : Str, (keywords.map (·.1)).contains w = false → ∀ v b, (v, b) ∈ keywords → w ≠ v := by
      intro w hw v b hv e
      subst e
      have : (keywords.map (·.1)).contains w = true := by
        rw [List.contains_eq_mem]
        exact decide_eq_true (List.mem_map_of_mem (f := (·.1)) hv)
      rw [hw] at this
      exact (nomatch this)
    rcases h with ⟨rfl, _⟩ | ⟨rfl, _⟩ | ⟨rfl, _⟩ | ⟨rfl, _⟩ <;>
      exact ⟨ncNameB (by decide +kernel), by decide, hv _ (by decide)⟩
  obtain ⟨hN, h1, h2⟩ := hw
  have g1 := nodeType_none hN he (.inl h1)
  have g2 : ∀ v b, (v, b) ∈ keywords → scan X (keyProg v b) (w ++ rest) = none := by
    intro v b hv
    cases hs : scan X (keyProg v b) (w ++ rest) with
    | none => rfl
    | some r => exact absurd (keyword_whole (keywords_names hv) hN he hs).2.1 (h2 v b hv)
  obtain ⟨c, cs, rfl, hc, _⟩ := hN
  have hc := (isStart_iff c).mpr hc
  have hb := best_nameTest hc g1 g2
  cases hs : scan X pNameTest (c :: cs ++ rest) with
  | none =>
    rw [show c :: cs.append rest = c :: cs ++ rest from rfl, hs] at hb
    exact .inl (none_bad hc hb ht)
  | some y =>
    rw [show c :: cs.append rest = c :: cs ++ rest from rfl, hs] at hb
    obtain ⟨us, hus⟩ := pat_total_at y (st := 2) (.inr (.inl rfl))
    have := Toks.token (L := patternLexer) (st := 2) hb (n := 264) rfl (by decide) (ts := us) hus
    rw [kind_name] at this
    exact .inr ⟨_, _, toks_unique ht this, rfl⟩

theorem flow_ten {p : Nat} {t : Tok} {us : List Tok} (ht : t.kind = 10) (hp : p = 10 ∨ p = 12 ∨ p = 25)
    (hf : Flow p (t :: us)) : False := by
  rw [Flow, ht] at hf
  rcases hf with h | h | h | h | ⟨h | h, _⟩ | ⟨h1, h2, _⟩
  all_goals first | exact absurd h (by decide) | skip
  rcases hp with h | h | h
  · exact absurd (h1 (.inl h)) (by decide)
  · exact absurd (h2 h) (by decide)
  · exact absurd (h1 (.inr h)) (by decide)

/-- Of what is accepted as a pattern, the tokens before the first `[` are plain. -/
theorem only_plain : ∀ (n : Nat) (s : Str), s.length = n → ∀ (op : Bool) (ts ts' : List Tok) (p : Nat),
    Lexes op s ts → Toks patternLexer 2 s ts' → (∀ t ∈ ts', t.kind ≠ 2) → Flow p ts' →
    (op = true → p = 10 ∨ p = 12 ∨ p = 25) → plainToks ts = true := by
  intro n
  induction n using Nat.strongRecOn with
  | ind n ih =>
    intro s hn op ts ts' p h ht' h2 hf hop
    cases h with
    | nil => rfl
    | @space _ c s' _ hc hl =>
      have hlen : (s'.dropWhile isSp).length ≤ s'.length := (List.dropWhile_suffix _).length_le
      obtain ⟨us, hus⟩ := pat_total_at (s'.dropWhile isSp) (st := 2) (.inr (.inl rfl))
      have e := toks_unique ht' (out_space (spec_space.mp hc) hus)
      subst e
      exact ih _ (by rw [← hn]; simp only [List.length_cons]; omega) _ rfl op ts _ p (lexes_drop hl) hus h2 hf hop
    | @token _ k w rest ts ht hl =>
      by_cases hpl : [17, 18, 26, 24, 6, 8, 19, 20].contains k.num = true
      · obtain ⟨c, cs, hw, hc⟩ := token_first ht
        have hlen : (w ++ rest).length = rest.length + w.length := by simp; omega
        have hwl : 0 < w.length := by rw [hw]; simp
        obtain ⟨us, hus⟩ := pat_total_at rest (st := 2) (.inr (.inl rfl))
        have e := toks_unique ht' (out_plain ht hpl hus)
        subst e
        have hk : Flow (patSym k.num) us := by
          have hne : ∀ m ∈ [28, 3, 4, 7, 5, 6], patSym k.num ≠ m := by
            clear hf hop hl ht h2 ht' hn
            revert hpl
            cases k <;> first | (intro _; decide) | (intro h; exact absurd h (by decide))
          rw [Flow] at hf
          dsimp only at hf
          rcases hf with h | h | h | h | ⟨h | h, _⟩ | ⟨_, _, _, hf⟩
          · exact absurd h (hne _ (by decide))
          · exact absurd h (hne _ (by decide))
          · exact absurd h (hne _ (by decide))
          · exact absurd h (hne _ (by decide))
          · exact absurd h (hne _ (by decide))
          · exact absurd h (hne _ (by decide))
          · exact hf
        have := ih _ (by omega) rest rfl _ ts us _ hl hus
          (fun t ht => h2 t (List.mem_cons_of_mem _ ht)) hk (by
            clear hk hf hop hl ht h2 ht' hn
            revert hpl
            cases k <;> first
              | (intro _ h; exact absurd h (by decide))
              | (intro _ _; decide)
              | (intro h; exact absurd h (by decide)))
        rw [plainToks, hpl, this]
        simp
      · have bad : ∀ c cs, w ++ rest = c :: cs → c ∈ badChars → False := by
          intro c cs e hc
          rw [e] at ht'
          exact bad_char hc ht' hf
        cases ht with
        | single h =>
          simp only [singles, List.mem_cons, List.not_mem_nil, or_false, Prod.mk.injEq] at h
          rcases h with ⟨rfl, rfl⟩ | ⟨rfl, rfl⟩ | ⟨rfl, rfl⟩ | ⟨rfl, rfl⟩ | ⟨rfl, rfl⟩ | ⟨rfl, rfl⟩ |
            ⟨rfl, rfl⟩ | ⟨rfl, rfl⟩ | ⟨rfl, rfl⟩ | ⟨rfl, rfl⟩ <;>
            first
            | exact absurd (by decide) hpl
            | rfl
            | exact (bad _ _ rfl (by decide)).elim
        | double h =>
          simp only [doubles, List.mem_cons, List.not_mem_nil, or_false, Prod.mk.injEq] at h
          rcases h with ⟨rfl, rfl, rfl⟩ | ⟨rfl, rfl, rfl⟩ | ⟨rfl, rfl, rfl⟩ | ⟨rfl, rfl, rfl⟩ |
            ⟨rfl, rfl, rfl⟩ | ⟨rfl, rfl, rfl⟩ <;>
            first
            | exact absurd (by decide) hpl
            | exact (bad _ _ rfl (by decide)).elim
        | slash h => exact absurd (by decide) hpl
        | less h => exact (bad _ _ rfl (by decide)).elim
        | greater h => exact (bad _ _ rfl (by decide)).elim
        | dot h => exact (bad _ _ rfl (by decide)).elim
        | literal h1 h2 =>
          rcases h1 with rfl | rfl <;> exact (bad _ _ rfl (by decide)).elim
        | integer h1 h2 h3 =>
          cases w with
          | nil => exact absurd rfl h1
          | cons c cs => exact (bad c _ rfl (digit_bad (h2 c List.mem_cons_self))).elim
        | @decimal _ v w _ h1 h2 h3 h4 =>
          cases v with
          | nil => exact (bad _ _ rfl (by decide)).elim
          | cons c cs => exact (bad c _ rfl (digit_bad (h1 c List.mem_cons_self))).elim
        | «variable» h1 h2 => exact (bad _ _ rfl (by decide)).elim
        | variableNs h1 h2 h3 => exact (bad _ _ rfl (by decide)).elim
        | times =>
          obtain ⟨us, hus⟩ := pat_total_at rest (st := 2) (.inr (.inl rfl))
          have e := toks_unique ht' (out_star hus)
          subst e
          exact (flow_ten rfl (hop rfl) hf).elim
        | operator h1 h3 =>
          rcases operator_bad h1 h3 ht' with ⟨t, hm, hk⟩ | ⟨t, us, rfl, hk⟩
          · exact absurd hk (h2 t hm)
          · exact (flow_ten hk (hop rfl) hf).elim
        | nodeType h1 h2 h3 => exact absurd (by decide) hpl
        | axisName h1 h3 h4 =>
          exfalso
          obtain ⟨sp, r, rfl, hs⟩ := h4
          have e : w ++ (sp ++ [':', ':'] ++ r) = w ++ (sp ++ ':' :: ':' :: r) := by simp
          rw [e] at ht'
          obtain ⟨t, hm, hk⟩ := colon_bad _ w sp (':' :: r) rfl (name_chars h1)
            (fun c hc => spec_space.mp (hs c hc)) ⟨by rw [afterName, if_neg (by decide +kernel)], nofun⟩ ts' ht'
          exact absurd hk (h2 t hm)
        | function h1 h3 h4 h5 =>
          exfalso
          obtain ⟨us, hus⟩ := pat_total_at rest (st := 2) (.inr (.inl rfl))
          have third : ∀ k, k = 5 ∨ k = 6 → ts' = ⟨k, w⟩ :: us → False := by
            intro k hk e
            subst e
            obtain ⟨x, vs, r, rfl, hx, hvs⟩ := paren_next h5 hus
            have h7 : ThirdLiteral (x :: vs) := by
              rw [Flow] at hf
              dsimp only at hf
              rcases hf with h | h | h | h | ⟨_, h⟩ | ⟨_, _, h, _⟩
              · omega
              · omega
              · omega
              · omega
              · exact h
              · exfalso
                simp only [List.mem_cons, List.not_mem_nil, or_false] at h
                omega
            cases vs with
            | nil => exact h7
            | cons y ys =>
              obtain ⟨z, hz, hz2⟩ := no_literal hvs h7
              exact absurd hz2 (h2 z (List.mem_cons_of_mem _ (List.mem_cons_of_mem _ hz)))
          rcases out_function h1 h3 (nextParen_iff.mpr h5) hus with h | h | h
          · have e := toks_unique ht' h
            subst e
            exact name_then h5 hus hf
          · exact third 5 (.inl rfl) (toks_unique ht' h)
          · exact third 6 (.inr rfl) (toks_unique ht' h)
        | functionNs h1 h3 h4 h5 =>
          exfalso
          obtain ⟨us, hus⟩ := pat_total_at rest (st := 2) (.inr (.inl rfl))
          have e := toks_unique ht' (out_prefixed h1 (ncName_no_colon h3) (ns_scan h1 h3 h4) hus)
          subst e
          exact name_then h5 hus hf
        | star => exact absurd (by decide) hpl
        | prefixStar h => exact absurd (by decide) hpl
        | name h1 h2 h3 h4 => exact absurd (by decide) hpl
        | nameNs h1 h2 h3 h4 => exact absurd (by decide) hpl

end Verif.Parse
