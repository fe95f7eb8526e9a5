import Verif.Parse.PatternOut
/-
The lexer of patterns: what it makes of texts that are no plain tokens before
the first `[` is no pattern.
-/
namespace Verif.Parse
open Spec
open Verif.Names.Spec (NCNameStart NCNameChar)

theorem pat_total_at (s : Str) {st : Nat} (h : st = 1 ∨ st = 2 ∨ st = 3) : ∃ ts, Toks patternLexer st s ts := by
  obtain ⟨ts, ht⟩ := pat_total_from (avtNeed st s) st s h (Nat.le_refl _)
  exact ⟨ts, toks_of_lex _ _ _ _ ht⟩

/-! ### A colon that is not in a name -/

/-- No name and no `*` comes first. -/
def BadAfter (r : Str) : Prop := afterName r = none ∧ ∀ cs, r ≠ '*' :: cs

theorem names_prefix {v x u y : Str} (h : v ++ x = u ++ y) (hv : ∀ c ∈ v, isName c = true)
    (hy : ∃ d ds, y = d :: ds ∧ isName d = false) : ∃ u', u = v ++ u' ∧ x = u' ++ y := by
  rcases List.append_eq_append_iff.mp h with ⟨a, h1, h2⟩ | ⟨a, h1, h2⟩
  · exact ⟨a, h1, h2⟩
  · obtain ⟨d, ds, rfl, hd⟩ := hy
    cases a with
    | nil => exact ⟨[], by simpa using h1.symm, by simpa using h2.symm⟩
    | cons a as =>
      injection h2 with h2 _
      subst h2
      have := hv d (by rw [h1]; simp)
      rw [hd] at this
      exact (nomatch this)

theorem name_chars {w : Str} (h : NCName w) : ∀ c ∈ w, isName c = true := by
  obtain ⟨c, cs, rfl, h1, h2⟩ := h
  intro x hx
  rcases List.mem_cons.mp hx with rfl | hx
  · exact start_name ((isStart_iff x).mpr h1)
  · exact (isName_iff x).mpr (h2 x hx)

theorem after_names {u y : Str} {c : Char} (hc : isStart c = true) (hu : ∀ c ∈ u, isName c = true)
    (hy : ∃ d ds, y = d :: ds ∧ isName d = false) : afterName (c :: (u ++ y)) = some y := by
  rw [afterName, if_pos hc]
  congr 1
  obtain ⟨d, ds, rfl, hd⟩ := hy
  induction u with
  | nil => rw [List.nil_append, List.dropWhile_cons, if_neg (by rw [hd]; nofun)]
  | cons a as ih =>
    rw [List.cons_append, List.dropWhile_cons, if_pos (hu a List.mem_cons_self)]
    exact ih fun x hx => hu x (List.mem_cons_of_mem _ hx)

theorem kind_colon : patternLexer.kind (':').toNat = 2 := by decide +kernel

theorem spaced_head {sp r : Str} (hs : ∀ c ∈ sp, isSp c = true) :
    ∃ d ds, sp ++ ':' :: r = d :: ds ∧ isName d = false := by
  cases sp with
  | nil => exact ⟨':', r, rfl, by decide +kernel⟩
  | cons a as => exact ⟨a, _, rfl, sp_not_name (hs a List.mem_cons_self)⟩

theorem drop_all {sp r : Str} (hs : ∀ c ∈ sp, isSp c = true) :
    (sp ++ ':' :: r).dropWhile isSp = ':' :: r := by
  induction sp with
  | nil => rw [List.nil_append, List.dropWhile_cons, if_neg (by decide +kernel)]
  | cons a as ih =>
    rw [List.cons_append, List.dropWhile_cons, if_pos (hs a List.mem_cons_self)]
    exact ih fun x hx => hs x (List.mem_cons_of_mem _ hx)

theorem longer_eq_none {a b : Option Str} (h : longer a b = none) : a = none ∧ b = none := by
  cases a with
  | none => exact ⟨rfl, h⟩
  | some a =>
    cases b with
    | none => exact (nomatch h)
    | some b =>
      rw [longer] at h
      split at h <;> exact (nomatch h)

/-- What a pattern that begins with a name character can leave. -/
theorem name_step {c : Char} {u sp r' : Str} (hu : ∀ x ∈ c :: u, isName x = true)
    (hs : ∀ x ∈ sp, isSp x = true) (hb : BadAfter r') {r : Rule} {rest : Str}
    (h : bestRule X patRules (c :: (u ++ (sp ++ ':' :: r'))) = some (r, rest)) :
    (∃ n, r.give = .token n ∧ n ≠ 0) ∧ r.next = none ∧
      ∃ v u', v ≠ [] ∧ c :: u = v ++ u' ∧ rest = u' ++ (sp ++ ':' :: r') := by
  obtain ⟨hm, hsc⟩ := best_mem h
  have hh := spaced_head (r := r') hs
  have hc := hu c List.mem_cons_self
  have word : ∀ v : Str, NCName v → c :: (u ++ (sp ++ ':' :: r')) = v ++ rest →
      ∃ v u', v ≠ [] ∧ c :: u = v ++ u' ∧ rest = u' ++ (sp ++ ':' :: r') := by
    intro v hv e
    obtain ⟨u', h1, h2⟩ := names_prefix (v := v) (x := rest) (u := c :: u) e.symm (name_chars hv) hh
    exact ⟨v, u', ncName_ne hv, h1, h2⟩
  have no : ∀ n : Nat, isName (Char.ofNat n) = false → c.toNat ≠ n := fun n hn e => by
    rw [not_name e hn] at hc; exact (nomatch hc)
  by_cases hw : r ∈ wordRules
  · rcases wordRules_mem hw with rfl | ⟨v, b, n, hv, rfl, hn⟩ | rfl
    · obtain ⟨_, w, hw, e⟩ := nodeType_sound hsc
      exact ⟨⟨266, rfl, by decide⟩, rfl, word w (nodeTypes_names hw) e⟩
    · refine ⟨⟨n, rfl, ?_⟩, rfl, word v (keywords_names hv) (keyword_scan hsc).1⟩
      rcases hn with ⟨_, rfl⟩ | ⟨_, rfl⟩ | ⟨_, rfl⟩ | ⟨_, rfl⟩ <;> decide
    · refine ⟨⟨264, rfl, by decide⟩, rfl, ?_⟩
      have hsc : scan X pNameTest (c :: (u ++ (sp ++ ':' :: r'))) = some rest := hsc
      rw [scan_nameTest, scan_lit, if_neg (no 42 (by decide +kernel))] at hsc
      by_cases hst : isStart c = true
      · have ha := after_names hst (fun x hx => hu x (List.mem_cons_of_mem _ hx)) hh
        rw [afterQName, afterPrefix, ha] at hsc
        cases sp with
        | nil =>
          exfalso
          have e1 : scan X (.lit 58 (.lit 42 .success)) ([] ++ ':' :: r') = none := by
            rw [List.nil_append, scan_lit, if_pos (by decide)]
            cases r' with
            | nil => rfl
            | cons d ds =>
              rw [scan_lit, if_neg]
              exact fun e => hb.2 ds (by rw [char_eq '*' e])
          have e2 : scan X (.lit 58 .success) ([] ++ ':' :: r') = some r' := rfl
          have hsc : longer none (longer (scan X (.lit 58 (.lit 42 .success)) ([] ++ ':' :: r'))
            (match scan X (.lit 58 .success) ([] ++ ':' :: r') with
              | none => some ([] ++ ':' :: r')
              | some s' => afterName s')) = some rest := hsc
          rw [e1, e2] at hsc
          dsimp only at hsc
          rw [hb.1] at hsc
          exact (nomatch hsc)
        | cons a as =>
          have ha' : a.toNat ≠ 58 := fun e => by
            have := hs a List.mem_cons_self
            rw [not_sp e (by decide +kernel)] at this
            exact (nomatch this)
          have e1 : scan X (.lit 58 (.lit 42 .success)) (a :: as ++ ':' :: r') = none := by
            rw [List.cons_append, scan_lit, if_neg ha']
          have e2 : scan X (.lit 58 .success) (a :: as ++ ':' :: r') = none := by
            rw [List.cons_append, scan_lit, if_neg ha']
          have hsc : longer none (longer (scan X (.lit 58 (.lit 42 .success)) (a :: as ++ ':' :: r'))
            (match scan X (.lit 58 .success) (a :: as ++ ':' :: r') with
              | none => some (a :: as ++ ':' :: r')
              | some s' => afterName s')) = some rest := hsc
          rw [e1, e2] at hsc
          injection hsc with hsc
          exact ⟨c :: u, [], by simp, by simp, hsc.symm⟩
      · have ha : afterName (c :: (u ++ (sp ++ ':' :: r'))) = none := by
          rw [afterName, if_neg hst]
        rw [afterQName, afterPrefix, ha] at hsc
        exact (nomatch hsc)
  · exfalso
    have hm' : r = ⟨pSlashes, none, .token 275⟩ ∨ r = ⟨pBracket, some 1, .ascii⟩ ∨ r = ⟨pSpace, none, .discard⟩ := by
      simp only [patRules, wordRules, List.mem_cons, List.not_mem_nil, or_false, not_or] at hm hw
      rcases hm with h | h | h | h | h | h | h | h | h
      · exact .inl h
      · exact absurd h hw.1
      · exact absurd h hw.2.1
      · exact absurd h hw.2.2.1
      · exact absurd h hw.2.2.2.1
      · exact absurd h hw.2.2.2.2.1
      · exact absurd h hw.2.2.2.2.2
      · exact .inr (.inl h)
      · exact .inr (.inr h)
    rcases hm' with rfl | rfl | rfl
    · have hsc : scan X (.lit 47 (.lit 47 .success)) (c :: (u ++ (sp ++ ':' :: r'))) = some rest := hsc
      rw [scan_lit, if_neg (no 47 (by decide +kernel))] at hsc
      exact (nomatch hsc)
    · have hsc : scan X (.lit 91 .success) (c :: (u ++ (sp ++ ':' :: r'))) = some rest := hsc
      rw [scan_lit, if_neg (no 91 (by decide +kernel))] at hsc
      exact (nomatch hsc)
    · have hsc : scan X pSpace (c :: (u ++ (sp ++ ':' :: r'))) = some rest := hsc
      rw [scan_space, if_neg] at hsc
      · exact (nomatch hsc)
      · intro h
        rw [sp_not_name h] at hc
        exact (nomatch hc)

theorem name_nonzero {c : Char} (h : isName c = true) : c.toNat ≠ 0 := by
  intro e
  rw [not_name e (by decide +kernel)] at h
  exact (nomatch h)

/-- A colon after name characters and white space, and before neither a name
nor `*`, leaves a token of no kind. -/
theorem colon_bad : ∀ (n : Nat) (u sp r' : Str), u.length + sp.length = n → (∀ c ∈ u, isName c = true) →
    (∀ c ∈ sp, isSp c = true) → BadAfter r' → ∀ ts, Toks patternLexer 2 (u ++ (sp ++ ':' :: r')) ts →
    ∃ t ∈ ts, t.kind = 2 := by
  intro n
  induction n using Nat.strongRecOn with
  | ind n ih =>
    intro u sp r' hn hu hs hb ts ht
    cases u with
    | nil =>
      cases sp with
      | nil =>
        obtain ⟨us, hus⟩ := pat_total_at r' (st := 2) (.inr (.inl rfl))
        have := out_char (c := ':') (by decide +kernel) (by decide) hus
        rw [kind_colon] at this
        rw [toks_unique ht this]
        exact ⟨_, List.mem_cons_self, rfl⟩
      | cons a as =>
        have hs' : ∀ c ∈ as, isSp c = true := fun x hx => hs x (List.mem_cons_of_mem _ hx)
        obtain ⟨us, hus⟩ := pat_total_at (':' :: r') (st := 2) (.inr (.inl rfl))
        have hbad := ih 0 (by rw [← hn]; simp) [] [] r' rfl nofun nofun hb us hus
        rw [← drop_all hs'] at hus
        have := out_space (hs a List.mem_cons_self) hus
        rw [toks_unique ht this]
        exact hbad
    | cons c u =>
      have hc := hu c List.mem_cons_self
      cases hbr : bestRule X patRules (c :: (u ++ (sp ++ ':' :: r'))) with
      | none =>
        obtain ⟨us, hus⟩ := pat_total_at (u ++ (sp ++ ':' :: r')) (st := 2) (.inr (.inl rfl))
        obtain ⟨t, h1, h2⟩ := ih (u.length + sp.length) (by rw [← hn]; simp only [List.length_cons]; omega) u sp r'
          rfl (fun x hx => hu x (List.mem_cons_of_mem _ hx)) hs hb us hus
        have := Toks.char (L := patternLexer) (st := 2) hbr (name_nonzero hc) hus
        rw [toks_unique ht this]
        exact ⟨t, List.mem_cons_of_mem _ h1, h2⟩
      | some b =>
        obtain ⟨r, rest⟩ := b
        obtain ⟨⟨m, hg, hm⟩, hnx, v, u', hv, e, rfl⟩ := name_step hu hs hb hbr
        obtain ⟨us, hus⟩ := pat_total_at (u' ++ (sp ++ ':' :: r')) (st := 2) (.inr (.inl rfl))
        have hl : (c :: u).length = v.length + u'.length := by rw [e]; simp
        have hvl := List.length_pos_iff.mpr hv
        simp only [List.length_cons] at hl hn
        obtain ⟨t, h1, h2⟩ := ih (u'.length + sp.length) (by omega) u' sp r'
          rfl (fun x hx => hu x (by rw [e]; exact List.mem_append_right _ hx)) hs hb us hus
        have := Toks.token (L := patternLexer) (st := 2) hbr (n := m) (by rw [number, hg]) hm (ts := us)
          (by rw [hnx]; exact hus)
        rw [toks_unique ht this]
        exact ⟨t, List.mem_cons_of_mem _ h1, h2⟩

/-- If no pattern matches where a name begins, there is such a colon. -/
theorem none_shape {c : Char} {cs : Str} (hc : isStart c = true) (h : bestRule X patRules (c :: cs) = none) :
    ∃ u r', c :: cs = u ++ ([] ++ ':' :: r') ∧ (∀ x ∈ u, isName x = true) ∧ BadAfter r' := by
  have hn : scan X pNameTest (c :: cs) = none :=
    best_none h ⟨pNameTest, none, .token 264⟩ (by simp [patRules])
  rw [scan_nameTest] at hn
  obtain ⟨_, hn⟩ := longer_eq_none hn
  obtain ⟨h1, h2⟩ := longer_eq_none hn
  have ha : afterName (c :: cs) = some (cs.dropWhile isName) := by rw [afterName, if_pos hc]
  rw [ha] at h1
  have h1 : scan X (.lit 58 (.lit 42 .success)) (cs.dropWhile isName) = none := h1
  rw [afterQName, afterPrefix, ha] at h2
  have h2 : (match scan X (.lit 58 .success) (cs.dropWhile isName) with
    | none => some (cs.dropWhile isName)
    | some s' => afterName s') = none := h2
  have he : cs = cs.takeWhile isName ++ cs.dropWhile isName := List.takeWhile_append_dropWhile.symm
  cases hd : cs.dropWhile isName with
  | nil => rw [hd] at h2; exact (nomatch h2)
  | cons d r' =>
    rw [hd] at h1 h2 he
    rw [scan_lit] at h1 h2
    by_cases hcol : d.toNat = 58
    · have hcol' : d = ':' := char_eq ':' hcol
      subst hcol'
      rw [if_pos hcol] at h1 h2
      refine ⟨c :: cs.takeWhile isName, r', by rw [List.cons_append, List.nil_append, ← he], ?_, h2, ?_⟩
      · intro x hx
        rcases List.mem_cons.mp hx with rfl | hx
        · exact start_name hc
        · exact List.all_eq_true.mp List.all_takeWhile x hx
      · intro ds e
        subst e
        rw [scan_lit, if_pos (by decide)] at h1
        exact (nomatch h1)
    · rw [if_neg hcol] at h2
      exact (nomatch h2)

theorem none_bad {c : Char} {cs : Str} (hc : isStart c = true) (h : bestRule X patRules (c :: cs) = none)
    {ts : List Tok} (ht : Toks patternLexer 2 (c :: cs) ts) : ∃ t ∈ ts, t.kind = 2 := by
  obtain ⟨u, r', e, hu, hb⟩ := none_shape hc h
  rw [e] at ht
  exact colon_bad _ u [] r' rfl hu nofun hb ts ht

theorem literal_number : ∀ n ∈ List.range 300, patternLexer.kind n = 7 → n = 261 := by decide +kernel
theorem rule_no_literal : ∀ r ∈ patRules, ∀ n, r.give = .token n → patternLexer.kind n ≠ 7 := by
  have : patRules.all (fun r => match r.give with
    | .token n => patternLexer.kind n != 7
    | _ => true) = true := by decide +kernel
  intro r hr n hg h
  have := List.all_eq_true.mp this r hr
  rw [hg] at this
  dsimp only at this
  rw [h] at this
  exact (nomatch this)

/-- A literal is never read before the first `[`. -/
theorem no_literal {s : Str} {t : Tok} {us : List Tok} (h : Toks patternLexer 2 s (t :: us)) (hk : t.kind = 7) :
    ∃ x ∈ t :: us, x.kind = 2 := by
  have : ∀ {st : Nat} {s : Str} {ts : List Tok}, Toks patternLexer st s ts → st = 2 → ∀ t us, ts = t :: us →
      t.kind = 7 → ∃ x ∈ t :: us, x.kind = 2 := by
    intro st s ts h
    induction h with
    | nil => nofun
    | charEnd => nofun
    | tokenEnd => nofun
    | @char st c cs ts hb hn hr _ =>
      rintro rfl t us e hk
      have e' := e
      injection e with e1 e2
      subst e1
      dsimp only at hk
      have : c.toNat = 261 := by
        by_cases hl : c.toNat < 300
        · exact literal_number _ (List.mem_range.mpr hl) hk
        · rw [pat_kind_big (by omega)] at hk; exact absurd hk (by decide)
      have hst : isStart c = true := by
        have h' : isStart (Char.ofNat 261) = true := by decide +kernel
        rw [← this, Char.ofNat_toNat] at h'
        exact h'
      rw [← e']
      exact none_bad hst hb (.char hb hn hr)
    | @token st c cs r rest n ts hb hnum hn hr _ =>
      rintro rfl t us e hk
      injection e with e1 e2
      subst e1
      dsimp only at hk
      obtain ⟨hm, hs⟩ := best_mem hb
      rw [number] at hnum
      cases hg : r.give with
      | token m =>
        rw [hg] at hnum
        injection hnum with hnum
        subst hnum
        exact absurd hk (rule_no_literal r hm m hg)
      | ascii =>
        have hm : r ∈ patRules := hm
        have : r = ⟨pBracket, some 1, .ascii⟩ := by
          simp only [patRules, List.mem_cons, List.not_mem_nil, or_false] at hm
          rcases hm with rfl | rfl | rfl | rfl | rfl | rfl | rfl | rfl | rfl <;>
            first | rfl | exact (nomatch hg)
        subst this
        rw [hg] at hnum
        injection hnum with hnum
        subst hnum
        have hs : scan X (.lit 91 .success) (c :: cs) = some rest := hs
        rw [scan_lit] at hs
        split at hs
        · rename_i h91
          rw [h91] at hk
          exact absurd hk (by decide +kernel)
        · exact (nomatch hs)
      | discard => rw [hg] at hnum; exact (nomatch hnum)
      | again => rw [hg] at hnum; exact (nomatch hnum)
    | @discard st c cs r rest ts hb hg hr ih =>
      rintro rfl
      refine ih ?_
      have hm : r ∈ patRules := (best_mem hb).1
      simp only [patRules, List.mem_cons, List.not_mem_nil, or_false] at hm
      rcases hm with rfl | rfl | rfl | rfl | rfl | rfl | rfl | rfl | rfl <;>
        first | rfl | exact (nomatch hg)
    | @again st c cs r rest ts hb hg hr ih =>
      rintro rfl
      have hm : r ∈ patRules := (best_mem hb).1
      simp only [patRules, List.mem_cons, List.not_mem_nil, or_false] at hm
      rcases hm with rfl | rfl | rfl | rfl | rfl | rfl | rfl | rfl | rfl <;> exact (nomatch hg)
  exact this h rfl t us rfl hk

/-! ### The order of tokens in a pattern -/

/-- The third token is a literal. -/
def ThirdLiteral : List Tok → Prop
  | _ :: t :: _ => t.kind = 7
  | _ => False

/-- What may follow what, before the first `[`; `p` is the kind of the token before. -/
def Flow : Nat → List Tok → Prop
  | _, [] => True
  | p, t :: ts =>
    t.kind = 28 ∨ t.kind = 3 ∨ t.kind = 4 ∨ t.kind = 7 ∨ ((t.kind = 5 ∨ t.kind = 6) ∧ ThirdLiteral ts) ∨
    ((p = 10 ∨ p = 25 → t.kind = 21 ∨ t.kind = 22 ∨ t.kind = 23) ∧ (p = 12 → t.kind = 24) ∧
      t.kind ∈ [10, 12, 21, 22, 23, 24, 25, 27] ∧ Flow t.kind ts)

/-- Characters that begin tokens of other kinds. -/
def badChars : List Char := "],+-=:!<>.\"'$0123456789".toList

theorem bad_facts : ∀ c ∈ badChars, covers X c (List.replicate 9 false) patRules = true ∧ c.toNat ≠ 0 ∧
    patternLexer.kind c.toNat ∉ [28, 3, 4, 7, 5, 6, 10, 12, 21, 22, 23, 24, 25, 27] := by decide +kernel

theorem bad_char {c : Char} (hc : c ∈ badChars) {cs : Str} {ts : List Tok} {p : Nat}
    (ht : Toks patternLexer 2 (c :: cs) ts) (hf : Flow p ts) : False := by
  obtain ⟨h1, h2, h3⟩ := bad_facts c hc
  obtain ⟨us, hus⟩ := pat_total_at cs (st := 2) (.inr (.inl rfl))
  rw [toks_unique ht (out_char h1 h2 hus), Flow] at hf
  generalize patternLexer.kind c.toNat = k at h3 hf
  apply h3
  dsimp only at hf
  rcases hf with h | h | h | h | ⟨h | h, _⟩ | ⟨_, _, h, _⟩
  · subst h; decide
  · subst h; decide
  · subst h; decide
  · subst h; decide
  · subst h; decide
  · subst h; decide
  · simp only [List.mem_cons, List.not_mem_nil, or_false] at h ⊢
    omega

/-- Before `(`, a name is the name of a function here only if it is `id` or `key`. -/
theorem out_function {w rest : Str} (hw : NCName w) (h1 : w ∉ nodeTypes) (hp : nextParen rest = true)
    {us : List Tok} (hus : Toks patternLexer 2 rest us) :
    Toks patternLexer 2 (w ++ rest) (⟨10, w⟩ :: us) ∨ Toks patternLexer 2 (w ++ rest) (⟨5, w⟩ :: us) ∨
      Toks patternLexer 2 (w ++ rest) (⟨6, w⟩ :: us) := by
  by_cases hid : w = "id".toList
  · subst hid
    have h := best_word (c := 'i') (by decide +kernel) ('d' :: rest)
    have e1 : scan X pNodeType ('i' :: 'd' :: rest) = none :=
      nodeType_none (w := "id".toList) hw (paren_ends hp) (.inl h1)
    have e4 : scan X pIdFunction ('i' :: 'd' :: rest) = some rest := by
      show scan X (word "id".toList beforeParen) ('i' :: 'd' :: rest) = some rest
      rw [scan_word]
      show scan X beforeParen rest = some rest
      rw [scan_beforeParen, if_pos hp]
    have e6 : scan X pNameTest ('i' :: 'd' :: rest) = some rest :=
      nameTest_plain (w := "id".toList) hw (paren_ends' hp)
    rw [wordRules, best_skip e1, best_skip (r := ⟨pChildAxis, none, .token 257⟩) rfl,
      best_skip (r := ⟨pAttributeAxis, none, .token 258⟩) rfl, best_take (r := ⟨pIdFunction, none, .token 259⟩) e4 (by
      intro x y hxy
      rw [best_skip (r := ⟨pKeyFunction, none, .token 260⟩) rfl, best_one] at hxy
      rw [e6] at hxy
      injection hxy with hxy
      injection hxy with _ hxy
      subst hxy
      exact Nat.le_refl _)] at h
    have := out_token (c := 'i') (cs := ['d']) h rfl (by decide) rfl hus
    rw [show patternLexer.kind 259 = 5 by decide +kernel] at this
    exact .inr (.inl this)
  · by_cases hkey : w = "key".toList
    · subst hkey
      have h := best_word (c := 'k') (by decide +kernel) ('e' :: 'y' :: rest)
      have e1 : scan X pNodeType ('k' :: 'e' :: 'y' :: rest) = none :=
        nodeType_none (w := "key".toList) hw (paren_ends hp) (.inl h1)
      have e4 : scan X pKeyFunction ('k' :: 'e' :: 'y' :: rest) = some rest := by
        show scan X (word "key".toList beforeParen) ('k' :: 'e' :: 'y' :: rest) = some rest
        rw [scan_word]
        show scan X beforeParen rest = some rest
        rw [scan_beforeParen, if_pos hp]
      have e6 : scan X pNameTest ('k' :: 'e' :: 'y' :: rest) = some rest :=
        nameTest_plain (w := "key".toList) hw (paren_ends' hp)
      rw [wordRules, best_skip e1, best_skip (r := ⟨pChildAxis, none, .token 257⟩) rfl,
        best_skip (r := ⟨pAttributeAxis, none, .token 258⟩) rfl,
        best_skip (r := ⟨pIdFunction, none, .token 259⟩) rfl,
        best_take (r := ⟨pKeyFunction, none, .token 260⟩) e4 (by
        intro x y hxy
        rw [best_one] at hxy
        rw [e6] at hxy
        injection hxy with hxy
        injection hxy with _ hxy
        subst hxy
        exact Nat.le_refl _)] at h
      have := out_token (c := 'k') (cs := ['e', 'y']) h rfl (by decide) rfl hus
      rw [show patternLexer.kind 260 = 6 by decide +kernel] at this
      exact .inr (.inr this)
    · refine .inl (out_name hw (paren_ends' hp) (.inl h1) ?_ hus)
      intro v b hv e
      subst e
      simp only [keywords, List.mem_cons, List.not_mem_nil, or_false, Prod.mk.injEq] at hv
      rcases hv with ⟨_, rfl⟩ | ⟨_, rfl⟩ | ⟨e, _⟩ | ⟨e, _⟩
      · exact not_paren_colons hp
      · exact not_paren_colons hp
      · exact absurd e hid
      · exact absurd e hkey

/-- The parenthesis that comes next. -/
theorem paren_next {rest : Str} (h : NextIs ['('] rest) {us : List Tok} (hus : Toks patternLexer 2 rest us) :
    ∃ x vs r, us = x :: vs ∧ x.kind = 24 ∧ Toks patternLexer 2 r vs := by
  obtain ⟨sp, r, rfl, hs⟩ := h
  obtain ⟨vs, hvs⟩ := pat_total_at r (st := 2) (.inr (.inl rfl))
  have h1 := plain_char (c := '(') (k := 24) (by decide +kernel) (by decide) (by decide +kernel) hvs
  have : Toks patternLexer 2 (sp ++ ['('] ++ r) (⟨24, ['(']⟩ :: vs) := by
    cases sp with
    | nil => exact h1
    | cons a as =>
      have e : (as ++ (['('] ++ r)).dropWhile isSp = ['('] ++ r := by
        rw [drop_spaces fun x hx => hs x (List.mem_cons_of_mem _ hx)]
        show ('(' :: r).dropWhile isSp = '(' :: r
        rw [List.dropWhile_cons, if_neg (by decide +kernel)]
      rw [← e] at h1
      rw [List.append_assoc]
      exact out_space (spec_space.mp (hs a List.mem_cons_self)) h1
  exact ⟨_, vs, r, toks_unique hus this, rfl, hvs⟩

theorem name_then {w rest : Str} (hn : NextIs ['('] rest) {us : List Tok} {p : Nat}
    (hus : Toks patternLexer 2 rest us) (hf : Flow p (⟨10, w⟩ :: us)) : False := by
  obtain ⟨x, vs, r, rfl, hx, hvs⟩ := paren_next hn hus
  rw [Flow] at hf
  dsimp only at hf
  rcases hf with h | h | h | h | ⟨h | h, _⟩ | ⟨_, _, _, hf⟩
  all_goals first | exact absurd h (by decide) | skip
  rw [Flow.eq_def] at hf
  dsimp only at hf
  rw [hx] at hf
  rcases hf with h | h | h | h | ⟨h | h, _⟩ | ⟨h, _⟩
  all_goals first | exact absurd h (by decide) | exact absurd (h (.inl rfl)) (by decide)

end Verif.Parse
