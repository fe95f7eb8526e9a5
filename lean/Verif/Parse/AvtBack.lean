import Verif.Parse.AvtSim
/-
And back: the tokens before a closing brace are those of a text before it.
-/
namespace Verif.Parse
open Spec

theorem no_brace : (initialRules ++ operatorRules).all (fun r => decide (r.give ≠ .token 125)) = true ∧
    operatorRules.all (fun r => decide (r.give ≠ .ascii)) = true := by decide +kernel

/-- No token of XPath is a closing brace. -/
theorem number_brace {st : Nat} (hst : st = 1 ∨ st = 2) {r : Rule} {c : Char}
    (hr : r ∈ xpathLexer.rules.getD st []) (hc : st = 2 ∨ c ≠ '}') : number r c ≠ some 125 := by
  intro h
  have hm : r ∈ initialRules ++ operatorRules := by
    rcases hst with rfl | rfl
    · exact List.mem_append_left _ hr
    · exact List.mem_append_right _ hr
  have h1 := of_decide_eq_true (List.all_eq_true.mp no_brace.1 r hm)
  rw [number] at h
  cases hg : r.give with
  | token n =>
    rw [hg] at h h1
    injection h with h
    exact h1 (by rw [h])
  | ascii =>
    rw [hg] at h
    injection h with h
    rcases hst with rfl | rfl
    · exact (hc.resolve_left (by decide)) (char_eq '}' h)
    · exact of_decide_eq_true (List.all_eq_true.mp no_brace.2 r hr) hg
  | discard => rw [hg] at h; exact (nomatch h)
  | again => rw [hg] at h; exact (nomatch h)

theorem best_some {o : Option (Rule × Str)} {r : Rule} {rest : Str} (h : best o = some (r, rest)) :
    ∃ q, o = some (q, rest) ∧ r = shiftRule q := by
  cases o with
  | none => exact (nomatch h)
  | some b =>
    obtain ⟨q, y⟩ := b
    have h : some (shiftRule q, y) = some (r, rest) := h
    injection h with h
    injection h with h1 h2
    subst h1 h2
    exact ⟨q, rfl, rfl⟩

theorem best_eq_none {o : Option (Rule × Str)} (h : best o = none) : o = none := by
  cases o with
  | none => rfl
  | some b => exact (nomatch h)

/-- What was read. -/
structure Back (st : Nat) (s : Str) (ts' : List Tok) (w : Str) (us : List Tok) where
  e : Str
  rest : Str
  ts : List Tok
  text : s = e ++ '}' :: rest
  toks : Toks xpathLexer st e ts
  same : ts' = ts.map (mapTok avtSym)
  inX : ∀ t ∈ ts, InX t.kind
  brace : w = ['}']
  after : Toks avtLexer 2 rest us

theorem inX_cons {k : Nat} {w : Str} {ts : List Tok} (h : InX k) (h' : ∀ t ∈ ts, InX t.kind) :
    ∀ t ∈ (⟨k, w⟩ :: ts : List Tok), InX t.kind := List.forall_mem_cons.mpr ⟨h, h'⟩

theorem avt_back {a : Nat} {s : Str} {us : List Tok} (h : Toks avtLexer a s us) :
    ∀ st, st = 1 ∨ st = 2 → a = avtState st → ∀ ts' w us', us = ts' ++ ⟨21, w⟩ :: us' →
      (∀ t ∈ ts', InA t.kind) → Nonempty (Back st s ts' w us') := by
  induction h with
  | nil => intro _ _ _ ts' _ _ e; cases ts' <;> exact (nomatch e)
  | @char a c cs ts hb hn hr ih =>
    intro st hst ha ts' w us' e hk
    subst ha
    have hb : bestRule avtLexer.sets (avtLexer.rules.getD (avtState st) []) (c :: cs) = none := hb
    have hc : c ≠ '}' := by
      rintro rfl
      rcases hst with rfl | rfl
      · have hb : bestRule A avtInitialRules ('}' :: cs) = none := hb
        rw [avt_initial_brace] at hb
        exact (nomatch hb)
      · have hb : bestRule A avtOperatorRules ('}' :: cs) = none := hb
        rw [avt_operator, operator_brace] at hb
        exact (nomatch hb)
    cases ts' with
    | nil =>
      rw [List.nil_append] at e
      injection e with e1 _
      have e1 := congrArg Tok.kind e1
      dsimp only at e1
      exact absurd (char_eq '}' ((avt_kind hn).2.2.1 e1)) hc
    | cons t ts' =>
      rw [List.cons_append] at e
      injection e with e1 e2
      obtain ⟨b⟩ := ih st hst rfl ts' w us' e2 (fun t ht => hk t (List.mem_cons_of_mem _ ht))
      obtain ⟨e', rest, ts0, rfl, h1, h2, h3, h4, h5⟩ := b
      have hkc := (List.forall_mem_cons.mp hk).1
      rw [← e1] at hkc
      dsimp only at hkc
      have hk2 := (avt_kind hn).2.1 hkc
      refine ⟨⟨c :: e', rest, ⟨xpathLexer.kind c.toNat, [c]⟩ :: ts0, rfl, .char ?_ hn h1, ?_, ?_, h4, h5⟩⟩
      · rw [avt_best hst (.inr hc)] at hb
        have hb := best_eq_none hb
        have hb := best_none_iff.mp hb
        refine best_none_iff.mpr fun r hr => ?_
        cases hs : scan X r.prog (c :: e') with
        | none => exact hs
        | some y =>
          have := (rules_ends1 rest hst r hr).2 (c :: e') y (List.cons_ne_nil _ _) hs
          rw [List.cons_append, hb r hr] at this
          exact (nomatch this)
      · rw [List.map_cons, ← h2, ← e1, mapTok]
        dsimp only
        rw [← hk2.2]
      · exact inX_cons hk2.1 h3
  | charEnd => intro _ _ _ ts' _ _ e; cases ts' <;> exact (nomatch e)
  | @token a c cs r rest n ts hb hr hn ht ih =>
    intro st hst ha ts' w us' e hk
    subst ha
    by_cases hbr : st = 1 ∧ c = '}'
    · obtain ⟨rfl, rfl⟩ := hbr
      have hb : bestRule A avtInitialRules ('}' :: cs) = some (r, rest) := hb
      rw [avt_initial_brace] at hb
      injection hb with hb
      injection hb with h1 h2
      subst h1 h2
      have hn' : n = 125 := by
        have h125 : number braceRule '}' = some 125 := rfl
        rw [h125] at hr
        exact (Option.some.inj hr).symm
      subst hn'
      have ew : ('}' :: cs).take (('}' :: cs).length - cs.length) = ['}'] := take_append ['}'] cs
      rw [ew, brace_kind] at e
      cases ts' with
      | nil =>
        rw [List.nil_append] at e
        injection e with e1 e2
        injection e1 with _ e1
        subst e1 e2
        exact ⟨⟨[], cs, [], rfl, .nil, rfl, nofun, rfl, ht⟩⟩
      | cons t ts' =>
        rw [List.cons_append] at e
        injection e with e1 _
        have := (List.forall_mem_cons.mp hk).1
        rw [← e1] at this
        exact absurd this (by decide)
    · have hc : st = 2 ∨ c ≠ '}' := by
        rcases hst with rfl | rfl
        · exact .inr fun h => hbr ⟨rfl, h⟩
        · exact .inl rfl
      have hb : bestRule avtLexer.sets (avtLexer.rules.getD (avtState st) []) (c :: cs) =
        some (r, rest) := hb
      rw [avt_best hst hc] at hb
      obtain ⟨q, hbx, rfl⟩ := best_some hb
      replace hb := hbx
      have hm := (best_scan hb).1
      have hr : number q c = some n := hr
      cases ts' with
      | nil =>
        rw [List.nil_append] at e
        injection e with e1 _
        have e1 := congrArg Tok.kind e1
        dsimp only at e1
        have := (avt_kind hn).2.2.1 e1
        subst this
        exact absurd hr (number_brace hst hm hc)
      | cons t ts' =>
        rw [List.cons_append] at e
        injection e with e1 e2
        have hnx := next_ok hst hm
        obtain ⟨b⟩ := ih _ hnx.1 hnx.2 ts' w us' e2 (fun t ht => hk t (List.mem_cons_of_mem _ ht))
        obtain ⟨e', rest', ts0, rfl, h1, h2, h3, h4, h5⟩ := b
        have hkc := (List.forall_mem_cons.mp hk).1
        rw [← e1] at hkc
        dsimp only at hkc
        have hk2 := (avt_kind hn).2.1 hkc
        obtain ⟨v, hv, ev⟩ := best_shorter hst hb
        cases v with
        | nil => exact absurd rfl hv
        | cons c' v =>
        rw [List.cons_append] at ev
        injection ev with ec ev
        subst ec
        have ev' : c :: cs = (c :: (v ++ e')) ++ '}' :: rest' := by
          rw [ev, List.cons_append, List.append_assoc]
        rw [ev'] at hb
        have hb' := best_within (List.cons_ne_nil c (v ++ e')) (rules_ends1 rest' hst) hb
        have htk := Toks.token (L := xpathLexer) (st := st) (c := c) (cs := v ++ e') (r := q)
          (rest := e') hb' hr hn h1
        refine ⟨⟨c :: (v ++ e'), rest', _, ev', htk, ?_, ?_, h4, h5⟩⟩
        · have et := take_ext c (v ++ e') ('}' :: rest') e' (by simp; omega)
          rw [← List.cons_append, ← ev'] at et
          rw [List.map_cons, ← h2, ← e1, mapTok, et]
          dsimp only
          rw [← hk2.2]
        · exact inX_cons hk2.1 h3
  | tokenEnd => intro _ _ _ ts' _ _ e; cases ts' <;> exact (nomatch e)
  | @discard a c cs r rest ts hb hg ht ih =>
    intro st hst ha ts' w us' e hk
    subst ha
    have hc : st = 2 ∨ c ≠ '}' := by
      rcases hst with rfl | rfl
      · refine .inr ?_
        rintro rfl
        have hb : bestRule A avtInitialRules ('}' :: cs) = some (r, rest) := hb
        rw [avt_initial_brace] at hb
        injection hb with hb
        injection hb with h1 h2
        subst h1
        exact (nomatch hg)
      · exact .inl rfl
    have hb : bestRule avtLexer.sets (avtLexer.rules.getD (avtState st) []) (c :: cs) =
      some (r, rest) := hb
    rw [avt_best hst hc] at hb
    obtain ⟨q, hbx, rfl⟩ := best_some hb
    replace hb := hbx
    have hm := (best_scan hb).1
    have hnx := next_ok hst hm
    obtain ⟨b⟩ := ih _ hnx.1 hnx.2 ts' w us' e hk
    obtain ⟨e', rest', ts0, rfl, h1, h2, h3, h4, h5⟩ := b
    obtain ⟨v, hv, ev⟩ := best_shorter hst hb
    cases v with
    | nil => exact absurd rfl hv
    | cons c' v =>
    rw [List.cons_append] at ev
    injection ev with ec ev
    subst ec
    have ev' : c :: cs = (c :: (v ++ e')) ++ '}' :: rest' := by
      rw [ev, List.cons_append, List.append_assoc]
    rw [ev'] at hb
    have hb' := best_within (List.cons_ne_nil c (v ++ e')) (rules_ends1 rest' hst) hb
    exact ⟨⟨c :: (v ++ e'), rest', ts0, ev', .discard hb' hg h1, h2, h3, h4, h5⟩⟩
  | @again a c cs r rest ts hb hg ht ih =>
    intro st hst ha ts' w us' e hk
    subst ha
    have hc : st = 2 ∨ c ≠ '}' := by
      rcases hst with rfl | rfl
      · refine .inr ?_
        rintro rfl
        have hb : bestRule A avtInitialRules ('}' :: cs) = some (r, rest) := hb
        rw [avt_initial_brace] at hb
        injection hb with hb
        injection hb with h1 h2
        subst h1
        exact (nomatch hg)
      · exact .inl rfl
    have hb : bestRule avtLexer.sets (avtLexer.rules.getD (avtState st) []) (c :: cs) =
      some (r, rest) := hb
    rw [avt_best hst hc] at hb
    obtain ⟨q, hbx, rfl⟩ := best_some hb
    replace hb := hbx
    have hm := (best_scan hb).1
    have hnx := next_ok hst hm
    obtain ⟨b⟩ := ih _ hnx.1 hnx.2 ts' w us' e hk
    obtain ⟨e', rest', ts0, es, h1, h2, h3, h4, h5⟩ := b
    cases e' with
    | nil =>
      have : ts0 = [] := toks_unique h1 .nil
      subst this
      exact ⟨⟨[], rest', [], es, .nil, h2, h3, h4, h5⟩⟩
    | cons d e' =>
      have hp : st = 2 := by
        have hok := List.all_eq_true.mp (rules_ok st hst) q hm
        rw [ruleOk, Bool.and_eq_true, Bool.and_eq_true, decide_eq_true_eq] at hok
        have h2 := hok.1.2
        have hg : q.give = .again := hg
        rw [hg] at h2
        simp only [decide_eq_true_eq] at h2
        exact h2.1
      subst hp
      have hs := (best_scan hb).2
      rw [any_rule q hm hg] at hs
      have hs : (if c = '\n' then none else some cs) = some rest := hs
      split at hs
      · exact (nomatch hs)
      · injection hs with hs
        subst hs
        rw [List.cons_append] at es
        injection es with e1 e2
        subst e1 e2
        have hb' := best_within (List.cons_ne_nil c e') (rules_ends1 rest' hst) hb
        exact ⟨⟨c :: e', rest', ts0, rfl, .again hb' hg h1, h2, h3, h4, h5⟩⟩

end Verif.Parse
