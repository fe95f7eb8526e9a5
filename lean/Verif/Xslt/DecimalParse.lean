import Verif.Xslt.DecimalLayout

/-
Lemmas on `parse_pattern`: what it records for a picture of the grammar, and that it leaves a
pattern without quotes as it is.
-/
namespace Verif.Decimal
open Verif Verif.XPath Spec

theorem set_same {α} (B : List α) (p : Nat) (c : α) (r : List α) (h : B.drop p = c :: r) :
    B.set p c = B := by
  have hp : B[p]? = some c := by
    have := congrArg (·[0]?) h
    simpa [List.getElem?_drop] using this
  apply List.ext_getElem?
  intro j
  rw [List.getElem?_set]
  split
  · rename_i e; subst e
    split
    · exact hp.symm
    · rename_i hl
      rw [List.getElem?_eq_none (by omega)] at hp
      exact absurd hp (by simp)
  · rfl

theorem drop_next {α} (B : List α) (p : Nat) (c : α) (r : List α) (h : B.drop p = c :: r) :
    B.drop (p + 1) = r := by
  rw [← List.drop_drop, h]; rfl

/-! ### A pattern without quotes is left as it is -/

/-- The state of the loop in a pattern without quotes. -/
structure Clean (B : Str) (rest : Str) (st : PSt) : Prop where
  buf : st.buf = B
  pos : B.drop st.pos = rest
  unquoted : st.inQuote = false
  skip : st.skip = false
  affix : st.phase ≠ .pattern → st.affix = st.pos

theorem Clean.affixStep {sy : Symbols} {ip : Bool} {B : Str} {c : Char} {rest : Str} {st : PSt}
    (h : Clean B (c :: rest) st) (hc : c ≠ quote) (hp : st.phase ≠ .pattern) (nx : Option Char)
    (act : Act) (e : affixStep sy ip st c nx = .ok act) :
    (∃ st', act = .next st' ∧ Clean B rest st' ∧ st'.phase ≠ .pattern) ∨
    (∃ st', act = .sep st' ∧ st'.buf = B ∧ B.drop st'.pos = rest) := by
  have ha := h.affix hp
  have hset : st.buf.set st.affix c = B := by rw [h.buf, ha]; exact set_same B _ c rest h.pos
  have hdrop := drop_next B _ c rest h.pos
  have hput : Clean B rest (st.put c) :=
    ⟨hset, hdrop, h.unquoted, h.skip, fun _ => by simp [PSt.put, ha]⟩
  rw [Verif.Decimal.affixStep, h.unquoted, if_neg (by decide), if_neg hc] at e
  split at e
  · split at e
    · cases e
    · cases e
      exact .inr ⟨_, rfl, h.buf, hdrop⟩
  · split at e
    · split at e
      · cases e
      · cases e
        exact .inl ⟨_, rfl, ⟨hput.buf, hput.pos, hput.unquoted, hput.skip, hput.affix⟩, hp⟩
    · split at e
      · split at e
        · cases e
        · cases e
          exact .inl ⟨_, rfl, ⟨hput.buf, hput.pos, hput.unquoted, hput.skip, hput.affix⟩, hp⟩
      · cases e
        exact .inl ⟨_, rfl, hput, hp⟩

theorem Clean.numberStep {sy : Symbols} {ip : Bool} {B : Str} {c : Char} {rest : Str} {st : PSt}
    (h : Clean B (c :: rest) st) (hp : st.phase = .pattern) (st' : PSt)
    (e : numberStep sy ip st c = .ok st') : Clean B rest st' := by
  have hdrop := drop_next B _ c rest h.pos
  rw [Verif.Decimal.numberStep] at e
  have hk : ∀ s : PSt, s.buf = st.buf → s.pos = st.pos + 1 → s.inQuote = st.inQuote →
      s.skip = st.skip → s.phase = st.phase → Clean B rest s := by
    intro s e1 e2 e3 e4 e5
    exact ⟨e1.trans h.buf, by rw [e2]; exact hdrop, e3.trans h.unquoted, e4.trans h.skip,
      fun h' => absurd (e5.trans hp) h'⟩
  split at e
  · cases e; exact hk _ rfl rfl rfl rfl rfl
  · split at e
    · cases e; exact hk _ rfl rfl rfl rfl rfl
    · split at e
      · split at e
        · cases e
        · cases e; exact hk _ rfl rfl rfl rfl rfl
      · split at e
        · cases e; exact hk _ rfl rfl rfl rfl rfl
        · split at e
          · cases e
          · cases e; exact hk _ rfl rfl rfl rfl rfl

theorem Clean.step {sy : Symbols} {ip : Bool} {B : Str} {c : Char} {rest : Str} {st : PSt}
    (h : Clean B (c :: rest) st) (hc : c ≠ quote) (nx : Option Char) (act : Act)
    (e : step sy ip st c nx = .ok act) :
    (∃ st', act = .next st' ∧ Clean B rest st') ∨
    (∃ st', act = .sep st' ∧ st'.buf = B ∧ B.drop st'.pos = rest) := by
  rw [Verif.Decimal.step, if_neg (show ¬ st.skip = true by rw [h.skip]; decide)] at e
  have hmap : ∀ s : PSt, Clean B (c :: rest) s → s.phase = .pattern →
      (Verif.Decimal.numberStep sy ip s c).map Act.next = .ok act →
      ∃ st', act = .next st' ∧ Clean B rest st' := by
    intro s hs hp e
    cases hn : Verif.Decimal.numberStep sy ip s c with
    | error x => rw [hn] at e; cases e
    | ok s' => rw [hn] at e; cases e; exact ⟨s', rfl, hs.numberStep hp s' hn⟩
  have haff : ∀ s : PSt, Clean B (c :: rest) s → s.phase ≠ .pattern →
      Verif.Decimal.affixStep sy ip s c nx = .ok act →
      (∃ st', act = .next st' ∧ Clean B rest st') ∨
      (∃ st', act = .sep st' ∧ st'.buf = B ∧ B.drop st'.pos = rest) := by
    intro s hs hp e
    rcases hs.affixStep hc hp nx act e with ⟨s', e1, e2, _⟩ | h
    · exact .inl ⟨s', e1, e2⟩
    · exact .inr h
  split at e
  · rename_i hp
    split at e
    · exact .inl (hmap st h hp e)
    · exact haff { st with suffix := st.pos, affix := st.pos, phase := .suffix }
        ⟨h.buf, h.pos, h.unquoted, h.skip, fun _ => rfl⟩ (by simp) e
  · rename_i hp
    split at e
    · exact .inl (hmap { st with prefixEnd := some st.affix, phase := .pattern }
        ⟨h.buf, h.pos, h.unquoted, h.skip, fun h' => absurd rfl h'⟩ rfl e)
    · exact haff st h hp e

theorem loop_clean (sy : Symbols) (ip : Bool) (B : Str) (rest : Str) (hq : quote ∉ rest) (st : PSt)
    (h : Clean B rest st) (st' : PSt) (o : Option Str) (e : loop sy ip rest st = .ok (st', o)) :
    st'.buf = B ∧ ∀ r, o = some r → B.drop st'.pos = r ∧ quote ∉ r := by
  induction rest generalizing st with
  | nil => cases e; exact ⟨h.buf, nofun⟩
  | cons c rest ih =>
    have hc : c ≠ quote := fun e => hq (by rw [e]; simp)
    have hq' : quote ∉ rest := fun e => hq (List.mem_cons_of_mem _ e)
    rw [loop] at e
    cases hs : step sy ip st c rest.head? with
    | error x => rw [hs] at e; cases e
    | ok act =>
      rw [hs] at e
      rcases h.step hc _ act hs with ⟨s', e1, e2⟩ | ⟨s', e1, e2, e3⟩
      · subst e1; exact ih hq' s' e2 e
      · subst e1; cases e
        exact ⟨e2, fun r hr => by cases hr; exact ⟨e3, hq'⟩⟩

theorem start_clean (B : Str) (p : Nat) : Clean B (B.drop p) (start B p) :=
  ⟨rfl, rfl, rfl, rfl, fun _ => rfl⟩

theorem adjust_buf (st : PSt) : (adjust st).buf = st.buf ∧ (adjust st).pos = st.pos := by
  rw [adjust.eq_def]
  split
  · split <;> exact ⟨rfl, rfl⟩
  · exact ⟨rfl, rfl⟩

theorem subpattern_clean (sy : Symbols) (ip : Bool) (B : Str) (p : Nat) (hq : quote ∉ B.drop p)
    (st : PSt) (o : Option Str) (e : subpattern sy ip B p (B.drop p) = .ok (st, o)) :
    st.buf = B ∧ ∀ r, o = some r → B.drop st.pos = r ∧ quote ∉ r := by
  rw [subpattern] at e
  cases hl : loop sy ip (B.drop p) (start B p) with
  | error x => rw [hl] at e; cases e
  | ok v =>
    obtain ⟨s, o'⟩ := v
    rw [hl] at e
    dsimp only at e
    split at e
    · cases e
    · cases e
      rw [(adjust_buf s).1, (adjust_buf s).2]
      exact loop_clean sy ip B _ hq _ (start_clean B p) s _ hl

theorem parsePattern_clean (sy : Symbols) (pat : Str) (hq : quote ∉ pat) (info : Info) (buf : Str)
    (e : parsePattern sy pat = .ok (info, buf)) : buf = pat := by
  rw [parsePattern.eq_def] at e
  cases h1 : subpattern sy true pat 0 pat with
  | error x => rw [h1] at e; cases e
  | ok v =>
    obtain ⟨s, o⟩ := v
    obtain ⟨hb, hr⟩ := subpattern_clean sy true pat 0 (by simpa using hq) s o (by simpa using h1)
    rw [h1] at e
    cases o with
    | none => cases e; exact hb
    | some r =>
      dsimp only at e
      obtain ⟨hd, hqr⟩ := hr r rfl
      cases h2 : subpattern sy false s.buf s.pos r with
      | error x => rw [h2] at e; cases e
      | ok v2 =>
        obtain ⟨s2, o2⟩ := v2
        rw [h2] at e
        cases e
        rw [hb, ← hd] at h2
        exact (subpattern_clean sy false pat s.pos (by rw [hd]; exact hqr) s2 o2 h2).1

/-! ### Pictures -/

/-- The factor found in an affix. -/
def factorOf (sy : Symbols) (s : Str) (m : Nat) : Nat :=
  if sy.percent ∈ s then 100 else if sy.perMille ∈ s then 1000 else m

theorem special_iff (sy : Symbols) (c : Char) :
    sy.special c = true ↔ c = sy.digit ∨ c = sy.zero ∨ c = sy.grouping ∨ c = sy.decimal := by
  simp [Symbols.special, or_assoc]

/-- An affix is read in one go. -/
theorem loop_plain (sy : Symbols) (ip : Bool) (s r : Str) (hs : Plain sy s) (st : PSt)
    (hph : st.phase ≠ .pattern) (h : Clean st.buf (s ++ r) st)
    (hsig : (signs sy s).length ≤ 1) (hm : st.multiplier = 1 ∨ signs sy s = []) :
    loop sy ip (s ++ r) st = loop sy ip r
      { st with pos := st.pos + s.length, affix := st.affix + s.length
                multiplier := factorOf sy s st.multiplier } := by
  induction s generalizing st with
  | nil => simp [factorOf]
  | cons c s ih =>
    obtain ⟨h1, h2, h3, h4, h5, h6⟩ := hs c (by simp)
    have hsp : sy.special c = false := by
      rw [← Bool.not_eq_true, special_iff]
      rintro (h | h | h | h) <;> contradiction
    have h6 : c ≠ quote := h6
    have hs' : Plain sy s := fun x hx => hs x (List.mem_cons_of_mem _ hx)
    have ha := h.affix hph
    have hset : st.buf.set st.affix c = st.buf := by
      rw [ha]; exact set_same _ _ c (s ++ r) h.pos
    have hdrop := drop_next _ _ c (s ++ r) h.pos
    have hstep : ∀ act, affixStep sy ip st c (s ++ r).head? = .ok (.next act) →
        loop sy ip (c :: s ++ r) st = loop sy ip (s ++ r) act := by
      intro act he
      rw [List.cons_append, loop, step, if_neg (show ¬ st.skip = true by rw [h.skip]; decide), if_neg hph, hsp, Bool.and_false,
        if_neg (by decide), he]
    have hput : st.put c = { st with affix := st.affix + 1, pos := st.pos + 1 } := by
      rw [PSt.put, hset]
    have hclean : ∀ m, Clean st.buf (s ++ r)
        { st with affix := st.affix + 1, pos := st.pos + 1, multiplier := m } :=
      fun m => ⟨rfl, hdrop, h.unquoted, h.skip, fun _ => by simp [ha]⟩
    have hfin : ∀ m m', (signs sy s).length ≤ 1 → (m = 1 ∨ signs sy s = []) →
        factorOf sy s m = m' →
        loop sy ip (s ++ r) { st with affix := st.affix + 1, pos := st.pos + 1, multiplier := m } =
        loop sy ip r { st with pos := st.pos + (c :: s).length, affix := st.affix + (c :: s).length,
                               multiplier := m' } := by
      intro m m' e1 e2 e3
      rw [ih hs' { st with affix := st.affix + 1, pos := st.pos + 1, multiplier := m } hph (hclean m)
        e1 e2]
      dsimp only
      rw [e3]
      simp [Nat.add_assoc, Nat.add_comm 1]
    by_cases hper : c = sy.percent ∨ c = sy.perMille
    · have hsg : signs sy (c :: s) = c :: signs sy s := by simp [signs, hper]
      rw [hsg] at hsig hm
      have hnil : signs sy s = [] := by
        apply List.eq_nil_of_length_eq_zero
        simp at hsig; simpa using hsig
      have hm1 : st.multiplier = 1 := by
        rcases hm with h | h
        · exact h
        · simp at h
      have hno : ∀ x ∈ s, x ≠ sy.percent ∧ x ≠ sy.perMille := by
        intro x hx
        have : x ∉ signs sy s := by rw [hnil]; simp
        simp only [signs, List.mem_filter, hx, true_and, decide_eq_true_eq, not_or] at this
        exact this
      have hn1 : sy.percent ∉ s := fun hx => (hno _ hx).1 rfl
      have hn2 : sy.perMille ∉ s := fun hx => (hno _ hx).2 rfl
      have he : affixStep sy ip st c (s ++ r).head? =
          .ok (.next { st with affix := st.affix + 1, pos := st.pos + 1
                               multiplier := if c = sy.percent then 100 else 1000 }) := by
        rw [affixStep, if_neg (show ¬ st.inQuote = true by rw [h.unquoted]; decide), if_neg h6, if_neg h5, hput]
        by_cases hp : c = sy.percent
        · rw [if_pos hp, if_neg (by simp [hm1]), if_pos hp]
        · rw [if_neg hp, if_pos (hper.resolve_left hp), if_neg (by simp [hm1]), if_neg hp]
      rw [hstep _ he, hfin _ (factorOf sy (c :: s) st.multiplier) (by rw [hnil]; simp) (.inr hnil)]
      rw [factorOf, factorOf, if_neg hn1, if_neg hn2]
      by_cases hp : c = sy.percent
      · subst hp; simp
      · have hq := hper.resolve_left hp
        subst hq
        simp [hn1, hp, Ne.symm hp]
    · have hsg : signs sy (c :: s) = signs sy s := by simp [signs, hper]
      rw [hsg] at hsig hm
      rw [not_or] at hper
      have he : affixStep sy ip st c (s ++ r).head? =
          .ok (.next { st with affix := st.affix + 1, pos := st.pos + 1
                               multiplier := st.multiplier }) := by
        rw [affixStep, if_neg (show ¬ st.inQuote = true by rw [h.unquoted]; decide), if_neg h6, if_neg h5, if_neg hper.1, if_neg hper.2,
          hput]
      rw [hstep _ he]
      apply hfin _ _ hsig hm
      rw [factorOf, factorOf]
      simp [Ne.symm hper.1, Ne.symm hper.2]

/-- A special character ends the prefix. -/
theorem loop_enter (sy : Symbols) (ip : Bool) (c : Char) (r : Str) (hc : sy.special c = true)
    (st : PSt) (hph : st.phase ≠ .pattern) (hq : st.inQuote = false) (hk : st.skip = false) :
    loop sy ip (c :: r) st =
      loop sy ip (c :: r) { st with prefixEnd := some st.affix, phase := .pattern } := by
  rw [loop, loop, step, step, hk]
  simp [hph, hq, hc]

/-- Another character starts the suffix. -/
theorem loop_leave (sy : Symbols) (ip : Bool) (c : Char) (r : Str) (hc : sy.special c = false)
    (st : PSt) (hph : st.phase = .pattern) (hk : st.skip = false) :
    loop sy ip (c :: r) st =
      loop sy ip (c :: r) { st with suffix := st.pos, affix := st.pos, phase := .suffix } := by
  rw [loop, loop, step, step, hk]
  simp [hph, hc]

/-- A round of the pattern phase. -/
theorem loop_number (sy : Symbols) (ip : Bool) (c : Char) (r : Str) (hc : sy.special c = true)
    (st st' : PSt) (hph : st.phase = .pattern) (hk : st.skip = false)
    (he : numberStep sy ip st c = .ok st') :
    loop sy ip (c :: r) st = loop sy ip r st' := by
  rw [loop, step, hk]
  simp only [hph, hc, he, Bool.false_eq_true, ↓reduceIte, Except.map]

/-- The number part of a second subpattern: nothing is recorded. -/
theorem loop_ignored (sy : Symbols) (w r : Str) (hw : ∀ c ∈ w, sy.special c = true) (st : PSt)
    (hph : st.phase = .pattern) (hk : st.skip = false) :
    loop sy false (w ++ r) st = loop sy false r { st with pos := st.pos + w.length } := by
  induction w generalizing st with
  | nil => simp
  | cons c w ih =>
    rw [List.cons_append, loop_number sy false c (w ++ r) (hw c (by simp)) st
      { st with pos := st.pos + 1 } hph hk (by rw [numberStep]; rfl),
      ih (fun x hx => hw x (List.mem_cons_of_mem _ hx)) _ (by exact hph) (by exact hk)]
    simp [Nat.add_assoc, Nat.add_comm 1]

/-- Optional digits come before required ones (`z`: a required one was seen). -/
def ordered : Bool → List Mark → Bool
  | _, [] => true
  | z, .hash :: ms => !z && ordered z ms
  | _, .zero :: ms => ordered true ms
  | z, .comma :: ms => ordered z ms

theorem ordered_of (ms : List Mark) (a b : Nat) (z : Bool) (hz : z = true → a = 0)
    (h : ms.filter (· ≠ .comma) = List.replicate a .hash ++ List.replicate b .zero) :
    ordered z ms = true := by
  induction ms generalizing a b z with
  | nil => rfl
  | cons m ms ih =>
    cases m with
    | comma =>
      rw [ordered]
      exact ih a b z hz (by simpa using h)
    | hash =>
      rw [List.filter_cons_of_pos (by decide)] at h
      cases a with
      | zero =>
        cases b with
        | zero => simp at h
        | succ b => simp [List.replicate_succ] at h
      | succ a =>
        rw [List.replicate_succ, List.cons_append] at h
        have hzf : z = false := by
          cases z with
          | false => rfl
          | true => exact absurd (hz rfl) (by omega)
        subst hzf
        rw [ordered]
        simpa using ih a b false (by simp) (List.cons.inj h).2
    | zero =>
      rw [List.filter_cons_of_pos (by decide)] at h
      rw [ordered]
      cases a with
      | succ a => rw [List.replicate_succ, List.cons_append] at h; exact absurd (List.cons.inj h).1 (by decide)
      | zero =>
        cases b with
        | zero => simp at h
        | succ b =>
          simp only [List.replicate_zero, List.nil_append, List.replicate_succ] at h
          exact ih 0 b true (fun _ => rfl) (by simpa using (List.cons.inj h).2)

/-- What the marks of the integer part leave of the count of the grouping. -/
def groupAfter (g : Option Nat) (ms : List Mark) : Option Nat :=
  match groupOf ms with
  | some n => some n
  | none => g.map (· + ms.length)

theorem distinct_ne {sy : Symbols} (h : Distinct sy) :
    sy.digit ≠ sy.zero ∧ sy.digit ≠ sy.grouping ∧ sy.digit ≠ sy.decimal ∧ sy.zero ≠ sy.grouping ∧
    sy.zero ≠ sy.decimal ∧ sy.grouping ≠ sy.decimal ∧ sy.sep ≠ sy.digit ∧ sy.sep ≠ sy.zero ∧
    sy.sep ≠ sy.grouping ∧ sy.sep ≠ sy.decimal ∧ sy.sep ≠ quote := by
  simp only [Distinct, List.nodup_cons, List.mem_cons, not_or] at h
  obtain ⟨⟨a1, a2, a3, a4, _⟩, ⟨b1, b2, b3, _⟩, ⟨c1, c2, _⟩, ⟨d1, _⟩, ⟨_, _, e1, _⟩, _⟩ := h
  exact ⟨a1, a2, a3, b1, b2, c1, Ne.symm a4, Ne.symm b3, Ne.symm c2, Ne.symm d1, e1⟩

theorem mark_special (sy : Symbols) (m : Mark) : sy.special (m.char sy) = true := by
  rw [special_iff]; cases m <;> simp [Mark.char]

/-- The integer part of the first subpattern. -/
theorem loop_int (sy : Symbols) (hd : Distinct sy) (ms : List Mark) (r : Str) (st : PSt)
    (hph : st.phase = .pattern) (hk : st.skip = false) (hr : st.right = 0) (hdp : st.decimalPos = none)
    (ho : ordered (decide (st.zeros > 0)) ms = true) :
    loop sy true (ms.map (Mark.char sy) ++ r) st = loop sy true r
      { st with pos := st.pos + ms.length
                left := st.left + ms.count .hash
                zeros := st.zeros + ms.count .zero
                groupingCount := groupAfter st.groupingCount ms } := by
  obtain ⟨n1, n2, n3, n4, n5, n6, _⟩ := distinct_ne hd
  induction ms generalizing st with
  | nil =>
    simp [groupAfter, groupOf]
  | cons m ms ih =>
    rw [List.map_cons, List.cons_append]
    have hcg : st.countGroup = st.groupingCount.map (· + 1) := by
      rw [PSt.countGroup.eq_def, hdp]
      cases st.groupingCount <;> rfl
    have hga : ∀ g : Option Nat, m ≠ .comma →
        groupAfter (g.map (· + 1)) ms = groupAfter g (m :: ms) := by
      intro g hm
      rw [groupAfter.eq_def, groupAfter.eq_def, groupOf]
      cases groupOf ms with
      | some n => rfl
      | none =>
        simp only [if_neg hm, Option.map_map]
        cases g with
        | none => rfl
        | some x => simp; omega
    cases m with
    | hash =>
      rw [ordered] at ho
      have hz : ¬ st.zeros > 0 := by
        intro h; simp [h] at ho
      have he : numberStep sy true st (Mark.char sy .hash) =
          .ok { st with left := st.left + 1, groupingCount := st.groupingCount.map (· + 1),
                        pos := st.pos + 1 } := by
        rw [numberStep, if_neg (by decide), if_pos (show Mark.char sy .hash = sy.digit from rfl), hcg]
        simp [hz]
      rw [loop_number sy true _ _ (mark_special sy .hash) st _ hph hk he,
        ih _ (by exact hph) (by exact hk) (by exact hr) (by exact hdp) (by simpa [hz] using ho)]
      dsimp only
      rw [hga _ (by decide)]
      simp [List.count_cons, Nat.add_assoc, Nat.add_comm 1]
    | zero =>
      rw [ordered] at ho
      have he : numberStep sy true st (Mark.char sy .zero) =
          .ok { st with zeros := st.zeros + 1, groupingCount := st.groupingCount.map (· + 1),
                        pos := st.pos + 1 } := by
        rw [numberStep, if_neg (by decide), if_neg (show ¬ Mark.char sy .zero = sy.digit from Ne.symm n1),
          if_pos (show Mark.char sy .zero = sy.zero from rfl), hcg, if_neg (by omega)]
      rw [loop_number sy true _ _ (mark_special sy .zero) st _ hph hk he,
        ih _ (by exact hph) (by exact hk) (by exact hr) (by exact hdp) (by simpa using ho)]
      dsimp only
      rw [hga _ (by decide)]
      simp [List.count_cons, Nat.add_assoc, Nat.add_comm 1]
    | comma =>
      rw [ordered] at ho
      have he : numberStep sy true st (Mark.char sy .comma) =
          .ok { st with groupingCount := some 0, pos := st.pos + 1 } := by
        rw [numberStep, if_neg (by decide),
          if_neg (show ¬ Mark.char sy .comma = sy.digit from Ne.symm n2),
          if_neg (show ¬ Mark.char sy .comma = sy.zero from Ne.symm n4),
          if_pos (show Mark.char sy .comma = sy.grouping from rfl)]
      rw [loop_number sy true _ _ (mark_special sy .comma) st _ hph hk he, ih _ (by exact hph) (by exact hk) (by exact hr) (by exact hdp)
        (by exact ho)]
      dsimp only
      have e : groupAfter (some 0) ms = groupAfter st.groupingCount (Mark.comma :: ms) := by
        rw [groupAfter.eq_def, groupAfter.eq_def, groupOf]
        cases groupOf ms with
        | some n => rfl
        | none => simp
      rw [e]
      simp [List.count_cons, Nat.add_assoc, Nat.add_comm 1]

/-- The required digits of the fraction. -/
theorem loop_fracZeros (sy : Symbols) (hd : Distinct sy) (n : Nat) (r : Str) (st : PSt)
    (hph : st.phase = .pattern) (hk : st.skip = false) (hr : st.right = 0)
    (p : Nat) (hdp : st.decimalPos = some p) :
    loop sy true (List.replicate n sy.zero ++ r) st = loop sy true r
      { st with pos := st.pos + n, zeros := st.zeros + n } := by
  obtain ⟨n1, _⟩ := distinct_ne hd
  induction n generalizing st with
  | zero => simp
  | succ n ih =>
    rw [List.replicate_succ, List.cons_append]
    have hcg : st.countGroup = st.groupingCount := by
      rw [PSt.countGroup.eq_def, hdp]
      cases st.groupingCount <;> rfl
    have he : numberStep sy true st sy.zero =
        .ok { st with zeros := st.zeros + 1, pos := st.pos + 1 } := by
      rw [numberStep, if_neg (by decide), if_neg (Ne.symm n1), if_pos rfl, hcg, if_neg (by omega)]
    rw [loop_number sy true _ _ ((special_iff sy _).mpr (by simp)) st _ hph hk he,
      ih _ (by exact hph) (by exact hk) (by exact hr) (by exact hdp)]
    simp [Nat.add_assoc, Nat.add_comm 1]

/-- The optional digits of the fraction. -/
theorem loop_fracHashes (sy : Symbols) (n : Nat) (r : Str) (st : PSt)
    (hph : st.phase = .pattern) (hk : st.skip = false)
    (p : Nat) (hdp : st.decimalPos = some p) :
    loop sy true (List.replicate n sy.digit ++ r) st = loop sy true r
      { st with pos := st.pos + n
                right := if st.zeros > 0 then st.right + n else st.right
                left := if st.zeros > 0 then st.left else st.left + n } := by
  induction n generalizing st with
  | zero => simp
  | succ n ih =>
    rw [List.replicate_succ, List.cons_append]
    have hcg : st.countGroup = st.groupingCount := by
      rw [PSt.countGroup.eq_def, hdp]
      cases st.groupingCount <;> rfl
    have he : numberStep sy true st sy.digit =
        .ok { st with right := if st.zeros > 0 then st.right + 1 else st.right
                      left := if st.zeros > 0 then st.left else st.left + 1, pos := st.pos + 1 } := by
      rw [numberStep, if_neg (by decide), if_pos rfl, hcg]
    rw [loop_number sy true _ _ ((special_iff sy _).mpr (by simp)) st _ hph hk he,
      ih _ (by exact hph) (by exact hk) (by exact hdp)]
    dsimp only
    by_cases hz : st.zeros > 0
    · simp [hz, Nat.add_assoc, Nat.add_comm 1]
    · simp [hz, Nat.add_assoc, Nat.add_comm 1]

/-- What follows the first subpattern. -/
def sepTail (sy : Symbols) : Option Str → Str
  | none => []
  | some r => sy.sep :: r

/-- The suffix, up to the end or a separator. -/
theorem loop_tail (sy : Symbols) (hd : Distinct sy) (ip : Bool) (B suf : Str) (o : Option Str)
    (st : PSt) (hs : Plain sy suf) (hph : st.phase = .pattern)
    (h : Clean B (suf ++ sepTail sy o) st)
    (hsig : (signs sy suf).length ≤ 1) (hm : st.multiplier = 1 ∨ signs sy suf = [])
    (h1 : st.suffix = B.length) (h2 : st.suffixEnd = B.length) (hip : o = none ∨ ip = true) :
    ∃ st', loop sy ip (suf ++ sepTail sy o) st = .ok (st', o) ∧
      st'.buf = B ∧ st'.left = st.left ∧ st'.zeros = st.zeros ∧ st'.right = st.right ∧
      st'.groupingCount = st.groupingCount ∧ st'.decimalPos = st.decimalPos ∧
      st'.prefixEnd = st.prefixEnd ∧ st'.inQuote = false ∧
      st'.multiplier = factorOf sy suf st.multiplier ∧
      slice B st'.suffix st'.suffixEnd = suf ∧
      (o ≠ none → st'.pos = st.pos + suf.length + 1) := by
  obtain ⟨_, _, _, _, _, _, s1, s2, s3, s4, s5⟩ := distinct_ne hd
  have hsep : sy.special sy.sep = false := by
    rw [← Bool.not_eq_true, special_iff]
    rintro (h | h | h | h) <;> contradiction
  by_cases hnil : suf = [] ∧ o = none
  · obtain ⟨e1, e2⟩ := hnil
    subst e1; subst e2
    refine ⟨st, rfl, h.buf, rfl, rfl, rfl, rfl, rfl, rfl, h.unquoted, by simp [factorOf], ?_, by simp⟩
    rw [h1, h2]; simp [slice]
  · -- the suffix phase begins
    have hlead : ∃ c r, suf ++ sepTail sy o = c :: r ∧
        sy.special c = false := by
      cases suf with
      | cons c suf =>
        refine ⟨c, _, rfl, ?_⟩
        obtain ⟨a1, a2, a3, a4, _⟩ := hs c (by simp)
        rw [← Bool.not_eq_true, special_iff]
        rintro (h | h | h | h) <;> contradiction
      | nil =>
        cases o with
        | none => exact absurd ⟨rfl, rfl⟩ hnil
        | some r => exact ⟨sy.sep, r, rfl, hsep⟩
    obtain ⟨c, r, hcr, hc⟩ := hlead
    have hb := h.buf
    have hpos := h.pos
    rw [hcr, loop_leave sy ip c r hc st hph h.skip, ← hcr]
    rw [loop_plain sy ip suf _ hs { st with suffix := st.pos, affix := st.pos, phase := .suffix }
      (by simp) ⟨rfl, by rw [hb]; exact hpos, h.unquoted, h.skip, fun _ => rfl⟩ hsig hm]
    have hlen : st.pos ≤ B.length := by
      rcases Nat.lt_or_ge B.length st.pos with hl | hl
      · rw [List.drop_eq_nil_of_le (by omega)] at hpos
        rw [hcr] at hpos; cases hpos
      · exact hl
    cases o with
    | none =>
      dsimp only [sepTail] at hpos ⊢
      rw [List.append_nil] at hpos
      refine ⟨_, rfl, hb, rfl, rfl, rfl, rfl, rfl, rfl, h.unquoted, rfl, ?_, by simp⟩
      dsimp only
      rw [h2, slice, hpos]
      apply List.take_of_length_le
      rw [← hpos]; simp
    | some r =>
      have hip' : ip = true := by
        rcases hip with h | h
        · cases h
        · exact h
      subst hip'
      dsimp only [sepTail] at hpos ⊢
      rw [loop, step]
      have hk : ¬ st.skip = true := by rw [h.skip]; decide
      have hq : ¬ st.inQuote = true := by rw [h.unquoted]; decide
      dsimp only
      rw [if_neg hk, if_neg (by simp), hsep, Bool.and_false, if_neg (by decide), affixStep]
      dsimp only
      rw [if_neg hq, if_neg s5, if_pos rfl, if_neg (by simp)]
      refine ⟨_, rfl, hb, rfl, rfl, rfl, rfl, rfl, rfl, h.unquoted, rfl, ?_, fun _ => rfl⟩
      dsimp only
      rw [slice, hpos]
      simp

/-- The number part of a picture. -/
def numberText (sy : Symbols) (p : Picture) : Str :=
  p.int.map (Mark.char sy) ++
    (if p.point then
      sy.decimal :: (List.replicate p.fracZeros sy.zero ++ List.replicate p.fracHashes sy.digit)
     else [])

theorem text_eq (sy : Symbols) (p : Picture) : p.text sy = p.pre ++ (numberText sy p ++ p.suf) := by
  simp [Picture.text, numberText, List.append_assoc]

theorem numberText_special (sy : Symbols) (p : Picture) : ∀ c ∈ numberText sy p, sy.special c = true := by
  intro c hc
  rw [numberText] at hc
  rcases List.mem_append.mp hc with h | h
  · obtain ⟨m, _, e⟩ := List.mem_map.mp h
    rw [← e]; exact mark_special sy m
  · split at h
    · rw [special_iff]
      rcases List.mem_cons.mp h with h | h
      · simp [h]
      · rcases List.mem_append.mp h with h | h
        · simp [List.eq_of_mem_replicate h]
        · simp [List.eq_of_mem_replicate h]
    · cases h

theorem numberText_ne (sy : Symbols) (p : Picture) (h : p.WF sy) : numberText sy p ≠ [] := by
  intro e
  rw [numberText, List.append_eq_nil_iff] at e
  have hi : p.int = [] := by simpa using e.1
  have hd := h.digit
  by_cases hp : p.point = true
  · rw [if_pos hp] at e; cases e.2
  · have := h.frac (by simpa using hp)
    simp [Picture.hashes, Picture.zeros, hi, this] at hd

/-- The state in the pattern phase, after the prefix. -/
theorem loop_pre (sy : Symbols) (ip : Bool) (B : Str) (P : Nat) (p : Picture) (hp : p.WF sy) (r : Str)
    (hB : B.drop P = p.pre ++ (numberText sy p ++ r)) :
    loop sy ip (p.pre ++ (numberText sy p ++ r)) (start B P) =
      loop sy ip (numberText sy p ++ r)
        { start B P with pos := P + p.pre.length, affix := P + p.pre.length
                         multiplier := factorOf sy p.pre 1
                         prefixEnd := some (P + p.pre.length), phase := .pattern } := by
  have hsig : (signs sy p.pre).length ≤ 1 := by
    have := hp.sign
    simp only [signs, List.filter_append, List.length_append] at this ⊢
    omega
  rw [loop_plain sy ip p.pre _ hp.pre (start B P) (by simp [start])
    ⟨rfl, hB, rfl, rfl, fun _ => rfl⟩ hsig (.inl rfl)]
  obtain ⟨c, w, hw⟩ : ∃ c w, numberText sy p = c :: w := by
    cases h : numberText sy p with
    | nil => exact absurd h (numberText_ne sy p hp)
    | cons c w => exact ⟨c, w, rfl⟩
  have hc : sy.special c = true := numberText_special sy p c (by rw [hw]; simp)
  rw [hw, List.cons_append, loop_enter sy ip c _ hc _ (by simp [start]) rfl rfl]
  rfl

theorem factor_eq (sy : Symbols) (p : Picture) (hp : p.WF sy) :
    factorOf sy p.suf (factorOf sy p.pre 1) = p.factor sy ∧
      (factorOf sy p.pre 1 = 1 ∨ signs sy p.suf = []) ∧ (signs sy p.suf).length ≤ 1 := by
  have hs := hp.sign
  have e : signs sy (p.pre ++ p.suf) = signs sy p.pre ++ signs sy p.suf := by
    simp [signs]
  rw [e, List.length_append] at hs
  have hmem : ∀ s c, (c = sy.percent ∨ c = sy.perMille) → c ∈ s → 1 ≤ (signs sy s).length := by
    intro s c hc hm
    apply List.length_pos_of_mem (a := c)
    simp only [signs, List.mem_filter, hm, true_and, decide_eq_true_eq]
    exact hc
  refine ⟨?_, ?_, by omega⟩
  · rw [factorOf, factorOf, Picture.factor]
    by_cases h1 : sy.percent ∈ p.suf
    · simp [h1]
    · by_cases h2 : sy.percent ∈ p.pre
      · have h3 : sy.perMille ∉ p.suf := by
          intro h3
          have a := hmem _ _ (.inl rfl) h2
          have b := hmem _ _ (.inr rfl) h3
          omega
        simp [h1, h2, h3]
      · by_cases h3 : sy.perMille ∈ p.suf
        · simp [h1, h2, h3]
        · simp [h1, h2, h3]
  · by_cases h0 : signs sy p.suf = []
    · exact .inr h0
    · left
      have := List.length_pos_iff.mpr h0
      rw [factorOf]
      rw [if_neg, if_neg]
      · intro h; have := hmem _ _ (.inr rfl) h; omega
      · intro h; have := hmem _ _ (.inl rfl) h; omega

/-- What the loop finds in the first subpattern. -/
theorem loop_positive (sy : Symbols) (hd : Distinct sy) (p : Picture) (hp : p.WF sy) (B : Str)
    (o : Option Str)
    (hB : B = p.text sy ++ sepTail sy o) :
    ∃ st, loop sy true B (start B 0) = .ok (st, o) ∧ st.buf = B ∧
      st.left = (if p.zeros + p.fracZeros = 0 then p.hashes + p.fracHashes else p.hashes) ∧
      st.zeros = p.zeros + p.fracZeros ∧
      st.right = (if p.zeros + p.fracZeros = 0 then 0 else p.fracHashes) ∧
      st.groupingCount = groupOf p.int ∧
      st.decimalPos = (if p.point then some (p.hashes + p.zeros) else none) ∧
      st.prefixEnd = some p.pre.length ∧ st.inQuote = false ∧
      st.multiplier = p.factor sy ∧
      slice B st.suffix st.suffixEnd = p.suf ∧
      (o ≠ none → st.pos = (p.text sy).length + 1) := by
  obtain ⟨n1, n2, n3, n4, n5, n6, _⟩ := distinct_ne hd
  obtain ⟨hf, hm, hsig⟩ := factor_eq sy p hp
  have hB' : B = p.pre ++ (numberText sy p ++ (p.suf ++ sepTail sy o)) := by
    rw [hB, text_eq]; simp [List.append_assoc]
  have hpre := loop_pre sy true B 0 p hp (p.suf ++ sepTail sy o)
    (by rw [List.drop_zero]; exact hB')
  rw [← hB', Nat.zero_add] at hpre
  rw [hpre]
  have hord : ordered false p.int = true := ordered_of p.int _ _ false (by simp) hp.order
  have hg : groupAfter none p.int = groupOf p.int := by
    rw [groupAfter.eq_def]; cases groupOf p.int <;> rfl
  -- the tail, from any state of the pattern phase
  have htail : ∀ st : PSt, st.phase = .pattern → st.buf = B → st.inQuote = false → st.skip = false →
      st.multiplier = factorOf sy p.pre 1 → st.suffix = B.length → st.suffixEnd = B.length →
      st.pos = p.pre.length + (numberText sy p).length → st.prefixEnd = some p.pre.length →
      ∃ st', loop sy true (p.suf ++ sepTail sy o) st = .ok (st', o) ∧
        st'.buf = B ∧ st'.left = st.left ∧ st'.zeros = st.zeros ∧ st'.right = st.right ∧
        st'.groupingCount = st.groupingCount ∧ st'.decimalPos = st.decimalPos ∧
        st'.prefixEnd = some p.pre.length ∧ st'.inQuote = false ∧
        st'.multiplier = p.factor sy ∧ slice B st'.suffix st'.suffixEnd = p.suf ∧
        (o ≠ none → st'.pos = (p.text sy).length + 1) := by
    intro st e1 e2 e3 e4 e5 e6 e7 e8 e9
    have hdrop : B.drop st.pos = p.suf ++ sepTail sy o := by
      rw [e8]
      conv => lhs; rw [hB', ← List.append_assoc]
      rw [← List.length_append, List.drop_left]
    obtain ⟨st', k1, k2, k3, k4, k5, k6, k7, k8, k9, k10, k11, k12⟩ := loop_tail sy hd true B p.suf o st
      hp.suf e1 ⟨e2, hdrop, e3, e4, fun h => absurd e1 h⟩ hsig (by rw [e5]; exact hm) e6 e7 (.inr rfl)
    refine ⟨st', k1, k2, k3, k4, k5, k6, k7, k8.trans e9, k9, ?_, k11, ?_⟩
    · rw [k10, e5, hf]
    · intro h
      rw [k12 h, e8, text_eq]
      simp; omega
  rw [numberText, List.append_assoc]
  rw [loop_int sy hd p.int _ _ rfl rfl rfl rfl (by exact hord)]
  have hst : (start B 0).groupingCount = none := rfl
  by_cases hpt : p.point = true
  · rw [if_pos hpt, List.cons_append, List.append_assoc]
    rw [loop_number sy true sy.decimal _ ((special_iff sy _).mpr (by simp)) _
      { start B 0 with
          pos := p.pre.length + p.int.length + 1, affix := p.pre.length
          multiplier := factorOf sy p.pre 1
          prefixEnd := some p.pre.length, phase := .pattern
          left := p.hashes, zeros := p.zeros, groupingCount := groupOf p.int
          decimalPos := some (p.hashes + p.zeros) } rfl rfl
      (by
        rw [numberStep, if_neg (by decide), if_neg (Ne.symm n3), if_neg (Ne.symm n5), if_neg (Ne.symm n6),
          if_neg (by simp [start])]
        simp [start, hg, Picture.hashes, Picture.zeros])]
    rw [loop_fracZeros sy hd p.fracZeros _ _ rfl rfl rfl _ rfl, loop_fracHashes sy p.fracHashes _ _ rfl rfl _ rfl]
    obtain ⟨st', k1, k2, k3, k4, k5, k6, k7, k8⟩ := htail
      { start B 0 with
          pos := p.pre.length + p.int.length + 1 + p.fracZeros + p.fracHashes, affix := p.pre.length
          multiplier := factorOf sy p.pre 1
          prefixEnd := some p.pre.length, phase := .pattern
          right := if p.zeros + p.fracZeros > 0 then (start B 0).right + p.fracHashes else (start B 0).right
          left := if p.zeros + p.fracZeros > 0 then p.hashes else p.hashes + p.fracHashes
          zeros := p.zeros + p.fracZeros, groupingCount := groupOf p.int
          decimalPos := some (p.hashes + p.zeros) } rfl rfl rfl rfl rfl rfl rfl
      (by simp [numberText, hpt]; omega) rfl
    refine ⟨st', k1, k2, ?_, k4, ?_, k6, ?_, k8⟩
    · rw [k3]; dsimp only
      by_cases hz : p.zeros + p.fracZeros = 0
      · rw [if_neg (by omega), if_pos hz]
      · rw [if_pos (by omega), if_neg hz]
    · rw [k5]; dsimp only
      by_cases hz : p.zeros + p.fracZeros = 0
      · rw [if_neg (by omega), if_pos hz]; rfl
      · rw [if_pos (by omega), if_neg hz]; simp [start]
    · rw [k7, if_pos hpt]
  · rw [if_neg hpt, List.nil_append]
    obtain ⟨z1, z2⟩ := hp.frac (by simpa using hpt)
    obtain ⟨st', k1, k2, k3, k4, k5, k6, k7, k8⟩ := htail
      { start B 0 with
          pos := p.pre.length + p.int.length, affix := p.pre.length
          multiplier := factorOf sy p.pre 1
          prefixEnd := some p.pre.length, phase := .pattern
          left := (start B 0).left + p.int.count .hash, zeros := (start B 0).zeros + p.int.count .zero
          groupingCount := groupAfter none p.int } rfl rfl rfl rfl rfl rfl rfl
      (by simp [numberText, hpt]) rfl
    refine ⟨st', k1, k2, ?_, ?_, ?_, ?_, ?_, k8⟩
    · rw [k3, z2]; simp [start, Picture.hashes]
    · rw [k4, z1]; simp [start, Picture.zeros]
    · rw [k5, z2]; simp [start]
    · rw [k6]; exact hg
    · rw [k7, if_neg hpt]; rfl

/-- What the loop finds in a second subpattern. -/
theorem loop_negative (sy : Symbols) (hd : Distinct sy) (p : Picture) (hp : p.WF sy) (B : Str) (P : Nat)
    (hB : B.drop P = p.text sy) :
    ∃ st, loop sy false (p.text sy) (start B P) = .ok (st, none) ∧ st.buf = B ∧
      st.right = 0 ∧ st.groupingCount = none ∧ st.decimalPos = none ∧
      st.prefixEnd = some (P + p.pre.length) ∧ st.inQuote = false ∧
      slice B st.suffix st.suffixEnd = p.suf := by
  obtain ⟨hf, hm, hsig⟩ := factor_eq sy p hp
  rw [text_eq] at hB ⊢
  rw [loop_pre sy false B P p hp p.suf hB]
  rw [loop_ignored sy _ _ (numberText_special sy p) _ rfl rfl]
  have hdrop : B.drop (P + p.pre.length + (numberText sy p).length) = p.suf ++ [] := by
    rw [← List.drop_drop, ← List.drop_drop, hB]; simp
  obtain ⟨st', k1, k2, k3, k4, k5, k6, k7, k8, k9, k10, k11, k12⟩ := loop_tail sy hd false B p.suf none
    { start B P with
        pos := P + p.pre.length + (numberText sy p).length, affix := P + p.pre.length
        multiplier := factorOf sy p.pre 1
        prefixEnd := some (P + p.pre.length), phase := .pattern }
    hp.suf rfl ⟨rfl, hdrop, rfl, rfl, fun h => absurd rfl h⟩ hsig hm rfl rfl (.inl rfl)
  dsimp only [sepTail] at k1
  rw [List.append_nil] at k1
  exact ⟨st', k1, k2, k5, k6, k7, k8, k9, k11⟩

theorem adjust_none (st : PSt) (h : st.decimalPos = none) : adjust st = st := by
  rw [adjust.eq_def, h]

/-- The record of a picture. -/
theorem record_fits (sy : Symbols) (p : Picture) (hp : p.WF sy) (st : PSt)
    (h1 : st.left = (if p.zeros + p.fracZeros = 0 then p.hashes + p.fracHashes else p.hashes))
    (h2 : st.zeros = p.zeros + p.fracZeros)
    (h3 : st.right = (if p.zeros + p.fracZeros = 0 then 0 else p.fracHashes))
    (h4 : st.groupingCount = groupOf p.int)
    (h5 : st.decimalPos = (if p.point then some (p.hashes + p.zeros) else none))
    (h6 : st.inQuote = false) (pos : Parts) (neg : Option Parts) :
    malformed (adjust st) = false ∧ Fits p (record (adjust st) pos neg) := by
  have hdig := hp.digit
  have hgr : Grouping (record (adjust st) pos neg) (groupOf p.int) := by
    refine ⟨?_, hp.group⟩
    have : (adjust st).groupingCount = st.groupingCount := by
      rw [adjust.eq_def]; split
      · split <;> rfl
      · rfl
    rw [record]; dsimp only; rw [this, h4]
  have hg0 : (st.groupingCount == some 0) = false := by
    rw [h4]
    cases h : groupOf p.int with
    | none => rfl
    | some n =>
      have := hp.group
      rw [h] at this
      simpa using this
  by_cases hpt : p.point = true
  · rw [if_pos hpt] at h5
    by_cases hz : p.zeros + p.fracZeros = 0
    · rw [if_pos hz] at h1 h3
      have hz1 : p.zeros = 0 := by omega
      have hz2 : p.fracZeros = 0 := by omega
      have hlk : p.lacks = true := by simp [Picture.lacks, hpt, hz1, hz2]
      have ea : adjust st = { st with
          right := st.left - (if p.hashes = 0 then 1 else p.hashes)
          left := (if p.hashes = 0 then 1 else p.hashes) - 1, zeros := 1 } := by
        rw [adjust.eq_def, h5]
        dsimp only
        rw [if_pos ⟨by omega, by omega⟩, hz1, Nat.add_zero]
      rw [ea] at hgr ⊢
      constructor
      · rw [malformed, h5]
        dsimp only
        rw [hg0, h6]
        by_cases hh : p.hashes = 0
        · simp [hh, hz1]
        · simp [hh, hz1]; omega
      · refine ⟨?_, ?_, ?_, ?_, hgr, ?_⟩
        · rw [record]; dsimp only; rw [h5, Picture.minInt, hlk]
          by_cases hh : p.hashes = 0
          · simp [hh, hz1]
          · simp [hh, hz1]; omega
        · rw [record]; dsimp only; rw [h5, Picture.minFrac, hlk]
          by_cases hh : p.hashes = 0
          · simp [hh, hz1]
          · simp [hh, hz1, hz2]; omega
        · rw [record]; dsimp only; rw [h5, Picture.maxFrac]
          by_cases hh : p.hashes = 0
          · simp [hh, hz1, hz2, h1]; omega
          · simp [hh, hz1, hz2, h1]; omega
        · rw [record]; dsimp only; rw [h5, Picture.alwaysPoint, Picture.maxFrac, hpt]
          by_cases hh : p.hashes = 0
          · simp [hh, hz1, hz2, h1]
          · by_cases hf : p.fracHashes = 0
            · simp [hh, hz1, hz2, h1, hf]; omega
            · rw [Bool.eq_iff_iff]; simp [hh, hz1, hz2, h1]; omega
        · rw [Picture.minFrac, Picture.maxFrac, hlk]
          by_cases hh : p.hashes = 0
          · simp [hh]; omega
          · simp [hh]
    · rw [if_neg hz] at h1 h3
      have hlk : p.lacks = false := by
        simp only [Picture.lacks, hpt, Bool.true_and, Bool.and_eq_false_iff, beq_eq_false_iff_ne]
        omega
      have ea : adjust st = st := by
        rw [adjust.eq_def, h5]
        dsimp only
        rw [if_neg (by omega)]
      rw [ea] at hgr ⊢
      constructor
      · rw [malformed, h5, hg0, h6]
        simp [h1, h2]
      · refine ⟨?_, ?_, ?_, ?_, hgr, ?_⟩
        · rw [record]; dsimp only; rw [h5, Picture.minInt, hlk]
          simp [h1]
        · rw [record]; dsimp only; rw [h5, Picture.minFrac, hlk]
          simp [h1, h2]
          try omega
        · rw [record]; dsimp only; rw [h5, Picture.maxFrac]
          simp [h1, h2, h3]; omega
        · rw [record]; dsimp only; rw [h5, Picture.alwaysPoint, Picture.maxFrac, hpt]
          rw [Bool.eq_iff_iff]
          simp [h1, h2, h3]; omega
        · rw [Picture.minFrac, Picture.maxFrac, hlk]; simp
  · rw [if_neg hpt] at h5
    obtain ⟨z1, z2⟩ := hp.frac (by simpa using hpt)
    have hlk : p.lacks = false := by simp [Picture.lacks, hpt]
    rw [adjust_none st h5] at hgr ⊢
    have hr : st.right = 0 := by rw [h3, z2]; simp
    constructor
    · rw [malformed, h5, hg0, h6]
      simp [hr]
    · refine ⟨?_, ?_, ?_, ?_, hgr, ?_⟩
      · rw [record]; dsimp only; rw [h5, Picture.minInt, hlk]
        simp [h1, h2, hr, z1, z2]
      · rw [record]; dsimp only; rw [h5, Picture.minFrac, hlk]
        simp [z1]
      · rw [record]; dsimp only; rw [h5, Picture.maxFrac]
        simp [z1, z2]
      · rw [record]; dsimp only; rw [h5, Picture.alwaysPoint]
        simp [hpt]
      · rw [Picture.minFrac, hlk, z1]; simp

end Verif.Decimal
