import Verif.Parse.AvtCut
/-
C72: attribute value templates.
-/
namespace Verif.Parse
open Spec

/-! ### The format and the arguments -/

theorem pyFormat_cons {c : Char} (hc : c ≠ '%') (f : Str) (args : List Str) :
    pyFormat (c :: f) args = (pyFormat f args).map (c :: ·) := by
  cases f with
  | nil =>
    rw [pyFormat.eq_def]
    dsimp only
    rw [if_neg hc]
    cases args <;> rfl
  | cons d f =>
    rw [pyFormat.eq_def]
    dsimp only
    rw [if_neg hc]

theorem pyFormat_percent (f : Str) (args : List Str) :
    pyFormat ('%' :: '%' :: f) args = (pyFormat f args).map ('%' :: ·) := by
  rw [pyFormat.eq_def]
  dsimp only
  rw [if_pos rfl, if_pos rfl]

theorem pyFormat_text : ∀ (w f : Str) (args : List Str),
    pyFormat (escapePercent w ++ f) args = (pyFormat f args).map (w ++ ·)
  | [], f, args => by
    show pyFormat f args = (pyFormat f args).map (fun x => x)
    rw [Option.map_id']
  | c :: w, f, args => by
    have ih := pyFormat_text w f args
    rw [escapePercent]
    by_cases hc : c = '%'
    · subst hc
      rw [if_pos rfl, List.cons_append, List.cons_append, pyFormat_percent, ih, Option.map_map]
      rfl
    · rw [if_neg hc, List.cons_append, pyFormat_cons hc, ih, Option.map_map]
      rfl

theorem pyFormat_arg (f a : Str) (args : List Str) :
    pyFormat ('%' :: 's' :: f) (a :: args) = (pyFormat f args).map (a ++ ·) := by
  rw [pyFormat.eq_def]
  dsimp only
  rw [if_pos rfl, if_neg (by decide), if_pos rfl]

/-- The list of the parser and the pieces. -/
inductive Flat : List AvtPart → List Piece → Prop where
  | nil : Flat [] []
  | text {w l qs} : Flat l qs → Flat (.text w :: l) (w.map .char ++ qs)
  | expr {e a l qs} : Flat l qs → Flat (.expr a :: l) (.expr e a :: qs)

def prefixed {σ ε : Type} (w : Str) : Except ε Str × σ → Except ε Str × σ
  | (.ok s, c) => (.ok (w ++ s), c)
  | (.error e, c) => (.error e, c)

theorem value_text {σ ε : Type} (ev : Ast → σ → Except ε Str × σ) (qs : List Piece) (c : σ) :
    ∀ w : Str, value ev (w.map .char ++ qs) c = prefixed w (value ev qs c)
  | [] => by
    rw [List.map_nil, List.nil_append]
    rcases value ev qs c with ⟨_ | _, _⟩ <;> rfl
  | x :: w => by
    rw [List.map_cons, List.cons_append, value, value_text ev qs c w]
    rcases value ev qs c with ⟨_ | _, _⟩ <;> rfl

/-- What the arguments and the format give. -/
def formatted {σ ε : Type} (f : Str) : Except ε (List Str) × σ → Option (Except ε Str × σ)
  | (.error e, c) => some (.error e, c)
  | (.ok vs, c) => (pyFormat f vs).map fun s => (.ok s, c)

theorem formatted_text {σ ε : Type} (w f : Str) (o : Except ε (List Str) × σ) :
    formatted (escapePercent w ++ f) o = (formatted f o).map (prefixed w) := by
  rcases o with ⟨_ | vs, c⟩
  · rfl
  · rw [formatted, formatted, pyFormat_text, Option.map_map, Option.map_map]
    rfl

theorem format_value {σ ε : Type} (ev : Ast → σ → Except ε Str × σ) :
    ∀ {l : List AvtPart} {qs : List Piece}, Flat l qs → ∀ c : σ,
      formatted (formatOf l).1 (evalArgs ev (formatOf l).2 c) = some (value ev qs c)
  | _, _, .nil, c => rfl
  | _, _, .text (w := w) (l := l) (qs := qs) h, c => by
    rw [formatOf, formatted_text, format_value ev h c, value_text]
    rfl
  | _, _, .expr (a := a) (l := l) (qs := qs) h, c => by
    rw [formatOf, value, evalArgs]
    rcases ev a c with ⟨e | v, c'⟩
    · rfl
    · have ih := format_value ev h c'
      dsimp only
      generalize evalArgs ev (formatOf l).2 c' = o at ih
      generalize value ev qs c' = o' at ih
      rcases o with ⟨e | vs, c''⟩
      · rw [formatted] at ih
        injection ih with ih
        subst ih
        rfl
      · rw [formatted] at ih ⊢
        rw [pyFormat_arg]
        generalize pyFormat (formatOf l).1 vs = y at ih
        cases y with
        | none => exact (nomatch ih)
        | some y =>
          have ih : some ((Except.ok y : Except ε Str), c'') = some o' := ih
          injection ih with ih
          subst ih
          rfl

/-! ### The values of the parts -/

theorem valuesOf_append : ∀ a b : List Part, valuesOf (a ++ b) = match valuesOf b with
    | .error e => .error e
    | .ok l => match valuesOf a with
      | .error e => .error e
      | .ok m => .ok (l ++ m)
  | [], b => by
    rw [List.nil_append]
    cases valuesOf b with
    | error e => rfl
    | ok l => show _ = Except.ok (l ++ []); rw [List.append_nil]
  | p :: a, b => by
    rw [List.cons_append, valuesOf, valuesOf_append a b, valuesOf]
    cases valuesOf b with
    | error e => rfl
    | ok l =>
      dsimp only
      cases valuesOf a with
      | error e => rfl
      | ok m =>
        dsimp only
        cases p.value with
        | error e => rfl
        | ok v => dsimp only; rw [List.append_assoc]

theorem valuesOf_reverse (p : Part) (ps : List Part) :
    valuesOf (p :: ps).reverse = match p.value with
      | .error e => .error e
      | .ok v => match valuesOf ps.reverse with
        | .error e => .error e
        | .ok l => .ok (v :: l) := by
  rw [List.reverse_cons, valuesOf_append]
  have e : valuesOf [p] = match p.value with
      | .error e => .error e
      | .ok v => .ok [v] := by
    rw [valuesOf, valuesOf]
    cases p.value <;> rfl
  rw [e]
  cases p.value <;> rfl

theorem flat_of_reads : ∀ {ps : List Part} {qs : List Piece}, AReads ps qs →
    ∃ l, valuesOf ps.reverse = .ok l ∧ Flat l qs
  | _, _, .nil => ⟨[], rfl, .nil⟩
  | _, _, .lit (w := w) h => by
    obtain ⟨l, h1, h2⟩ := flat_of_reads h
    exact ⟨.text w :: l, by rw [valuesOf_reverse, h1]; rfl, .text h2⟩
  | _, _, .esc (c := c) (d := d) h => by
    obtain ⟨l, h1, h2⟩ := flat_of_reads h
    exact ⟨.text [c] :: l, by rw [valuesOf_reverse, h1]; rfl, .text (w := [c]) h2⟩
  | _, _, .expr (a := a) hb h => by
    obtain ⟨l, h1, h2⟩ := flat_of_reads h
    exact ⟨.expr a :: l, by rw [valuesOf_reverse, h1, Part.value, hb], .expr h2⟩

theorem template_of_cut : ∀ {s : Str} {ps : List Part}, Cut s ps → ∀ {l : List AvtPart},
    valuesOf ps.reverse = .ok l → ∃ qs, Template s qs ∧ Flat l qs
  | _, _, .nil, l, h => by
    have h : Except.ok [] = Except.ok l := h
    injection h with h
    subst h
    exact ⟨[], .nil, .nil⟩
  | _, _, .lit (w := w) (ps := ps) hw hc, l, h => by
    rw [valuesOf_reverse, Part.value] at h
    cases hv : valuesOf ps.reverse with
    | error e => rw [hv] at h; exact (nomatch h)
    | ok m =>
      rw [hv] at h
      injection h with h
      subst h
      obtain ⟨qs, h1, h2⟩ := template_of_cut hc hv
      exact ⟨_, template_run hw h1, .text h2⟩
  | _, _, .esc (c := c) (d := d) (ps := ps) hd hc, l, h => by
    rw [valuesOf_reverse, Part.value] at h
    cases hv : valuesOf ps.reverse with
    | error e => rw [hv] at h; exact (nomatch h)
    | ok m =>
      rw [hv] at h
      injection h with h
      subst h
      obtain ⟨qs, h1, h2⟩ := template_of_cut hc hv
      refine ⟨.char c :: qs, ?_, .text (w := [c]) h2⟩
      rcases hd with ⟨rfl, rfl⟩ | ⟨rfl, rfl⟩
      · exact .left h1
      · exact .right h1
  | _, _, .expr (e := e) (t := t) (ps := ps) he hc, l, h => by
    rw [valuesOf_reverse] at h
    cases hp : (Part.expr ['{'] ['}'] t).value with
    | error e => rw [hp] at h; exact (nomatch h)
    | ok v =>
      rw [hp] at h
      dsimp only at h
      cases hv : valuesOf ps.reverse with
      | error e => rw [hv] at h; exact (nomatch h)
      | ok m =>
        rw [hv] at h
        injection h with h
        subst h
        obtain ⟨qs, h1, h2⟩ := template_of_cut hc hv
        rw [Part.value] at hp
        cases hb : build t with
        | error x => rw [hb] at hp; exact (nomatch hp)
        | ok x =>
          rw [hb] at hp
          cases x with
          | expr a =>
            injection hp with hp
            subst hp
            exact ⟨.expr e a :: qs, .expr (compileExpr_ok.mpr ⟨t, he, hb⟩) h1, .expr h2⟩
          | _ => exact (nomatch hp)

/-- The first expression that raises an exception. -/
theorem error_of_cut : ∀ {s : Str} {ps : List Part}, Cut s ps → (∀ p ∈ ps, p.Ok) → ∀ {x : AErr},
    valuesOf ps.reverse = .error x → x ≠ .stuck ∧ ∃ p qs e rest,
      s = p ++ '{' :: (e ++ '}' :: rest) ∧ Template p qs ∧ compileExpr e = .raises x
  | _, _, .nil, _, x, h => (nomatch h)
  | _, _, .lit (w := w) (ps := ps) hw hc, hok, x, h => by
    rw [valuesOf_reverse, Part.value] at h
    cases hv : valuesOf ps.reverse with
    | ok m => rw [hv] at h; exact (nomatch h)
    | error y =>
      rw [hv] at h
      injection h with h
      subst h
      obtain ⟨hx, p, qs, e, rest, h1, h2, h3⟩ := error_of_cut hc (List.forall_mem_cons.mp hok).2 hv
      exact ⟨hx, w ++ p, _, e, rest, by rw [h1, List.append_assoc], template_run hw h2, h3⟩
  | _, _, .esc (c := c) (d := d) (ps := ps) hd hc, hok, x, h => by
    rw [valuesOf_reverse, Part.value] at h
    cases hv : valuesOf ps.reverse with
    | ok m => rw [hv] at h; exact (nomatch h)
    | error y =>
      rw [hv] at h
      injection h with h
      subst h
      obtain ⟨hx, p, qs, e, rest, h1, h2, h3⟩ := error_of_cut hc (List.forall_mem_cons.mp hok).2 hv
      refine ⟨hx, c :: d :: p, .char c :: qs, e, rest, by rw [h1]; rfl, ?_, h3⟩
      rcases hd with ⟨rfl, rfl⟩ | ⟨rfl, rfl⟩
      · exact .left h2
      · exact .right h2
  | _, _, .expr (e := e) (s := s) (t := t) (ps := ps) he hc, hok, x, h => by
    have hf : Fine 42 (build t) := by
      have ho := (List.forall_mem_cons.mp hok).1
      have := build_fine t ho.1
      rw [ho.2] at this
      exact this
    rw [valuesOf_reverse, Part.value] at h
    cases hb : build t with
    | error y =>
      rw [hb] at h hf
      injection h with h
      subst h
      have hf : y ≠ .stuck := hf
      refine ⟨hf, [], [], e, s, rfl, .nil, ?_⟩
      rw [compileExpr, he]
      dsimp only
      rw [hb]
      cases y <;> first | rfl | exact absurd rfl hf
    | ok v =>
      rw [hb] at h hf
      obtain ⟨a, rfl⟩ := hf
      dsimp only at h
      cases hv : valuesOf ps.reverse with
      | ok m => rw [hv] at h; exact (nomatch h)
      | error y =>
        rw [hv] at h
        injection h with h
        subst h
        obtain ⟨hx, p, qs, e', rest, h1, h2, h3⟩ := error_of_cut hc (List.forall_mem_cons.mp hok).2 hv
        exact ⟨hx, '{' :: (e ++ '}' :: p), _, e', rest, by rw [h1]; simp,
          .expr (compileExpr_ok.mpr ⟨t, he, hb⟩) h2, h3⟩

/-! ### The parser -/

theorem avt_tokens {s : Str} {ts : List Tok} (h : Toks avtLexer 2 s ts) : Tokens 66 ts := by
  have : ∀ {st : Nat} {s : Str} {ts : List Tok}, Toks avtLexer st s ts →
      ∀ t ∈ ts, 0 < t.kind ∧ t.kind < 66 := by
    intro st s ts h
    induction h with
    | nil => nofun
    | char _ hn _ ih =>
      refine List.forall_mem_cons.mpr ⟨?_, ih⟩
      dsimp only
      exact (avt_kind hn).2.2.2.2.2.2
    | charEnd _ _ => nofun
    | token _ _ hn _ ih =>
      refine List.forall_mem_cons.mpr ⟨?_, ih⟩
      dsimp only
      exact (avt_kind hn).2.2.2.2.2.2
    | tokenEnd _ _ => nofun
    | discard _ _ _ ih => exact ih
    | again _ _ _ ih => exact ih
  exact this h

/-- What `_parse_avt` returns, by the parts of the text. -/
theorem parsed_parts {s : Str} {ps : List Part} (hok : ∀ p ∈ ps, p.Ok)
    (hroom : ∀ l r t, Part.expr l r t ∈ ps → room t + 2 < depth)
    (h : Toks avtLexer 2 s (partsToks ps)) : ∃ t, lex avtLexer s = some (partsToks ps) ∧
      parseAvtToks (partsToks ps) = .ok t ∧ buildAvt t = match valuesOf ps.reverse with
      | .ok l => .ok (.list l)
      | .error e => .error e := by
  have hok' : ∀ p ∈ ps.reverse, p.Ok := fun p hp => hok p (List.mem_reverse.mp hp)
  refine ⟨.node 1 (.cons (avtTree ps.reverse) .nil), avt_lex_iff.mpr h, ?_, build_start hok'⟩
  have hd := start_derives hok'
  refine (exact_ok avt_complete avt_sound (avt_tokens h) _).mpr ⟨hd.1, hd.2, ?_, ?_⟩
  · rw [yield, yields, yields, avtTree_yield, List.reverse_reverse, List.append_nil]
  · exact room_start.mpr fun l r t hm => hroom l r t (List.mem_reverse.mp hm)

theorem parts_of_parsed {s : Str} {ts : List Tok} {t : Tree} (hl : lex avtLexer s = some ts)
    (h : parseAvtToks ts = .ok t) : ∃ ps : List Part, (∀ p ∈ ps, p.Ok) ∧ Cut s ps ∧
      buildAvt t = match valuesOf ps.reverse with
      | .ok l => .ok (.list l)
      | .error e => .error e := by
  have ht := avt_lex_iff.mp hl
  obtain ⟨h1, h2, h3, h4⟩ := (exact_ok avt_complete avt_sound (avt_tokens ht) t).mp h
  obtain ⟨ps, hok, rfl⟩ := start_of h1 h2
  rw [yield, yields, yields, avtTree_yield, List.append_nil] at h3
  have hok' : ∀ p ∈ ps.reverse, p.Ok := fun p hp => hok p (List.mem_reverse.mp hp)
  refine ⟨ps.reverse, hok', ?_, ?_⟩
  · refine cut_of_toks hok' (fun l r t hm => room_start.mp h4 l r t (List.mem_reverse.mp hm)) ?_
    rw [h3]
    exact ht
  · rw [List.reverse_reverse]
    exact build_start hok

/-- What an instance of `avt_expression` evaluates to is the value of the pieces. -/
def Agrees (x : AvtExpr) (ps : List Piece) : Prop :=
  ∀ (σ ε : Type) (ev : Ast → σ → Except ε Str × σ) (c : σ),
    match value ev ps c with
    | (.ok s, c') => x.evaluate ev c = (.ok s, c')
    | (.error e, c') => x.evaluate ev c = (.raises e, c')

theorem constant_agrees {l : List AvtPart} {qs : List Piece} (h : Flat l qs)
    (hn : (formatOf l).2 = []) : ∃ r, pyFormat (formatOf l).1 [] = some r ∧ Agrees ⟨r, []⟩ qs := by
  have h1 := format_value (σ := Unit) (ε := Unit) (fun _ c => (.ok [], c)) h ()
  rw [hn, evalArgs, formatted] at h1
  cases hp : pyFormat (formatOf l).1 [] with
  | none => rw [hp] at h1; exact (nomatch h1)
  | some r =>
    refine ⟨r, rfl, fun σ ε ev c => ?_⟩
    have h2 := format_value ev h c
    rw [hn, evalArgs, formatted, hp] at h2
    have h2 : some ((Except.ok r : Except ε Str), c) = some (value ev qs c) := h2
    injection h2 with h2
    rw [← h2]
    rfl

theorem general_agrees {l : List AvtPart} {qs : List Piece} (h : Flat l qs)
    {a : Ast} {as : List Ast} (hn : (formatOf l).2 = a :: as) :
    Agrees ⟨(formatOf l).1, a :: as⟩ qs := by
  intro σ ε ev c
  have h2 := format_value ev h c
  rw [hn] at h2
  rw [AvtExpr.evaluate]
  dsimp only
  generalize evalArgs ev (a :: as) c = o at h2
  rcases o with ⟨e | vs, c'⟩
  · rw [formatted] at h2
    injection h2 with h2
    rw [← h2]
  · rw [formatted] at h2
    cases hp : pyFormat (formatOf l).1 vs with
    | none => rw [hp] at h2; exact (nomatch h2)
    | some r =>
      rw [hp] at h2
      have h2 : some ((Except.ok r : Except ε Str), c') = some (value ev qs c) := h2
      injection h2 with h2
      rw [← h2]
      dsimp only
      rw [hp]

theorem new_of_parsed {s : Str} {l : List AvtPart} {qs : List Piece} (hp : parseAvt s = .ok l)
    (h : Flat l qs) : ∃ x, newAvt s = .ok x ∧ Agrees x qs := by
  rw [newAvt, hp]
  dsimp only
  cases hn : (formatOf l).2 with
  | nil =>
    obtain ⟨r, h1, h2⟩ := constant_agrees h hn
    rw [h1]
    exact ⟨_, rfl, h2⟩
  | cons a as => exact ⟨_, rfl, general_agrees h hn⟩

/-- What `_parse_avt` gives is one of these. -/
theorem parse_cases (s : Str) :
    (∃ l qs, parseAvt s = .ok l ∧ Template s qs ∧ Flat l qs) ∨ parseAvt s = .syntaxError ∨
    parseAvt s = .overflow ∨ ∃ x, parseAvt s = .raises x ∧ x ≠ .stuck ∧ ∃ p qs e rest,
      s = p ++ '{' :: (e ++ '}' :: rest) ∧ Template p qs ∧ compileExpr e = .raises x := by
  obtain ⟨ts, hts⟩ := avt_lex_total s
  have hk := avt_tokens (avt_lex_iff.mp hts)
  rcases exact_total avt_complete avt_sound hk with ⟨t, h⟩ | ⟨l, h⟩ | h
  · have h : parseAvtToks ts = .ok t := h
    obtain ⟨ps, hok, hc, hb⟩ := parts_of_parsed hts h
    have e : parseAvt s = match buildAvt t with
      | .ok (.list l) => .ok l
      | .ok _ => .stuck
      | .error .stuck => .stuck
      | .error e => .raises e := by rw [parseAvt, hts]; dsimp only; rw [h]; rfl
    rw [e, hb]
    cases hv : valuesOf ps.reverse with
    | ok l =>
      obtain ⟨qs, h1, h2⟩ := template_of_cut hc hv
      exact .inl ⟨l, qs, rfl, h1, h2⟩
    | error x =>
      obtain ⟨h1, h2⟩ := error_of_cut hc hok hv
      refine .inr (.inr (.inr ⟨x, ?_, h1, h2⟩))
      cases x <;> first | rfl | exact absurd rfl h1
  · have h : parseAvtToks ts = .error l := h
    exact .inr (.inl (by rw [parseAvt, hts]; dsimp only; rw [h]))
  · have h : parseAvtToks ts = .overflow := h
    exact .inr (.inr (.inl (by rw [parseAvt, hts]; dsimp only; rw [h])))

/-! ### The property -/

/-- What is accepted is a template, and evaluates to its value: the text with its
expressions replaced by their values, which are computed once each, from left to
right, up to the first that raises an exception. -/
theorem C72_sound (s : Str) (x : AvtExpr) (h : newAvt s = .ok x) :
    ∃ ps, Template s ps ∧ Agrees x ps := by
  rcases parse_cases s with ⟨l, qs, h1, h2, h3⟩ | h1 | h1 | ⟨y, h1, _⟩
  · obtain ⟨x', h4, h5⟩ := new_of_parsed h1 h3
    rw [h] at h4
    injection h4 with h4
    subst h4
    exact ⟨qs, h2, h5⟩
  · rw [newAvt, h1] at h; exact (nomatch h)
  · rw [newAvt, h1] at h; exact (nomatch h)
  · rw [newAvt, h1] at h; exact (nomatch h)

/-- Every template without NUL characters whose expressions have less than 499
tokens is accepted, and evaluates to its value. -/
theorem C72_complete (s : Str) (ps : List Piece) (h : Template s ps) (h0 : ∀ c ∈ s, c.toNat ≠ 0)
    (hs : Short 499 ps) : ∃ x, newAvt s = .ok x ∧ Agrees x ps := by
  obtain ⟨qs, h1, h2, h3, h4⟩ := toks_of_template _ (Nat.le_refl _) h h0 hs
  obtain ⟨t, e1, e2, e3⟩ := parsed_parts h1 h2 h3
  obtain ⟨l, hl, hf⟩ := flat_of_reads h4
  rw [hl] at e3
  refine new_of_parsed (l := l) ?_ hf
  rw [parseAvt, e1]
  dsimp only
  rw [e2]
  dsimp only
  rw [e3]

/-- There are no other outcomes than an instance, `AVT_SYNTAX`, an overflow of the
parser's stack and the exceptions of the constructors of expressions: `%` does
not raise an exception, here or in an evaluation (`C72_sound`). -/
theorem C72_total (s : Str) : (∃ x, newAvt s = .ok x) ∨ newAvt s = .error .syntax ∨
    newAvt s = .error .overflow ∨ ∃ e, e ≠ .stuck ∧ newAvt s = .error (.raises e) := by
  rcases parse_cases s with ⟨l, qs, h1, h2, h3⟩ | h1 | h1 | ⟨y, h1, h2, _⟩
  · obtain ⟨x, h4, _⟩ := new_of_parsed h1 h3
    exact .inl ⟨x, h4⟩
  · exact .inr (.inl (by rw [newAvt, h1]))
  · exact .inr (.inr (.inl (by rw [newAvt, h1])))
  · exact .inr (.inr (.inr ⟨y, h2, by rw [newAvt, h1]⟩))

/-- An exception other than `AVT_SYNTAX` is one that an expression of the text
raises when it is compiled by itself; what is before it is a template. -/
theorem C72_raises (s : Str) (x : AErr) (h : newAvt s = .error (.raises x)) : ∃ p qs e rest,
    s = p ++ '{' :: (e ++ '}' :: rest) ∧ Template p qs ∧ compileExpr e = .raises x := by
  rcases parse_cases s with ⟨l, qs, h1, h2, h3⟩ | h1 | h1 | ⟨y, h1, _, h2⟩
  · obtain ⟨x, h4, _⟩ := new_of_parsed h1 h3
    rw [h] at h4; exact (nomatch h4)
  · rw [newAvt, h1] at h; exact (nomatch h)
  · rw [newAvt, h1] at h; exact (nomatch h)
  · rw [newAvt, h1] at h
    injection h with h
    injection h with h
    subst h
    exact h2

/-- A text has one value as a template. -/
theorem C72_unambiguous (s : Str) (ps qs : List Piece) (h : Template s ps) (h' : Template s qs)
    (h0 : ∀ c ∈ s, c.toNat ≠ 0) (hs : Short 499 ps) (hs' : Short 499 qs)
    (σ ε : Type) (ev : Ast → σ → Except ε Str × σ) (c : σ) : value ev ps c = value ev qs c := by
  obtain ⟨x, h1, h2⟩ := C72_complete s ps h h0 hs
  obtain ⟨y, h3, h4⟩ := C72_complete s qs h' h0 hs'
  rw [h1] at h3
  injection h3 with h3
  subst h3
  have h2 := h2 σ ε ev c
  have h4 := h4 σ ε ev c
  rcases hv : value ev ps c with ⟨e | v, c'⟩ <;> rcases hw : value ev qs c with ⟨e' | v', c''⟩ <;>
    rw [hv] at h2 <;> rw [hw] at h4 <;> rw [h2] at h4 <;> cases h4 <;> rfl

/-! ### Attributes of instructions -/

theorem plain_template : ∀ {s : Str}, '{' ∉ s → '}' ∉ s → Template s (s.map .char)
  | [], _, _ => .nil
  | c :: s, h, h' => by
    refine .char ?_ ?_ (plain_template (fun x => h (List.mem_cons_of_mem _ x))
      fun x => h' (List.mem_cons_of_mem _ x))
    · rintro rfl; exact h List.mem_cons_self
    · rintro rfl; exact h' List.mem_cons_self

theorem plain_only {s : Str} {ps : List Piece} (h : Template s ps) :
    '{' ∉ s → '}' ∉ s → ps = s.map .char := by
  induction h with
  | nil => intro _ _; rfl
  | char _ _ _ ih =>
    intro h h'
    rw [ih (fun x => h (List.mem_cons_of_mem _ x)) fun x => h' (List.mem_cons_of_mem _ x)]
    rfl
  | left _ _ => intro h; exact absurd List.mem_cons_self h
  | right _ _ => intro _ h; exact absurd List.mem_cons_self h
  | expr _ _ _ => intro h; exact absurd List.mem_cons_self h

theorem plain_agrees (s : Str) : Agrees ⟨s, []⟩ (s.map .char) := by
  intro σ ε ev c
  have := value_text ev [] c s
  rw [List.append_nil, value, prefixed, List.append_nil] at this
  rw [this]
  rfl

/-- The attribute of an instruction: what is accepted is a template, and evaluates
to its value. -/
theorem C72_attribute_sound (s : Str) (x : AvtExpr) (h : prepareAvt s = .ok x) :
    ∃ ps, Template s ps ∧ Agrees x ps := by
  rw [prepareAvt] at h
  by_cases hb : '{' ∉ s ∧ '}' ∉ s
  · rw [if_pos hb] at h
    injection h with h
    subst h
    exact ⟨_, plain_template hb.1 hb.2, plain_agrees s⟩
  · rw [if_neg hb] at h
    cases hn : newAvt s with
    | ok y =>
      rw [hn] at h
      injection h with h
      subst h
      exact C72_sound s y hn
    | error e => rw [hn] at h; cases e <;> exact (nomatch h)

/-- Every template is accepted. -/
theorem C72_attribute_complete (s : Str) (ps : List Piece) (h : Template s ps)
    (h0 : ∀ c ∈ s, c.toNat ≠ 0) (hs : Short 499 ps) : ∃ x, prepareAvt s = .ok x ∧ Agrees x ps := by
  rw [prepareAvt]
  by_cases hb : '{' ∉ s ∧ '}' ∉ s
  · rw [if_pos hb, plain_only h hb.1 hb.2]
    exact ⟨_, rfl, plain_agrees s⟩
  · rw [if_neg hb]
    obtain ⟨x, h1, h2⟩ := C72_complete s ps h h0 hs
    rw [h1]
    exact ⟨x, rfl, h2⟩

/-- A text that is not a template is refused with `INVALID_AVT`, unless the
stack overflows or a constructor raises an exception, which is passed on; and
what is refused with `INVALID_AVT` is not a template (with expressions of less
than 499 tokens and without NUL characters). -/
theorem C72_attribute_invalid (s : Str) :
    ((∀ ps, ¬ Template s ps) → prepareAvt s = .error .invalidAvt ∨
      prepareAvt s = .error (.other .overflow) ∨ ∃ e, prepareAvt s = .error (.other (.raises e))) ∧
    (prepareAvt s = .error .invalidAvt → (∀ c ∈ s, c.toNat ≠ 0) → ∀ ps, Template s ps → ¬ Short 499 ps) := by
  constructor
  · intro h
    have hb : ¬ ('{' ∉ s ∧ '}' ∉ s) := fun hb => h _ (plain_template hb.1 hb.2)
    rw [prepareAvt, if_neg hb]
    rcases C72_total s with ⟨x, h1⟩ | h1 | h1 | ⟨e, _, h1⟩
    · obtain ⟨ps, hp, _⟩ := C72_sound s x h1
      exact absurd hp (h ps)
    · rw [h1]; exact .inl rfl
    · rw [h1]; exact .inr (.inl rfl)
    · rw [h1]; exact .inr (.inr ⟨e, rfl⟩)
  · intro h h0 ps hp hs
    obtain ⟨x, h1, _⟩ := C72_attribute_complete s ps hp h0 hs
    rw [h1] at h
    exact (nomatch h)

/-- The number of tokens is at most that of the characters. -/
theorem covers_length {s : Str} {ts : List Tok} (h : Covers s ts) : ts.length ≤ s.length := by
  induction h with
  | nil => exact Nat.le_refl _
  | space _ _ ih => rw [List.length_cons]; omega
  | @token t s ts hne _ ih =>
    rw [List.length_cons, List.length_append]
    have : 0 < t.text.length := List.length_pos_iff.mpr hne
    omega

theorem template_short {s : Str} {ps : List Piece} (h : Template s ps) :
    (∀ c ∈ s, c.toNat ≠ 0) → Short s.length ps := by
  induction h with
  | nil => intro _ e a h; exact (nomatch h)
  | char _ _ _ ih =>
    intro h0 e a h ts hts
    rcases List.mem_cons.mp h with h | h
    · exact (nomatch h)
    · have := ih (fun c hc => h0 c (List.mem_cons_of_mem _ hc)) e a h ts hts
      rw [List.length_cons]; omega
  | left _ ih =>
    intro h0 e a h ts hts
    rcases List.mem_cons.mp h with h | h
    · exact (nomatch h)
    · have := ih (fun c hc => h0 c (List.mem_cons_of_mem _ (List.mem_cons_of_mem _ hc))) e a h ts hts
      rw [List.length_cons, List.length_cons]; omega
  | right _ ih =>
    intro h0 e a h ts hts
    rcases List.mem_cons.mp h with h | h
    · exact (nomatch h)
    · have := ih (fun c hc => h0 c (List.mem_cons_of_mem _ (List.mem_cons_of_mem _ hc))) e a h ts hts
      rw [List.length_cons, List.length_cons]; omega
  | @expr e' a' s ps _ _ ih =>
    intro h0 e a h ts hts
    have h0' := List.forall_mem_append.mp (List.forall_mem_cons.mp h0).2
    rw [List.length_cons, List.length_append, List.length_cons]
    rcases List.mem_cons.mp h with h | h
    · injection h with h1 h2
      subst h1
      have := covers_length (C65_lossless e h0'.1 ts hts)
      omega
    · have := ih (List.forall_mem_cons.mp h0'.2).2 e a h ts hts
      omega

/-- In particular every template of less than 500 characters is accepted. -/
theorem C72_short (s : Str) (ps : List Piece) (h : Template s ps) (h0 : ∀ c ∈ s, c.toNat ≠ 0)
    (hs : s.length < 500) : ∃ x, newAvt s = .ok x ∧ Agrees x ps :=
  C72_complete s ps h h0 fun e a hm ts hts => by
    have := template_short h h0 e a hm ts hts
    omega

/-! ### Examples -/

/-- A brace in a literal of an expression, doubled braces and a percent sign. -/
def exAvt : Str := "a{{{'}'}}}50%{1+2}".toList

def avtShape : Except AvtErr AvtExpr → Option (Str × Nat)
  | .ok x => some (x.format, x.args.length)
  | .error _ => none

theorem ex_shape : avtShape (newAvt exAvt) = some ("a{%s}50%%%s".toList, 2) := by decide +kernel

theorem ex_new : ∃ x, newAvt exAvt = .ok x := by
  cases h : newAvt exAvt with
  | ok x => exact ⟨x, rfl⟩
  | error e => have := ex_shape; rw [h] at this; exact (nomatch this)

/-- The hypotheses of the theorems are met by it. -/
example : ∃ ps, Template exAvt ps ∧ (∀ c ∈ exAvt, c.toNat ≠ 0) ∧ Short 499 ps ∧ exAvt.length < 500 := by
  obtain ⟨x, h⟩ := ex_new
  obtain ⟨ps, h1, _⟩ := C72_sound exAvt x h
  have h0 : ∀ c ∈ exAvt, c.toNat ≠ 0 := by decide
  refine ⟨ps, h1, h0, fun e a hm ts hts => ?_, by decide⟩
  have := template_short h1 h0 e a hm ts hts
  have : exAvt.length < 499 := by decide
  omega

def outcome {ε σ : Type} : AvtOut ε × σ → Option Str × σ
  | (.ok s, c) => (some s, c)
  | (_, c) => (none, c)

def evaluated {σ : Type} (s : Str) (ev : Ast → σ → Except Unit Str × σ) (c : σ) : Option (Option Str × σ) :=
  match newAvt s with
  | .ok x => some (outcome (x.evaluate ev c))
  | .error _ => none

/-- Evaluated with an evaluator that counts. -/
example : evaluated exAvt (fun _ n => (.ok (List.replicate n 'x'), n + 1)) 3 =
    some (some "a{xxx}50%xxxx".toList, 5) := by decide +kernel

/-- With one that fails, at the first expression. -/
example : evaluated exAvt (fun _ n => (.error (), n + 1)) 3 = some (none, 4) := by decide +kernel

def prepareErr (s : Str) : Option PrepareErr :=
  match prepareAvt s with
  | .ok _ => none
  | .error e => some e

/-- Texts that are not templates. -/
example : prepareErr "a}".toList = some .invalidAvt ∧ prepareErr "{1".toList = some .invalidAvt ∧
    prepareErr "{}".toList = some .invalidAvt ∧ prepareErr "{{{1}}".toList = some .invalidAvt := by
  refine ⟨by decide +kernel, by decide +kernel, by decide +kernel, by decide +kernel⟩

/-! ### Where it goes wrong -/

/-- An error in an expression of a template is not always reported as one of the
stylesheet: exceptions of the constructors of expressions go through. -/
theorem C72_refuted_errors :
    prepareErr "{foo::a}".toList = some (.other (.raises .keyError)) ∧
    prepareErr "x{true(1)}".toList = some (.other (.raises .nameError)) ∧
    prepareErr "{{{foo()}".toList = some (.other (.raises .assertion)) := by
  refine ⟨by decide +kernel, by decide +kernel, by decide +kernel⟩

end Verif.Parse
