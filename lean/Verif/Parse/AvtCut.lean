import Verif.Parse.AvtText
import Verif.Parse.AvtSpec
/-
Attribute value templates: the parts of a text.
-/
namespace Verif.Parse
open Spec

/-- A text and its parts. -/
inductive Cut : Str → List Part → Prop where
  | nil : Cut [] []
  | lit {w s ps} : (∀ c ∈ w, isBrace c = false) → Cut s ps → Cut (w ++ s) (.lit w :: ps)
  | esc {c d s ps} : Doubled c d → Cut s ps → Cut (c :: d :: s) (.esc [c, d] :: ps)
  | expr {e s t ps} : compileText e = .ok t → Cut s ps →
      Cut ('{' :: (e ++ '}' :: s)) (.expr ['{'] ['}'] t :: ps)

theorem xpath_rhs_big : ∀ rhs ∈ xpathTables.rhs, ∀ k ∈ rhs, 3 ≤ k := by decide +kernel

theorem xpath_terms : xpathTables.ntBase = 29 := by decide +kernel

theorem mem_getD {α : Type} {l : List (List α)} {i : Nat} {x : α} (h : x ∈ l.getD i []) :
    ∃ m ∈ l, x ∈ m := by
  rw [List.getD_eq_getElem?_getD] at h
  cases e : l[i]? with
  | none => rw [e] at h; exact (nomatch h)
  | some m => rw [e] at h; exact ⟨m, List.mem_of_getElem? e, h⟩

mutual
theorem yield_big : ∀ {t : Tree}, Derives (grammar xpathTables) t →
    3 ≤ root (grammar xpathTables).lhs t → ∀ k ∈ yield t, InX k.kind
  | .leaf t, .leaf _ ht, h, k, hk => by
    rw [yield, List.mem_singleton] at hk
    subst hk
    have h1 : k.kind < xpathTables.ntBase := ht.2
    rw [xpath_terms] at h1
    exact ⟨h, by omega⟩
  | .node r ks, .node _ _ hr he hd, _, k, hk => by
    rw [yield] at hk
    refine yields_big hd ?_ k hk
    intro x hx
    rw [he] at hx
    obtain ⟨m, hm, hx⟩ := mem_getD (show x ∈ xpathTables.rhs.getD r [] from hx)
    exact xpath_rhs_big m hm x hx
theorem yields_big : ∀ {ts : Trees}, DerivesAll (grammar xpathTables) ts →
    (∀ x ∈ roots (grammar xpathTables).lhs ts, 3 ≤ x) → ∀ k ∈ yields ts, InX k.kind
  | .nil, _, _, k, hk => (nomatch hk)
  | .cons t ts, .cons _ _ h1 h2, h, k, hk => by
    rw [yields, List.mem_append] at hk
    rw [roots] at h
    have h := List.forall_mem_cons.mp h
    rcases hk with hk | hk
    · exact yield_big h1 h.1 k hk
    · exact yields_big h2 h.2 k hk
end

theorem sym_back : ∀ k, k < 29 → 3 ≤ k → avtUnsym (avtSym k) = k ∧ InA (avtSym k) := by decide

theorem sym_inj {k k' : Nat} (h : InX k) (h' : InX k') (e : avtSym k = avtSym k') : k = k' := by
  rw [← (sym_back k (by have := h.2; omega) h.1).1, e,
    (sym_back k' (by have := h'.2; omega) h'.1).1]

theorem map_inj : ∀ {ts us : List Tok}, (∀ t ∈ ts, InX t.kind) → (∀ t ∈ us, InX t.kind) →
    ts.map (mapTok avtSym) = us.map (mapTok avtSym) → ts = us
  | [], [], _, _, _ => rfl
  | [], _ :: _, _, _, e => (nomatch e)
  | _ :: _, [], _, _, e => (nomatch e)
  | ⟨k, w⟩ :: ts, ⟨k', w'⟩ :: us, h, h', e => by
    have h := List.forall_mem_cons.mp h
    have h' := List.forall_mem_cons.mp h'
    rw [List.map_cons, List.map_cons] at e
    injection e with e1 e2
    rw [mapTok, mapTok] at e1
    injection e1 with e1 e3
    dsimp only at e1 e3
    have e4 : k = k' := sym_inj h.1 h'.1 e1
    rw [map_inj h.2 h'.2 e2, e4, e3]

theorem map_inA {ts : List Tok} (h : ∀ t ∈ ts, InX t.kind) :
    ∀ t ∈ ts.map (mapTok avtSym), InA t.kind := by
  intro t ht
  obtain ⟨u, hu, rfl⟩ := List.mem_map.mp ht
  have := h u hu
  exact (sym_back u.kind (by have := this.2; omega) this.1).2

theorem takeWhile_all {q : Char → Bool} : ∀ {s : Str}, ∀ c ∈ s.takeWhile q, q c = true
  | [], _, h => (nomatch h)
  | d :: s, c, h => by
    rw [List.takeWhile_cons] at h
    by_cases hd : q d = true
    · rw [if_pos hd] at h
      rcases List.mem_cons.mp h with rfl | h
      · exact hd
      · exact takeWhile_all c h
    · rw [if_neg hd] at h
      exact (nomatch h)

theorem compileText_of {e : Str} {t : Tree} (h : Toks xpathLexer 1 e (yield t))
    (hd : Derives (grammar xpathTables) t) (hr : root (grammar xpathTables).lhs t = 42)
    (hroom : room t < depth) : compileText e = .ok t := by
  have hl := xlex_iff.mpr h
  have hk := lex_kinds _ _ _ _ hl
  rw [compileText, hl]
  exact (exact_ok xpath_complete xpath_sound hk t).mpr ⟨hd, hr, rfl, hroom⟩

theorem compileText_tree {e : Str} {t : Tree} (h : compileText e = .ok t) :
    Toks xpathLexer 1 e (yield t) ∧ Derives (grammar xpathTables) t ∧
      root (grammar xpathTables).lhs t = 42 ∧ room t < depth := by
  obtain ⟨ts, hts⟩ := C65_total e
  have hk := lex_kinds _ _ _ _ hts
  rw [compileText, hts] at h
  obtain ⟨h1, h2, h3, h4⟩ := (exact_ok xpath_complete xpath_sound hk t).mp h
  rw [h3]
  exact ⟨xlex_iff.mp hts, h1, h2, h4⟩

/-- The tokens of parts come from a text with these parts. -/
theorem cut_of_toks : ∀ {ps : List Part} {s : Str}, (∀ p ∈ ps, p.Ok) →
    (∀ l r t, Part.expr l r t ∈ ps → room t + 2 < depth) → Toks avtLexer 2 s (partsToks ps) → Cut s ps
  | [], s, _, _, h => by
    rcases toks_step h with ⟨rfl, _⟩ | ⟨t, st, s', us', _, _, e⟩
    · exact .nil
    · exact (nomatch e)
  | .lit w :: ps, s, hok, hroom, h => by
    have hok := List.forall_mem_cons.mp hok
    rcases toks_step h with ⟨_, e⟩ | ⟨t, st, s', us', hs, ht, e⟩
    · exact (nomatch e)
    · rw [partsToks, Part.toks, List.singleton_append] at e
      injection e with e1 e2
      subst e1 e2
      have ih := fun s => cut_of_toks (s := s) hok.2 fun l r t hm => hroom l r t (List.mem_cons_of_mem _ hm)
      cases hs with
      | @plain c s hc =>
        have := Cut.lit (w := c :: s.takeWhile fun c => !isBrace c) (by
          refine List.forall_mem_cons.mpr ⟨hc, fun x hx => ?_⟩
          have := takeWhile_all x hx
          simpa using this) (ih _ ht)
        rw [List.cons_append, List.takeWhile_append_dropWhile] at this
        exact this
  | .esc w :: ps, s, hok, hroom, h => by
    have hok := List.forall_mem_cons.mp hok
    rcases toks_step h with ⟨_, e⟩ | ⟨t, st, s', us', hs, ht, e⟩
    · exact (nomatch e)
    · rw [partsToks, Part.toks, List.singleton_append] at e
      injection e with e1 e2
      subst e1 e2
      have ih := fun s => cut_of_toks (s := s) hok.2 fun l r t hm => hroom l r t (List.mem_cons_of_mem _ hm)
      cases hs with
      | double hd => exact .esc hd (ih _ ht)
  | .expr l r t :: ps, s, hok, hroom, h => by
    have hok := List.forall_mem_cons.mp hok
    rcases toks_step h with ⟨_, e⟩ | ⟨t', st, s', us', hs, ht, e⟩
    · exact (nomatch e)
    · rw [partsToks, Part.toks, List.cons_append] at e
      injection e with e1 e2
      subst e1 e2
      have ih := fun s => cut_of_toks (s := s) hok.2 fun l r t hm => hroom l r t (List.mem_cons_of_mem _ hm)
      cases hs with
      | left hn =>
        have hX : ∀ k ∈ yield t, InX k.kind := yield_big hok.1.1 (by rw [hok.1.2]; decide)
        rw [List.append_assoc, List.singleton_append] at ht
        obtain ⟨b⟩ := avt_back ht 1 (.inl rfl) rfl _ _ _ rfl (map_inA hX)
        obtain ⟨e, rest, ts, rfl, htoks, hsame, hin, rfl, hafter⟩ := b
        have := map_inj hX hin hsame
        subst this
        have hr := hroom _ _ _ List.mem_cons_self
        exact .expr (compileText_of htoks hok.1.1 hok.1.2 (by omega)) (ih _ hafter)

/-! ### The way back -/

theorem dropWhile_head {q : Char → Bool} : ∀ {s : Str} {c : Char} {r : Str},
    s.dropWhile q = c :: r → q c = false
  | [], _, _, h => (nomatch h)
  | d :: s, c, r, h => by
    rw [List.dropWhile_cons] at h
    by_cases hd : q d = true
    · rw [if_pos hd] at h
      exact dropWhile_head h
    · rw [if_neg hd] at h
      injection h with h _
      subst h
      simpa using hd

/-- A text that starts with characters other than braces. -/
theorem template_run : ∀ {w s : Str} {ps : List Piece}, (∀ c ∈ w, isBrace c = false) → Template s ps →
    Template (w ++ s) (w.map .char ++ ps)
  | [], _, _, _, h => h
  | c :: w, s, ps, hw, h => by
    have hw := List.forall_mem_cons.mp hw
    refine .char ?_ ?_ (template_run hw.2 h)
    · rintro rfl; exact (nomatch hw.1)
    · rintro rfl; exact (nomatch hw.1)

theorem template_rest : ∀ {w s : Str} {ps : List Piece}, (∀ c ∈ w, isBrace c = false) →
    Template (w ++ s) ps → ∃ ps', ps = w.map .char ++ ps' ∧ Template s ps'
  | [], s, ps, _, h => ⟨ps, rfl, h⟩
  | c :: w, s, ps, hw, h => by
    have hw := List.forall_mem_cons.mp hw
    have hc := hw.1
    rw [List.cons_append] at h
    generalize hx : c :: (w ++ s) = x at h
    cases h with
    | nil => exact (nomatch hx)
    | char h1 h2 h3 =>
      injection hx with e1 e2
      subst e1 e2
      obtain ⟨ps', rfl, h'⟩ := template_rest hw.2 h3
      exact ⟨ps', rfl, h'⟩
    | left _ => injection hx with e1; subst e1; exact (nomatch hc)
    | right _ => injection hx with e1; subst e1; exact (nomatch hc)
    | expr _ _ => injection hx with e1; subst e1; exact (nomatch hc)

/-- The parts and the pieces. -/
inductive AReads : List Part → List Piece → Prop where
  | nil : AReads [] []
  | lit {w ps qs} : AReads ps qs → AReads (.lit w :: ps) (w.map .char ++ qs)
  | esc {c d ps qs} : AReads ps qs → AReads (.esc [c, d] :: ps) (.char c :: qs)
  | expr {l r t e a ps qs} : build t = .ok (.expr a) → AReads ps qs →
      AReads (.expr l r t :: ps) (.expr e a :: qs)

theorem compileExpr_ok {e : Str} {a : Ast} : compileExpr e = .ok a ↔
    ∃ t, compileText e = .ok t ∧ build t = .ok (.expr a) := by
  constructor
  · intro h
    rw [compileExpr] at h
    cases ht : compileText e with
    | ok t =>
      rw [ht] at h
      dsimp only at h
      refine ⟨t, rfl, ?_⟩
      cases hb : build t with
      | error x => rw [hb] at h; cases x <;> exact (nomatch h)
      | ok v =>
        rw [hb] at h
        cases v with
        | expr b => injection h with h; rw [h]
        | _ => exact (nomatch h)
    | _ => rw [ht] at h; exact (nomatch h)
  · rintro ⟨t, h1, h2⟩
    rw [compileExpr, h1]
    dsimp only
    rw [h2]

/-- The number of tokens of every expression. -/
def Spec.Short (n : Nat) (ps : List Piece) : Prop :=
  ∀ e a, .expr e a ∈ ps → ∀ ts, lex xpathLexer e = some ts → ts.length < n

theorem left_first : covers X '{' (List.replicate 15 false) initialRules = true := by
  decide +kernel

theorem best_left (cs : Str) : bestRule X initialRules ('{' :: cs) = none := by
  rw [best_pick cs _ _ left_first]
  rfl

theorem left_kind : ¬ InX (xpathLexer.kind '{'.toNat) := by decide +kernel

theorem no_brace_first {s : Str} {us : List Tok} (h : Toks xpathLexer 1 s us)
    (hne : us ≠ []) (hk : ∀ t ∈ us, InX t.kind) (r : Str) : s ≠ '{' :: r := by
  rintro rfl
  have hb : bestRule xpathLexer.sets (xpathLexer.rules.getD 1 []) ('{' :: r) = none := best_left r
  cases h with
  | char _ _ _ =>
    have := (List.forall_mem_cons.mp hk).1
    dsimp only at this
    exact left_kind this
  | charEnd _ _ => exact hne rfl
  | token hb' _ _ _ => rw [hb] at hb'; exact (nomatch hb')
  | tokenEnd hb' _ => rw [hb] at hb'; exact (nomatch hb')
  | discard hb' _ _ => rw [hb] at hb'; exact (nomatch hb')
  | again hb' _ _ => rw [hb] at hb'; exact (nomatch hb')

theorem no_brace_start {e : Str} {t : Tree} (h : compileText e = .ok t) (s r : Str) :
    e ++ '}' :: s ≠ '{' :: r := by
  obtain ⟨h1, h2, h3, _⟩ := compileText_tree h
  have hX : ∀ k ∈ yield t, InX k.kind := yield_big h2 (by rw [h3]; decide)
  intro e'
  cases e with
  | nil => injection e' with e' _; exact absurd e' (by decide)
  | cons c cs =>
    rw [List.cons_append] at e'
    injection e' with e1 _
    subst e1
    by_cases hne : yield t = []
    · have hroom := room_le xpath_room h2
      rw [h3, hne] at hroom
      have h42 : xpathBounds.over.getD 42 0 = 2 := rfl
      have hpos : 1 ≤ room t := by cases t <;> rw [room] <;> omega
      rw [h42] at hroom
      have h0 : ([] : List Tok).length = 0 := rfl
      omega
    · exact no_brace_first h1 hne hX cs rfl

/-- A template has parts, which the lexer finds. -/
theorem toks_of_template : ∀ (n : Nat) {s : Str} {qs : List Piece}, s.length ≤ n → Template s qs →
    (∀ c ∈ s, c.toNat ≠ 0) → Spec.Short 499 qs →
    ∃ ps : List Part, (∀ p ∈ ps, p.Ok) ∧ (∀ l r t, Part.expr l r t ∈ ps → room t + 2 < depth) ∧
      Toks avtLexer 2 s (partsToks ps) ∧ AReads ps qs
  | 0, [], qs, _, h, _, _ => by
    cases h
    exact ⟨[], nofun, nofun, .nil, .nil⟩
  | 0, _ :: _, _, hn, _, _, _ => (nomatch hn)
  | n + 1, [], qs, _, h, _, _ => by
    cases h
    exact ⟨[], nofun, nofun, .nil, .nil⟩
  | n + 1, c :: s, qs, hn, h, h0, hs => by
    rw [List.length_cons] at hn
    by_cases hc : isBrace c = true
    · generalize hx : c :: s = x at h
      cases h with
      | nil => exact (nomatch hx)
      | char h1 h2 h3 =>
        injection hx with e1 e2
        subst e1 e2
        rcases isBrace_cases hc with rfl | rfl
        · exact absurd rfl h1
        · exact absurd rfl h2
      | @left s' qs' h3 =>
        injection hx with e1 e2
        subst e1 e2
        rw [List.length_cons] at hn
        obtain ⟨ps, g1, g2, g3, g4⟩ := toks_of_template n (by omega) h3
          (fun x hx => h0 x (List.mem_cons_of_mem _ (List.mem_cons_of_mem _ hx)))
          (fun e a hm => hs e a (List.mem_cons_of_mem _ hm))
        refine ⟨.esc ['{', '{'] :: ps, List.forall_mem_cons.mpr ⟨trivial, g1⟩, ?_,
          toks_double (.inl ⟨rfl, rfl⟩) g3, .esc g4⟩
        intro l r t hm
        rcases List.mem_cons.mp hm with e | hm
        · exact (nomatch e)
        · exact g2 l r t hm
      | @right s' qs' h3 =>
        injection hx with e1 e2
        subst e1 e2
        rw [List.length_cons] at hn
        obtain ⟨ps, g1, g2, g3, g4⟩ := toks_of_template n (by omega) h3
          (fun x hx => h0 x (List.mem_cons_of_mem _ (List.mem_cons_of_mem _ hx)))
          (fun e a hm => hs e a (List.mem_cons_of_mem _ hm))
        refine ⟨.esc ['}', '}'] :: ps, List.forall_mem_cons.mpr ⟨trivial, g1⟩, ?_,
          toks_double (.inr ⟨rfl, rfl⟩) g3, .esc g4⟩
        intro l r t hm
        rcases List.mem_cons.mp hm with e | hm
        · exact (nomatch e)
        · exact g2 l r t hm
      | @expr e a s' qs' he h3 =>
        injection hx with e1 e2
        subst e1 e2
        rw [List.length_append, List.length_cons] at hn
        have h0' := List.forall_mem_append.mp (List.forall_mem_cons.mp h0).2
        obtain ⟨ps, g1, g2, g3, g4⟩ := toks_of_template n (by omega) h3
          (List.forall_mem_cons.mp h0'.2).2
          (fun e a hm => hs e a (List.mem_cons_of_mem _ hm))
        obtain ⟨t, ht, hb⟩ := compileExpr_ok.mp he
        obtain ⟨k1, k2, k3, k4⟩ := compileText_tree ht
        have hX : ∀ k ∈ yield t, InX k.kind := yield_big k2 (by rw [k3]; decide)
        have hlen := hs e a List.mem_cons_self _ (xlex_iff.mpr k1)
        have hroom := room_le xpath_room k2
        have h42 : xpathBounds.over.getD 42 0 = 2 := rfl
        have hd : depth = 1000 := rfl
        rw [k3, h42] at hroom
        refine ⟨.expr ['{'] ['}'] t :: ps, List.forall_mem_cons.mpr ⟨⟨k2, k3⟩, g1⟩, ?_, ?_, .expr hb g4⟩
        · intro l r t' hm
          rcases List.mem_cons.mp hm with e | hm
          · injection e with _ _ e
            subst e
            omega
          · exact g2 l r t' hm
        · have := toks_open (no_brace_start ht s') (avt_forward k1 (.inl rfl) hX h0'.1 g3)
          rw [partsToks, Part.toks, List.cons_append, List.append_assoc, List.singleton_append]
          exact this
    · have hc : isBrace c = false := by simpa using hc
      have e : c :: s = (c :: s.takeWhile fun c => !isBrace c) ++ s.dropWhile fun c => !isBrace c := by
        rw [List.cons_append, List.takeWhile_append_dropWhile]
      have hw : ∀ x ∈ (c :: s.takeWhile fun c => !isBrace c), isBrace x = false := by
        refine List.forall_mem_cons.mpr ⟨hc, fun x hx => ?_⟩
        have := takeWhile_all x hx
        simpa using this
      rw [e] at h
      obtain ⟨qs', rfl, h'⟩ := template_rest hw h
      have hl : (s.dropWhile fun c => !isBrace c).length ≤ s.length :=
        (List.dropWhile_sublist _).length_le
      obtain ⟨ps, g1, g2, g3, g4⟩ := toks_of_template n (by omega) h'
        (fun x hx => h0 x (List.mem_cons_of_mem _ ((List.dropWhile_sublist _).mem hx)))
        (fun e a hm => hs e a (List.mem_append_right _ hm))
      refine ⟨.lit (c :: s.takeWhile fun c => !isBrace c) :: ps, List.forall_mem_cons.mpr ⟨trivial, g1⟩, ?_,
        toks_plain hc g3, .lit g4⟩
      intro l r t hm
      rcases List.mem_cons.mp hm with e | hm
      · exact (nomatch e)
      · exact g2 l r t hm

end Verif.Parse
