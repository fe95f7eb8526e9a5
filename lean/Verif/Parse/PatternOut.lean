import Verif.Parse.PatternLex
/-
The lexer of patterns: what it reads before the first `[`.
-/
namespace Verif.Parse
open Spec
open Verif.Names.Spec (NCNameStart NCNameChar)

theorem best_none {S : Sets} : ∀ {rs : List Rule} {s : Str}, bestRule S rs s = none →
    ∀ r ∈ rs, scan S r.prog s = none
  | [], _, _ => nofun
  | r :: rs, s, h => by
    rw [bestRule] at h
    cases h1 : scan S r.prog s with
    | none =>
      rw [h1] at h
      exact List.forall_mem_cons.mpr ⟨h1, best_none h⟩
    | some a =>
      rw [h1] at h
      cases h2 : bestRule S rs s with
      | none => rw [h2] at h; exact (nomatch h)
      | some b =>
        rw [h2] at h
        dsimp only at h
        split at h <;> exact (nomatch h)

theorem pat_rules2 : patternLexer.rules.getD 2 [] = patRules := rfl

/-! ### Single steps -/

/-- A character that no pattern begins with. -/
theorem out_char {c : Char} {cs : Str} {ts : List Tok}
    (hc : covers X c (List.replicate 9 false) patRules = true) (hn : c.toNat ≠ 0)
    (ht : Toks patternLexer 2 cs ts) :
    Toks patternLexer 2 (c :: cs) (⟨patternLexer.kind c.toNat, [c]⟩ :: ts) := by
  refine .char ?_ hn ht
  have h := best_pick cs _ _ hc
  exact h

theorem out_space {c : Char} (h : isSp c = true) {s : Str} {ts : List Tok}
    (ht : Toks patternLexer 2 (s.dropWhile isSp) ts) : Toks patternLexer 2 (c :: s) ts := by
  have e' : scan X pSpace (c :: s) = some (s.dropWhile isSp) := by rw [scan_space, if_pos h]
  have : ∀ n ∈ [9, 10, 13, 32], covers X (Char.ofNat n)
    [false, false, false, false, false, false, false, false, true] patRules = true := by decide +kernel
  have := this _ ((isSp_nat c).mp h)
  rw [Char.ofNat_toNat] at this
  have hb := best_pick s _ _ this
  have e : pick [false, false, false, false, false, false, false, false, true] patRules =
    [⟨pSpace, none, .discard⟩] := rfl
  rw [e, best_one, e'] at hb
  exact Toks.discard (L := patternLexer) (st := 2) hb rfl ht

theorem out_token {c : Char} {cs rest : Str} {r : Rule} {n : Nat} {ts : List Tok}
    (hb : bestRule X patRules (c :: cs ++ rest) = some (r, rest)) (hg : r.give = .token n) (hn : n ≠ 0)
    (hs : r.next = none) (ht : Toks patternLexer 2 rest ts) :
    Toks patternLexer 2 (c :: cs ++ rest) (⟨patternLexer.kind n, c :: cs⟩ :: ts) := by
  have := Toks.token (L := patternLexer) (st := 2) (c := c) (cs := cs ++ rest) (n := n) (ts := ts) hb
    (by rw [number, hg]) hn (by rw [hs]; exact ht)
  rw [← List.cons_append, take_append] at this
  exact this

/-- The patterns that begin with a letter. -/
def wordMask : List Bool := [false, true, true, true, true, true, true, false, false]

def wordRules : List Rule := [
  ⟨pNodeType, none, .token 266⟩,
  ⟨pChildAxis, none, .token 257⟩,
  ⟨pAttributeAxis, none, .token 258⟩,
  ⟨pIdFunction, none, .token 259⟩,
  ⟨pKeyFunction, none, .token 260⟩,
  ⟨pNameTest, none, .token 264⟩]

theorem start_out {c : Char} (h : isStart c = true) : covers X c wordMask patRules = true := by
  have a3 := start_not_in h (isSp_nat c) (by decide +kernel)
  have b2 := start_ne h (n := 47) (by decide +kernel)
  have b3 := start_ne h (n := 91) (by decide +kernel)
  simp only [patRules, wordMask, covers, Bool.true_or, Bool.false_or, Bool.and_true, Bool.true_and]
  have c3 : first X pSlashes c = false := b2
  have c4 : first X pBracket c = false := b3
  have c11 : first X pSpace c = false := a3
  rw [c3, c4, c11]
  rfl

theorem best_word {c : Char} (h : isStart c = true) (cs : Str) :
    bestRule X patRules (c :: cs) = bestRule X wordRules (c :: cs) :=
  best_pick cs _ _ (start_out h)

/-- The four words. -/
def keywords : List (Str × Bool) :=
  [("child".toList, true), ("attribute".toList, true), ("id".toList, false), ("key".toList, false)]

def keyProg (v : Str) (b : Bool) : Prog := word v (if b then beforeColons else beforeParen)

theorem keywords_names {v : Str} {b : Bool} (h : (v, b) ∈ keywords) : NCName v := by
  simp only [keywords, List.mem_cons, List.not_mem_nil, or_false, Prod.mk.injEq] at h
  rcases h with ⟨rfl, _⟩ | ⟨rfl, _⟩ | ⟨rfl, _⟩ | ⟨rfl, _⟩ <;> exact ncNameB (by decide +kernel)

theorem keyword_scan {v : Str} {b : Bool} {s r : Str} (h : scan X (keyProg v b) s = some r) :
    s = v ++ r ∧ (if b then nextColons r else nextParen r) = true := by
  rw [keyProg, scan_word] at h
  by_cases hp : v.isPrefixOf s = true
  · rw [if_pos hp] at h
    have e := (List.prefix_iff_eq_append.mp (List.isPrefixOf_iff_prefix.mp hp)).symm
    generalize s.drop v.length = y at h e
    cases b with
    | true =>
      rw [if_pos rfl, scan_beforeColons] at h
      split at h
      · rename_i hc
        injection h with h
        subst h
        exact ⟨e, hc⟩
      · exact (nomatch h)
    | false =>
      rw [if_neg (by decide), scan_beforeParen] at h
      split at h
      · rename_i hc
        injection h with h
        subst h
        exact ⟨e, hc⟩
      · exact (nomatch h)
  · rw [if_neg hp] at h
    exact (nomatch h)

/-- The words match whole names only. -/
theorem keyword_whole {v : Str} {b : Bool} (hv : NCName v) {w rest : Str} (hw : NCName w) (h : EndsName rest)
    {r : Str} (hs : scan X (keyProg v b) (w ++ rest) = some r) :
    r = rest ∧ w = v ∧ (if b then nextColons r else nextParen r) = true := by
  obtain ⟨e, hn⟩ := keyword_scan hs
  have e1 := ncName_after hw h
  have e2 := ncName_after hv (rest := r) (by
    cases b with
    | true => exact colons_ends hn
    | false => exact paren_ends hn)
  rw [← e, e1] at e2
  injection e2 with e2
  subst e2
  exact ⟨rfl, List.append_cancel_right e, hn⟩

theorem wordRules_mem {r : Rule} (h : r ∈ wordRules) : r = ⟨pNodeType, none, .token 266⟩ ∨
    (∃ v b n, (v, b) ∈ keywords ∧ r = ⟨keyProg v b, none, .token n⟩ ∧
      (v = "child".toList ∧ n = 257 ∨ v = "attribute".toList ∧ n = 258 ∨
        v = "id".toList ∧ n = 259 ∨ v = "key".toList ∧ n = 260)) ∨
    r = ⟨pNameTest, none, .token 264⟩ := by
  simp only [wordRules, List.mem_cons, List.not_mem_nil, or_false] at h
  rcases h with h | h | h | h | h | h
  · exact .inl h
  · exact .inr (.inl ⟨_, true, 257, .head _, h, .inl ⟨rfl, rfl⟩⟩)
  · exact .inr (.inl ⟨_, true, 258, .tail _ (.head _), h, .inr (.inl ⟨rfl, rfl⟩)⟩)
  · exact .inr (.inl ⟨_, false, 259, .tail _ (.tail _ (.head _)), h, .inr (.inr (.inl ⟨rfl, rfl⟩))⟩)
  · exact .inr (.inl ⟨_, false, 260, .tail _ (.tail _ (.tail _ (.head _))), h,
      .inr (.inr (.inr ⟨rfl, rfl⟩))⟩)
  · exact .inr (.inr h)

/-- If the words do not match, the name test is what is tried. -/
theorem best_nameTest {c : Char} {cs : Str} (hc : isStart c = true)
    (h1 : scan X pNodeType (c :: cs) = none)
    (h2 : ∀ v b, (v, b) ∈ keywords → scan X (keyProg v b) (c :: cs) = none) :
    bestRule X patRules (c :: cs) = (scan X pNameTest (c :: cs)).map fun y => (⟨pNameTest, none, .token 264⟩, y) := by
  rw [best_word hc, wordRules, best_skip h1, best_skip (h2 _ true (.head _)),
    best_skip (h2 _ true (.tail _ (.head _))), best_skip (h2 _ false (.tail _ (.tail _ (.head _)))),
    best_skip (h2 _ false (.tail _ (.tail _ (.tail _ (.head _))))), best_one]

theorem kind_name : patternLexer.kind 264 = 10 := by decide +kernel
theorem kind_node : patternLexer.kind 266 = 12 := by decide +kernel
theorem kind_slashes : patternLexer.kind 275 = 21 := by decide +kernel

theorem out_name {w rest : Str} {ts : List Tok} (hw : NCName w)
    (h : Ends (fun c => NCNameChar c.toNat ∨ c = ':') rest)
    (h1 : w ∉ nodeTypes ∨ nextParen rest = false)
    (h2 : ∀ v b, (v, b) ∈ keywords → w = v → (if b then nextColons rest else nextParen rest) = false)
    (ht : Toks patternLexer 2 rest ts) : Toks patternLexer 2 (w ++ rest) (⟨10, w⟩ :: ts) := by
  have he : EndsName rest := fun c cs e hc => h c cs e (.inl hc)
  have g1 := nodeType_none hw he h1
  have g3 := nameTest_plain hw h
  have g2 : ∀ v b, (v, b) ∈ keywords → scan X (keyProg v b) (w ++ rest) = none := by
    intro v b hv
    cases hs : scan X (keyProg v b) (w ++ rest) with
    | none => rfl
    | some r =>
      obtain ⟨rfl, e, hn⟩ := keyword_whole (keywords_names hv) hw he hs
      rw [h2 v b hv e] at hn
      exact (nomatch hn)
  obtain ⟨c, cs, rfl, hc, _⟩ := hw
  have hb := best_nameTest ((isStart_iff c).mpr hc) g1 g2
  rw [show c :: cs.append rest = c :: cs ++ rest from rfl, g3] at hb
  have := out_token hb rfl (by decide) rfl ht
  rw [kind_name] at this
  exact this

theorem colon_next {s : Str} : nextParen (':' :: s) = false := by
  rw [nextParen, List.dropWhile_cons, if_neg (by decide +kernel)]
  rfl

theorem colon_start {c : Char} {s : Str} (h : c ≠ ':') : nextColons (':' :: c :: s) = false := by
  rw [nextColons, List.dropWhile_cons, if_neg (by decide +kernel)]
  show ((':').toNat == 58 && c.toNat == 58) = false
  cases hc : c.toNat == 58 with
  | false => rfl
  | true => exact absurd (char_eq ':' (eq_of_beq hc)) h

theorem out_prefixed {p q rest : Str} {ts : List Tok} (hp : NCName p)
    (hq : ∃ d ds, q = d :: ds ∧ d ≠ ':')
    (hs : scan X pNameTest (p ++ ':' :: q ++ rest) = some rest)
    (ht : Toks patternLexer 2 rest ts) :
    Toks patternLexer 2 (p ++ ':' :: q ++ rest) (⟨10, p ++ ':' :: q⟩ :: ts) := by
  obtain ⟨d, ds, rfl, hd⟩ := hq
  have e : p ++ ':' :: (d :: ds) ++ rest = p ++ (':' :: d :: (ds ++ rest)) := by simp
  have he : EndsName (':' :: d :: (ds ++ rest)) := colon_ends _
  have g1 := nodeType_none hp he (.inr colon_next)
  have g2 : ∀ v b, (v, b) ∈ keywords → scan X (keyProg v b) (p ++ (':' :: d :: (ds ++ rest))) = none := by
    intro v b hv
    cases hs : scan X (keyProg v b) (p ++ (':' :: d :: (ds ++ rest))) with
    | none => rfl
    | some r =>
      obtain ⟨rfl, _, hn⟩ := keyword_whole (keywords_names hv) hp he hs
      cases b with
      | true => rw [if_pos rfl, colon_start hd] at hn; exact (nomatch hn)
      | false => rw [if_neg (by decide), colon_next] at hn; exact (nomatch hn)
  obtain ⟨c, cs, rfl, hc, _⟩ := hp
  rw [← e] at g1 g2
  have hb := best_nameTest ((isStart_iff c).mpr hc) g1 g2
  rw [show c :: (cs.append (':' :: d :: ds)).append rest = c :: cs ++ ':' :: (d :: ds) ++ rest from rfl, hs] at hb
  have := out_token (c := c) (cs := cs ++ ':' :: d :: ds) hb rfl (by decide) rfl ht
  rw [kind_name] at this
  exact this

theorem out_star {rest : Str} {ts : List Tok} (ht : Toks patternLexer 2 rest ts) :
    Toks patternLexer 2 (['*'] ++ rest) (⟨10, ['*']⟩ :: ts) := by
  have hb := best_pick rest _ _ (show covers X '*' [false, false, false, false, false, false, true, false, false]
    patRules = true by decide +kernel)
  have e : pick [false, false, false, false, false, false, true, false, false] patRules =
    [⟨pNameTest, none, .token 264⟩] := rfl
  have e' : scan X pNameTest ('*' :: rest) = some rest := by
    rw [scan_nameTest]
    have : afterName ('*' :: rest) = none := by
      rw [afterName, if_neg (by decide +kernel)]
    rw [afterQName, afterPrefix, this]
    rfl
  rw [e, best_one, e'] at hb
  have := out_token (c := '*') (cs := []) hb rfl (by decide) rfl ht
  rw [kind_name] at this
  exact this

theorem out_nodeType {w rest : Str} {ts : List Tok} (hw : w ∈ nodeTypes) (hp : nextParen rest = true)
    (ht : Toks patternLexer 2 rest ts) : Toks patternLexer 2 (w ++ rest) (⟨12, w⟩ :: ts) := by
  have hN := nodeTypes_names hw
  have h1 := nodeType_complete hw hp
  have h3 := nameTest_plain hN (paren_ends' hp)
  have h2 : ∀ v b, (v, b) ∈ keywords → scan X (keyProg v b) (w ++ rest) = none := by
    intro v b hv
    cases hs : scan X (keyProg v b) (w ++ rest) with
    | none => rfl
    | some r =>
      obtain ⟨rfl, e, hn⟩ := keyword_whole (keywords_names hv) hN (paren_ends hp) hs
      exfalso
      subst e
      simp only [nodeTypes, List.mem_cons, List.not_mem_nil, or_false] at hw
      simp only [keywords, List.mem_cons, List.not_mem_nil, or_false, Prod.mk.injEq] at hv
      rcases hv with ⟨rfl, _⟩ | ⟨rfl, _⟩ | ⟨rfl, _⟩ | ⟨rfl, _⟩ <;> exact absurd hw (by decide)
  obtain ⟨c, cs, rfl, hc, _⟩ := hN
  have hb := best_word ((isStart_iff c).mpr hc) (cs ++ rest)
  rw [← List.cons_append] at hb
  rw [wordRules, best_take (r := ⟨pNodeType, none, .token 266⟩) h1 (by
    intro x y hxy
    rw [best_skip (h2 _ true (.head _)), best_skip (h2 _ true (.tail _ (.head _))),
      best_skip (h2 _ false (.tail _ (.tail _ (.head _)))),
      best_skip (h2 _ false (.tail _ (.tail _ (.tail _ (.head _))))), best_one] at hxy
    rw [h3] at hxy
    injection hxy with hxy
    injection hxy with _ hxy
    subst hxy
    exact Nat.le_refl _)] at hb
  have := out_token hb rfl (by decide) rfl ht
  rw [kind_node] at this
  exact this

theorem out_slashes {rest : Str} {ts : List Tok} (ht : Toks patternLexer 2 rest ts) :
    Toks patternLexer 2 (['/', '/'] ++ rest) (⟨21, ['/', '/']⟩ :: ts) := by
  have hb := best_pick ('/' :: rest) _ _ (show covers X '/' [true, false, false, false, false, false, false, false,
    false] patRules = true by decide +kernel)
  have e : pick [true, false, false, false, false, false, false, false, false] patRules =
    [⟨pSlashes, none, .token 275⟩] := rfl
  have e' : scan X pSlashes ('/' :: '/' :: rest) = some rest := rfl
  rw [e, best_one, e'] at hb
  have := out_token (c := '/') (cs := ['/']) hb rfl (by decide) rfl ht
  rw [kind_slashes] at this
  exact this

theorem out_slash {rest : Str} (h : Ends (· = '/') rest) {ts : List Tok} (ht : Toks patternLexer 2 rest ts) :
    Toks patternLexer 2 (['/'] ++ rest) (⟨23, ['/']⟩ :: ts) := by
  have hb := best_pick rest _ _ (show covers X '/' [true, false, false, false, false, false, false, false,
    false] patRules = true by decide +kernel)
  have e : pick [true, false, false, false, false, false, false, false, false] patRules =
    [⟨pSlashes, none, .token 275⟩] := rfl
  have e' : scan X pSlashes ('/' :: rest) = none := by
    cases rest with
    | nil => rfl
    | cons c cs =>
      show scan X (.lit 47 (.lit 47 .success)) ('/' :: c :: cs) = none
      rw [scan_lit, if_pos (by decide), scan_lit, if_neg (show ¬ c.toNat = 47 from fun e => h c cs rfl (char_eq '/' e))]
  rw [e, best_one, e'] at hb
  have := Toks.char (L := patternLexer) (st := 2) (c := '/') hb (by decide) ht
  have e : patternLexer.kind ('/').toNat = 23 := by decide +kernel
  rw [e] at this
  exact this

theorem out_bracket {rest : Str} {ts : List Tok} (ht : Toks patternLexer 1 rest ts) :
    Toks patternLexer 2 (['['] ++ rest) (⟨28, ['[']⟩ :: ts) := by
  have hb := best_pick rest _ _ (show covers X '[' [false, false, false, false, false, false, false, true,
    false] patRules = true by decide +kernel)
  have e : pick [false, false, false, false, false, false, false, true, false] patRules =
    [⟨pBracket, some 1, .ascii⟩] := rfl
  have e' : scan X pBracket ('[' :: rest) = some rest := rfl
  rw [e, best_one, e'] at hb
  have := Toks.token (L := patternLexer) (st := 2) (c := '[') (cs := rest) (n := 91) (ts := ts) hb rfl (by decide) ht
  have e : patternLexer.kind 91 = 28 := by decide +kernel
  rw [e, show '[' :: rest = ['['] ++ rest from rfl, take_append] at this
  exact this

/-! ### Plain tokens -/

/-- Whether the tokens of an expression are, up to the first `[`, of these kinds
only: `/`, `//`, `|`, `@`, `(`, `)`, names and node types. -/
def plainToks : List Tok → Bool
  | [] => true
  | t :: ts => t.kind == 21 || ([17, 18, 26, 24, 6, 8, 19, 20].contains t.kind && plainToks ts)

theorem star_scan {p : Str} (hp : NCName p) (rest : Str) :
    scan X pNameTest (p ++ ':' :: ['*'] ++ rest) = some rest := by
  have e : p ++ ':' :: ['*'] ++ rest = p ++ (':' :: '*' :: rest) := by simp
  rw [e, nameTest_of hp (colon_ends _)]
  have h2 : afterQName (p ++ ':' :: '*' :: rest) = none := by
    rw [afterQName, prefix_after hp]
    show afterName ('*' :: rest) = none
    rw [afterName, if_neg (by decide +kernel)]
  rw [h2]
  rfl

theorem ns_scan {p w rest : Str} (hp : NCName p) (hw : NCName w) (h : EndsName rest) :
    scan X pNameTest (p ++ ':' :: w ++ rest) = some rest := by
  have e : p ++ ':' :: w ++ rest = p ++ (':' :: (w ++ rest)) := by simp
  have h2 := qNameNs_after hp hw h
  rw [e] at h2 ⊢
  rw [nameTest_of hp (colon_ends _), h2]
  obtain ⟨c, cs, rfl, hc, _⟩ := hw
  have : scan X (.lit 58 (.lit 42 .success)) (':' :: (c :: cs ++ rest)) = none := by
    rw [scan_lit, if_pos (by decide), List.cons_append, scan_lit, if_neg]
    intro h3
    have := (isStart_iff c).mpr hc
    rw [not_start h3 (by decide +kernel)] at this
    exact (nomatch this)
  rw [this]
  rfl

theorem ncName_no_colon {w : Str} (h : NCName w) : ∃ d ds, w = d :: ds ∧ d ≠ ':' := by
  obtain ⟨c, cs, rfl, hc, _⟩ := h
  refine ⟨c, cs, rfl, fun e => ?_⟩
  subst e
  exact absurd ((isStart_iff ':').mpr hc) (by decide +kernel)

theorem no_paren {s : Str} (h : ¬ NextIs ['('] s) : nextParen s = false := by
  cases hn : nextParen s with
  | false => rfl
  | true => exact absurd (nextParen_iff.mp hn) h

theorem not_colons {s : Str} (h : ¬ NextIs [':', ':'] s) : nextColons s = false := by
  cases hn : nextColons s with
  | false => rfl
  | true => exact absurd (nextColons_iff.mp hn) h

theorem plain_char {c : Char} {k : Nat} {rest : Str} {ts : List Tok}
    (hc : covers X c (List.replicate 9 false) patRules = true) (hn : c.toNat ≠ 0)
    (hk : patternLexer.kind c.toNat = k) (ht : Toks patternLexer 2 rest ts) :
    Toks patternLexer 2 ([c] ++ rest) (⟨k, [c]⟩ :: ts) := by
  have := out_char hc hn ht
  rw [hk] at this
  exact this

/-- A plain token is read as such. -/
theorem out_plain {op : Bool} {k : Term} {w rest : Str} (h : Token op k w rest)
    (hk : [17, 18, 26, 24, 6, 8, 19, 20].contains k.num = true) {ts : List Tok}
    (ht : Toks patternLexer 2 rest ts) : Toks patternLexer 2 (w ++ rest) (⟨patSym k.num, w⟩ :: ts) := by
  cases h with
  | single h =>
    simp only [singles, List.mem_cons, List.not_mem_nil, or_false, Prod.mk.injEq] at h
    rcases h with ⟨rfl, rfl⟩ | ⟨rfl, rfl⟩ | ⟨rfl, rfl⟩ | ⟨rfl, rfl⟩ | ⟨rfl, rfl⟩ | ⟨rfl, rfl⟩ |
      ⟨rfl, rfl⟩ | ⟨rfl, rfl⟩ | ⟨rfl, rfl⟩ | ⟨rfl, rfl⟩ <;>
      first
      | exact absurd hk (by decide)
      | exact plain_char (by decide +kernel) (by decide) (by decide +kernel) ht
  | double h =>
    simp only [doubles, List.mem_cons, List.not_mem_nil, or_false, Prod.mk.injEq] at h
    rcases h with ⟨rfl, rfl, rfl⟩ | ⟨rfl, rfl, rfl⟩ | ⟨rfl, rfl, rfl⟩ | ⟨rfl, rfl, rfl⟩ | ⟨rfl, rfl, rfl⟩ |
      ⟨rfl, rfl, rfl⟩ <;>
      first
      | exact absurd hk (by decide)
      | exact out_slashes ht
  | slash h => exact out_slash h ht
  | less h => exact absurd hk (by decide)
  | greater h => exact absurd hk (by decide)
  | dot h => exact absurd hk (by decide)
  | literal h1 h2 => exact absurd hk (by decide)
  | integer h1 h2 h3 => exact absurd hk (by decide)
  | decimal h1 h2 h3 h4 => exact absurd hk (by decide)
  | «variable» h1 h2 => exact absurd hk (by decide)
  | variableNs h1 h2 h3 => exact absurd hk (by decide)
  | times => exact absurd hk (by decide)
  | operator h1 h2 =>
    simp only [operatorNames, List.mem_cons, List.not_mem_nil, or_false, Prod.mk.injEq] at h1
    rcases h1 with ⟨_, rfl⟩ | ⟨_, rfl⟩ | ⟨_, rfl⟩ | ⟨_, rfl⟩ <;> exact absurd hk (by decide)
  | nodeType h1 h2 h3 => exact out_nodeType h1 (nextParen_iff.mpr h3) ht
  | axisName h1 h2 h3 => exact absurd hk (by decide)
  | function h1 h2 h3 h4 => exact absurd hk (by decide)
  | functionNs h1 h2 h3 h4 => exact absurd hk (by decide)
  | star => exact out_star ht
  | @prefixStar p _ h => exact out_prefixed h ⟨'*', [], rfl, by decide⟩ (star_scan h rest) ht
  | name h1 h2 h3 h4 =>
    refine out_name h1 h2 (.inr (no_paren h3)) ?_ ht
    intro v b _ _
    cases b with
    | true => exact not_colons h4
    | false => exact no_paren h3
  | nameNs h1 h2 h3 h4 => exact out_prefixed h1 (ncName_no_colon h2) (ns_scan h1 h2 h3) ht

/-- Plain tokens are read as such. -/
theorem outside : ∀ (n : Nat) (s : Str), s.length = n → ∀ (op : Bool) (ts : List Tok),
    Lexes op s ts → plainToks ts = true → Toks patternLexer 2 s (inPattern ts) := by
  intro n
  induction n using Nat.strongRecOn with
  | ind n ih =>
    intro s hn op ts h hpl
    cases h with
    | nil => exact .nil
    | @space _ c s' _ hc hl =>
      have hlen : (s'.dropWhile isSp).length ≤ s'.length := (List.dropWhile_suffix _).length_le
      exact out_space (spec_space.mp hc) (ih _ (by rw [← hn]; simp only [List.length_cons]; omega) _ rfl op
        ts (lexes_drop hl) hpl)
    | @token _ k w rest ts ht hl =>
      obtain ⟨c, cs, hw, hc⟩ := token_first ht
      have hlen : (w ++ rest).length = rest.length + w.length := by simp; omega
      have hwl : 0 < w.length := by rw [hw]; simp
      rw [plainToks, Bool.or_eq_true, Bool.and_eq_true] at hpl
      rcases hpl with hpl | ⟨h1, h2⟩
      · have hk : k = .lbracket := by
          have : k.num = 21 := eq_of_beq hpl
          revert this
          clear hpl ht hl
          cases k <;> first | (intro _; rfl) | (intro h; exact absurd h (by decide))
        subst hk
        have : w = ['['] := by
          cases ht with
          | single h =>
            simp only [singles, List.mem_cons, List.not_mem_nil, or_false, Prod.mk.injEq] at h
            rcases h with ⟨rfl, h⟩ | ⟨rfl, h⟩ | ⟨rfl, h⟩ | ⟨rfl, h⟩ | ⟨rfl, h⟩ | ⟨rfl, h⟩ |
              ⟨rfl, h⟩ | ⟨rfl, h⟩ | ⟨rfl, h⟩ | ⟨rfl, h⟩ <;> first | rfl | exact (nomatch h)
          | double h =>
            simp only [doubles, List.mem_cons, List.not_mem_nil, or_false, Prod.mk.injEq] at h
            rcases h with ⟨_, _, h⟩ | ⟨_, _, h⟩ | ⟨_, _, h⟩ | ⟨_, _, h⟩ | ⟨_, _, h⟩ |
              ⟨_, _, h⟩ <;> exact (nomatch h)
          | operator h1 h2 =>
            simp only [operatorNames, List.mem_cons, List.not_mem_nil, or_false, Prod.mk.injEq] at h1
            rcases h1 with ⟨_, h⟩ | ⟨_, h⟩ | ⟨_, h⟩ | ⟨_, h⟩ <;> exact (nomatch h)
        subst this
        exact out_bracket (inside_bracket hl)
      · exact out_plain ht h1 (ih _ (by omega) rest rfl _ ts hl h2)

end Verif.Parse
