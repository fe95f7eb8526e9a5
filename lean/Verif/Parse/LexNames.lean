import Verif.Parse.LexTokens
/-
The lexer reads the names of the specification.
-/
namespace Verif.Parse
open Spec
open Verif.Names.Spec (NCNameStart NCNameChar)

theorem endsName {rest : Str} (h : EndsName rest) : rest.dropWhile isName = rest := by
  cases rest with
  | nil => rfl
  | cons c cs =>
    rw [List.dropWhile_cons, if_neg]
    exact fun hc => h c cs rfl ((isName_iff c).mp hc)

theorem drop_names {w rest : Str} (hw : ∀ c ∈ w, NCNameChar c.toNat) (h : EndsName rest) :
    (w ++ rest).dropWhile isName = rest := by
  induction w with
  | nil => exact endsName h
  | cons c cs ih =>
    rw [List.cons_append, List.dropWhile_cons, if_pos ((isName_iff c).mpr (hw c List.mem_cons_self))]
    exact ih fun x hx => hw x (List.mem_cons_of_mem _ hx)

theorem ncName_after {w rest : Str} (hw : NCName w) (h : EndsName rest) :
    afterName (w ++ rest) = some rest := by
  obtain ⟨c, cs, rfl, h1, h2⟩ := hw
  rw [List.cons_append, afterName, if_pos ((isStart_iff c).mpr h1), drop_names h2 h]

theorem colon_ends (s : Str) : EndsName (':' :: s) := by
  intro c cs h hc
  injection h with h _
  subst h
  have := (isName_iff ':').mpr hc
  exact absurd this (by decide +kernel)

theorem not_colon {c : Char} (h : c ≠ ':') : c.toNat ≠ 58 := fun e => h (char_eq ':' e)

theorem qName_after {w rest : Str} (hw : NCName w)
    (h : Ends (fun c => NCNameChar c.toNat ∨ c = ':') rest) :
    afterQName (w ++ rest) = some rest := by
  have h' := ncName_after hw (rest := rest) (fun c cs e hc => h c cs e (.inl hc))
  have e : afterPrefix (w ++ rest) = none := by
    rw [afterPrefix, h']
    show scan X _ rest = none
    cases rest with
    | nil => rfl
    | cons c cs => rw [scan_lit, if_neg (not_colon fun e => h c cs rfl (.inr e))]
  rw [afterQName, e, h']

theorem prefix_after {p : Str} (hp : NCName p) (s : Str) :
    afterPrefix (p ++ ':' :: s) = some s := by
  rw [afterPrefix, ncName_after hp (colon_ends s)]
  rfl

theorem qNameNs_after {p w rest : Str} (hp : NCName p) (hw : NCName w) (h : EndsName rest) :
    afterQName (p ++ ':' :: w ++ rest) = some rest := by
  rw [show p ++ ':' :: w ++ rest = p ++ ':' :: (w ++ rest) by simp, afterQName, prefix_after hp]
  exact ncName_after hw h

theorem spec_space {c : Char} : Space c ↔ isSp c = true := by
  rw [isSp_nat, Space]
  simp only [List.mem_cons, List.not_mem_nil, or_false]
  constructor
  · rintro (rfl | rfl | rfl | rfl) <;> decide
  · rintro (h | h | h | h)
    · exact .inr (.inl (char_eq _ h))
    · exact .inr (.inr (.inl (char_eq _ h)))
    · exact .inr (.inr (.inr (char_eq _ h)))
    · exact .inl (char_eq _ h)

theorem drop_spaces {sp r : Str} (h : ∀ c ∈ sp, Space c) :
    (sp ++ r).dropWhile isSp = r.dropWhile isSp := by
  induction sp with
  | nil => rfl
  | cons c cs ih =>
    rw [List.cons_append, List.dropWhile_cons, if_pos (spec_space.mp (h c List.mem_cons_self))]
    exact ih fun x hx => h x (List.mem_cons_of_mem _ hx)

theorem takeWhile_spaces (s : Str) : ∀ c ∈ s.takeWhile isSp, Space c := by
  intro c hc
  rw [spec_space]
  exact List.all_eq_true.mp List.all_takeWhile c hc

theorem nextParen_iff {s : Str} : nextParen s = true ↔ NextIs ['('] s := by
  constructor
  · intro h
    rw [nextParen] at h
    cases hd : s.dropWhile isSp with
    | nil => rw [hd] at h; exact (nomatch h)
    | cons c cs =>
      rw [hd] at h
      have hc : c = '(' := char_eq '(' (eq_of_beq h)
      refine ⟨s.takeWhile isSp, cs, ?_, takeWhile_spaces s⟩
      rw [List.append_assoc]
      subst hc
      rw [show ['('] ++ cs = s.dropWhile isSp from hd.symm, List.takeWhile_append_dropWhile]
  · rintro ⟨sp, r, rfl, hs⟩
    have e : (sp ++ ['('] ++ r).dropWhile isSp = '(' :: r := by
      rw [List.append_assoc, drop_spaces hs]
      show ('(' :: r).dropWhile isSp = _
      rw [List.dropWhile_cons, if_neg (by decide +kernel)]
    rw [nextParen, e]
    rfl

theorem nextColons_iff {s : Str} : nextColons s = true ↔ NextIs [':', ':'] s := by
  constructor
  · intro h
    rw [nextColons] at h
    match hd : s.dropWhile isSp with
    | [] => rw [hd] at h; exact (nomatch h)
    | [_] => rw [hd] at h; exact (nomatch h)
    | a :: b :: cs =>
      rw [hd] at h
      dsimp only at h
      rw [Bool.and_eq_true] at h
      have ha : a = ':' := char_eq ':' (eq_of_beq h.1)
      have hb : b = ':' := char_eq ':' (eq_of_beq h.2)
      subst ha hb
      refine ⟨s.takeWhile isSp, cs, ?_, takeWhile_spaces s⟩
      rw [List.append_assoc]
      rw [show [':', ':'] ++ cs = s.dropWhile isSp from hd.symm, List.takeWhile_append_dropWhile]
  · rintro ⟨sp, r, rfl, hs⟩
    have e : (sp ++ [':', ':'] ++ r).dropWhile isSp = ':' :: ':' :: r := by
      rw [List.append_assoc, drop_spaces hs]
      show (':' :: ':' :: r).dropWhile isSp = _
      rw [List.dropWhile_cons, if_neg (by decide +kernel)]
    rw [nextColons, e]
    rfl

/-! Node types -/

theorem scan_word : ∀ (w : List Char) (k : Prog) (s : Str),
    scan X (word w k) s = (if w.isPrefixOf s then scan X k (s.drop w.length) else none)
  | [], k, s => by simp [word]
  | c :: cs, k, [] => rfl
  | c :: cs, k, d :: ds => by
    rw [word, scan_lit, scan_word cs k ds]
    by_cases h : d.toNat = c.toNat
    · rw [if_pos h, List.isPrefixOf, char_eq c h]
      simp
    · rw [if_neg h, if_neg]
      intro h'
      simp only [List.isPrefixOf, Bool.and_eq_true] at h'
      exact h (by rw [eq_of_beq h'.1])

theorem nodeType_sound {s r : Str} (h : scan X pNodeType s = some r) :
    nextParen r = true ∧ ∃ w ∈ nodeTypes, s = w ++ r := by
  have e : scan X pNodeType s = match longest X (.cons (word "node".toList .success)
    (.cons (word "text".toList .success) (.cons (word "comment".toList .success)
    (.cons (word "processing-instruction".toList .success) .nil)))) s with
    | none => none
    | some s' => scan X beforeParen s' := by
    rw [pNodeType, scan]
    generalize longest _ _ _ = l
    cases l <;> rfl
  rw [e] at h
  simp only [longest, longer_none] at h
  generalize hl : longer _ _ = l at h
  cases l with
  | none => exact (nomatch h)
  | some s' =>
    dsimp only at h
    rw [scan_beforeParen] at h
    by_cases hn : nextParen s' = true
    · rw [if_pos hn] at h
      injection h with h
      subst h
      refine ⟨hn, ?_⟩
      have g : ∀ (w : Str), scan X (word w .success) s = some s' → s = w ++ s' := by
        intro w hw
        rw [scan_word] at hw
        by_cases hp : w.isPrefixOf s = true
        · rw [if_pos hp] at hw
          injection hw with hw
          rw [← hw]
          exact (List.prefix_iff_eq_append.mp (List.isPrefixOf_iff_prefix.mp hp)).symm
        · rw [if_neg hp] at hw
          exact (nomatch hw)
      rcases longer_some hl with h | h
      · exact ⟨_, by simp [nodeTypes], g _ h⟩
      rcases longer_some h with h | h
      · exact ⟨_, by simp [nodeTypes], g _ h⟩
      rcases longer_some h with h | h
      · exact ⟨_, by simp [nodeTypes], g _ h⟩
      · exact ⟨_, by simp [nodeTypes], g _ h⟩
    · rw [if_neg hn] at h
      exact (nomatch h)

theorem ncNameB {w : Str} (h : (match w with
    | [] => false
    | c :: cs => isStart c && cs.all isName) = true) : NCName w := by
  cases w with
  | nil => exact (nomatch h)
  | cons c cs =>
    dsimp only at h
    rw [Bool.and_eq_true] at h
    exact ⟨c, cs, rfl, (isStart_iff c).mp h.1, fun x hx => (isName_iff x).mp (List.all_eq_true.mp h.2 x hx)⟩

theorem nodeTypes_names {w : Str} (h : w ∈ nodeTypes) : NCName w := by
  simp only [nodeTypes, List.mem_cons, List.not_mem_nil, or_false] at h
  rcases h with rfl | rfl | rfl | rfl <;> exact ncNameB (by decide +kernel)

theorem paren_ends {r : Str} (h : nextParen r = true) : EndsName r := by
  intro c cs e hc
  subst e
  rw [name_no_paren ((isName_iff c).mpr hc)] at h
  exact (nomatch h)

theorem colons_ends {r : Str} (h : nextColons r = true) : EndsName r := by
  intro c cs e hc
  subst e
  rw [name_no_colons ((isName_iff c).mpr hc)] at h
  exact (nomatch h)

/-- The node type pattern matches whole names only. -/
theorem nodeType_whole {w rest : Str} (hw : NCName w) (h : EndsName rest) {r : Str}
    (hs : scan X pNodeType (w ++ rest) = some r) :
    r = rest ∧ w ∈ nodeTypes ∧ nextParen rest = true := by
  obtain ⟨h1, v, hv, e⟩ := nodeType_sound hs
  have e1 := ncName_after hw h
  have e2 := ncName_after (nodeTypes_names hv) (paren_ends h1)
  rw [← e, e1] at e2
  injection e2 with e2
  subst e2
  exact ⟨rfl, List.append_cancel_right e ▸ hv, h1⟩

theorem nodeType_complete {w rest : Str} (hw : w ∈ nodeTypes) (h : nextParen rest = true) :
    scan X pNodeType (w ++ rest) = some rest := by
  have e : scan X pNodeType (w ++ rest) = match longest X (.cons (word "node".toList .success)
    (.cons (word "text".toList .success) (.cons (word "comment".toList .success)
    (.cons (word "processing-instruction".toList .success) .nil)))) (w ++ rest) with
    | none => none
    | some s' => scan X beforeParen s' := by
    rw [pNodeType, scan]
    generalize longest _ _ _ = l
    cases l <;> rfl
  have l : longest X (.cons (word "node".toList .success)
    (.cons (word "text".toList .success) (.cons (word "comment".toList .success)
    (.cons (word "processing-instruction".toList .success) .nil)))) (w ++ rest) = some rest := by
    simp only [nodeTypes, List.mem_cons, List.not_mem_nil, or_false] at hw
    rcases hw with rfl | rfl | rfl | rfl <;> rfl
  rw [e, l]
  dsimp only
  rw [scan_beforeParen, if_pos h]

/-! The four patterns for names -/

def nameMask : List Bool := (List.range 15).map fun i => i == 5 || i == 6 || i == 10 || i == 11

def rNode : Rule := ⟨pNodeType, none, .token 262⟩
def rAxis : Rule := ⟨pAxisName, none, .token 263⟩
def rFunction : Rule := ⟨pFunction, none, .token 261⟩
def rName : Rule := ⟨pNameTest, some stOperator, .token 260⟩

theorem start_ne {c : Char} (h : isStart c = true) {n : Nat}
    (hn : isStart (Char.ofNat n) = false) : (c.toNat == n) = false := by
  cases hc : c.toNat == n with
  | false => rfl
  | true => rw [not_start (eq_of_beq hc) hn] at h; exact (nomatch h)

theorem start_not_in {c : Char} (h : isStart c = true) {i : Nat} {l : List Nat}
    (hi : inSet X c (.small i) = true ↔ c.toNat ∈ l)
    (hl : l.all (fun n => !isStart (Char.ofNat n)) = true) : inSet X c (.small i) = false := by
  cases hc : inSet X c (.small i) with
  | false => rfl
  | true =>
    have := List.all_eq_true.mp hl _ (hi.mp hc)
    rw [Char.ofNat_toNat, h] at this
    exact (nomatch this)

theorem start_covers {c : Char} (h : isStart c = true) :
    covers X c nameMask initialRules = true := by
  have a1 := start_not_in h (close_nat c) (by decide +kernel)
  have a2 := start_not_in h (rel_nat c) (by decide +kernel)
  have a3 := start_not_in h (isSp_nat c) (by decide +kernel)
  have a4 : inSet X c (.big 2) = false := start_not_dig h
  have b1 := start_ne h (n := 58) (by decide +kernel)
  have b2 := start_ne h (n := 47) (by decide +kernel)
  have b3 := start_ne h (n := 61) (by decide +kernel)
  have b4 := start_ne h (n := 33) (by decide +kernel)
  have b5 := start_ne h (n := 60) (by decide +kernel)
  have b6 := start_ne h (n := 62) (by decide +kernel)
  have b7 := start_ne h (n := 39) (by decide +kernel)
  have b8 := start_ne h (n := 34) (by decide +kernel)
  have b9 := start_ne h (n := 36) (by decide +kernel)
  have b10 := start_ne h (n := 46) (by decide +kernel)
  show covers X c [false, false, false, false, false, true, true, false, false, false, true, true,
    false, false, false] initialRules = true
  simp only [initialRules, covers, Bool.true_or, Bool.false_or, Bool.and_true, Bool.true_and]
  have c1 : first X pClose c = false := a1
  have c2 : first X pColons c = false := b1
  have c3 : first X pSlashes c = false := b2
  have c4 : first X pEquality c = false := by
    show ((c.toNat == 61) || ((c.toNat == 33) || false)) = false
    rw [b3, b4]; rfl
  have c5 : first X pRelational c = false := by
    show (inSet X c (.small 2) || ((c.toNat == 60) || ((c.toNat == 62) || false))) = false
    rw [a2, b5, b6]; rfl
  have c6 : first X pLiteral c = false := by
    show ((c.toNat == 39) || ((c.toNat == 34) || false)) = false
    rw [b7, b8]; rfl
  have c7 : first X pNumber c = false := by
    show (inSet X c (.big 2) || ((c.toNat == 46) || false)) = false
    rw [a4, b10]; rfl
  have c8 : first X pVariable c = false := b9
  have c9 : first X pDotDot c = false := b10
  have c10 : first X pDot c = false := b10
  have c11 : first X pSpace c = false := a3
  rw [c1, c2, c3, c4, c5, c6, c7, c8, c9, c10, c11]
  rfl

theorem best_name {w : Str} (hw : NCName w) (rest : Str) :
    bestRule X initialRules (w ++ rest) =
      bestRule X [rNode, rAxis, rFunction, rName] (w ++ rest) := by
  obtain ⟨c, cs, rfl, h1, h2⟩ := hw
  have h := best_pick (cs ++ rest) _ _ (start_covers ((isStart_iff c).mpr h1))
  have e : pick nameMask initialRules = [rNode, rAxis, rFunction, rName] := rfl
  rw [e] at h
  exact h

theorem nodeType_none {w rest : Str} (hw : NCName w) (h : EndsName rest)
    (hn : w ∉ nodeTypes ∨ nextParen rest = false) : scan X pNodeType (w ++ rest) = none := by
  cases hs : scan X pNodeType (w ++ rest) with
  | none => rfl
  | some r =>
    obtain ⟨_, h1, h2⟩ := nodeType_whole hw h hs
    rcases hn with hn | hn
    · exact absurd h1 hn
    · rw [h2] at hn; exact (nomatch hn)

theorem axis_of {w rest : Str} (hw : NCName w) (h : EndsName rest) :
    scan X pAxisName (w ++ rest) = if nextColons rest then some rest else none := by
  rw [scan_axis, ncName_after hw h]
  rfl

theorem start_no_star {w : Str} (hw : NCName w) (rest : Str) :
    scan X (.lit 42 .success) (w ++ rest) = none := by
  obtain ⟨c, cs, rfl, h1, h2⟩ := hw
  rw [List.cons_append, scan_lit, if_neg]
  intro h
  have h3 := (isStart_iff c).mpr h1
  rw [not_start h (by decide +kernel)] at h3
  exact (nomatch h3)

theorem nameTest_of {w rest : Str} (hw : NCName w) (h : EndsName rest) :
    scan X pNameTest (w ++ rest) =
      longer (scan X (.lit 58 (.lit 42 .success)) rest) (afterQName (w ++ rest)) := by
  rw [scan_nameTest, start_no_star hw, ncName_after hw h]
  rfl

/-- Without a colon, the name test is the name. -/
theorem nameTest_plain {w rest : Str} (hw : NCName w)
    (h : Ends (fun c => NCNameChar c.toNat ∨ c = ':') rest) :
    scan X pNameTest (w ++ rest) = some rest := by
  rw [nameTest_of hw (fun c cs e hc => h c cs e (.inl hc)), qName_after hw h]
  cases rest with
  | nil => rfl
  | cons c cs => rw [scan_lit, if_neg (not_colon fun e => h c cs rfl (.inr e))]; rfl

theorem function_plain {w rest : Str} (hw : NCName w)
    (h : Ends (fun c => NCNameChar c.toNat ∨ c = ':') rest) :
    scan X pFunction (w ++ rest) = if nextParen rest then some rest else none := by
  rw [scan_function, qName_after hw h]
  rfl

theorem paren_ends' {r : Str} (h : nextParen r = true) :
    Ends (fun c => NCNameChar c.toNat ∨ c = ':') r := by
  intro c cs e hc
  rcases hc with hc | hc
  · exact paren_ends h c cs e hc
  · subst e hc
    have : nextParen (':' :: cs) = false := by
      rw [nextParen, List.dropWhile_cons, if_neg (by decide +kernel)]
      rfl
    rw [this] at h
    exact (nomatch h)

theorem best_le {rs : List Rule} {s rest : Str}
    (h : ∀ r ∈ rs, ∀ y, scan X r.prog s = some y → rest.length ≤ y.length) :
    ∀ x y, bestRule X rs s = some (x, y) → rest.length ≤ y.length := by
  intro x y hxy
  obtain ⟨h1, h2⟩ := best_mem hxy
  exact h x h1 y h2

theorem reads_nodeType {w rest : Str} (hw : w ∈ nodeTypes) (hn : NextIs ['('] rest) :
    ReadsI .nodeType w rest := by
  have hp := nextParen_iff.mpr hn
  have hN := nodeTypes_names hw
  have hb := best_name hN rest
  rw [best_take (r := rNode) (nodeType_complete hw hp) (best_le (by
    intro r hr y hy
    simp only [List.mem_cons, List.not_mem_nil, or_false] at hr
    rcases hr with rfl | rfl | rfl
    · have hy : scan X pAxisName (w ++ rest) = some y := hy
      rw [axis_of hN (paren_ends hp), not_paren_colons hp] at hy
      exact (nomatch hy)
    · have hy : scan X pFunction (w ++ rest) = some y := hy
      rw [function_plain hN (paren_ends' hp), if_pos hp] at hy
      injection hy with hy
      subst hy
      exact Nat.le_refl _
    · have hy : scan X pNameTest (w ++ rest) = some y := hy
      rw [nameTest_plain hN (paren_ends' hp)] at hy
      injection hy with hy
      subst hy
      exact Nat.le_refl _))] at hb
  refine readsI_token ?_ hb rfl (by decide) (by decide +kernel) rfl
  obtain ⟨c, cs, rfl, _⟩ := hN
  simp

theorem ncName_ne {w : Str} (h : NCName w) : w ≠ [] := by
  obtain ⟨c, cs, rfl, _⟩ := h
  simp

theorem reads_axisName {w rest : Str} (hN : NCName w) (hn : NextIs [':', ':'] rest) :
    ReadsI .axisName w rest := by
  have hp := nextColons_iff.mpr hn
  have he := colons_ends hp
  have hb := best_name hN rest
  have hnp : nextParen rest = false := by
    cases h : nextParen rest with
    | false => rfl
    | true => rw [not_paren_colons h] at hp; exact (nomatch hp)
  rw [best_skip (r := rNode) (nodeType_none hN he (.inr hnp)),
    best_take (r := rAxis) (rest := rest) (by
      show scan X pAxisName _ = _
      rw [axis_of hN he, if_pos hp]) (best_le (by
    intro r hr y hy
    simp only [List.mem_cons, List.not_mem_nil, or_false] at hr
    have key : ∀ y, afterQName (w ++ rest) = some y → y = rest := by
      intro y h
      rw [afterQName] at h
      cases h1 : afterPrefix (w ++ rest) with
      | none =>
        rw [h1, ncName_after hN he] at h
        injection h with h
        exact h.symm
      | some s' =>
        exfalso
        rw [h1] at h
        dsimp only at h
        rw [afterPrefix, ncName_after hN he] at h1
        have h1 : scan X (.lit 58 .success) rest = some s' := h1
        match rest, h1, hp with
        | c :: cs, h1, hp =>
          rw [scan_lit] at h1
          by_cases hc : c.toNat = 58
          · rw [if_pos hc, scan_success] at h1
            injection h1 with h1
            subst h1
            have hc' := char_eq ':' hc
            subst hc'
            rw [nextColons, List.dropWhile_cons, if_neg (by decide +kernel)] at hp
            cases cs with
            | nil => exact (nomatch hp)
            | cons d ds =>
              have hp : ((':'.toNat == 58) && (d.toNat == 58)) = true := hp
              rw [Bool.and_eq_true] at hp
              rw [afterName, not_start (eq_of_beq hp.2) (by decide +kernel)] at h
              exact (nomatch h)
          · rw [if_neg hc] at h1
            exact (nomatch h1)
    rcases hr with rfl | rfl
    · have hy : scan X pFunction (w ++ rest) = some y := hy
      rw [scan_function] at hy
      cases h : afterQName (w ++ rest) with
      | none => rw [h] at hy; exact (nomatch hy)
      | some r =>
        rw [h] at hy
        have hy : (if nextParen r then some r else none) = some y := hy
        rw [key r h, hnp] at hy
        exact (nomatch hy)
    · have hy : scan X pNameTest (w ++ rest) = some y := hy
      rw [nameTest_of hN he] at hy
      rcases longer_some hy with h | h
      · exfalso
        match rest, h, hp with
        | c :: cs, h, hp =>
          rw [scan_lit] at h
          by_cases hc : c.toNat = 58
          · rw [if_pos hc] at h
            have hc' := char_eq ':' hc
            subst hc'
            rw [nextColons, List.dropWhile_cons, if_neg (by decide +kernel)] at hp
            cases cs with
            | nil => exact (nomatch hp)
            | cons d ds =>
              have hp : ((':'.toNat == 58) && (d.toNat == 58)) = true := hp
              rw [Bool.and_eq_true] at hp
              rw [scan_lit, if_neg (by rw [eq_of_beq hp.2]; decide)] at h
              exact (nomatch h)
          · rw [if_neg hc] at h
            exact (nomatch h)
      · rw [key y h]
        exact Nat.le_refl _))] at hb
  exact readsI_token (ncName_ne hN) hb rfl (by decide) (by decide +kernel) rfl

theorem reads_function {w rest : Str} (hN : NCName w) (hw : w ∉ nodeTypes)
    (hn : NextIs ['('] rest) : ReadsI .functionName w rest := by
  have hp := nextParen_iff.mpr hn
  have hb := best_name hN rest
  rw [best_skip (r := rNode) (nodeType_none hN (paren_ends hp) (.inl hw)),
    best_skip (r := rAxis) (by
      show scan X pAxisName _ = _
      rw [axis_of hN (paren_ends hp), not_paren_colons hp]; rfl),
    best_take (r := rFunction) (rest := rest) (by
      show scan X pFunction _ = _
      rw [function_plain hN (paren_ends' hp), if_pos hp]) (best_le (by
    intro r hr y hy
    simp only [List.mem_cons, List.not_mem_nil, or_false] at hr
    subst hr
    have hy : scan X pNameTest (w ++ rest) = some y := hy
    rw [nameTest_plain hN (paren_ends' hp)] at hy
    injection hy with hy
    subst hy
    exact Nat.le_refl _))] at hb
  exact readsI_token (ncName_ne hN) hb rfl (by decide) (by decide +kernel) rfl

theorem reads_name {w rest : Str} (hN : NCName w)
    (h : Ends (fun c => NCNameChar c.toNat ∨ c = ':') rest) (h1 : ¬ NextIs ['('] rest)
    (h2 : ¬ NextIs [':', ':'] rest) : ReadsI .nameTest w rest := by
  have he : EndsName rest := fun c cs e hc => h c cs e (.inl hc)
  have n1 : nextParen rest = false := by
    cases hp : nextParen rest with
    | false => rfl
    | true => exact absurd (nextParen_iff.mp hp) h1
  have n2 : nextColons rest = false := by
    cases hp : nextColons rest with
    | false => rfl
    | true => exact absurd (nextColons_iff.mp hp) h2
  have hb := best_name hN rest
  rw [best_skip (r := rNode) (nodeType_none hN he (.inr n1)),
    best_skip (r := rAxis) (by
      show scan X pAxisName _ = _
      rw [axis_of hN he, n2]; rfl),
    best_skip (r := rFunction) (by
      show scan X pFunction _ = _
      rw [function_plain hN h, n1]; rfl), best_one] at hb
  have e : scan X rName.prog (w ++ rest) = some rest := nameTest_plain hN h
  rw [e] at hb
  exact readsI_token (ncName_ne hN) hb rfl (by decide) (by decide +kernel) rfl

/-- A name with a prefix is no node type and no axis. -/
theorem best_prefixed {p s : Str} (hp : NCName p) (hs : ∀ r, s ≠ ':' :: r) :
    bestRule X initialRules (p ++ ':' :: s) = bestRule X [rFunction, rName] (p ++ ':' :: s) := by
  have hb := best_name hp (':' :: s)
  have n1 : nextParen (':' :: s) = false := by
    rw [nextParen, List.dropWhile_cons, if_neg (by decide +kernel)]
    rfl
  have n2 : nextColons (':' :: s) = false := by
    rw [nextColons, List.dropWhile_cons, if_neg (by decide +kernel)]
    cases s with
    | nil => rfl
    | cons d ds =>
      dsimp only
      rw [Bool.and_eq_false_iff]
      right
      cases hd : d.toNat == 58 with
      | false => rfl
      | true => exact absurd (by rw [char_eq ':' (eq_of_beq hd)]) (hs ds)
  rw [best_skip (r := rNode) (nodeType_none hp (colon_ends s) (.inr n1)),
    best_skip (r := rAxis) (by
      show scan X pAxisName _ = _
      rw [axis_of hp (colon_ends s), n2]; rfl)] at hb
  exact hb

theorem start_ne_colon {w : Str} (hw : NCName w) (rest : Str) : ∀ r, w ++ rest ≠ ':' :: r := by
  intro r h
  obtain ⟨c, cs, rfl, h1, _⟩ := hw
  injection h with h _
  subst h
  exact absurd ((isStart_iff _).mpr h1) (by decide +kernel)

theorem nameTest_ns {p w rest : Str} (hp : NCName p) (hw : NCName w) (h : EndsName rest) :
    scan X pNameTest (p ++ ':' :: (w ++ rest)) = some rest := by
  rw [nameTest_of hp (colon_ends _)]
  have e : afterQName (p ++ ':' :: (w ++ rest)) = some rest := by
    have := qNameNs_after hp hw h
    rw [show p ++ ':' :: w ++ rest = p ++ ':' :: (w ++ rest) by simp] at this
    exact this
  rw [e, scan_lit, if_pos (by decide), start_no_star hw]
  rfl

theorem function_ns {p w rest : Str} (hp : NCName p) (hw : NCName w) (h : EndsName rest) :
    scan X pFunction (p ++ ':' :: (w ++ rest)) = if nextParen rest then some rest else none := by
  have e : afterQName (p ++ ':' :: (w ++ rest)) = some rest := by
    have := qNameNs_after hp hw h
    rw [show p ++ ':' :: w ++ rest = p ++ ':' :: (w ++ rest) by simp] at this
    exact this
  rw [scan_function, e]
  rfl

theorem reads_functionNs {p w rest : Str} (hp : NCName p) (hw : NCName w)
    (hn : NextIs ['('] rest) : ReadsI .functionName (p ++ ':' :: w) rest := by
  have hq := nextParen_iff.mpr hn
  have hb := best_prefixed hp (start_ne_colon hw rest)
  rw [best_take (r := rFunction) (rest := rest) (by
      show scan X pFunction _ = _
      rw [function_ns hp hw (paren_ends hq), if_pos hq]) (best_le (by
    intro r hr y hy
    simp only [List.mem_cons, List.not_mem_nil, or_false] at hr
    subst hr
    have hy : scan X pNameTest (p ++ ':' :: (w ++ rest)) = some y := hy
    rw [nameTest_ns hp hw (paren_ends hq)] at hy
    injection hy with hy
    subst hy
    exact Nat.le_refl _))] at hb
  rw [show p ++ ':' :: (w ++ rest) = (p ++ ':' :: w) ++ rest by simp] at hb
  exact readsI_token (by simp) hb rfl (by decide) (by decide +kernel) rfl

theorem reads_nameNs {p w rest : Str} (hp : NCName p) (hw : NCName w) (h : EndsName rest)
    (hn : ¬ NextIs ['('] rest) : ReadsI .nameTest (p ++ ':' :: w) rest := by
  have n1 : nextParen rest = false := by
    cases hp : nextParen rest with
    | false => rfl
    | true => exact absurd (nextParen_iff.mp hp) hn
  have hb := best_prefixed hp (start_ne_colon hw rest)
  rw [best_skip (r := rFunction) (by
      show scan X pFunction _ = _
      rw [function_ns hp hw h, n1]; rfl), best_one] at hb
  have e : scan X rName.prog (p ++ ':' :: (w ++ rest)) = some rest := nameTest_ns hp hw h
  rw [e] at hb
  rw [show p ++ ':' :: (w ++ rest) = (p ++ ':' :: w) ++ rest by simp] at hb
  exact readsI_token (by simp) hb rfl (by decide) (by decide +kernel) rfl

theorem reads_prefixStar {p rest : Str} (hp : NCName p) :
    ReadsI .nameTest (p ++ [':', '*']) rest := by
  have hb := best_prefixed (s := '*' :: rest) hp (fun r h => by injection h with h _; exact absurd h (by decide))
  have e : afterQName (p ++ ':' :: '*' :: rest) = none := by
    rw [afterQName, prefix_after hp]
    dsimp only
    rw [afterName, if_neg (by decide +kernel)]
  rw [best_skip (r := rFunction) (by
      show scan X pFunction _ = _
      rw [scan_function, e]; rfl), best_one] at hb
  have e' : scan X rName.prog (p ++ ':' :: '*' :: rest) = some rest := by
    show scan X pNameTest _ = _
    rw [nameTest_of hp (colon_ends _), e]
    rfl
  rw [e'] at hb
  rw [show p ++ ':' :: '*' :: rest = (p ++ [':', '*']) ++ rest by simp] at hb
  exact readsI_token (by simp) hb rfl (by decide) (by decide +kernel) rfl

theorem reads_star (rest : Str) : ReadsI .nameTest ['*'] rest := by
  have hb := best_pick rest _ _ (show covers X '*' (only 11) initialRules = true by decide +kernel)
  have e : pick (only 11) initialRules = [rName] := rfl
  rw [e, best_one] at hb
  have e' : scan X rName.prog ('*' :: rest) = some rest := by
    show scan X pNameTest _ = _
    have h1 : afterName ('*' :: rest) = none := by rw [afterName, if_neg (by decide +kernel)]
    have h2 : afterQName ('*' :: rest) = none := by rw [afterQName, afterPrefix, h1]; rfl
    rw [scan_nameTest, h1, h2]
    rfl
  rw [e'] at hb
  exact readsI_token (w := ['*']) (by simp) hb rfl (by decide) (by decide +kernel) rfl

theorem reads_variable {w rest : Str} (h0 : afterQName (w ++ rest) = some rest) :
    ReadsI .variable ('$' :: w) rest := by
  have hb := best_pick (w ++ rest) _ _
    (show covers X '$' (only 9) initialRules = true by decide +kernel)
  have e : pick (only 9) initialRules = [⟨pVariable, some stOperator, .token 259⟩] := rfl
  have e' : scan X pVariable ('$' :: (w ++ rest)) = some rest := by
    rw [scan_variable]
    dsimp only
    rw [if_pos (by decide), h0]
  rw [e, best_one, e'] at hb
  exact readsI_token (w := '$' :: w) (by simp) hb rfl (by decide) (by decide +kernel) rfl

end Verif.Parse
