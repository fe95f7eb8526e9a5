import Verif.Write.ReadLemmas

/-
Reading back tags, CDATA sections, comments, processing instructions and document type declarations.
-/
namespace Verif.Write
open Verif Verif.Write.Spec

theorem sw_false {c d : Nat} {s t : UStr} (h : c ≠ d) : Py.startsWith (c :: s) (d :: t) = false := by
  simp [Py.startsWith, h]

/-! Tags -/

/-- An attribute as it is written. -/
def attrText (enc : Codec) (canonical : Bool) (a : UStr × UStr) : UStr :=
  32 :: (a.1 ++ 61 :: ((quoting canonical a.2).2 ++ escText enc (quoting canonical a.2).1 a.2 ++
    (quoting canonical a.2).2))

theorem attrText_read (enc : Codec) (canonical : Bool) (a : UStr × UStr) (hv : ∀ c ∈ a.2, Legal c) :
    ∃ w, attrText enc canonical a = 32 :: (a.1 ++ 61 :: w) ∧
      ∀ rest, readEqValue (61 :: (w ++ rest)) = some (a.2, rest) := by
  refine ⟨_, rfl, fun rest => ?_⟩
  obtain ⟨q, m, hq, hm, _, hq2, hp⟩ := quoting_cases canonical a.2
  rw [hq]
  have hsq : space q = false := by rcases hq2 with rfl | rfl <;> rfl
  unfold readEqValue
  simp only [List.cons_append, List.nil_append, List.append_assoc]
  rw [skipSpace_of (by decide)]
  show (match skipSpace (q :: (escText enc m a.2 ++ q :: rest)) with
    | q :: s => if q = 34 ∨ q = 39 then readValue q (s.length + 1) s else none
    | [] => none) = _
  rw [skipSpace_of hsq]
  show (if q = 34 ∨ q = 39 then readValue q _ _ else none) = _
  rw [if_pos hq2]
  exact readValue_escText enc hm (by omega) a.2 hv hp rest _ (by simp; omega)

theorem readAttrs_step {n : Nat} {name w v tail rest : UStr} {as : List (UStr × UStr)} {e : Bool}
    (hn : isName name = true) (hr : readEqValue (61 :: (w ++ tail)) = some (v, tail))
    (ht : readAttrs n tail = some (as, e, rest)) (hd : ∀ a ∈ as, a.1 ≠ name) :
    readAttrs (n + 1) (32 :: (name ++ 61 :: (w ++ tail))) = some ((name, v) :: as, e, rest) := by
  have hsk : skipSpace (32 :: (name ++ 61 :: (w ++ tail))) = name ++ 61 :: (w ++ tail) := by
    rw [← skipSpace_name hn (61 :: (w ++ tail))]
    generalize name ++ 61 :: (w ++ tail) = t
    simp only [skipSpace]
    rw [List.dropWhile_cons_of_pos (by rfl)]
    have h : ∀ l : UStr, (l.dropWhile space).dropWhile space = l.dropWhile space := by
      intro l
      induction l with
      | nil => rfl
      | cons x l ih =>
        cases hx : space x with
        | true => rw [List.dropWhile_cons_of_pos hx, ih]
        | false => rw [List.dropWhile_cons_of_neg (by simp [hx]), List.dropWhile_cons_of_neg (by simp [hx])]
    exact h t
  have hrn : readName (name ++ 61 :: (w ++ tail)) = some (name, 61 :: (w ++ tail)) :=
    readName_append hn (by decide) _
  obtain ⟨c, s, hc, hcs⟩ := name_cons hn
  have hne := nameStart_ne hcs
  have hlen : name ++ 61 :: (w ++ tail) ≠ 32 :: (name ++ 61 :: (w ++ tail)) := by
    intro h
    have := congrArg List.length h
    simp at this
  have hend : tagEnd (name ++ 61 :: (w ++ tail)) = none := by
    unfold tagEnd
    rw [hc, List.cons_append, sw_false hne.2.1, sw_false hne.2.2.2.2.2.1]; rfl
  have hany : as.any (fun b => decide (b.1 = name)) = false := by
    rw [List.any_eq_false]
    intro b hb
    simpa using hd b hb
  rw [readAttrs, hsk, hend]
  show (if _ then none else match readName _ with
      | none => none
      | some (name, r) => match readEqValue r with
        | none => none
        | some (v, r) => match readAttrs n r with
          | none => none
          | some (as, e, r) => if as.any (·.1 = name) then none else some ((name, v) :: as, e, r)) = _
  rw [if_neg hlen, hrn]
  show (match readEqValue (61 :: (w ++ tail)) with
        | none => none
        | some (v, r) => match readAttrs n r with
          | none => none
          | some (as, e, r) => if as.any (·.1 = name) then none else some ((name, v) :: as, e, r)) = _
  rw [hr]
  show (match readAttrs n tail with
          | none => none
          | some (as, e, r) => if as.any (·.1 = name) then none else some ((name, v) :: as, e, r)) = _
  rw [ht]
  show (if as.any (·.1 = name) then none else some ((name, v) :: as, e, rest)) = _
  rw [hany]; rfl

theorem readAttrs_text (enc : Codec) (canonical : Bool) (as : List (UStr × UStr))
    (hn : ∀ a ∈ as, isName a.1 = true ∧ ∀ c ∈ a.2, Legal c) (hd : (as.map (·.1)).Nodup) (e : Bool) (rest : UStr) :
    ∀ n, as.length < n → readAttrs n (as.flatMap (attrText enc canonical) ++
      ((if e then [47, 62] else [62]) ++ rest)) = some (as, e, rest) := by
  induction as with
  | nil =>
    intro n hl
    cases n with
    | zero => omega
    | succ n =>
      unfold readAttrs
      cases e
      · simp [skipSpace_of (c := 62) (by decide), tagEnd, Py.startsWith]
      · simp [skipSpace_of (c := 47) (by decide), tagEnd, Py.startsWith]
  | cons a as ih =>
    intro n hl
    have ih := ih (fun x hx => hn x (by simp [hx])) (by simp at hd; exact hd.2)
    cases n with
    | zero => omega
    | succ n =>
      obtain ⟨w, hw, hr⟩ := attrText_read enc canonical a (hn a (by simp)).2
      have h := readAttrs_step (hn a (by simp)).1 (hr _) (ih n (by simp at hl; omega)) (fun b hb => by
        simp at hd
        intro h
        exact hd.1 b.2 (h ▸ hb))
      rw [List.flatMap_cons, hw]
      simpa using h

/-- A start-tag or an empty-element tag. -/
theorem lex_tag (enc : Codec) (canonical : Bool) {name : UStr} (hname : isName name = true)
    (as : List (UStr × UStr)) (hn : ∀ a ∈ as, isName a.1 = true ∧ ∀ c ∈ a.2, Legal c)
    (hd : (as.map (·.1)).Nodup) (e : Bool) (rest : UStr) :
    lex (60 :: (name ++ as.flatMap (attrText enc canonical) ++ ((if e then [47, 62] else [62]) ++ rest))) =
      some (.start name as :: (if e then [.stop name] else []), rest) := by
  obtain ⟨c, s, hc, hcs⟩ := name_cons hname
  have hne := nameStart_ne hcs
  have hr := readAttrs_text enc canonical as hn hd e rest
  generalize htail : as.flatMap (attrText enc canonical) ++ ((if e then [47, 62] else [62]) ++ rest) = tail at *
  have hlen : as.length < tail.length + 1 := by
    rw [← htail]
    have : as.length ≤ (as.flatMap (attrText enc canonical)).length := by
      clear htail hr hd hn
      induction as with
      | nil => simp
      | cons a as ih => rw [List.flatMap_cons, List.length_append, List.length_cons]; simp only [attrText, List.length_cons]; omega
    rw [List.length_append]; omega
  obtain ⟨d, t, hd1, hd2⟩ : ∃ d t, tail = d :: t ∧ nameChar d = false := by
    rw [← htail]
    cases as with
    | nil => cases e <;> exact ⟨_, _, rfl, by decide⟩
    | cons a as => exact ⟨32, _, rfl, by decide⟩
  have hrn : readName (name ++ tail) = some (name, tail) := by
    rw [hd1]; exact readName_append hname hd2 _
  rw [List.append_assoc, htail]
  unfold lex
  dsimp only
  rw [if_pos rfl]
  have h1 : ∀ d u, c ≠ d → Py.startsWith (name ++ tail) (d :: u) = false := by
    intro d u h; rw [hc]; exact sw_false h
  rw [h1 _ _ hne.2.2.2.1, h1 _ _ hne.2.2.2.1, h1 _ _ hne.2.2.2.1, h1 _ _ hne.2.2.2.2.1, h1 _ _ hne.2.2.2.2.2.1]
  simp only [Bool.false_eq_true, if_false]
  unfold readTag
  rw [hrn]
  dsimp only
  rw [hr _ hlen]

/-- An end-tag. -/
theorem lex_endTag {name : UStr} (hname : isName name = true) (rest : UStr) :
    lex (60 :: 47 :: (name ++ 62 :: rest)) = some ([.stop name], rest) := by
  unfold lex
  dsimp only
  rw [if_pos rfl]
  have h1 : ∀ d u, 47 ≠ d → Py.startsWith (47 :: (name ++ 62 :: rest)) (d :: u) = false := by
    intro d u h; exact sw_false h
  rw [h1 _ _ (by decide), h1 _ _ (by decide), h1 _ _ (by decide), h1 _ _ (by decide)]
  simp only [Bool.false_eq_true, if_false]
  have : Py.startsWith (47 :: (name ++ 62 :: rest)) (u!! "/") = true := by
    cases name <;> simp [Py.startsWith]
  rw [if_pos this]
  have : readEndTag (name ++ 62 :: rest) = some (.stop name, rest) := by
    unfold readEndTag
    rw [readName_append hname (by decide)]
    show (match skipSpace (62 :: rest) with
      | 62 :: r => some (Ev.stop name, r)
      | _ => none) = _
    rw [skipSpace_of (by decide)]
    rfl
  simp [one, this]

/-! Comments, processing instructions -/

theorem lex_comment {s : UStr} (hs : Raw s) (ho : ¬ Occurs (u!! "--") (s ++ u!! "-")) (rest : UStr) :
    lex (u!! "<!--" ++ (s ++ (u!! "-->" ++ rest))) = some ([.comment s], rest) := by
  have hu : upTo (u!! "--") (s ++ (u!! "--" ++ 62 :: rest)) = some (s, 62 :: rest) := by
    refine upTo_of_notOccurs (by simp) _ fun x y hxy hy z hz => ?_
    match y, hy, hxy, hz with
    | [a], _, hxy, hz =>
      simp at hz
      exact ho ⟨x, [], by simp [hxy, hz.1]⟩
    | a :: b :: y, _, hxy, hz =>
      simp at hz
      exact ho ⟨x, y ++ [45], by simp [hxy, hz.1, hz.2.1]⟩
  have hl : s.all (fun c => decide (Legal c)) = true := by
    rw [List.all_eq_true]; intro c hc; simp [(hs c hc).1]
  have : readComment (s ++ (u!! "-->" ++ rest)) = some (.comment s, rest) := by
    unfold readComment
    rw [show s ++ (u!! "-->" ++ rest) = s ++ (u!! "--" ++ 62 :: rest) by simp, hu]
    simp only [hl, if_true]
  unfold lex
  simp [Py.startsWith, one] at this ⊢
  simp [this]

theorem lex_pi {target data : UStr} (ht : isName target = true) (hx : isXml target = false) (hd : Raw data)
    (ho : ¬ Occurs (u!! "?>") data) (hh : ∀ c, data.head? = some c → space c = false) (rest : UStr) :
    lex (u!! "<?" ++ (target ++ ((if data.isEmpty then [] else 32 :: data) ++ (u!! "?>" ++ rest)))) =
      some ([.pi target data], rest) := by
  have hl : data.all (fun c => decide (Legal c)) = true := by
    rw [List.all_eq_true]; intro c hc; simp [(hd c hc).1]
  have : readPi (target ++ ((if data.isEmpty then [] else 32 :: data) ++ (u!! "?>" ++ rest))) =
      some (.pi target data, rest) := by
    unfold readPi
    cases data with
    | nil =>
      simp only [List.isEmpty_nil, if_true, List.nil_append, List.cons_append]
      rw [readName_append ht (by decide)]
      simp [hx, Py.startsWith]
    | cons d ds =>
      simp only [List.isEmpty_cons, Bool.false_eq_true, if_false, List.cons_append]
      rw [readName_append ht (by decide)]
      have hsp := hh d rfl
      have hsk : ∀ u, skipSpace (32 :: d :: u) = d :: u := by
        intro u
        have h1 := skipSpace_of (s := u) hsp
        unfold skipSpace at h1 ⊢
        rw [List.dropWhile_cons_of_pos (by rfl), h1]
      have hu : upTo (u!! "?>") ((d :: ds) ++ (u!! "?>" ++ rest)) = some (d :: ds, rest) := by
        refine upTo_of_notOccurs (by simp) _ fun x y hxy hy z hz => ?_
        match y, hy, hxy, hz with
        | [a], _, hxy, hz => simp at hz
        | a :: b :: y, _, hxy, hz =>
          simp at hz
          exact ho ⟨x, y, by simp [hxy, hz.1, hz.2.1]⟩
      simp only [List.cons_append, List.nil_append] at hu
      dsimp only
      rw [hx]
      simp only [Bool.false_eq_true, if_false]
      rw [sw_false (by decide)]
      simp only [Bool.false_eq_true, if_false]
      rw [hsk, if_neg]
      · rw [List.nil_append, hu]
        simp only [hl, if_true]
      · intro h
        have := congrArg List.length h
        simp at this
  unfold lex
  simp [Py.startsWith, one] at this ⊢
  simp [this]

/-! Document type declarations -/

theorem needSpace_32 {c : Nat} {s : UStr} (h : space c = false) : needSpace (32 :: c :: s) = some (c :: s) := by
  have h1 : skipSpace (32 :: c :: s) = c :: s := by
    have h1 := skipSpace_of (s := s) h
    unfold skipSpace at h1 ⊢
    rw [List.dropWhile_cons_of_pos (by rfl), h1]
  unfold needSpace
  rw [h1, if_neg]
  intro h2
  have := congrArg List.length h2
  simp at this

theorem readLiteral_append {s : UStr} (h : (34 : Nat) ∉ s) (rest : UStr) :
    readLiteral (34 :: (s ++ 34 :: rest)) = some (s, rest) := by
  unfold readLiteral
  simp [upTo_char rest h]

/-- What is written for an external identifier. -/
def externalText : Option UStr → UStr → UStr
  | none, sys => u!! "SYSTEM \"" ++ (sys ++ u!! "\"")
  | some pub, sys => u!! "PUBLIC \"" ++ (pub ++ (u!! "\" \"" ++ (sys ++ u!! "\"")))

theorem readExternal_text {pub : Option UStr} {sys : UStr} (hp : ∀ p, pub = some p → p.all pubidChar)
    (hs : ∀ c ∈ sys, Legal c) (h34 : (34 : Nat) ∉ sys) (rest : UStr) :
    readExternal (externalText pub sys ++ rest) = some (pub, sys, rest) := by
  have hl : sys.all (fun c => decide (Legal c)) = true := by
    rw [List.all_eq_true]; intro c hc; simp [hs c hc]
  unfold readExternal
  cases pub with
  | none =>
    have h1 : Py.startsWith (externalText none sys ++ rest) (u!! "SYSTEM") = true :=
      Py.startsWith_iff.2 ⟨32 :: 34 :: (sys ++ 34 :: rest), by simp [externalText]⟩
    have h2 : (externalText none sys ++ rest).drop 6 = 32 :: 34 :: (sys ++ 34 :: rest) := by
      simp [externalText]
    rw [if_pos h1, h2, needSpace_32 (by decide)]
    dsimp only
    rw [readLiteral_append h34]
    simp [hl]
  | some p =>
    have hp := hp p rfl
    have hp34 : (34 : Nat) ∉ p := by
      intro h
      have := List.all_eq_true.1 hp 34 h
      revert this; decide
    have h0 : Py.startsWith (externalText (some p) sys ++ rest) (u!! "SYSTEM") = false := sw_false (by decide)
    have h1 : Py.startsWith (externalText (some p) sys ++ rest) (u!! "PUBLIC") = true :=
      Py.startsWith_iff.2 ⟨32 :: 34 :: (p ++ 34 :: 32 :: 34 :: (sys ++ 34 :: rest)), by simp [externalText]⟩
    have h2 : (externalText (some p) sys ++ rest).drop 6 = 32 :: 34 :: (p ++ 34 :: 32 :: 34 :: (sys ++ 34 :: rest)) := by
      simp [externalText]
    rw [if_neg (by rw [h0]; simp), if_pos h1, h2, needSpace_32 (by decide)]
    dsimp only
    rw [readLiteral_append hp34]
    dsimp only
    rw [needSpace_32 (by decide)]
    dsimp only
    rw [readLiteral_append h34]
    dsimp only
    rw [if_pos ⟨hp, hl⟩]

theorem externalText_cons (pub : Option UStr) (sys : UStr) : ∃ c s, externalText pub sys = c :: s ∧ space c = false ∧ c ≠ 62 := by
  cases pub <;> exact ⟨_, _, rfl, by decide, by decide⟩

theorem lex_doctype {name : UStr} (hn : isName name = true) {pub : Option UStr} {sys : UStr}
    (hp : ∀ p, pub = some p → p.all pubidChar) (hs : ∀ c ∈ sys, Legal c) (h34 : (34 : Nat) ∉ sys) (rest : UStr) :
    lex (u!! "<!DOCTYPE " ++ (name ++ (32 :: (externalText pub sys ++ 62 :: rest)))) =
      some ([.doctype name pub (some sys)], rest) := by
  have hx := readExternal_text hp hs h34 (62 :: rest)
  obtain ⟨c, s, hc, hsp, h62⟩ := externalText_cons pub sys
  have hd : readDoctype (32 :: (name ++ (32 :: (externalText pub sys ++ 62 :: rest)))) =
      some (.doctype name pub (some sys), rest) := by
    obtain ⟨n, ns, hn1, hn2⟩ := name_cons hn
    have hsk : skipSpace (32 :: (externalText pub sys ++ 62 :: rest)) = externalText pub sys ++ 62 :: rest := by
      have h1 := skipSpace_of (s := s ++ 62 :: rest) hsp
      rw [hc, List.cons_append]
      unfold skipSpace at h1 ⊢
      rw [List.dropWhile_cons_of_pos (by rfl), h1]
    have hne : externalText pub sys ++ 62 :: rest ≠ 32 :: (externalText pub sys ++ 62 :: rest) := by
      intro h
      have := congrArg List.length h
      simp at this
    unfold readDoctype
    have hns : needSpace (32 :: (name ++ (32 :: (externalText pub sys ++ 62 :: rest)))) =
        some (name ++ (32 :: (externalText pub sys ++ 62 :: rest))) := by
      rw [hn1]; exact needSpace_32 (nameStart_ne hn2).2.2.2.2.2.2.2.2.2.2
    rw [hns]
    dsimp only
    rw [readName_append hn (by decide)]
    dsimp only
    rw [hsk]
    generalize hg : externalText pub sys ++ 62 :: rest = g at hne hx hc ⊢
    split
    · rw [hc] at hg
      cases hg
      exact absurd rfl h62
    · rw [if_neg hne, hx]
      show (match skipSpace (62 :: rest) with
          | 62 :: r => some (Ev.doctype name pub (some sys), r)
          | _ => none) = _
      rw [skipSpace_of (by decide)]
      rfl
  unfold lex
  simp [Py.startsWith, one] at hd ⊢
  simp [hd]

/-! CDATA sections -/

/-- What is written after the first piece. -/
def cdataTail : List UStr → UStr
  | [] => u!! "]]>"
  | p :: ps => u!! "]]]]><![CDATA[>" ++ p ++ cdataTail ps

theorem lex_cdata {u : UStr} (hu : ∀ c ∈ u, Legal c) (ho : ¬ Occurs (u!! "]]>") u) (rest : UStr) :
    lex (u!! "<![CDATA[" ++ (u ++ (u!! "]]>" ++ rest))) = some (u.map .char, rest) := by
  have hup : upTo (u!! "]]>") (u ++ (u!! "]]>" ++ rest)) = some (u, rest) := by
    refine upTo_of_notOccurs (by simp) _ fun x y hxy hy z hz => ?_
    match y, hy, hxy, hz with
    | [a], _, hxy, hz => simp at hz
    | [a, b], _, hxy, hz => simp at hz
    | a :: b :: c :: y, _, hxy, hz =>
      simp at hz
      exact ho ⟨x, y, by simp [hxy, hz.1, hz.2.1, hz.2.2.1]⟩
  have hl : u.all (fun c => decide (Legal c)) = true := by
    rw [List.all_eq_true]; intro c hc; simp [hu c hc]
  have : readCdata (u ++ (u!! "]]>" ++ rest)) = some (u.map .char, rest) := by
    unfold readCdata
    rw [hup]
    simp only [hl, if_true]
  unfold lex
  simp [Py.startsWith] at this ⊢
  simp [this]

theorem occurs_append_brackets {u : UStr} (ho : ¬ Occurs (u!! "]]>") u) : ¬ Occurs (u!! "]]>") (u ++ u!! "]]") := by
  rintro ⟨a, b, h⟩
  apply ho
  have hb : b ≠ [] := by
    rintro rfl
    have := congrArg List.getLast? h
    simp at this
  obtain ⟨b', x, rfl⟩ : ∃ b' x, b = b' ++ [x] := ⟨b.dropLast, b.getLast hb, (List.dropLast_concat_getLast hb).symm⟩
  have h1 : u ++ u!! "]" = a ++ u!! "]]>" ++ b' := by
    have h2 := congrArg List.dropLast h
    rw [show u ++ u!! "]]" = (u ++ u!! "]") ++ [93] by simp, List.dropLast_concat,
      ← List.append_assoc, List.dropLast_concat] at h2
    exact h2
  have hb' : b' ≠ [] := by
    rintro rfl
    have := congrArg List.getLast? h1
    simp at this
  obtain ⟨b'', y, rfl⟩ : ∃ b'' y, b' = b'' ++ [y] := ⟨b'.dropLast, b'.getLast hb', (List.dropLast_concat_getLast hb').symm⟩
  have h2 := congrArg List.dropLast h1
  rw [List.dropLast_concat, ← List.append_assoc, List.dropLast_concat] at h2
  exact ⟨a, b'', h2⟩

theorem occurs_gt {u : UStr} (ho : ¬ Occurs (u!! "]]>") u) : ¬ Occurs (u!! "]]>") (62 :: u) := by
  rintro ⟨a, b, h⟩
  cases a with
  | nil => simp at h
  | cons x a =>
    simp at h
    exact ho ⟨a, b, by simp [h.2]⟩

theorem legal_93 : Legal 93 := by decide
theorem legal_62 : Legal 62 := by decide

theorem reads_cdata {content : Bool} {ph : Phase} {o : List UStr} (hin : InContent content ph o) : ∀ (ps : List UStr) (u : UStr), (∀ c ∈ u, Legal c) → ¬ Occurs (u!! "]]>") u →
    (∀ p ∈ ps, (∀ c ∈ p, Legal c) ∧ ¬ Occurs (u!! "]]>") p) → ∀ {rest : UStr} {es : List Ev}, Reads content ph o rest es →
    Reads content ph o (u!! "<![CDATA[" ++ (u ++ (cdataTail ps ++ rest)))
      (u.map .char ++ ((ps.flatMap (u!! "]]>" ++ ·)).map .char ++ es)) := by
  intro ps
  induction ps with
  | nil =>
    intro u hu ho _ rest es hr
    exact .cons (lex_cdata hu ho rest) (by simp; omega) (step_in hin (nest_chars o u)) hr
  | cons p ps ih =>
    intro u hu ho hps rest es hr
    have hp := hps p (by simp)
    have h1 := ih (62 :: p) (fun c hc => by
      rcases List.mem_cons.1 hc with rfl | hc
      · exact legal_62
      · exact hp.1 c hc) (occurs_gt hp.2) (fun q hq => hps q (by simp [hq])) hr
    have hu2 : ∀ c ∈ u ++ u!! "]]", Legal c := by
      intro c hc
      rcases List.mem_append.1 hc with hc | hc
      · exact hu c hc
      · simp at hc; subst hc; exact legal_93
    have h2 := lex_cdata hu2 (occurs_append_brackets ho)
      (u!! "<![CDATA[" ++ ((62 :: p) ++ (cdataTail ps ++ rest)))
    have h3 := Reads.cons h2 (by simp; omega) (step_in hin (nest_chars o (u ++ u!! "]]"))) h1
    have e1 : u!! "<![CDATA[" ++ (u ++ (cdataTail (p :: ps) ++ rest)) = u!! "<![CDATA[" ++ (u ++ u!! "]]" ++
        (u!! "]]>" ++ (u!! "<![CDATA[" ++ ((62 :: p) ++ (cdataTail ps ++ rest))))) := by
      simp [cdataTail]
    have e2 : u.map Ev.char ++ (((p :: ps).flatMap (u!! "]]>" ++ ·)).map Ev.char ++ es) =
        (u ++ u!! "]]").map Ev.char ++ ((62 :: p).map Ev.char ++ ((ps.flatMap (u!! "]]>" ++ ·)).map .char ++ es)) := by
      simp
    rw [e1, e2]
    exact h3

/-- The pieces make up the data, and none of them contains the separator. -/
theorem splitCdata_spec (s cur : UStr) (h : ∀ x z, cur ++ s = x ++ u!! "]]>" ++ z → cur.length ≤ x.length) :
    ∃ p ps, splitCdata cur s = p :: ps ∧ p ++ ps.flatMap (u!! "]]>" ++ ·) = cur ++ s ∧
      ∀ q ∈ p :: ps, ¬ Occurs (u!! "]]>") q := by
  have small : s.length ≤ 2 → ¬ Occurs (u!! "]]>") (cur ++ s) := by
    rintro hl ⟨a, b, hab⟩
    have h1 := h a b hab
    have := congrArg List.length hab
    simp at this; omega
  match s, h, small with
  | [], h, small =>
    exact ⟨cur, [], rfl, by simp, fun q hq => by simp at hq; subst hq; simpa using small (by simp)⟩
  | [a], h, small =>
    exact ⟨cur ++ [a], [], rfl, by simp, fun q hq => by simp at hq; subst hq; exact small (by simp)⟩
  | [a, b], h, small =>
    exact ⟨cur ++ [a, b], [], rfl, by simp, fun q hq => by simp at hq; subst hq; exact small (by simp)⟩
  | a :: b :: c :: s, h, _ =>
    unfold splitCdata
    by_cases hc : a = 93 ∧ b = 93 ∧ c = 62
    · rw [if_pos hc]
      obtain ⟨p, ps, h1, h2, h3⟩ := splitCdata_spec s [] (by simp)
      refine ⟨cur, p :: ps, by rw [h1], ?_, ?_⟩
      · simp at h2
        simp [hc.1, hc.2.1, hc.2.2, h2]
      · intro q hq
        rcases List.mem_cons.1 hq with rfl | hq
        · rintro ⟨x, y, hxy⟩
          have := h x (y ++ a :: b :: c :: s) (by rw [hxy]; simp)
          rw [hxy] at this
          simp at this
          omega
        · exact h3 q hq
    · rw [if_neg hc]
      obtain ⟨p, ps, h1, h2, h3⟩ := splitCdata_spec (b :: c :: s) (cur ++ [a]) (by
        intro x z hxz
        have h4 : cur ++ a :: b :: c :: s = x ++ u!! "]]>" ++ z := by simpa using hxz
        have h5 := h x z h4
        rcases Nat.lt_or_ge cur.length x.length with h6 | h6
        · simp; omega
        · exfalso
          have h7 : cur.length = x.length := by omega
          rw [List.append_assoc] at h4
          obtain ⟨_, h8⟩ := List.append_inj h4 h7
          simp at h8
          exact hc ⟨h8.1, h8.2.1, h8.2.2.1⟩)
      exact ⟨p, ps, h1, by rw [h2]; simp, h3⟩

end Verif.Write
