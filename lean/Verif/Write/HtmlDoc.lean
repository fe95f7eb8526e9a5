import Verif.Write.HtmlCalls

/-
Reading back a document.
-/
namespace Verif.Write.Html
open Verif Verif.Write Verif.Write.Html.Spec
open Verif.Write.Spec (Legal space skipSpace upTo eol needSpace Phase Raw Occurs LegalText Encodable)

/-- The rest of the input can be read piece by piece. -/
inductive Reads : Phase → List UStr → UStr → List Ev → Prop
  | nil : Reads .root [] [] []
  | ws {ph : Phase} {c : Nat} {s : UStr} {es : List Ev} : space c = true → Reads ph [] s es → Reads ph [] (c :: s) es
  | cons {ph ph' : Phase} {o o' : List UStr} {s r : UStr} {e es : List Ev} : Spec.lex o s = some (e, o', r) →
      r.length < s.length → allowed ph o e = some ph' → (o = [] → ∃ t, s = 60 :: t) → Reads ph' o' r es →
      Reads ph o s (e ++ es)

theorem hreadParts_skip (n : Nat) (ph : Phase) {s t : UStr} (h : skipSpace s = skipSpace t) :
    Spec.readParts n ph [] s = Spec.readParts n ph [] t := by
  cases n with
  | zero => rfl
  | succ n => simp only [Spec.readParts, if_true, h]

theorem reads_html {ph : Phase} {o : List UStr} {s : UStr} {es : List Ev} (h : Reads ph o s es) :
    ∀ n, s.length < n → Spec.readParts n ph o s = some es := by
  induction h with
  | nil =>
    intro n hn
    cases n with
    | zero => omega
    | succ n => simp [Spec.readParts, skipSpace]
  | @ws ph c s es hc _ ih =>
    intro n hn
    rw [hreadParts_skip n ph (t := s) (by unfold skipSpace; rw [List.dropWhile_cons_of_pos hc])]
    exact ih n (by simp at hn; omega)
  | @cons ph ph' o o' s r e es h hl hst htop _ ih =>
    intro n hn
    cases n with
    | zero => omega
    | succ n =>
      have hsk : (if o = [] then skipSpace s else s) = s := by
        split
        · rename_i ho
          obtain ⟨t, rfl⟩ := htop ho
          exact skipSpace_of (by decide)
        · rfl
      have hne : s ≠ [] := by rintro rfl; simp at hl
      rw [Spec.readParts]
      rw [hsk, if_neg hne, h]
      dsimp only
      rw [hst]
      dsimp only
      rw [ih n (by omega)]
      rfl

/-- Without a document type declaration there may be one later. -/
theorem reads_weaken {ph : Phase} {o : List UStr} {s : UStr} {es : List Ev} (h : Reads ph o s es) :
    ph = .afterDoctype → Reads .prolog o s es := by
  induction h with
  | nil => intro h; cases h
  | ws hc _ ih => intro h; exact .ws hc (ih h)
  | @cons ph ph' o o' s r e es h hl hst htop hr ih =>
    rintro rfl
    have : allowed .prolog o e = some ph' ∨ (ph' = .afterDoctype ∧ allowed .prolog o e = some .prolog) := by
      cases o with
      | cons x o =>
        unfold allowed at hst ⊢
        dsimp only at hst ⊢
        split at hst
        · cases hst
        · cases hst; exact Or.inr ⟨rfl, rfl⟩
      | nil =>
        unfold allowed at hst ⊢
        dsimp only at hst ⊢
        split at hst
        · cases hst; exact Or.inr ⟨rfl, rfl⟩
        · cases hst; exact Or.inr ⟨rfl, rfl⟩
        · simp at hst
        · simp at hst; subst hst; simp
        · cases hst
    rcases this with h' | ⟨h1, h2⟩
    · exact .cons h hl h' htop hr
    · exact .cons h hl h2 htop (ih h1)

/-! Text -/

theorem allowed_in {ph : Phase} {o : List UStr} (ho : o ≠ []) {e : List Ev} (he : ∀ n p s, e ≠ [.doctype n p s]) :
    allowed ph o e = some ph := by
  cases o with
  | nil => exact absurd rfl ho
  | cons x o =>
    unfold allowed
    dsimp only
    split
    · exact absurd rfl (he _ _ _)
    · rfl

theorem lex_hchar {o : List UStr} (ho : inCdata o = false) {c : Nat} {t : UStr} (hc : Legal c) (h1 : c ≠ 60) (h2 : c ≠ 38) :
    Spec.lex o (c :: t) = some ([.char c], o, t) := by
  unfold Spec.lex
  simp [ho, h1, h2, hc]

theorem lex_hamp {o : List UStr} (ho : inCdata o = false) {c : Nat} {w t : UStr} (h : AmpTo c w) :
    Spec.lex o (38 :: (w ++ t)) = some ([.char c], o, t) := by
  unfold Spec.lex
  simp [ho, h t]

theorem lex_cdataChar {o : List UStr} (ho : inCdata o = true) {c : Nat} {t : UStr} (hc : Legal c) (h1 : c ≠ 60) :
    Spec.lex o (c :: t) = some ([.char c], o, t) := by
  have h : Py.startsWith (c :: t) (u!! "</") = false := sw_false h1
  unfold Spec.lex
  dsimp only
  rw [h]
  simp [ho, hc]

theorem reads_htext (enc : Codec) {version : UStr} {ph : Phase} {o : List UStr} (ho : o ≠ []) (hc : inCdata o = false)
    (s : UStr) (hs : ∀ c ∈ s, Legal c ∧ Good version c) {rest : UStr} {es : List Ev} (hr : Reads ph o rest es) :
    Reads ph o (s.flatMap (escChar enc (textMap (named version))) ++ rest) (s.map .char ++ es) := by
  induction s with
  | nil => exact hr
  | cons c s ih =>
    have ih := ih (fun x hx => hs x (by simp [hx]))
    have hcc := hs c (by simp)
    rw [List.flatMap_cons, List.append_assoc]
    show Reads ph o _ ([.char c] ++ (s.map .char ++ es))
    rcases text_cases enc hcc.1 hcc.2 with ⟨h1, h2, h3, h4, h5⟩ | ⟨w, h1, h2, _⟩
    · rw [h1]
      exact .cons (lex_hchar hc hcc.1 h2 h4) (by simp) (allowed_in ho (by simp)) (fun h => absurd h ho) ih
    · rw [h1]
      exact .cons (lex_hamp hc h2) (by simp; omega) (allowed_in ho (by simp)) (fun h => absurd h ho) ih

theorem cdata_char {enc : Codec} (ha : ∀ c < 128, enc [c] ≠ none) (version : UStr) {c : Nat}
    (h : c < 128 ∧ c ≠ 60 ∧ c ≠ 62 ∧ c ≠ 38 ∧ c ≠ 13) : escChar enc (textMap (named version)) c = [c] := by
  unfold escChar
  cases hl : (textMap (named version)).lookup c with
  | some r =>
    exfalso
    rcases List.mem_append.1 (lookup_mem hl) with h' | h'
    · simp only [List.mem_cons, Prod.mk.injEq, List.not_mem_nil, or_false] at h'
      omega
    · have := (named_ok h').1; omega
  | none =>
    dsimp only
    rw [if_neg (ha c h.1)]

theorem reads_cdataText {enc : Codec} (ha : ∀ c < 128, enc [c] ≠ none) (version : UStr) {ph : Phase} {o : List UStr}
    (ho : o ≠ []) (hc : inCdata o = true) (s : UStr)
    (hs : ∀ c ∈ s, Legal c ∧ c < 128 ∧ c ≠ 60 ∧ c ≠ 62 ∧ c ≠ 38 ∧ c ≠ 13) {rest : UStr} {es : List Ev}
    (hr : Reads ph o rest es) :
    Reads ph o (s.flatMap (escChar enc (textMap (named version))) ++ rest) (s.map .char ++ es) := by
  induction s with
  | nil => exact hr
  | cons c s ih =>
    have ih := ih (fun x hx => hs x (by simp [hx]))
    have hcc := hs c (by simp)
    rw [List.flatMap_cons, List.append_assoc, cdata_char ha version hcc.2]
    show Reads ph o _ ([.char c] ++ (s.map .char ++ es))
    exact .cons (lex_cdataChar hc hcc.1 hcc.2.2.1) (by simp) (allowed_in ho (by simp)) (fun h => absurd h ho) ih

/-! The texts of calls -/

theorem attrOps_text (wide : Bool) (enc : Codec) (nm : EntityMap) {b : UStr × Option UStr}
    (h : ∀ v, b.2 = some v → LegalText wide v) : hopsText wide enc (attrOps nm b) = hattrText enc nm b := by
  obtain ⟨n, v⟩ := b
  cases v with
  | none => simp [attrOps, hopsText, hopText, opText, hattrText, valText]
  | some v =>
    have hs := sanitize_of (h v rfl)
    unfold attrOps hattrText valText
    dsimp only
    split
    · simp [hopsText, hopText, opText, hs]
    · simp [hopsText, hopText, opText, hs]

theorem attrsOps_text (wide : Bool) (enc : Codec) (nm : EntityMap) (bs : List (UStr × Option UStr))
    (h : ∀ b ∈ bs, ∀ v, b.2 = some v → LegalText wide v) :
    hopsText wide enc (bs.flatMap (attrOps nm)) = bs.flatMap (hattrText enc nm) := by
  induction bs with
  | nil => rfl
  | cons b bs ih =>
    rw [List.flatMap_cons, List.flatMap_cons, hopsText_append, attrOps_text wide enc nm (h b (by simp)),
      ih (fun x hx => h x (by simp [hx]))]

theorem start_text (wide : Bool) (enc : Codec) {p : HPrinter} (hp : p.elementName = none) (n : UStr)
    (as : List (UStr × UStr)) (h : ∀ b ∈ as.map (translate (toLower n)), ∀ v, b.2 = some v → LegalText wide v) :
    hopsText wide enc (htmlStart p n [] as).1 =
      60 :: (n ++ ((as.map (translate (toLower n))).flatMap (hattrText enc p.named) ++ [62])) := by
  have h1 : (htmlStart p n [] as).1 = [.base (.ascii (u!! "<")), .base (.encode n)] ++
      ((as.map (translate (toLower n))).flatMap (attrOps p.named) ++ [.base (.ascii (u!! ">"))]) := by
    simp [htmlStart, xmlStart, hp, truthy]
  rw [h1, hopsText_append, hopsText_append, attrsOps_text wide enc p.named _ h]
  simp [hopsText, hopText, opText]

theorem doctype_text (wide : Bool) (enc : Codec) {p : HPrinter} (hp : p.elementName = none) (n : UStr)
    (pub sys : Option UStr) : hopsText wide enc (doctypeCall p n pub sys).1 =
      if given pub = none ∧ given sys = none then []
      else u!! "<!DOCTYPE " ++ (n ++ 32 :: (idsText (given pub) (given sys) ++ [10])) := by
  have hc : closeTag p = ([], p) := by unfold closeTag; rw [hp]; rfl
  unfold doctypeCall
  rw [hc]
  match pub, sys with
  | none, none => simp [truthy, given, bases, doctypeOps]
  | none, some [] => simp [truthy, given, bases, doctypeOps]
  | some [], none => simp [truthy, given, bases, doctypeOps]
  | some [], some [] => simp [truthy, given, bases, doctypeOps]
  | none, some (a :: b) => simp [truthy, given, bases, doctypeOps, idsText, hopsText, hopText, opText]
  | some [], some (a :: b) => simp [truthy, given, bases, doctypeOps, idsText, hopsText, hopText, opText]
  | some (a :: b), none => simp [truthy, given, bases, idsText, hopsText, hopText, opText]
  | some (a :: b), some [] => simp [truthy, given, bases, idsText, hopsText, hopText, opText]
  | some (a :: b), some (c :: d) => simp [truthy, given, bases, doctypeOps, idsText, hopsText, hopText, opText]

/-! Sequences of calls -/

/-- The elements that are open for the reader: not those that have no end tag. -/
def strip : List UStr → List UStr
  | n :: o => if isVoid n then o else n :: o
  | [] => []

/-- The end of an element without an end tag has already been read. -/
def pre : List UStr → List Ev
  | n :: _ => if isVoid n then [.stop n] else []
  | [] => []

theorem strip_of {o : List UStr} (h : o.head?.any isVoid = false) : strip o = o ∧ pre o = [] := by
  cases o with
  | nil => exact ⟨rfl, rfl⟩
  | cons n o =>
    have h : isVoid n = false := h
    simp [strip, pre, h]

theorem forbidden_iff {n : UStr} (h : Spec.isName n = true) : forbiddenEnd.contains (toLower n) = isVoid n := by
  rw [toLower_name (hname_ascii h)]; rfl

theorem hcalls_cons (wide : Bool) (enc : Codec) (p : HPrinter) (c : HCall) (cs : List HCall) :
    hopsText wide enc (p.calls (c :: cs)) =
      hopsText wide enc (p.call c).1 ++ hopsText wide enc ((p.call c).2.calls cs) := by
  rw [HPrinter.calls, hopsText_append]

theorem given_some {p : Option UStr} {x : UStr} (h : given p = some x) : p = some x := by
  match p, h with
  | some (a :: b), h => exact h

theorem reads_hcalls (wide : Bool) {enc : Codec} (ha : ∀ c < 128, enc [c] ≠ none) (version : UStr) :
    ∀ (cs : List HCall) (p : HPrinter) (ph : Phase) (o : List UStr), p.named = named version → p.elementName = none →
    (∀ c ∈ cs, LegalCall wide c ∧ GoodCall version c) → DocCalls ph o cs → PlainCdata o cs →
    (o ≠ [] → ph = .root) → (∀ n ∈ o, Spec.isName n = true) → (∀ n ∈ o.tail, isVoid n = false) →
    ∃ es, Reads ph (strip o) (hopsText wide enc (p.calls cs)) es ∧ Wanted cs (pre o ++ es) := by
  intro cs
  induction cs with
  | nil =>
    intro p ph o _ _ _ hd _ _ _ _
    obtain ⟨rfl, rfl⟩ := hd
    exact ⟨[], .nil, rfl⟩
  | cons c cs ih =>
    intro p ph o hp he hcs hd hpl hph hon hot
    have hc := hcs c (by simp)
    have hcs' : ∀ c ∈ cs, LegalCall wide c ∧ GoodCall version c := fun x hx => hcs x (by simp [hx])
    have hclose : closeTag p = ([], p) := by unfold closeTag; rw [he]; rfl
    rw [hcalls_cons]
    cases c with
    | startDocument v => exact hd.elim
    | rawText s => exact hd.elim
    | endDocument =>
      obtain ⟨rfl, rfl, rfl⟩ := hd
      have h1 : (p.call .endDocument).1 = [] := by simp [HPrinter.call, he, truthy]
      rw [h1]
      exact ⟨[], .nil, rfl⟩
    | startElement ns n nsdecls as =>
      obtain ⟨⟨rfl, rfl, hn, has⟩, hgood⟩ := hc
      obtain ⟨hph', hv, hcd, hd⟩ := hd
      obtain ⟨hw, hok⟩ := translates_ok (version := version) hn (fun a h => ⟨has a h, hgood a h⟩)
      obtain ⟨hst, hpre⟩ := strip_of hv
      have htext := start_text wide enc he n as (fun b hb v hv => (hok b hb).2.2 v hv |>.1)
      have hcall : p.call (.startElement none n [] as) = htmlStart p n [] as := rfl
      have hp' : (htmlStart p n [] as).2.named = named version ∧ (htmlStart p n [] as).2.elementName = none := ⟨hp, rfl⟩
      have hot' : ∀ m ∈ (n :: o).tail, isVoid m = false := by
        intro m hm
        have hm : m ∈ o := hm
        cases o with
        | nil => cases hm
        | cons x o =>
          rcases List.mem_cons.1 hm with rfl | hm
          · exact hv
          · exact hot m hm
      obtain ⟨es, hr, hwant⟩ := ih (htmlStart p n [] as).2 .root (n :: o) hp'.1 hp'.2 hcs' hd hpl (fun _ => rfl)
        (fun m hm => by rcases List.mem_cons.1 hm with rfl | hm; exact hn; exact hon m hm) hot'
      rw [hcall, htext, hst, hpre, hp]
      generalize hT : hopsText wide enc ((htmlStart p n [] as).2.calls cs) = rest at hr
      have hlex := lex_start (ha 123 (by decide)) hn hok hcd rest
      have hall : ∀ es', allowed ph o (.start n (as.map (translate (toLower n))) :: es') = some .root := by
        intro es'
        cases o with
        | nil =>
          unfold allowed
          dsimp only
          rw [if_neg (hph' rfl)]
        | cons x o => rw [hph (by simp)]; exact allowed_in (by simp) (by simp)
      have htl : 60 :: (n ++ ((as.map (translate (toLower n))).flatMap (hattrText enc (named version)) ++ [62])) ++ rest =
          60 :: (n ++ ((as.map (translate (toLower n))).flatMap (hattrText enc (named version)) ++ 62 :: rest)) := by
        simp
      rw [htl]
      cases hvn : isVoid n with
      | true =>
        rw [hvn, if_pos rfl] at hlex
        simp only [strip, pre, hvn, if_true] at hr hwant
        exact ⟨_, .cons hlex (by simp; omega) (hall _) (fun _ => ⟨_, rfl⟩) hr, _, _, rfl, hw, hwant⟩
      | false =>
        rw [hvn, if_neg (by simp)] at hlex
        simp only [strip, pre, hvn, Bool.false_eq_true, if_false, List.nil_append] at hr hwant
        exact ⟨_, .cons hlex (by simp; omega) (hall _) (fun _ => ⟨_, rfl⟩) hr, _, _, rfl, hw, hwant⟩
    | endElement ns n =>
      have : ns = none := hc.1
      subst this
      obtain ⟨o', rfl, hd⟩ := hd
      have hn := hon n (by simp)
      have hv' : o'.head?.any isVoid = false := by
        cases o' with
        | nil => rfl
        | cons x o' => exact hot x (by simp)
      obtain ⟨hst, hpre⟩ := strip_of hv'
      have hph' := hph (by simp)
      subst hph'
      obtain ⟨es, hr, hwant⟩ := ih (htmlEnd p n).2 .root o' hp he hcs' hd hpl (fun _ => rfl)
        (fun m hm => hon m (by simp [hm])) (fun m hm => hot m (List.mem_of_mem_tail hm))
      rw [hst] at hr
      rw [hpre, List.nil_append] at hwant
      have hcall : p.call (.endElement none n) = htmlEnd p n := rfl
      rw [hcall]
      have hops : (htmlEnd p n).1 = if isVoid n then [] else bases [.ascii (u!! "</"), .encode n, .ascii (u!! ">")] := by
        unfold htmlEnd; rw [forbidden_iff hn]
      rw [hops]
      cases hvn : isVoid n with
      | true =>
        simp only [strip, pre, hvn, if_true]
        exact ⟨es, hr, _, rfl, hwant⟩
      | false =>
        simp only [strip, pre, hvn, Bool.false_eq_true, if_false]
        generalize hT : hopsText wide enc ((htmlEnd p n).2.calls cs) = rest at hr
        have ht : hopsText wide enc (bases [.ascii (u!! "</"), .encode n, .ascii (u!! ">")]) ++ rest =
            60 :: 47 :: (n ++ 62 :: rest) := by
          simp [hopsText_bases, opsText, opText]
        rw [ht]
        exact ⟨[.stop n] ++ es, .cons (lex_stop hn o' rest) (by simp; omega) (allowed_in (by simp) (by simp))
          (fun h => by cases h) hr, es, rfl, hwant⟩
    | text s =>
      obtain ⟨ho, hv, hd⟩ := hd
      obtain ⟨hst, hpre⟩ := strip_of hv
      have hcall : p.call (.text s) = ([.base (.escape s (textMap p.named))], p) := by
        simp [HPrinter.call, hclose]
      rw [hcall, hp]
      obtain ⟨es, hr, hwant⟩ := ih p ph o hp he hcs' hd hpl.2 hph hon hot
      rw [hst] at hr ⊢
      rw [hpre] at hwant ⊢
      simp only [List.nil_append] at hwant ⊢
      have hlt : LegalText wide s := hc.1
      have ht : hopsText wide enc [.base (.escape s (textMap (named version)))] =
          s.flatMap (escChar enc (textMap (named version))) := by
        simp [hopsText, hopText, opText, sanitize_of hlt]
      rw [ht]
      refine ⟨s.map .char ++ es, ?_, es, rfl, hwant⟩
      cases hcd : inCdata o with
      | true => exact reads_cdataText ha version ho hcd s (fun c h => ⟨(hlt c h).1, hpl.1 hcd c h⟩) hr
      | false => exact reads_htext enc ho hcd s (fun c h => ⟨(hlt c h).1, hc.2 c h⟩) hr
    | comment s =>
      obtain ⟨hv, hcd, hd⟩ := hd
      obtain ⟨hst, hpre⟩ := strip_of hv
      have hcall : p.call (.comment s) = (bases [.ascii (u!! "<!--"), .encode s, .ascii (u!! "-->")], p) := by
        simp [HPrinter.call, hclose]
      rw [hcall]
      obtain ⟨es, hr, hwant⟩ := ih p ph o hp he hcs' hd hpl hph hon hot
      rw [hst] at hr ⊢
      rw [hpre] at hwant ⊢
      simp only [List.nil_append] at hwant ⊢
      generalize hopsText wide enc (p.calls cs) = rest at hr
      have ht : hopsText wide enc (bases [.ascii (u!! "<!--"), .encode s, .ascii (u!! "-->")]) ++ rest =
          u!! "<!--" ++ (s ++ (u!! "-->" ++ rest)) := by
        simp [hopsText_bases, opsText, opText]
      rw [ht]
      refine ⟨[.comment s] ++ es, .cons (lex_hcomment hcd hc.1.1 hc.1.2 rest) (by simp; omega) ?_ (fun _ => ⟨_, rfl⟩) hr,
        es, rfl, hwant⟩
      cases o with
      | nil => rfl
      | cons x o => exact allowed_in (by simp) (by simp)
    | pi t d =>
      obtain ⟨hv, hcd, hd⟩ := hd
      obtain ⟨hst, hpre⟩ := strip_of hv
      obtain ⟨h1, h2, h3, h4⟩ := hc.1
      have hcall : p.call (.pi t d) = (bases (piOps t d), p) := by
        simp [HPrinter.call, hclose]
      rw [hcall]
      obtain ⟨es, hr, hwant⟩ := ih p ph o hp he hcs' hd hpl hph hon hot
      rw [hst] at hr ⊢
      rw [hpre] at hwant ⊢
      simp only [List.nil_append] at hwant ⊢
      generalize hopsText wide enc (p.calls cs) = rest at hr
      have hall : ∀ x, allowed ph o [.pi x] = some ph := by
        intro x
        cases o with
        | nil => rfl
        | cons x o => exact allowed_in (by simp) (by simp)
      cases d with
      | nil =>
        have ht : hopsText wide enc (bases (piOps t [])) ++ rest = u!! "<?" ++ (t ++ 62 :: rest) := by
          simp [hopsText_bases, opsText, opText, piOps]
        rw [ht]
        exact ⟨[.pi t] ++ es, .cons (lex_hpi hcd h1 h3 rest) (by simp; omega) (hall _) (fun _ => ⟨_, rfl⟩) hr,
          es, rfl, hwant⟩
      | cons a d =>
        have ht : hopsText wide enc (bases (piOps t (a :: d))) ++ rest = u!! "<?" ++ ((t ++ 32 :: a :: d) ++ 62 :: rest) := by
          simp [hopsText_bases, opsText, opText, piOps]
        rw [ht]
        refine ⟨[.pi (t ++ 32 :: a :: d)] ++ es, .cons (lex_hpi hcd ?_ ?_ rest) (by simp; omega) (hall _)
          (fun _ => ⟨_, rfl⟩) hr, es, rfl, hwant⟩
        · intro x hx
          rcases List.mem_append.1 hx with hx | hx
          · exact h1 x hx
          · rcases List.mem_cons.1 hx with rfl | hx
            · exact ⟨by decide, by decide⟩
            · exact h2 x hx
        · intro hx
          rcases List.mem_append.1 hx with hx | hx
          · exact h3 hx
          · rcases List.mem_cons.1 hx with hx | hx
            · cases hx
            · exact h4 hx
    | doctype n pub sys =>
      obtain ⟨rfl, rfl, hd⟩ := hd
      obtain ⟨hn, hpub, hsys⟩ := hc.1
      have hcall : p.call (.doctype n pub sys) = ((doctypeCall p n pub sys).1, p) := by
        show doctypeCall p n pub sys = _
        have : (doctypeCall p n pub sys).2 = p := by
          unfold doctypeCall
          split
          · rfl
          · rw [hclose]
        exact Prod.ext rfl this
      rw [hcall, doctype_text wide enc he]
      obtain ⟨es, hr, hwant⟩ := ih p .afterDoctype [] hp he hcs' hd hpl (by simp) hon hot
      have hr : Reads .afterDoctype [] (hopsText wide enc (p.calls cs)) es := hr
      have hwant : Wanted cs es := hwant
      show ∃ es, Reads .prolog [] _ es ∧ Wanted _ es
      generalize hopsText wide enc (p.calls cs) = rest at hr
      split
      · rename_i hg
        refine ⟨es, reads_weaken hr rfl, ?_⟩
        rw [Wanted, if_pos hg]
        exact hwant
      · rename_i hg
        have ht : u!! "<!DOCTYPE " ++ (n ++ 32 :: (idsText (given pub) (given sys) ++ [10])) ++ rest =
            u!! "<!DOCTYPE " ++ (n ++ 32 :: (idsText (given pub) (given sys) ++ 10 :: rest)) := by simp
        rw [ht]
        refine ⟨[.doctype n (given pub) (given sys)] ++ es, .cons (lex_hdoctype rfl hn hg
          (fun x hx => (hpub x (given_some hx)).2) (fun x hx => (hsys x (given_some hx)).2) (10 :: rest)) (by simp; omega)
          rfl (fun _ => ⟨_, rfl⟩) (.ws (by decide) hr), ?_⟩
        rw [Wanted, if_neg hg]
        exact ⟨es, rfl, hwant⟩

end Verif.Write.Html
