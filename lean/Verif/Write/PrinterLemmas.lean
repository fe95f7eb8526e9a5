import Verif.Write.Spec
import Verif.Write.TokenLemmas

/-
What a printer writes for a sequence of calls can be read back.
-/
namespace Verif.Write
open Verif Verif.Write.Spec

/-- What the printer really writes: the attributes in the order of `tagAttrs`. -/
def written (canonical : Bool) : Call → List Ev
  | .startElement name nsdecls attrs => [.start name (tagAttrs canonical nsdecls attrs)]
  | c => expected c

/-- Calls in their right places; see `DocCalls`. -/
def Shape (content : Bool) : Phase → List UStr → List Call → Prop
  | ph, o, [] => (content = false → ph = .root) ∧ o = []
  | ph, o, .startElement n _ _ :: cs =>
    (content = false → o = [] → ph ≠ .root) ∧ Shape content (if content then ph else .root) (n :: o) cs
  | ph, o, .endElement n :: cs => ∃ o', o = n :: o' ∧ Shape content ph o' cs
  | ph, o, .text _ :: cs | ph, o, .cdata _ :: cs => (content = false → o ≠ []) ∧ Shape content ph o cs
  | ph, o, .pi _ _ :: cs | ph, o, .comment _ :: cs => Shape content ph o cs
  | ph, o, .doctype _ _ _ :: cs => content = false ∧ ph = .prolog ∧ o = [] ∧ Shape content .afterDoctype [] cs
  | ph, o, .endDocument :: cs => (content = false → ph = .root) ∧ o = [] ∧ cs = []
  | _, _, .startDocument _ :: _ | _, _, .rawText _ :: _ => False

def Part (wide canonical : Bool) (c : Call) : Prop :=
  (LegalCall wide c ∨ LegalDoctype c ∨ c = .endDocument) ∧ (canonical = true → CanonicalCall c)

theorem legalXmlChar_of {wide : Bool} {c : Nat} (h : Legal c ∧ (wide = true ∨ c < 0x10000)) :
    legalXmlChar wide c = true := by
  obtain ⟨h1, h2⟩ := h
  unfold Legal at h1
  simp only [legalXmlChar, legalUcs2, Bool.or_eq_true, Bool.and_eq_true, decide_eq_true_eq]
  rcases h2 with rfl | h2
  · simp only [true_and]; omega
  · omega

theorem sanitize_of {wide : Bool} {s : UStr} (h : LegalText wide s) : sanitize wide s = s := by
  unfold sanitize
  induction s with
  | nil => rfl
  | cons c s ih =>
    rw [List.map_cons, ih (fun x hx => h x (by simp [hx])), if_pos (legalXmlChar_of (h c (by simp)))]

theorem legal_of {wide : Bool} {s : UStr} (h : LegalText wide s) : ∀ c ∈ s, Legal c :=
  fun c hc => (h c hc).1

theorem truthy_name {n : UStr} (h : isName n = true) : truthy (some n) = true := by
  obtain ⟨c, s, rfl, _⟩ := name_cons h; rfl

theorem closeTag_none {p : Printer} (h : p.elementName = none) : closeTag p = ([], p) := by
  unfold closeTag; rw [h]; rfl

/-! The text of each call -/

theorem opsText_attr (wide : Bool) (enc : Codec) (canonical : Bool) {a : UStr × UStr} (h : LegalText wide a.2) :
    opsText wide enc (attrOps canonical a) = attrText enc canonical a := by
  simp [opsText, attrOps, opText, attrText, escText, sanitize_of h]

theorem opsText_attrs (wide : Bool) (enc : Codec) (canonical : Bool) {as : List (UStr × UStr)}
    (h : ∀ a ∈ as, LegalText wide a.2) :
    opsText wide enc (as.flatMap (attrOps canonical)) = as.flatMap (attrText enc canonical) := by
  induction as with
  | nil => rfl
  | cons a as ih =>
    rw [List.flatMap_cons, List.flatMap_cons, opsText_append, ih (fun x hx => h x (by simp [hx])),
      opsText_attr wide enc canonical (h a (by simp))]

theorem opsText_cdataRest (wide : Bool) (enc : Codec) (ps : List UStr) :
    opsText wide enc (cdataRest ps) ++ u!! "]]>" = cdataTail ps := by
  induction ps with
  | nil => rfl
  | cons p ps ih =>
    rw [cdataRest, opsText_cons, opsText_cons, cdataTail, ← ih]
    simp [opText]

theorem opsText_cdata (wide : Bool) (enc : Codec) (s : UStr) : ∃ p ps,
    splitCdata [] s = p :: ps ∧ p ++ ps.flatMap (u!! "]]>" ++ ·) = s ∧ (∀ q ∈ p :: ps, ¬ Occurs (u!! "]]>") q) ∧
    opsText wide enc (cdataOps false s) = u!! "<![CDATA[" ++ (p ++ cdataTail ps) := by
  obtain ⟨p, ps, h1, h2, h3⟩ := splitCdata_spec s [] (by simp)
  refine ⟨p, ps, h1, h2, h3, ?_⟩
  unfold cdataOps
  rw [if_neg (by simp), h1]
  dsimp only
  rw [← opsText_cdataRest wide enc ps, List.cons_append, List.cons_append, opsText_cons, opsText_cons, opsText_append]
  simp [opText, opsText]

/-! Attributes -/

theorem strPerm_insert (x : UStr × UStr) (l : List (UStr × UStr)) : (insertPair x l).Perm (x :: l) := by
  induction l with
  | nil => exact .refl _
  | cons y l ih =>
    unfold insertPair
    split
    · exact .refl _
    · exact (List.Perm.cons y ih).trans (List.Perm.swap x y l)

theorem sortPairs_perm (l : List (UStr × UStr)) : (sortPairs l).Perm l := by
  induction l with
  | nil => exact .refl _
  | cons x l ih => exact (strPerm_insert x _).trans (ih.cons x)

theorem nsAttr_eq (d : Option UStr × UStr) : nsAttr d = (declName d.1, d.2) := by
  obtain ⟨p, u⟩ := d
  cases p with
  | none => rfl
  | some p => cases p <;> rfl

theorem tagAttrs_perm (canonical : Bool) (nsdecls : List (Option UStr × UStr)) (attrs : List (UStr × UStr)) :
    (tagAttrs canonical nsdecls attrs).Perm (nsdecls.map (fun d => (declName d.1, d.2)) ++ attrs) := by
  have h : nsdecls.map nsAttr = nsdecls.map (fun d => (declName d.1, d.2)) :=
    List.map_congr_left fun d _ => nsAttr_eq d
  unfold tagAttrs
  split
  · rw [h]; exact (sortPairs_perm _).append (sortPairs_perm _)
  · rw [h]

theorem tagAttrs_ok {wide canonical : Bool} {name : UStr} {nsdecls : List (Option UStr × UStr)}
    {attrs : List (UStr × UStr)} (h : LegalCall wide (.startElement name nsdecls attrs)) :
    (∀ a ∈ tagAttrs canonical nsdecls attrs, isName a.1 = true ∧ LegalText wide a.2) ∧
    ((tagAttrs canonical nsdecls attrs).map (·.1)).Nodup := by
  obtain ⟨_, h2, h3, h4⟩ := h
  have hp := tagAttrs_perm canonical nsdecls attrs
  constructor
  · intro a ha
    rcases List.mem_append.1 (hp.mem_iff.1 ha) with ha | ha
    · obtain ⟨d, hd, rfl⟩ := List.mem_map.1 ha
      exact h2 d hd
    · exact h3 a ha
  · have := (hp.map (·.1)).nodup_iff.2 (by
      rw [List.map_append, List.map_map]; exact h4)
    exact this

/-! Reading back -/

theorem calls_cons (wide : Bool) (enc : Codec) (p : Printer) (c : Call) (cs : List Call) :
    opsText wide enc (p.calls (c :: cs)) =
      opsText wide enc (p.call c).1 ++ opsText wide enc ((p.call c).2.calls cs) := by
  rw [Printer.calls, opsText_append]

/-- An open start-tag is closed by `>` before anything but an end-tag. -/
theorem pending_gt (wide : Bool) (enc : Codec) {p : Printer} {name : UStr} (hn : isName name = true)
    (hp : p.elementName = none) {c : Call} (cs : List Call)
    (hc : p.canonical = true ∨ ∀ m, c ≠ .endElement m)
    (hok : (∃ w, LegalCall w c) ∨ (p.canonical = false ∧ ∃ a b d, c = .doctype a b d)) :
    opsText wide enc ({ p with elementName := some name }.calls (c :: cs)) =
      62 :: opsText wide enc (p.calls (c :: cs)) := by
  obtain ⟨can, en, om, el⟩ := p
  cases hp
  have ht := truthy_name hn
  have hc1 : closeTag ⟨can, en, om, some name⟩ = ([.ascii (u!! ">")], ⟨can, en, om, none⟩) := by
    unfold closeTag
    rw [if_pos ht]
  have hc2 : closeTag ⟨can, en, om, none⟩ = ([], ⟨can, en, om, none⟩) := rfl
  have htn : truthy none = false := rfl
  rw [calls_cons, calls_cons]
  cases c with
  | startDocument sa => rcases hok with ⟨w, h⟩ | ⟨_, a, b, d, h⟩ <;> cases h
  | endDocument => rcases hok with ⟨w, h⟩ | ⟨_, a, b, d, h⟩ <;> cases h
  | rawText sa => rcases hok with ⟨w, h⟩ | ⟨_, a, b, d, h⟩ <;> cases h
  | doctype a b d =>
    rcases hok with ⟨w, h⟩ | ⟨h, _⟩
    · cases h
    · cases h
      simp only [Printer.call, Bool.false_eq_true, if_false, hc1, hc2]
      simp [opsText, opText]
  | startElement n ns as =>
    simp only [Printer.call, ht, htn, if_true]
    simp [opsText, opText]
  | endElement m =>
    cases hc.resolve_right fun h => h m rfl
    simp only [Printer.call, ht, htn, if_true]
    simp [opsText, opText]
  | text s => simp only [Printer.call, hc1, hc2]; simp [opsText, opText]
  | cdata s => simp only [Printer.call, hc1, hc2]; simp [opsText, opText]
  | pi t d => simp only [Printer.call, hc1, hc2]; simp [opsText, opText]
  | comment s => simp only [Printer.call, hc1, hc2]; simp [opsText, opText]

theorem step_start {content : Bool} {ph : Phase} {o : List UStr} (n : UStr) (as : List (UStr × UStr))
    (h1 : content = false → o ≠ [] → ph = .root) (h2 : content = false → o = [] → ph ≠ .root) (e : Bool) :
    step content ph o (.start n as :: (if e then [.stop n] else [])) =
      some (if content then ph else .root, if e then o else n :: o) := by
  have hn : nest o (.start n as :: (if e then [.stop n] else [])) = some (if e then o else n :: o) := by
    cases e
    · rw [nest]; rfl
    · rw [nest]; simp [nest]
  unfold step
  cases content with
  | true => simp [hn]
  | false =>
    simp only [Bool.false_eq_true, if_false]
    unfold advance
    cases o with
    | nil =>
      dsimp only
      rw [if_neg (h2 rfl rfl), hn]; rfl
    | cons x o => dsimp only; rw [hn]; rfl

theorem step_stop {content : Bool} {ph : Phase} {o : List UStr} (n : UStr) (h1 : content = false → ph = .root) :
    step content ph (n :: o) [.stop n] = some (ph, o) := by
  have hn : nest (n :: o) [.stop n] = some o := by simp [nest]
  exact step_in (by
    cases content with
    | true => exact Or.inl rfl
    | false => exact Or.inr ⟨by simp, h1 rfl⟩) hn

theorem step_misc {content : Bool} {ph : Phase} {o : List UStr} {e : Ev} (h1 : content = false → o ≠ [] → ph = .root)
    (he : (∃ s, e = .comment s) ∨ ∃ t d, e = .pi t d) : step content ph o [e] = some (ph, o) := by
  have hn : nest o [e] = some o := by
    rcases he with ⟨s, rfl⟩ | ⟨t, d, rfl⟩ <;> cases o <;> simp [nest]
  unfold step
  cases content with
  | true => simp [hn]
  | false =>
    simp only [Bool.false_eq_true, if_false]
    unfold advance
    cases o with
    | nil => rcases he with ⟨s, rfl⟩ | ⟨t, d, rfl⟩ <;> rfl
    | cons x o => dsimp only; rw [hn, h1 rfl (by simp)]; rfl

/-- What a printer writes can be read back, if there is no open start-tag. -/
theorem reads_calls (wide : Bool) (enc : Codec) (content : Bool) (n : Nat) : ∀ (cs : List Call), cs.length ≤ n →
    ∀ (p : Printer) (ph : Phase) (o : List UStr), p.elementName = none → (∀ c ∈ cs, Part wide p.canonical c) →
    Shape content ph o cs → (∀ x ∈ o, isName x = true) → (content = false → o ≠ [] → ph = .root) →
    Reads content ph o (opsText wide enc (p.calls cs)) (cs.flatMap (written p.canonical)) ∧
      Safe (opsText wide enc (p.calls cs)) := by
  induction n with
  | zero =>
    intro cs hl p ph o hp hcs hsh ho hr
    cases cs with
    | nil =>
      obtain ⟨h1, rfl⟩ := hsh
      exact ⟨.nil h1, safe_nil⟩
    | cons c cs => simp at hl
  | succ n ih =>
    intro cs hl p ph o hp hcs hsh ho hr
    cases cs with
    | nil =>
      obtain ⟨h1, rfl⟩ := hsh
      exact ⟨.nil h1, safe_nil⟩
    | cons c cs =>
      simp at hl
      have hin : (content = false → o ≠ []) → InContent content ph o := by
        intro h
        cases content with
        | true => exact Or.inl rfl
        | false => exact Or.inr ⟨h rfl, hr rfl (h rfl)⟩
      have hcs' : ∀ x ∈ cs, Part wide p.canonical x := fun x hx => hcs x (by simp [hx])
      have hpc := hcs c (by simp)
      have hct := closeTag_none hp
      have htn : truthy p.elementName = false := by rw [hp]; rfl
      rw [List.flatMap_cons]
      cases c with
      | startDocument sa => cases hsh
      | rawText s => cases hsh
      | endDocument =>
        obtain ⟨h1, rfl, rfl⟩ := hsh
        have : opsText wide enc (p.calls [.endDocument]) = [] := by
          simp [Printer.calls, Printer.call, htn]
        rw [this]
        exact ⟨.nil h1, safe_nil⟩
      | text s =>
        have hls : LegalText wide s := by
          rcases hpc.1 with h | h | h
          · exact h
          · cases h
          · cases h
        obtain ⟨h1, h2⟩ := hsh
        obtain ⟨ih1, ih2⟩ := ih cs hl p ph o hp hcs' h2 ho hr
        have : opsText wide enc (p.calls (.text s :: cs)) =
            escText enc textEntities s ++ opsText wide enc (p.calls cs) := by
          rw [calls_cons]
          simp [Printer.call, hct, opsText, opText, sanitize_of hls, escText]
        rw [this]
        exact ⟨reads_text enc (hin h1) s (legal_of hls) ih1 ih2,
          safe_append (fun h => (escText_no enc (legal_of hls) 62 h).2.1 rfl) ih2⟩
      | cdata s =>
        have hls : Raw s := by
          rcases hpc.1 with h | h | h
          · exact h
          · cases h
          · cases h
        have hcan : p.canonical = false := by
          cases hc : p.canonical with
          | false => rfl
          | true => exact absurd (hpc.2 hc) (by simp [CanonicalCall])
        obtain ⟨h1, h2⟩ := hsh
        obtain ⟨ih1, ih2⟩ := ih cs hl p ph o hp hcs' h2 ho hr
        obtain ⟨q, qs, _, hq2, hq3, hq4⟩ := opsText_cdata wide enc s
        have : opsText wide enc (p.calls (.cdata s :: cs)) =
            u!! "<![CDATA[" ++ (q ++ (cdataTail qs ++ opsText wide enc (p.calls cs))) := by
          rw [calls_cons]
          simp only [Printer.call, hct, hcan, List.nil_append, hq4, List.append_assoc]
        rw [this]
        have hsub : ∀ x ∈ q :: qs, ∀ c ∈ x, c ∈ s := by
          intro x hx c hc
          rw [← hq2]
          rcases List.mem_cons.1 hx with rfl | hx
          · exact List.mem_append_left _ hc
          · exact List.mem_append_right _ (List.mem_flatMap.2 ⟨x, hx, List.mem_append_right _ hc⟩)
        have hrd := reads_cdata (hin h1) qs q (fun c hc => (hls c (hsub q (by simp) c hc)).1) (hq3 q (by simp))
          (fun x hx => ⟨fun c hc => (hls c (hsub x (by simp [hx]) c hc)).1, hq3 x (by simp [hx])⟩) ih1
        refine ⟨?_, safe_lt _⟩
        have he : q.map Ev.char ++ ((qs.flatMap (u!! "]]>" ++ ·)).map Ev.char ++ cs.flatMap (written p.canonical)) =
            written p.canonical (.cdata s) ++ cs.flatMap (written p.canonical) := by
          rw [← List.append_assoc, ← List.map_append, hq2]; rfl
        rw [← he]
        exact hrd
      | comment s =>
        have hls : Raw s ∧ ¬ Occurs (u!! "--") (s ++ u!! "-") := by
          rcases hpc.1 with h | h | h
          · exact h
          · cases h
          · cases h
        obtain ⟨ih1, ih2⟩ := ih cs hl p ph o hp hcs' hsh ho hr
        have : opsText wide enc (p.calls (.comment s :: cs)) =
            u!! "<!--" ++ (s ++ (u!! "-->" ++ opsText wide enc (p.calls cs))) := by
          rw [calls_cons]
          simp [Printer.call, hct, opsText, opText]
        rw [this]
        exact ⟨.cons (lex_comment hls.1 hls.2 _) (by simp; omega) (step_misc hr (Or.inl ⟨s, rfl⟩)) ih1, safe_lt _⟩
      | pi t d =>
        have hls : LegalCall wide (.pi t d) := by
          rcases hpc.1 with h | h | h
          · exact h
          · cases h
          · cases h
        obtain ⟨hl1, hl2, hl3, hl4, hl5⟩ := hls
        obtain ⟨ih1, ih2⟩ := ih cs hl p ph o hp hcs' hsh ho hr
        have : opsText wide enc (p.calls (.pi t d :: cs)) =
            u!! "<?" ++ (t ++ ((if d.isEmpty then [] else 32 :: d) ++ (u!! "?>" ++ opsText wide enc (p.calls cs)))) := by
          rw [calls_cons]
          cases d <;> simp [Printer.call, hct, opsText, opText, piOps]
        rw [this]
        exact ⟨.cons (lex_pi hl1 hl2 hl3 hl4 hl5 _) (by simp; omega) (step_misc hr (Or.inr ⟨t, d, rfl⟩)) ih1, safe_lt _⟩
      | doctype name pub sys =>
        have hcan : p.canonical = false := by
          cases hc : p.canonical with
          | false => rfl
          | true => exact absurd (hpc.2 hc) (by simp [CanonicalCall])
        have hls : LegalDoctype (.doctype name pub sys) := by
          rcases hpc.1 with h | h | h
          · cases h
          · exact h
          · cases h
        obtain ⟨hl1, hl2, s, rfl, hs1, hs2, hs3⟩ := hls
        obtain ⟨rfl, rfl, rfl, h4⟩ := hsh
        obtain ⟨ih1, ih2⟩ := ih cs hl p .afterDoctype [] hp hcs' h4 (by simp) (by simp)
        obtain ⟨pub', hpub, hev, htx⟩ : ∃ pub', (∀ x, pub' = some x → x.all pubidChar) ∧
            written p.canonical (.doctype name pub (some s)) = [.doctype name pub' (some s)] ∧
            opsText wide enc (p.calls (.doctype name pub (some s) :: cs)) =
            u!! "<!DOCTYPE " ++ (name ++ (32 :: (externalText pub' s ++ 62 :: 10 :: opsText wide enc (p.calls cs)))) := by
          rw [calls_cons]
          cases s with
          | nil => exact absurd rfl hs1
          | cons q qs =>
            have hr := (hl2 · · |>.1)
            cases pub with
            | none =>
              refine ⟨none, by simp, rfl, ?_⟩
              simp [Printer.call, hct, hcan, doctypeOps, truthy, opsText, opText, externalText]
            | some x =>
              cases x with
              | nil =>
                refine ⟨none, by simp, rfl, ?_⟩
                simp [Printer.call, hct, hcan, doctypeOps, truthy, opsText, opText, externalText]
              | cons x xs =>
                refine ⟨some (x :: xs), hr, rfl, ?_⟩
                simp [Printer.call, hct, hcan, doctypeOps, truthy, opsText, opText, externalText]
        rw [hev, htx]
        refine ⟨.cons (lex_doctype hl1 hpub (fun c hc => (hs2 c hc).1) hs3 _) (by simp; omega) ?_
          (.ws rfl (by decide) ih1), safe_lt _⟩
        rfl
      | endElement m =>
        obtain ⟨o', rfl, h2⟩ := hsh
        have hm := ho m (by simp)
        have hroot : content = false → ph = .root := fun h => hr h (by simp)
        obtain ⟨ih1, ih2⟩ := ih cs hl p ph o' hp hcs' h2 (fun x hx => ho x (by simp [hx])) (fun h _ => hroot h)
        have : opsText wide enc (p.calls (.endElement m :: cs)) =
            60 :: 47 :: (m ++ 62 :: opsText wide enc (p.calls cs)) := by
          rw [calls_cons]
          simp [Printer.call, htn, opsText, opText]
        rw [this]
        exact ⟨.cons (lex_endTag hm _) (by simp; omega) (step_stop m hroot) ih1, safe_lt _⟩
      | startElement name ns as =>
        have hls : LegalCall wide (.startElement name ns as) := by
          rcases hpc.1 with h | h | h
          · exact h
          · cases h
          · cases h
        have hname : isName name = true := hls.1
        obtain ⟨hta, htd⟩ := tagAttrs_ok (canonical := p.canonical) hls
        obtain ⟨h1, h2⟩ := hsh
        have htext : opsText wide enc (p.calls (.startElement name ns as :: cs)) =
            60 :: (name ++ (tagAttrs p.canonical ns as).flatMap (attrText enc p.canonical) ++
              opsText wide enc ({ p with elementName := some name }.calls cs)) := by
          rw [calls_cons]
          simp only [Printer.call, htn, Bool.false_eq_true, if_false]
          rw [opsText_append, opsText_attrs wide enc p.canonical (fun a ha => (hta a ha).2)]
          simp [opsText, opText]
        have hta' : ∀ a ∈ tagAttrs p.canonical ns as, isName a.1 = true ∧ ∀ c ∈ a.2, Legal c :=
          fun a ha => ⟨(hta a ha).1, legal_of (hta a ha).2⟩
        have ho' : ∀ x ∈ name :: o, isName x = true := by
          intro x hx
          rcases List.mem_cons.1 hx with rfl | hx
          · exact hname
          · exact ho x hx
        rw [htext]
        refine ⟨?_, safe_lt _⟩
        by_cases hend : p.canonical = false ∧ ∃ m cs', cs = .endElement m :: cs'
        · obtain ⟨hcan, m, cs', rfl⟩ := hend
          obtain ⟨o', ho1, ho2⟩ := h2
          cases ho1
          obtain ⟨ih1, _⟩ := ih cs' (by simp at hl; omega) p _ o hp (fun x hx => hcs' x (by simp [hx])) ho2 ho
            (by intro h _; simp [h])
          have : opsText wide enc ({ p with elementName := some name }.calls (.endElement name :: cs')) =
              (if true then [47, 62] else [62]) ++ opsText wide enc (p.calls cs') := by
            obtain ⟨can, en, om, el⟩ := p
            cases hp
            cases hcan
            rw [calls_cons]
            simp only [Printer.call, truthy_name hname, if_true, Bool.false_eq_true, if_false]
            simp [opsText, opText]
          rw [this]
          have hlex := lex_tag enc p.canonical hname _ hta' htd true (opsText wide enc (p.calls cs'))
          have hst := step_start name (tagAttrs p.canonical ns as) hr h1 true
          exact Reads.cons (e := [.start name (tagAttrs p.canonical ns as), .stop name]) hlex (by simp; omega) hst ih1
        · cases cs with
          | nil => obtain ⟨_, h⟩ := h2; cases h
          | cons c cs' =>
            obtain ⟨ih1, _⟩ := ih (c :: cs') hl p _ (name :: o) hp hcs' h2 ho' (by intro h _; simp [h])
            have hnd : c ≠ .endDocument := by
              rintro rfl
              obtain ⟨_, h, _⟩ := h2
              cases h
            have hg := pending_gt wide enc hname hp cs'
              (c := c) (by
                cases hc : p.canonical with
                | true => exact Or.inl rfl
                | false => exact Or.inr fun m hm => hend ⟨hc, m, cs', by rw [hm]⟩)
              (by
                have hpc' := hcs' c (by simp)
                rcases hpc'.1 with h | h | h
                · exact Or.inl ⟨wide, h⟩
                · cases c <;> try cases h
                  refine Or.inr ⟨?_, _, _, _, rfl⟩
                  cases hc : p.canonical with
                  | false => rfl
                  | true => exact absurd (hpc'.2 hc) (by simp [CanonicalCall])
                · exact absurd h hnd)
            rw [hg]
            have hlex := lex_tag enc p.canonical hname _ hta' htd false (opsText wide enc (p.calls (c :: cs')))
            have hst := step_start name (tagAttrs p.canonical ns as) hr h1 false
            exact .cons hlex (by simp; omega) hst ih1

end Verif.Write
