import Verif.Write.Pretty
import Verif.Write.PrettySpec
import Verif.Write.Props

/-
C81: what an indented document reads as.
-/
namespace Verif.Write
open Verif Verif.Write.Spec

/-! The operations are those of the printer that does not indent, and white space -/

theorem closeTag_call {p : Printer} {c : Call} (hc : (∃ n ns as, c = .startElement n ns as) ∨ (∃ t d, c = .pi t d) ∨ ∃ s, c = .comment s) :
    (p.call c).1 = (closeTag p).1 ++ ((closeTag p).2.call c).1 ∧ (p.call c).2 = ((closeTag p).2.call c).2 := by
  obtain ⟨can, en, om, el⟩ := p
  cases ht : truthy el with
  | false =>
    have h : closeTag ⟨can, en, om, el⟩ = ([], ⟨can, en, om, el⟩) := by unfold closeTag; rw [ht]; rfl
    rw [h]; exact ⟨rfl, rfl⟩
  | true =>
    have h : closeTag ⟨can, en, om, el⟩ = ([.ascii (u!! ">")], ⟨can, en, om, none⟩) := by unfold closeTag; rw [ht]; rfl
    rw [h]
    have hn : truthy (none : Option UStr) = false := rfl
    rcases hc with ⟨n, ns, as, rfl⟩ | ⟨t, d, rfl⟩ | ⟨s, rfl⟩
    · simp [Printer.call, ht, hn]
    · simp [Printer.call, h, closeTag_none]
    · simp [Printer.call, h, closeTag_none]

theorem pretty_base (p : PPrinter) (c : Call) : (p.call c).2.base = (p.base.call c).2 ∧
    ∀ op ∈ (p.call c).1, op ∈ (p.base.call c).1 ∨ ∃ l, op = .ascii (indentText l) := by
  have ind : ∀ b l, ∀ op ∈ indentOps b l, ∃ l, op = .ascii (indentText l) := by
    intro b l op h
    cases b with
    | false => cases h
    | true => exact ⟨l, List.mem_singleton.1 h⟩
  have line : ∀ c, ((∃ n ns as, c = .startElement n ns as) ∨ (∃ t d, c = .pi t d) ∨ ∃ s, c = .comment s) →
      (onNewLine p c).2 = (p.base.call c).2 ∧
      ∀ op ∈ (onNewLine p c).1, op ∈ (p.base.call c).1 ∨ ∃ l, op = .ascii (indentText l) := by
    intro c hc
    obtain ⟨h1, h2⟩ := closeTag_call (p := p.base) hc
    refine ⟨h2.symm, fun op h => ?_⟩
    unfold onNewLine at h
    dsimp only at h
    rw [h1]
    rcases List.mem_append.1 h with h | h
    · rcases List.mem_append.1 h with h | h
      · exact Or.inl (List.mem_append_left _ h)
      · exact Or.inr (ind _ _ op h)
    · exact Or.inl (List.mem_append_right _ h)
  cases c with
  | startElement n ns as => exact line _ (Or.inl ⟨n, ns, as, rfl⟩)
  | pi t d => exact line _ (Or.inr (Or.inl ⟨t, d, rfl⟩))
  | comment s => exact line _ (Or.inr (Or.inr ⟨s, rfl⟩))
  | endElement n =>
    refine ⟨rfl, fun op h => ?_⟩
    rcases List.mem_append.1 h with h | h
    · exact Or.inr (ind _ _ op h)
    · exact Or.inl h
  | text s => exact ⟨rfl, fun op h => Or.inl h⟩
  | rawText s => exact ⟨rfl, fun op h => Or.inl h⟩
  | cdata s => exact ⟨rfl, fun op h => Or.inl h⟩
  | startDocument sa => exact ⟨rfl, fun op h => Or.inl h⟩
  | endDocument => exact ⟨rfl, fun op h => Or.inl h⟩
  | doctype n a b => exact ⟨rfl, fun op h => Or.inl h⟩

theorem pretty_ops : ∀ (cs : List Call) (p : PPrinter), ∀ op ∈ p.calls cs,
    op ∈ p.base.calls cs ∨ ∃ l, op = .ascii (indentText l) := by
  intro cs
  induction cs with
  | nil => intro p op h; cases h
  | cons c cs ih =>
    intro p op h
    obtain ⟨h1, h2⟩ := pretty_base p c
    rw [PPrinter.calls] at h
    rw [Printer.calls]
    rcases List.mem_append.1 h with h | h
    · rcases h2 op h with h | h
      · exact Or.inl (List.mem_append_left _ h)
      · exact Or.inr h
    · rcases ih _ op h with h | h
      · rw [h1] at h; exact Or.inl (List.mem_append_right _ h)
      · exact Or.inr h

theorem indent_chars (l : Int) : ∀ c ∈ indentText l, c = 10 ∨ c = 32 := by
  intro c hc
  rcases List.mem_cons.1 hc with rfl | hc
  · exact Or.inl rfl
  · exact Or.inr (List.eq_of_mem_replicate hc)

theorem indent_fine (wide : Bool) (enc : Codec) (l : Int) : OpFine wide enc (.ascii (indentText l)) := by
  refine ⟨fun c hc => ?_, fun c hc => ?_⟩
  · rcases indent_chars l c hc with rfl | rfl <;> decide
  · rcases indent_chars l c hc with rfl | rfl <;> decide

/-! Reading -/

/-- The events that are read for the rest of the calls, when so many elements are open; `can` and `just` tell whether
the printer may indent and whether a start tag has not been closed. -/
def layCalls : Nat → Bool → Bool → List Call → List Ev
  | _, _, _, [] => []
  | d, can, _, .startElement n ns as :: cs =>
    (if can ∧ d > 0 then newLine (2 * d) else []) ++ (expected (.startElement n ns as) ++ layCalls (d + 1) true true cs)
  | d, can, just, .endElement n :: cs =>
    (if can ∧ ¬ just then newLine (2 * (d - 1)) else []) ++ (.stop n :: layCalls (d - 1) true false cs)
  | d, can, _, .pi t s :: cs =>
    (if can ∧ d > 0 then newLine (2 * d) else []) ++ (.pi t s :: layCalls d true false cs)
  | d, can, _, .comment s :: cs =>
    (if can ∧ d > 0 then newLine (2 * d) else []) ++ (.comment s :: layCalls d true false cs)
  | d, _, _, .text s :: cs => s.map .char ++ layCalls d false false cs
  | d, _, _, .cdata s :: cs => s.map .char ++ layCalls d false false cs
  | d, can, just, c :: cs => expected c ++ layCalls d can just cs

theorem reads_run {ph : Phase} {o : List UStr} (hr : o ≠ [] → ph = .root) (can : Bool) (l : Int) {rest : UStr} {es : List Ev}
    (h : Reads false ph o rest es) (hs : Safe rest) (enc : Codec) (wide : Bool) :
    Reads false ph o (opsText wide enc (indentOps can l) ++ rest)
      ((if can = true ∧ o ≠ [] then newLine (2 * l.toNat) else []) ++ es) ∧
    Safe (opsText wide enc (indentOps can l) ++ rest) := by
  cases can with
  | false => simpa [indentOps, opsText] using ⟨h, hs⟩
  | true =>
    have hop : opsText wide enc (indentOps true l) = indentText l := by simp [indentOps, opsText, opText]
    rw [hop]
    have key : ∀ w : UStr, (∀ c ∈ w, c = 10 ∨ c = 32) →
        Reads false ph o (w ++ rest) ((if o ≠ [] then w.map .char else []) ++ es) ∧ Safe (w ++ rest) := by
      intro w hw
      have hno : (62 : Nat) ∉ w := fun h => by rcases hw _ h with h | h <;> cases h
      refine ⟨?_, safe_append hno hs⟩
      induction w with
      | nil => split <;> simpa using h
      | cons c w ih =>
        have hw' : ∀ c ∈ w, c = 10 ∨ c = 32 := fun x hx => hw x (by simp [hx])
        have hno' : (62 : Nat) ∉ w := fun h => hno (by simp [h])
        have ih := ih hw' hno'
        have hc := hw c (by simp)
        by_cases ho : o = []
        · subst ho
          rw [if_neg (by simp)] at ih ⊢
          exact .ws rfl (by rcases hc with rfl | rfl <;> decide) ih
        · rw [if_pos ho] at ih ⊢
          exact .cons (e := [.char c]) (lex_char (by rcases hc with rfl | rfl <;> decide) (by omega) (by omega)
            (safe_append hno' hs)) (by simp) (step_in (Or.inr ⟨ho, hr ho⟩) (nest_chars o [c])) ih
    obtain ⟨k1, k2⟩ := key (indentText l) (indent_chars l)
    refine ⟨?_, k2⟩
    have : (if o ≠ [] then (indentText l).map Ev.char else []) = (if true = true ∧ o ≠ [] then newLine (2 * l.toNat) else []) := by
      simp [newLine, indentText]
    rw [← this]
    exact k1

theorem pcalls_cons (wide : Bool) (enc : Codec) (p : PPrinter) (c : Call) (cs : List Call) :
    opsText wide enc (p.calls (c :: cs)) =
      opsText wide enc (p.call c).1 ++ opsText wide enc ((p.call c).2.calls cs) := by
  rw [PPrinter.calls, opsText_append]

/-- An open start-tag is closed by `>` before anything but an end-tag. -/
theorem ppending_gt (wide : Bool) (enc : Codec) {p : Printer} {name : UStr} (hn : isName name = true)
    (hp : p.elementName = none) (hcan : p.canonical = false) (l : Int) (can : Bool) {c : Call} (cs : List Call)
    (hc : ∀ m, c ≠ .endElement m) (hok : (∃ w, LegalCall w c) ∨ ∃ a b d, c = .doctype a b d) :
    opsText wide enc (PPrinter.calls ⟨{ p with elementName := some name }, l, can⟩ (c :: cs)) =
      62 :: opsText wide enc (PPrinter.calls ⟨p, l, can⟩ (c :: cs)) := by
  obtain ⟨can', en, om, el⟩ := p
  cases hp
  cases hcan
  have ht := truthy_name hn
  have hc1 : closeTag ⟨false, en, om, some name⟩ = ([.ascii (u!! ">")], ⟨false, en, om, none⟩) := by
    unfold closeTag
    rw [if_pos ht]
  have hc2 : closeTag ⟨false, en, om, none⟩ = ([], ⟨false, en, om, none⟩) := rfl
  rw [pcalls_cons, pcalls_cons]
  cases c with
  | startDocument sa => rcases hok with ⟨w, h⟩ | ⟨a, b, d, h⟩ <;> cases h
  | endDocument => rcases hok with ⟨w, h⟩ | ⟨a, b, d, h⟩ <;> cases h
  | rawText sa => rcases hok with ⟨w, h⟩ | ⟨a, b, d, h⟩ <;> cases h
  | endElement m => exact absurd rfl (hc m)
  | doctype a b d =>
    simp only [PPrinter.call, Printer.call, Bool.false_eq_true, if_false, hc1, hc2]
    simp [opsText, opText]
  | startElement n ns as =>
    simp only [PPrinter.call, onNewLine, hc1, hc2]
    simp [opsText, opText]
  | text s => simp only [PPrinter.call, Printer.call, hc1, hc2]; simp [opsText, opText]
  | cdata s => simp only [PPrinter.call, Printer.call, hc1, hc2]; simp [opsText, opText]
  | pi t d => simp only [PPrinter.call, onNewLine, hc1, hc2]; simp [opsText, opText]
  | comment s => simp only [PPrinter.call, onNewLine, hc1, hc2]; simp [opsText, opText]

theorem layCalls_just (d : Nat) (can : Bool) {c : Call} (cs : List Call) (hc : ∀ m, c ≠ .endElement m)
    (hok : (∃ w, LegalCall w c)) :
    layCalls d can true (c :: cs) = layCalls d can false (c :: cs) := by
  obtain ⟨w, h⟩ := hok
  cases c <;> first | rfl | exact h.elim | exact absurd rfl (hc _)

theorem written_expected (n : UStr) (ns : List (Option UStr × UStr)) (as : List (UStr × UStr)) :
    expected (.startElement n ns as) = [.start n (tagAttrs false ns as)] := by
  simp only [expected, tagAttrs, Bool.false_eq_true, if_false]
  have : ns.map nsAttr = ns.map fun d => (declName d.1, d.2) := List.map_congr_left fun d _ => nsAttr_eq d
  rw [this]

theorem reads_pretty (wide : Bool) (enc : Codec) (n : Nat) : ∀ (cs : List Call), cs.length ≤ n →
    ∀ (p : PPrinter) (ph : Phase) (o : List UStr), p.base.elementName = none → p.base.canonical = false →
    p.level = o.length → (∀ c ∈ cs, LegalCall wide c ∨ LegalDoctype c ∨ c = .endDocument) →
    DocCalls ph o cs → (∀ x ∈ o, isName x = true) → (o ≠ [] → ph = .root) →
    Reads false ph o (opsText wide enc (p.calls cs)) (layCalls o.length p.canIndent false cs) ∧
      Safe (opsText wide enc (p.calls cs)) := by
  induction n with
  | zero =>
    intro cs hl p ph o hp hcan hlev hcs hsh ho hr
    cases cs with
    | nil =>
      obtain ⟨rfl, rfl⟩ := hsh
      exact ⟨.nil (fun _ => rfl), safe_nil⟩
    | cons c cs => simp at hl
  | succ n ih =>
    intro cs hl p ph o hp hcan hlev hcs hsh ho hr
    cases cs with
    | nil =>
      obtain ⟨rfl, rfl⟩ := hsh
      exact ⟨.nil (fun _ => rfl), safe_nil⟩
    | cons c cs =>
      simp at hl
      obtain ⟨b, l, can⟩ := p
      dsimp only at hp hcan hlev
      have hin : o ≠ [] → InContent false ph o := fun h => Or.inr ⟨h, hr h⟩
      have hcs' : ∀ x ∈ cs, LegalCall wide x ∨ LegalDoctype x ∨ x = .endDocument := fun x hx => hcs x (by simp [hx])
      have hpc := hcs c (by simp)
      have hct := closeTag_none hp
      have htn : truthy b.elementName = false := by rw [hp]; rfl
      have hrun : ∀ {rest : UStr} {es : List Ev}, Reads false ph o rest es → Safe rest →
          Reads false ph o (opsText wide enc (indentOps can l) ++ rest)
            ((if can ∧ o.length > 0 then newLine (2 * o.length) else []) ++ es) ∧
          Safe (opsText wide enc (indentOps can l) ++ rest) := by
        intro rest es h1 h2
        have := reads_run hr can l h1 h2 enc wide
        have hl : l.toNat = o.length := by rw [hlev]; rfl
        rw [hl] at this
        cases o with
        | nil => simpa using this
        | cons x o => simpa using this
      cases c with
      | startDocument sa => cases hsh
      | rawText s => cases hsh
      | endDocument =>
        obtain ⟨rfl, rfl, rfl⟩ := hsh
        have : opsText wide enc (PPrinter.calls ⟨b, l, can⟩ [.endDocument]) = [] := by
          simp [PPrinter.calls, PPrinter.call, Printer.call, htn]
        rw [this]
        exact ⟨.nil (fun _ => rfl), safe_nil⟩
      | text s =>
        have hls : LegalText wide s := by
          rcases hpc with h | h | h
          · exact h
          · cases h
          · cases h
        obtain ⟨h1, h2⟩ := hsh
        obtain ⟨ih1, ih2⟩ := ih cs hl ⟨b, l, false⟩ ph o hp hcan hlev hcs' h2 ho hr
        have : opsText wide enc (PPrinter.calls ⟨b, l, can⟩ (.text s :: cs)) =
            escText enc textEntities s ++ opsText wide enc (PPrinter.calls ⟨b, l, false⟩ cs) := by
          rw [pcalls_cons]
          simp [PPrinter.call, Printer.call, hct, opsText, opText, sanitize_of hls, escText]
        rw [this]
        exact ⟨reads_text enc (hin h1) s (legal_of hls) ih1 ih2,
          safe_append (fun h => (escText_no enc (legal_of hls) 62 h).2.1 rfl) ih2⟩
      | cdata s =>
        have hls : Raw s := by
          rcases hpc with h | h | h
          · exact h
          · cases h
          · cases h
        obtain ⟨h1, h2⟩ := hsh
        obtain ⟨ih1, ih2⟩ := ih cs hl ⟨b, l, false⟩ ph o hp hcan hlev hcs' h2 ho hr
        obtain ⟨q, qs, _, hq2, hq3, hq4⟩ := opsText_cdata wide enc s
        have : opsText wide enc (PPrinter.calls ⟨b, l, can⟩ (.cdata s :: cs)) =
            u!! "<![CDATA[" ++ (q ++ (cdataTail qs ++ opsText wide enc (PPrinter.calls ⟨b, l, false⟩ cs))) := by
          rw [pcalls_cons]
          simp only [PPrinter.call, Printer.call, hct, hcan, List.nil_append, hq4, List.append_assoc]
        rw [this]
        have hsub : ∀ x ∈ q :: qs, ∀ c ∈ x, c ∈ s := by
          intro x hx c hc
          rw [← hq2]
          rcases List.mem_cons.1 hx with rfl | hx
          · exact List.mem_append_left _ hc
          · exact List.mem_append_right _ (List.mem_flatMap.2 ⟨x, hx, List.mem_append_right _ hc⟩)
        have hrd := reads_cdata (hin h1) qs q (fun c hc => (hls c (hsub q (by simp) c hc)).1) (hq3 q (by simp))
          (fun x hx => ⟨fun c hc => (hls c (hsub x (by simp [hx]) c hc)).1, hq3 x (by simp [hx])⟩) ih1
        refine ⟨?_, safe_lt _⟩
        have he : q.map Ev.char ++ ((qs.flatMap (u!! "]]>" ++ ·)).map Ev.char ++ layCalls o.length false false cs) =
            s.map .char ++ layCalls o.length false false cs := by
          rw [← List.append_assoc, ← List.map_append, hq2]
        show Reads false ph o _ (s.map .char ++ layCalls o.length false false cs)
        rw [← he]
        exact hrd
      | comment s =>
        have hls : Raw s ∧ ¬ Occurs (u!! "--") (s ++ u!! "-") := by
          rcases hpc with h | h | h
          · exact h
          · cases h
          · cases h
        obtain ⟨ih1, ih2⟩ := ih cs hl ⟨b, l, true⟩ ph o hp hcan hlev hcs' hsh ho hr
        have : opsText wide enc (PPrinter.calls ⟨b, l, can⟩ (.comment s :: cs)) = opsText wide enc (indentOps can l) ++
            (u!! "<!--" ++ (s ++ (u!! "-->" ++ opsText wide enc (PPrinter.calls ⟨b, l, true⟩ cs)))) := by
          rw [pcalls_cons]
          simp [PPrinter.call, onNewLine, Printer.call, hct, opsText, opText]
        rw [this]
        exact hrun (.cons (lex_comment hls.1 hls.2 _) (by simp; omega) (step_misc (fun _ => hr) (Or.inl ⟨s, rfl⟩)) ih1) (safe_lt _)
      | pi t d =>
        have hls : LegalCall wide (.pi t d) := by
          rcases hpc with h | h | h
          · exact h
          · cases h
          · cases h
        obtain ⟨hl1, hl2, hl3, hl4, hl5⟩ := hls
        obtain ⟨ih1, ih2⟩ := ih cs hl ⟨b, l, true⟩ ph o hp hcan hlev hcs' hsh ho hr
        have : opsText wide enc (PPrinter.calls ⟨b, l, can⟩ (.pi t d :: cs)) = opsText wide enc (indentOps can l) ++
            (u!! "<?" ++ (t ++ ((if d.isEmpty then [] else 32 :: d) ++ (u!! "?>" ++ opsText wide enc (PPrinter.calls ⟨b, l, true⟩ cs))))) := by
          rw [pcalls_cons]
          cases d <;> simp [PPrinter.call, onNewLine, Printer.call, hct, opsText, opText, piOps]
        rw [this]
        exact hrun (.cons (lex_pi hl1 hl2 hl3 hl4 hl5 _) (by simp; omega) (step_misc (fun _ => hr) (Or.inr ⟨t, d, rfl⟩)) ih1)
          (safe_lt _)
      | doctype name pub sys =>
        have hls : LegalDoctype (.doctype name pub sys) := by
          rcases hpc with h | h | h
          · cases h
          · exact h
          · cases h
        obtain ⟨hl1, hl2, s, rfl, hs1, hs2, hs3⟩ := hls
        obtain ⟨rfl, rfl, h4⟩ := hsh
        obtain ⟨ih1, ih2⟩ := ih cs hl ⟨b, l, can⟩ .afterDoctype [] hp hcan hlev hcs' h4 (by simp) (by simp)
        obtain ⟨pub', hpub, hev, htx⟩ : ∃ pub', (∀ x, pub' = some x → x.all pubidChar) ∧
            expected (.doctype name pub (some s)) = [.doctype name pub' (some s)] ∧
            opsText wide enc (PPrinter.calls ⟨b, l, can⟩ (.doctype name pub (some s) :: cs)) =
            u!! "<!DOCTYPE " ++ (name ++ (32 :: (externalText pub' s ++ 62 :: 10 :: opsText wide enc (PPrinter.calls ⟨b, l, can⟩ cs)))) := by
          rw [pcalls_cons]
          cases s with
          | nil => exact absurd rfl hs1
          | cons q qs =>
            have hr := (hl2 · · |>.1)
            cases pub with
            | none =>
              refine ⟨none, by simp, rfl, ?_⟩
              simp [PPrinter.call, Printer.call, hct, hcan, doctypeOps, truthy, opsText, opText, externalText]
            | some x =>
              cases x with
              | nil =>
                refine ⟨none, by simp, rfl, ?_⟩
                simp [PPrinter.call, Printer.call, hct, hcan, doctypeOps, truthy, opsText, opText, externalText]
              | cons x xs =>
                refine ⟨some (x :: xs), hr, rfl, ?_⟩
                simp [PPrinter.call, Printer.call, hct, hcan, doctypeOps, truthy, opsText, opText, externalText]
        have hlc : layCalls ([] : List UStr).length can false (.doctype name pub (some s) :: cs) =
            expected (.doctype name pub (some s)) ++ layCalls ([] : List UStr).length can false cs := rfl
        rw [hlc, hev, htx]
        refine ⟨.cons (lex_doctype hl1 hpub (fun c hc => (hs2 c hc).1) hs3 _) (by simp; omega) ?_
          (.ws rfl (by decide) ih1), safe_lt _⟩
        rfl
      | endElement m =>
        obtain ⟨o', rfl, h2⟩ := hsh
        have hm := ho m (by simp)
        have hroot : ph = .root := hr (by simp)
        have hlev' : l - 1 = (o'.length : Int) := by simp at hlev; omega
        obtain ⟨ih1, ih2⟩ := ih cs hl ⟨b, l - 1, true⟩ ph o' hp hcan hlev' hcs' h2 (fun x hx => ho x (by simp [hx])) (fun _ => hroot)
        have : opsText wide enc (PPrinter.calls ⟨b, l, can⟩ (.endElement m :: cs)) = opsText wide enc (indentOps can (l - 1)) ++
            (60 :: 47 :: (m ++ 62 :: opsText wide enc (PPrinter.calls ⟨b, l - 1, true⟩ cs))) := by
          rw [pcalls_cons]
          simp [PPrinter.call, Printer.call, htn, opsText, opText]
        rw [this]
        have hread : Reads false ph (m :: o') (60 :: 47 :: (m ++ 62 :: opsText wide enc (PPrinter.calls ⟨b, l - 1, true⟩ cs)))
            ([.stop m] ++ layCalls o'.length true false cs) :=
          .cons (lex_endTag hm _) (by simp; omega) (step_stop m (fun _ => hroot)) ih1
        have := reads_run hr can (l - 1) hread (safe_lt _) enc wide
        have hl' : (l - 1).toNat = o'.length := by omega
        rw [hl'] at this
        simpa [layCalls] using this
      | startElement name ns as =>
        have hls : LegalCall wide (.startElement name ns as) := by
          rcases hpc with h | h | h
          · exact h
          · cases h
          · cases h
        have hname : isName name = true := hls.1
        obtain ⟨hta, htd⟩ := tagAttrs_ok (canonical := false) hls
        obtain ⟨h1, h2⟩ := hsh
        have htext : opsText wide enc (PPrinter.calls ⟨b, l, can⟩ (.startElement name ns as :: cs)) =
            opsText wide enc (indentOps can l) ++
            (60 :: (name ++ (tagAttrs false ns as).flatMap (attrText enc false) ++
              opsText wide enc (PPrinter.calls ⟨{ b with elementName := some name }, l + 1, true⟩ cs))) := by
          rw [pcalls_cons]
          simp only [PPrinter.call, onNewLine, hct, Printer.call, htn, hcan, Bool.false_eq_true, if_false]
          rw [opsText_append, opsText_append, opsText_append, opsText_attrs wide enc false (fun a ha => (hta a ha).2)]
          simp [opsText, opText]
        have hta' : ∀ a ∈ tagAttrs false ns as, isName a.1 = true ∧ ∀ c ∈ a.2, Legal c :=
          fun a ha => ⟨(hta a ha).1, legal_of (hta a ha).2⟩
        have ho' : ∀ x ∈ name :: o, isName x = true := by
          intro x hx
          rcases List.mem_cons.1 hx with rfl | hx
          · exact hname
          · exact ho x hx
        rw [htext]
        have hlay : layCalls o.length can false (.startElement name ns as :: cs) =
            (if can ∧ o.length > 0 then newLine (2 * o.length) else []) ++
              ([.start name (tagAttrs false ns as)] ++ layCalls (o.length + 1) true true cs) := by
          rw [layCalls, written_expected]
        rw [hlay]
        refine hrun ?_ (safe_lt _)
        by_cases hend : ∃ m cs', cs = .endElement m :: cs'
        · obtain ⟨m, cs', rfl⟩ := hend
          obtain ⟨o', ho1, ho2⟩ := h2
          cases ho1
          obtain ⟨ih1, _⟩ := ih cs' (by simp at hl; omega) ⟨b, l, true⟩ .root o hp hcan hlev (fun x hx => hcs' x (by simp [hx]))
            ho2 ho (fun _ => rfl)
          have : opsText wide enc (PPrinter.calls ⟨{ b with elementName := some name }, l + 1, true⟩ (.endElement name :: cs')) =
              (if true then [47, 62] else [62]) ++ opsText wide enc (PPrinter.calls ⟨b, l, true⟩ cs') := by
            obtain ⟨can', en, om, el⟩ := b
            cases hp
            cases hcan
            rw [pcalls_cons]
            have hll : l + 1 - 1 = l := by omega
            simp only [PPrinter.call, Printer.call, truthy_name hname, if_true, Bool.false_eq_true, if_false, hll]
            simp [opsText, opText, indentOps]
          rw [this]
          have hlex := lex_tag enc false hname _ hta' htd true (opsText wide enc (PPrinter.calls ⟨b, l, true⟩ cs'))
          have hst := step_start (content := false) name (tagAttrs false ns as) (fun _ => hr) (fun _ => h1) true
          exact Reads.cons (e := [.start name (tagAttrs false ns as), .stop name]) hlex (by simp; omega) hst ih1
        · cases cs with
          | nil => obtain ⟨_, h⟩ := h2; cases h
          | cons c cs' =>
            obtain ⟨ih1, _⟩ := ih (c :: cs') hl ⟨b, l + 1, true⟩ .root (name :: o) hp hcan (by simp [hlev]) hcs' h2 ho'
              (fun _ => rfl)
            have hnd : c ≠ .endDocument := by
              rintro rfl
              obtain ⟨_, h, _⟩ := h2
              cases h
            have hne : ∀ m, c ≠ .endElement m := fun m hm => hend ⟨m, cs', by rw [hm]⟩
            have hlegal : ∃ w, LegalCall w c := by
              rcases hcs' c (by simp) with h | h | h
              · exact ⟨wide, h⟩
              · cases c <;> try cases h
                obtain ⟨h3, _⟩ := h2
                cases h3
              · exact absurd h hnd
            rw [ppending_gt wide enc hname hp hcan (l + 1) true cs' hne (Or.inl hlegal), layCalls_just _ _ _ hne hlegal]
            have hlex := lex_tag enc false hname _ hta' htd false
              (opsText wide enc (PPrinter.calls ⟨b, l + 1, true⟩ (c :: cs')))
            have hst := step_start (content := false) name (tagAttrs false ns as) (fun _ => hr) (fun _ => h1) false
            exact .cons hlex (by simp; omega) hst ih1

/-! The events, laid out -/

/-- The last event is as the printer remembers it. -/
def Remembers (d : Nat) (can just : Bool) (prev : Option Ev) : Prop :=
  d > 0 → can = true → ∀ e, (gap prev e = match e with | .char _ => false | .stop _ => !just | _ => true)

theorem rem_start (d : Nat) (n : UStr) (as : List (UStr × UStr)) : Remembers d true true (some (.start n as)) := by
  intro _ _ e; cases e <;> rfl
theorem rem_stop (d : Nat) (n : UStr) : Remembers d true false (some (.stop n)) := by
  intro _ _ e; cases e <;> rfl
theorem rem_comment (d : Nat) (s : UStr) : Remembers d true false (some (.comment s)) := by
  intro _ _ e; cases e <;> rfl
theorem rem_pi (d : Nat) (t s : UStr) : Remembers d true false (some (.pi t s)) := by
  intro _ _ e; cases e <;> rfl
theorem rem_text (d : Nat) (prev : Option Ev) (just : Bool) : Remembers d false just prev := fun _ h => by cases h

theorem laid_run {can : Bool} {d k : Nat} {prev : Option Ev} {e : Ev} {es fs : List Ev} {P : Prop} [Decidable P]
    (h : P → gap prev e = true) (hl : Laid (some e) es fs) :
    Laid prev ((if P then newLine k else []) ++ (e :: es)) (e :: fs) := by
  split
  · next hp => exact .break k (h hp) hl
  · exact .keep hl

theorem laid_chars (s : UStr) {prev : Option Ev} {es fs : List Ev} (h : ∀ prev, Laid prev es fs) :
    Laid prev (s.map .char ++ es) (s.map .char ++ fs) := by
  induction s generalizing prev with
  | nil => exact h prev
  | cons c s ih => exact .keep ih

theorem laid_calls : ∀ (cs : List Call) (ph : Phase) (o : List UStr) (can just : Bool) (prev : Option Ev),
    DocCalls ph o cs → (∀ c ∈ cs, ∀ a b d, c = .doctype a b d → LegalDoctype c) → Remembers o.length can just prev →
    Laid prev (layCalls o.length can just cs) (events cs) := by
  intro cs
  induction cs with
  | nil => intro ph o can just prev _ _ _; exact .nil
  | cons c cs ih =>
    intro ph o can just prev hd hty hr
    have hty' : ∀ c ∈ cs, ∀ a b d, c = .doctype a b d → LegalDoctype c := fun x hx => hty x (by simp [hx])
    rw [events, List.flatMap_cons, ← events]
    cases c with
    | startDocument sa => cases hd
    | rawText sa => cases hd
    | endDocument => obtain ⟨_, _, rfl⟩ := hd; exact .nil
    | startElement n ns as =>
      rw [layCalls]
      refine laid_run (can := can) (d := 0) ?_ (ih _ (n :: o) true true _ hd.2 hty' (rem_start _ _ _))
      intro ⟨h1, h2⟩
      exact hr h2 h1 _
    | endElement n =>
      obtain ⟨o', rfl, h2⟩ := hd
      rw [layCalls]
      refine laid_run (can := can) (d := 0) ?_ (ih _ o' true false _ h2 hty' (rem_stop _ _))
      intro ⟨h1, h2⟩
      rw [hr (by simp) h1 _]
      simpa using h2
    | text s =>
      rw [layCalls]
      exact laid_chars s fun prev => ih _ o false false prev hd.2 hty' (rem_text _ _ _)
    | cdata s =>
      rw [layCalls]
      exact laid_chars s fun prev => ih _ o false false prev hd.2 hty' (rem_text _ _ _)
    | pi t s =>
      rw [layCalls]
      refine laid_run (can := can) (d := 0) ?_ (ih _ o true false _ hd hty' (rem_pi _ _ _))
      intro ⟨h1, h2⟩
      exact hr h2 h1 _
    | comment s =>
      rw [layCalls]
      refine laid_run (can := can) (d := 0) ?_ (ih _ o true false _ hd hty' (rem_comment _ _))
      intro ⟨h1, h2⟩
      exact hr h2 h1 _
    | doctype a b d =>
      obtain ⟨_, rfl, h3⟩ := hd
      obtain ⟨_, _, s, rfl, hs, _⟩ := hty _ (List.mem_cons_self ..) a b d rfl
      have hl : layCalls ([] : List UStr).length can just (.doctype a b (some s) :: cs) =
          expected (.doctype a b (some s)) ++ layCalls ([] : List UStr).length can just cs := rfl
      rw [hl]
      have : ∃ e, expected (.doctype a b (some s)) = [e] := by
        cases s with
        | nil => exact absurd rfl hs
        | cons q qs => cases b with
          | none => exact ⟨_, rfl⟩
          | some p => cases p <;> exact ⟨_, rfl⟩
      obtain ⟨e, he⟩ := this
      rw [he]
      exact .keep (ih _ [] can just _ h3 hty' (fun h => by cases h))

/-- And nothing else has happened since. -/
def RemembersAll (d : Nat) (can just : Bool) (prev : Option Ev) : Prop :=
  d > 0 → ∀ e, (gap prev e = (can && match e with | .char _ => false | .stop _ => !just | _ => true))

theorem rem_all {d : Nat} {just : Bool} {prev : Option Ev} (h : Remembers d true just prev) : RemembersAll d true just prev := by
  intro h0 e
  rw [h h0 rfl e, Bool.true_and]

theorem rem_char (d : Nat) (c : Nat) : RemembersAll d false false (some (.char c)) := by
  intro _ e; cases e <;> rfl

theorem lay_char {d : Nat} {prev : Option Ev} (c : Nat) (es : List Ev) :
    lay d prev (.char c :: es) = .char c :: lay d (some (.char c)) es := by
  have h : gap prev (.char c) = false := by cases prev with | none => rfl | some e => cases e <;> rfl
  rw [lay, if_neg (by rw [h]; simp)]
  rfl

theorem lay_chars (s : UStr) : ∀ {d : Nat} {prev : Option Ev} {es fs : List Ev}, s ≠ [] →
    (∀ c, lay d (some (.char c)) fs = es) → lay d prev (s.map .char ++ fs) = s.map .char ++ es := by
  induction s with
  | nil => intro d prev es fs h; exact absurd rfl h
  | cons c s ih =>
    intro d prev es fs _ h
    rw [List.map_cons, List.cons_append, lay_char]
    by_cases hs : s = []
    · subst hs; rw [List.map_nil, List.nil_append, h]; rfl
    · rw [ih hs h]; rfl

theorem lay_one {d k : Nat} {prev : Option Ev} {e : Ev} {es fs : List Ev} {P : Prop} [Decidable P]
    (h : P ↔ d > 0 ∧ gap prev e = true) (hk : k = 2 * min d (deeper d e)) (hl : lay (deeper d e) (some e) fs = es) :
    lay d prev (e :: fs) = (if P then newLine k else []) ++ (e :: es) := by
  rw [lay, hl, hk]
  by_cases hp : P
  · rw [if_pos hp, if_pos (h.1 hp)]
  · rw [if_neg hp, if_neg (fun x => hp (h.2 x))]

theorem lay_calls : ∀ (cs : List Call) (ph : Phase) (o : List UStr) (can just : Bool) (prev : Option Ev),
    DocCalls ph o cs → (∀ c ∈ cs, ∀ a b d, c = .doctype a b d → LegalDoctype c) → (∀ c ∈ cs, TextNonempty c) →
    RemembersAll o.length can just prev → lay o.length prev (events cs) = layCalls o.length can just cs := by
  intro cs
  induction cs with
  | nil => intro ph o can just prev _ _ _ _; rfl
  | cons c cs ih =>
    intro ph o can just prev hd hty hne hr
    have hty' : ∀ c ∈ cs, ∀ a b d, c = .doctype a b d → LegalDoctype c := fun x hx => hty x (by simp [hx])
    have hne' : ∀ c ∈ cs, TextNonempty c := fun x hx => hne x (by simp [hx])
    have hn := hne c (List.mem_cons_self ..)
    rw [events, List.flatMap_cons, ← events]
    have mk : ∀ e : Ev, (match e with | .char _ => false | .stop _ => !just | _ => true) = true →
        ((can = true ∧ o.length > 0) ↔ o.length > 0 ∧ gap prev e = true) := by
      intro e he
      constructor
      · intro ⟨h1, h2⟩
        refine ⟨h2, ?_⟩
        rw [hr h2 e, he, h1]; rfl
      · intro ⟨h2, h3⟩
        rw [hr h2 e, he] at h3
        exact ⟨by simpa using h3, h2⟩
    cases c with
    | startDocument sa => cases hd
    | rawText sa => cases hd
    | endDocument => obtain ⟨_, _, rfl⟩ := hd; rfl
    | startElement n ns as =>
      rw [layCalls]
      refine lay_one (mk _ rfl) ?_ (ih _ (n :: o) true true _ hd.2 hty' hne' (rem_all (rem_start _ _ _)))
      simp [deeper]
    | endElement n =>
      obtain ⟨o', rfl, h2⟩ := hd
      rw [layCalls]
      refine lay_one ?_ ?_ (ih _ o' true false _ h2 hty' hne' (rem_all (rem_stop _ _)))
      · have hpos : (n :: o').length > 0 := by simp
        rw [hr hpos (.stop n)]
        simp
      · simp [deeper]
    | text s =>
      rw [layCalls]
      exact lay_chars s hn fun c => ih _ o false false _ hd.2 hty' hne' (rem_char _ c)
    | cdata s =>
      rw [layCalls]
      exact lay_chars s hn fun c => ih _ o false false _ hd.2 hty' hne' (rem_char _ c)
    | pi t s =>
      rw [layCalls]
      refine lay_one (mk _ rfl) ?_ (ih _ o true false _ hd hty' hne' (rem_all (rem_pi _ _ _)))
      simp [deeper]
    | comment s =>
      rw [layCalls]
      refine lay_one (mk _ rfl) ?_ (ih _ o true false _ hd hty' hne' (rem_all (rem_comment _ _)))
      simp [deeper]
    | doctype a b d =>
      obtain ⟨_, rfl, h3⟩ := hd
      obtain ⟨_, _, s, rfl, hs, _⟩ := hty _ (List.mem_cons_self ..) a b d rfl
      have hl : layCalls ([] : List UStr).length can just (.doctype a b (some s) :: cs) =
          expected (.doctype a b (some s)) ++ layCalls ([] : List UStr).length can just cs := rfl
      rw [hl]
      have : ∃ x y, expected (.doctype a b (some s)) = [.doctype a x y] := by
        cases s with
        | nil => exact absurd rfl hs
        | cons q qs => cases b with
          | none => exact ⟨_, _, rfl⟩
          | some p => cases p <;> exact ⟨_, _, rfl⟩
      obtain ⟨x, y, he⟩ := this
      rw [he]
      have := ih _ [] can just (some (.doctype a x y)) h3 hty' hne' (fun h => by cases h)
      show lay 0 prev (.doctype a x y :: events cs) = _
      rw [lay, if_neg (by simp)]
      exact congrArg (Ev.doctype a x y :: ·) this

/-! The theorems -/

theorem pretty_doc_calls (wide : Bool) (enc : Codec) (encoding : UStr) (sa : Option UStr) (cs : List Call) :
    (newPretty encoding).calls (.startDocument sa :: cs) =
      ((newPrinter false encoding).call (.startDocument sa)).1 ++ (newPretty encoding).calls cs := by
  have := (opsText_startDocument wide enc (p := newPrinter false encoding) rfl sa).2
  rw [PPrinter.calls]
  simp only [PPrinter.call, newPretty]
  rw [this]

theorem pretty_fine (wide : Bool) (enc : Codec) {encoding : UStr} (he : isEncName encoding = true)
    {sa : Option UStr} (hsa : sa = none ∨ sa = some (u!! "yes") ∨ sa = some (u!! "no"))
    {cs : List Call} (hcs : ∀ c ∈ cs, LegalCall wide c ∨ LegalDoctype c ∨ c = .endDocument)
    (hdoc : DocCalls .prolog [] cs) :
    ∀ op ∈ (newPretty encoding).calls (.startDocument sa :: cs), OpFine wide enc op := by
  have hp : ∀ c ∈ cs, Part wide false c := fun c hc => ⟨hcs c hc, fun h => by cases h⟩
  rw [pretty_doc_calls wide enc]
  intro op hop
  rcases List.mem_append.1 hop with h | h
  · exact fine_startDocument wide enc he hsa op h
  · rcases pretty_ops cs _ op h with h | ⟨l, rfl⟩
    · exact fine_calls wide enc cs (p := newPrinter false encoding) hp
        (shape_end cs (shape_of_doc cs hdoc) (by simp) (part_start hp)) (fun n h => by cases h) op h
    · exact indent_fine wide enc l

/-- A document is written with indents whenever the names, and the data that cannot be escaped, have an encoding. -/
theorem C81_written (wide : Bool) {le : Bool} {lookup : UStr → Option Codec} {encoding : UStr} {st : Stream}
    (hnew : newStream le lookup encoding = some st) (hu : Usable st.enc) (he : isEncName encoding = true)
    {sa : Option UStr} (hsa : sa = none ∨ sa = some (u!! "yes") ∨ sa = some (u!! "no"))
    {cs : List Call} (hcs : ∀ c ∈ cs, LegalCall wide c ∨ LegalDoctype c ∨ c = .endDocument)
    (hdoc : DocCalls .prolog [] cs) (hw : ∀ c ∈ cs, Writable st.enc c) :
    ∃ st', printPretty wide st encoding (.startDocument sa :: cs) = .ok st' := by
  have hfine := pretty_fine wide st.enc he hsa hcs hdoc
  refine (runOps_new wide (newStream_sound hnew hu) (Or.inl ?_) (fun op h => (hfine op h).1)).1 ?_
  · rw [pretty_doc_calls wide st.enc]; simp [Printer.call, newPrinter]
  · rw [pretty_doc_calls wide st.enc]
    intro op hop
    rcases List.mem_append.1 hop with h | h
    · exact encodable_calls [.startDocument sa] (p := newPrinter false encoding) (by simp [Writable]) (fun h => by cases h)
        (fun n h => by cases h) op (by rw [Printer.calls]; exact List.mem_append_left _ h)
    · rcases pretty_ops cs _ op h with h | ⟨l, rfl⟩
      · exact encodable_calls cs (p := newPrinter false encoding) hw (fun h => by cases h) (fun n h => by cases h) op h
      · exact trivial

/-- What is written reads back as the same events, with new lines between markup only: no text is changed, and no
element that was empty gets a content.  If there are no empty strings of text, the new lines and the spaces after
them are where `lay` puts them. -/
theorem C81_document_read_back (wide : Bool) {le : Bool} {lookup : UStr → Option Codec} {encoding : UStr} {st : Stream}
    (hnew : newStream le lookup encoding = some st) (hu : Usable st.enc)
    {dec : Bytes → Option UStr} (hdec : Inverse dec st.enc) (he : isEncName encoding = true)
    {sa : Option UStr} (hsa : sa = none ∨ sa = some (u!! "yes") ∨ sa = some (u!! "no"))
    {cs : List Call} (hcs : ∀ c ∈ cs, LegalCall wide c ∨ LegalDoctype c ∨ c = .endDocument)
    (hdoc : DocCalls .prolog [] cs) {st' : Stream}
    (hrun : printPretty wide st encoding (.startDocument sa :: cs) = .ok st') :
    ∃ b T evs, st'.out = bomBytes st ++ b ∧ dec b = some T ∧
      readDocument T = some (some ⟨u!! "1.0", some encoding, sa⟩, evs) ∧ Laid none evs (events cs) ∧
      ((∀ c ∈ cs, TextNonempty c) → evs = lay 0 none (events cs)) := by
  have hcalls := pretty_doc_calls wide st.enc encoding sa cs
  have hfine := pretty_fine wide st.enc he hsa hcs hdoc
  obtain ⟨b, hb, ho⟩ := (runOps_new wide (newStream_sound hnew hu) (Or.inl (by
    rw [hcalls]; simp [Printer.call, newPrinter])) (fun op h => (hfine op h).1)).2 st' hrun
  obtain ⟨hrd, _⟩ := reads_pretty wide st.enc cs.length cs (Nat.le_refl _) (newPretty encoding) .prolog []
    rfl rfl rfl hcs hdoc (by simp) (by simp)
  have hty : ∀ c ∈ cs, ∀ a b d, c = .doctype a b d → LegalDoctype c := by
    rintro c hc a b d rfl
    rcases hcs _ hc with h | h | h
    · cases h
    · exact h
    · cases h
  have hraw := opsText_raw hfine
  have htext := (opsText_startDocument wide st.enc (p := newPrinter false encoding) rfl sa).1
  have hT : opsText wide st.enc ((newPretty encoding).calls (.startDocument sa :: cs)) =
      u!! "<?xml" ++ (u!! " version=\"1.0\" encoding=\"" ++ (encoding ++ (34 :: (standaloneText sa ++ (u!! "?>" ++
        (10 :: opsText wide st.enc ((newPretty encoding).calls cs))))))) := by
    rw [hcalls, opsText_append, htext]
    simp [newPrinter]
  refine ⟨b, _, layCalls 0 false false cs, ?_, hdec _ _ (fun c hc => (hraw c hc).1) hb, ?_,
    laid_calls cs .prolog [] false false none hdoc hty (rem_text _ _ _),
    fun hne => (lay_calls cs .prolog [] false false none hdoc hty hne (fun h => by cases h)).symm⟩
  · rw [ho, newStream_out hnew, List.nil_append]
  · have hparts := reads_document (.ws rfl (c := 10) (by decide) hrd)
    have hdecl := readDecl_text he hsa (10 :: opsText wide st.enc ((newPretty encoding).calls cs))
    have hdrop : ∀ x, List.drop 5 (u!! "<?xml" ++ x) = x := fun _ => rfl
    unfold readDocument
    dsimp only
    rw [eol_raw hraw, hT, if_pos]
    · rw [hdrop, hdecl]
      dsimp only
      rw [hparts _ (Nat.lt_succ_self _)]
      rfl
    · refine ⟨Py.startsWith_iff.2 ⟨_, rfl⟩, ?_⟩
      rw [hdrop]
      simp [nameChar, nameStart]

/-- The sample of C34 is written and reads back. -/
example : ∃ st st' T evs, newStream true (fun _ => some utf8Codec) (u!! "utf-8") = some st ∧
    printPretty true st (u!! "utf-8") (.startDocument none :: sampleCalls) = .ok st' ∧
    decodeUtf8 st'.out = some T ∧ readDocument T = some (some ⟨u!! "1.0", some (u!! "utf-8"), none⟩, evs) ∧
    evs = lay 0 none (events sampleCalls) := by
  have hnew : ∃ st, newStream true (fun _ => some utf8Codec) (u!! "utf-8") = some st ∧ st.enc = utf8Codec ∧ st.bom = none := by
    unfold newStream
    rw [if_neg (by decide)]
    exact ⟨_, rfl, rfl, rfl⟩
  obtain ⟨st, hnew, henc, hbom⟩ := hnew
  have hb : bomBytes st = [] := by rw [bomBytes, hbom]
  have hu : Usable st.enc := henc ▸ usable_utf8
  obtain ⟨h1, h2, h3⟩ := sampleCalls_legal
  obtain ⟨st', hst'⟩ := C81_written true hnew hu (by decide) (Or.inl rfl) h1 h2
    (h3 st.enc (by rw [henc]; simp [utf8Codec]))
  obtain ⟨b, T, evs, h4, h5, h6, h7, h8⟩ := C81_document_read_back true hnew hu (henc ▸ inverse_utf8) (by decide)
    (Or.inl rfl) h1 h2 hst'
  rw [hb] at h4
  refine ⟨st, st', T, evs, hnew, hst', by rw [h4]; exact h5, h6, h8 ?_⟩
  intro c hc
  simp only [sampleCalls, List.mem_cons, List.not_mem_nil, or_false] at hc
  rcases hc with rfl | rfl | rfl | rfl | rfl | rfl | rfl | rfl | rfl | rfl | rfl <;> simp [TextNonempty]

/-- What is written. -/
def prettyText (cs : List Call) : Option Bytes :=
  (printPretty true ⟨utf8Codec, true, none, []⟩ (u!! "utf-8") (.startDocument none :: cs)).toOption.map (·.out)

/-- Elements in an element, one of them empty, one with text, and a comment. -/
example : prettyText [.startElement (u!! "a") [] [], .startElement (u!! "b") [] [], .text (u!! "x y"), .endElement (u!! "b"),
      .comment (u!! "c"), .startElement (u!! "d") [] [], .startElement (u!! "e") [] [], .endElement (u!! "e"),
      .endElement (u!! "d"), .endElement (u!! "a"), .endDocument] =
    some (u!! "<?xml version=\"1.0\" encoding=\"utf-8\"?>\n<a>\n  <b>x y</b>\n  <!--c-->\n  <d>\n    <e/>\n  </d>\n</a>") := by
  decide +kernel

/-- The comment in the code, "Do not allow indenting for elements with mixed content", is about what follows the text
directly: two elements after text are parted by white space that was not there. -/
theorem C81_mixed_content : ∃ cs : List Call, DocCalls .prolog [] cs ∧ (∀ c ∈ cs, LegalCall true c) ∧
    prettyText cs = some (u!! "<?xml version=\"1.0\" encoding=\"utf-8\"?>\n<p>a<b/>\n  <i/>\n</p>") ∧
    lay 0 none (events cs) ≠ events cs := by
  refine ⟨[.startElement (u!! "p") [] [], .text (u!! "a"), .startElement (u!! "b") [] [], .endElement (u!! "b"),
    .startElement (u!! "i") [] [], .endElement (u!! "i"), .endElement (u!! "p")], ?_, ?_, ?_, ?_⟩
  · simp [DocCalls]
  · intro c hc
    simp only [List.mem_cons, List.not_mem_nil, or_false] at hc
    rcases hc with rfl | rfl | rfl | rfl | rfl | rfl | rfl
    · unfold LegalCall LegalText; decide
    · unfold LegalCall LegalText; decide
    · unfold LegalCall LegalText; decide
    · exact trivial
    · unfold LegalCall LegalText; decide
    · exact trivial
    · exact trivial
  · decide +kernel
  · decide +kernel

end Verif.Write
