import Verif.Write.XhtmlSpec
import Verif.Write.HtmlCalls
import Verif.Write.Props
/- The XHTML printer does what the XML printer does when it is given an empty text after each start tag
of XHTML. -/
namespace Verif.Write.Xhtml
open Verif Verif.Write Verif.Write.Spec Verif.Write.Xhtml.Spec

/-- The calls for the XML printer. -/
def asXml : XCall → List Call
  | .start ns n ds as =>
    if ns = some xhtmlNs then
      if emptyElements.contains n then [.startElement n ds (as.map (translate n))]
      else [.startElement n ds (as.map (translate n)), .text []]
    else [.startElement n ds as]
  | c => [plain c]

/-! ### Entities -/

theorem named_lookup : ∀ e ∈ named, hasName e.1 = true := by
  unfold named hasName
  decide +kernel

theorem lookup_none {m : EntityMap} {c : Nat} (h : ∀ e ∈ m, e.1 ≠ c) : m.lookup c = none := by
  induction m with
  | nil => rfl
  | cons e m ih =>
    obtain ⟨k, v⟩ := e
    have : (c == k) = false := by
      have := h (k, v) (by simp)
      simp at this ⊢
      omega
    rw [List.lookup_cons, this]
    exact ih (fun e he => h e (by simp [he]))

theorem lookup_named {c : Nat} (h : hasName c = false) : named.lookup c = none := by
  apply lookup_none
  intro e he hc
  have := named_lookup e he
  rw [hc, h] at this
  cases this

theorem lookup_append_none {m m' : EntityMap} {c : Nat} (h : m'.lookup c = none) :
    (m ++ m').lookup c = m.lookup c := by
  induction m with
  | nil => simpa using h
  | cons e m ih =>
    obtain ⟨k, v⟩ := e
    simp only [List.cons_append, List.lookup_cons]
    rw [ih]

theorem text_lookup {c : Nat} (h : hasName c = false) : textMap.lookup c = textEntities.lookup c := by
  unfold textMap
  rw [lookup_append_none (lookup_named h)]
  unfold textEntities
  simp only [List.lookup_cons, List.lookup_nil]
  done

theorem quot_lookup {c : Nat} (h : hasName c = false) (h' : c ≠ 60) :
    quotMap.lookup c = attrEntitiesQuot.lookup c := by
  unfold quotMap
  rw [lookup_append_none (lookup_named h)]
  unfold attrEntitiesQuot
  have : (c == 60) = false := by simpa using h'
  simp only [List.lookup_cons, List.lookup_nil, this]
  done

theorem apos_lookup {c : Nat} (h : hasName c = false) (h' : c ≠ 60) (h'' : c ≠ 39) :
    aposMap.lookup c = attrEntitiesApos.lookup c := by
  unfold aposMap
  rw [lookup_append_none (lookup_named h)]
  unfold attrEntitiesApos
  have : (c == 60) = false := by simpa using h'
  have : (c == 39) = false := by simpa using h''
  simp only [List.lookup_cons, List.lookup_nil, *]
  done

theorem escapeLoop_congr {m m' : EntityMap} {s : UStr} (h : ∀ c ∈ s, m.lookup c = m'.lookup c) (st : Stream)
    (chunk : UStr) : escapeLoop st m chunk s = escapeLoop st m' chunk s := by
  induction s generalizing st chunk with
  | nil => rfl
  | cons c s ih =>
    have ih := fun st chunk => ih (fun x hx => h x (by simp [hx])) st chunk
    simp only [escapeLoop]
    rw [h c (by simp)]
    split
    · split
      · rfl
      · exact ih _ _
    · exact ih _ _

/-- The illegal characters become `?`, which no map has. -/
theorem escape_congr {m m' : EntityMap} {s : UStr} (wide : Bool) (h : ∀ c ∈ s, m.lookup c = m'.lookup c)
    (hq : m.lookup 63 = m'.lookup 63) (st : Stream) :
    (Op.escape s m).run wide st = (Op.escape s m').run wide st := by
  simp only [Op.run, Stream.writeEscape]
  apply escapeLoop_congr
  intro c hc
  simp only [sanitize, List.mem_map] at hc
  obtain ⟨x, hx, rfl⟩ := hc
  split
  · exact h x hx
  · exact hq

theorem hasName_63 : hasName 63 = false := by decide +kernel

theorem ascii_noName : ∀ c < 128, hasName c = false := by decide +kernel

/-! ### Operations -/

/-- The operations do the same on every stream. -/
def SameOps (wide : Bool) (a b : List Op) : Prop := ∀ st, runOps wide st a = runOps wide st b

theorem SameOps.refl (wide a) : SameOps wide a a := fun _ => rfl

theorem runOps_append (wide : Bool) (a b : List Op) (st : Stream) :
    runOps wide st (a ++ b) = match runOps wide st a with
      | .error e => .error e
      | .ok st' => runOps wide st' b := by
  induction a generalizing st with
  | nil => rfl
  | cons op a ih =>
    simp only [List.cons_append, runOps]
    cases op.run wide st with
    | error e => rfl
    | ok s => exact ih s

theorem SameOps.append {wide a a' b b'} (h1 : SameOps wide a a') (h2 : SameOps wide b b') :
    SameOps wide (a ++ b) (a' ++ b') := by
  intro st
  rw [runOps_append, runOps_append, h1 st]
  split
  · rfl
  · exact h2 _

theorem SameOps.cons {wide op a b} (h : SameOps wide a b) : SameOps wide (op :: a) (op :: b) :=
  SameOps.append (a := [op]) (a' := [op]) (.refl _ _) h

theorem SameOps.single {wide} {a b : Op} (h : ∀ st, a.run wide st = b.run wide st) :
    SameOps wide [a] [b] := by
  intro st; simp only [runOps, h st]

theorem SameOps.flatMap {wide} {α : Type} {f g : α → List Op} {l : List α}
    (h : ∀ x ∈ l, SameOps wide (f x) (g x)) : SameOps wide (l.flatMap f) (l.flatMap g) := by
  induction l with
  | nil => exact .refl _ _
  | cons x l ih =>
    simp only [List.flatMap_cons]
    exact (h x (by simp)).append (ih (fun y hy => h y (by simp [hy])))

theorem attr_same (wide : Bool) {a : UStr × UStr} (h : GoodValue a.2) :
    SameOps wide (attrOps a) (Write.attrOps false a) := by
  unfold attrOps Write.attrOps
  have hq : (quoting a.2).2 = (Write.quoting false a.2).2 := by
    unfold quoting Write.quoting; simp only [Bool.not_false, Bool.true_and]; split <;> rfl
  rw [hq]
  refine .cons (.cons (.cons (.cons (SameOps.append (a := [_]) (a' := [_]) (.single fun st => ?_) (.refl _ _)))))
  unfold quoting Write.quoting
  simp only [Bool.not_false, Bool.true_and]
  split
  · rename_i h1
    simp only [Bool.and_eq_true, Bool.not_eq_true', List.contains_eq_mem, decide_eq_false_iff_not] at h1
    refine escape_congr wide (fun c hc => apos_lookup (h c hc).2 (h c hc).1 ?_)
      (apos_lookup hasName_63 (by decide) (by decide)) st
    intro e; subst e; exact h1.2 hc
  · exact escape_congr wide (fun c hc => quot_lookup (h c hc).2 (h c hc).1) (quot_lookup hasName_63 (by decide)) st

theorem text_same (wide : Bool) {s : UStr} (h : ∀ c ∈ s, hasName c = false) :
    SameOps wide [.escape s textMap] [.escape s textEntities] :=
  .single (escape_congr wide (fun c hc => text_lookup (h c hc)) (text_lookup hasName_63))

/-- After something is written, an empty text does nothing. -/
theorem empty_text (wide : Bool) (s : UStr) (m : EntityMap) :
    SameOps wide [.ascii s] [.ascii s, .escape [] m] := by
  intro st
  simp only [runOps]
  cases h : (Op.ascii s).run wide st with
  | error e => rfl
  | ok st' =>
    have hb : st'.bom = none := by
      simp only [Op.run, Stream.writeAscii, Write.writeAscii, Write.writeEncode] at h
      have hf : st.flushBom.bom = none := by
        unfold Stream.flushBom; split
        · assumption
        · rfl
      split at h
      · cases h; exact hf
      · split at h
        · cases h
        · cases h; exact hf
    have : st'.flushBom = st' := by unfold Stream.flushBom; rw [hb]
    simp [Op.run, Stream.writeEscape, sanitize, escapeLoop, writeChunk, this]

/-! ### Attributes -/

theorem listed_uri (n a : UStr) : Html.listed uriAttributes a n = isUri n a := by
  have h : ∀ x : UStr × UStr, x ∈ Html.pairs uriAttributes ↔ isUri x.1 x.2 = true := by
    unfold isUri
    simp only [List.contains_eq_mem, decide_eq_true_eq]
    intro x
    constructor
    · revert x; decide +kernel
    · revert x; decide +kernel
  cases e : isUri n a with
  | true => exact (Html.listed_iff (by decide +kernel) a n).mpr ((h (n, a)).mpr e)
  | false =>
    cases e' : Html.listed uriAttributes a n with
    | false => rfl
    | true =>
      have := (h (n, a)).mp ((Html.listed_iff (by decide +kernel) a n).mp e')
      rw [e] at this; cases this

theorem isXhtml_iff (ns : Option UStr) : isXhtml ns = true ↔ ns = some xhtmlNs := by
  simp [isXhtml, xhtmlNs]

theorem translate_want {n : UStr} {a : UStr × UStr} (h : ∀ c ∈ a.2, Legal c) :
    WantAttr (some xhtmlNs) n a (translate n a) := by
  unfold WantAttr translate
  have : isXhtml (some xhtmlNs) = true := (isXhtml_iff _).mpr rfl
  rw [listed_uri, this, Bool.true_and]
  split
  · exact ⟨rfl, Html.escapeUri_spec h⟩
  · exact ⟨rfl, rfl⟩

theorem hex_ne (i : Nat) : (u!! "0123456789ABCDEF").getD i 0 ≠ 60 := by
  rcases Nat.lt_or_ge i 16 with h | h
  · revert i; decide
  · have : (u!! "0123456789ABCDEF")[i]? = none := List.getElem?_eq_none h
    rw [List.getD, this]; decide

theorem ascii_lt {v : UStr} (h : ∀ c ∈ v, Legal c) (h60 : 60 ∉ v) : 60 ∉ Html.escapeUri v := by
  have : Html.Spec.EscapesTo v (Html.escapeUri v) := Html.escapeUri_spec h
  generalize Html.escapeUri v = w at this
  induction this with
  | nil => simp
  | ascii _ _ ih =>
    simp only [List.mem_cons, not_or] at h60 ⊢
    exact ⟨h60.1, ih (fun c hc => h c (by simp [hc])) h60.2⟩
  | @other c bs s t h1 h2 _ ih =>
    simp only [List.mem_cons, not_or] at h60
    simp only [List.mem_append, not_or]
    refine ⟨?_, ih (fun c hc => h c (by simp [hc])) h60.2⟩
    intro hm
    obtain ⟨b, _, hb⟩ := List.mem_flatMap.mp hm
    simp only [Html.Spec.pct, List.mem_cons, List.not_mem_nil, or_false] at hb
    rcases hb with hb | hb | hb
    · cases hb
    · exact hex_ne _ hb.symm
    · exact hex_ne _ hb.symm

/-! ### The printer -/

theorem startOps_same (wide : Bool) {p : Printer} (hp : p.canonical = false) {name : UStr}
    {ds : List (Option UStr × UStr)} {as : List (UStr × UStr)} (hd : ∀ d ∈ ds, GoodValue d.2)
    (ha : ∀ a ∈ as, GoodValue a.2) :
    SameOps wide (startOps p name ds as) (p.call (.startElement name ds as)).1 := by
  unfold startOps Printer.call
  simp only [hp, tagAttrs, Bool.false_eq_true, if_false]
  refine SameOps.append (.refl _ _) (.flatMap fun x hx => attr_same wide ?_)
  rcases List.mem_append.mp hx with h | h
  · obtain ⟨d, hd', rfl⟩ := List.mem_map.mp h
    obtain ⟨q, u⟩ := d
    exact hd _ hd'
  · exact ha x h

theorem translate_good {n : UStr} {a : UStr × UStr} (hl : ∀ c ∈ a.2, Legal c) (h60 : 60 ∉ a.2)
    (hg : GoodValue a.2 ∨ isUri n a.1 = true) : GoodValue (translate n a).2 := by
  unfold translate
  rw [listed_uri]
  split
  · intro c hc
    refine ⟨fun e => ascii_lt hl h60 (e ▸ hc), ascii_noName c (Html.escapeUri_chars hl c hc).2⟩
  · rename_i h
    rcases hg with hg | hg
    · exact hg
    · exact absurd hg h

/-- The next call does not end an element without content model at once. -/
def Ready (p : Printer) : List XCall → Prop
  | .stop ns n :: _ => truthy p.elementName = true → (isXhtml ns && isVoid n) = false
  | _ => True

theorem isVoid_eq (n : UStr) : emptyElements.contains n = isVoid n := by
  have h : ∀ x : UStr, x ∈ emptyElements ↔ isVoid x = true := by
    unfold isVoid
    simp only [List.contains_eq_mem, decide_eq_true_eq]
    intro x
    constructor
    · revert x; decide +kernel
    · revert x; decide +kernel
  rw [List.contains_eq_mem]
  cases e : isVoid n with
  | true => exact decide_eq_true ((h n).mpr e)
  | false => exact decide_eq_false (fun h' => by rw [(h n).mp h'] at e; cases e)

theorem closeTag_name (p : Printer) : truthy (closeTag p).2.elementName = false := by
  unfold closeTag
  split
  · rfl
  · rename_i h; simpa using h

theorem ready_closed {p : Printer} (h : truthy p.elementName = false) (cs : List XCall) : Ready p cs := by
  unfold Ready; split
  · intro h'; rw [h] at h'; cases h'
  · trivial

theorem call_canonical (p : Printer) (c : Call) : (p.call c).2.canonical = p.canonical := by
  have hc : (closeTag p).2.canonical = p.canonical := by unfold closeTag; split <;> rfl
  cases c <;> simp only [Printer.call] <;> first | exact hc | rfl | (split <;> first | rfl | exact hc)

/-- Legality of the strings of a call, as far as it is needed here. -/
def LegalStart (wide : Bool) : XCall → Prop
  | .start _ n _ as => n ≠ [] ∧ ∀ a ∈ as, LegalText wide a.2
  | .startDocument _ => False
  | _ => True

theorem calls_same (wide : Bool) : ∀ (cs : List XCall) (p : Printer), p.canonical = false →
    (∀ c ∈ cs, GoodCall c ∧ LegalStart wide c) → NoVoid cs → Ready p cs →
    SameOps wide (xcalls p cs) (p.calls (cs.flatMap asXml)) := by
  intro cs
  induction cs with
  | nil => intro p _ _ _ _; exact .refl _ _
  | cons c cs ih =>
    intro p hp hg hv hr
    have hgc := hg c (by simp)
    have hgs := fun x hx => hg x (List.mem_cons_of_mem _ hx)
    -- a call that the XML printer has too
    have same : ∀ c' : Call, xcall p c = p.call c' → asXml c = [c'] → NoVoid cs →
        Ready (p.call c').2 cs → SameOps wide (xcalls p (c :: cs)) (p.calls ((c :: cs).flatMap asXml)) := by
      intro c' h1 h2 h3 h4
      rw [xcalls, List.flatMap_cons, h1, h2, List.singleton_append, Printer.calls]
      exact (SameOps.refl _ _).append (ih _ ((call_canonical p c').trans hp) hgs h3 h4)
    have closes : ∀ {q : Printer}, truthy q.elementName = false → Ready q cs := fun h => ready_closed h cs
    cases c with
    | start ns n ds as =>
      have hv' : NoVoid cs := by
        cases cs with
        | nil => trivial
        | cons d ds =>
          cases d with
          | stop => exact hv.2
          | _ => exact hv
      have hnext : ∀ q, Ready q cs := by
        intro q
        cases cs with
        | nil => trivial
        | cons d ds =>
          cases d with
          | stop => intro _; exact hv.1
          | _ => trivial
      have hn : truthy (some n) = true := by
        have := hgc.2.1
        cases n with
        | nil => exact absurd rfl this
        | cons => rfl
      simp only [xcalls, List.flatMap_cons, xcall, asXml]
      by_cases hx : ns = some xhtmlNs
      · have hxx := (isXhtml_iff ns).mpr hx
        have hga : ∀ a ∈ as.map (translate n), GoodValue a.2 := by
          intro a ha
          obtain ⟨b, hb, rfl⟩ := List.mem_map.mp ha
          have := hgc.1.2 b hb
          rw [hxx, Bool.true_and] at this
          exact translate_good (fun c hc => (hgc.2.2 b hb c hc).1) this.1 this.2
        simp only [hx, if_true]
        split
        · rw [List.singleton_append, Printer.calls]
          exact (startOps_same wide hp hgc.1.1 hga).append (ih _ hp hgs hv' (hnext _))
        · simp only [List.cons_append, List.nil_append, Printer.calls]
          rw [List.append_assoc]
          refine (startOps_same wide hp hgc.1.1 hga).append ?_
          have e : (p.call (.startElement n ds (as.map (translate n)))).2 = { p with elementName := some n } := rfl
          rw [e]
          simp only [Printer.call, closeTag, hn, if_true]
          exact (empty_text wide _ _).append (ih _ hp hgs hv' (hnext _))
      · simp only [hx, if_false]
        rw [List.singleton_append, Printer.calls]
        refine (startOps_same wide hp hgc.1.1 ?_).append (ih _ hp hgs hv' (hnext _))
        intro a ha
        rcases (hgc.1.2 a ha).2 with h | h
        · exact h
        · rw [Bool.and_eq_true, isXhtml_iff] at h; exact absurd h.1 hx
    | stop ns n =>
      refine same (.endElement n) ?_ rfl hv ?_
      · simp only [xcall]
        rw [if_neg]
        intro h
        simp only [Bool.and_eq_true, beq_iff_eq] at h
        have := hr h.1.1
        rw [← isVoid_eq, h.1.2, (isXhtml_iff ns).mpr h.2] at this
        cases this
      · apply closes
        simp only [Printer.call]
        split
        · rfl
        · rename_i h; simpa using h
    | text s =>
      simp only [xcalls, List.flatMap_cons, xcall, asXml, plain, List.singleton_append, Printer.calls, Printer.call]
      refine SameOps.append (SameOps.append (.refl _ _) (text_same wide hgc.1)) (ih _ ?_ hgs hv (closes (closeTag_name p)))
      unfold closeTag; split <;> exact hp
    | startDocument sa =>
      exact absurd hgc.2 id
    | endDocument =>
      refine same .endDocument rfl rfl hv (closes ?_)
      simp only [Printer.call]
      split
      · rfl
      · rename_i h; simpa using h
    | doctype a b d =>
      refine same (.doctype a b d) rfl rfl hv (closes ?_)
      simp only [Printer.call, hp, Bool.false_eq_true, if_false]
      exact closeTag_name p
    | rawText s => exact same (.rawText s) rfl rfl hv (closes (closeTag_name p))
    | cdata s => exact same (.cdata s) rfl rfl hv (closes (closeTag_name p))
    | pi t d => exact same (.pi t d) rfl rfl hv (closes (closeTag_name p))
    | comment s => exact same (.comment s) rfl rfl hv (closes (closeTag_name p))

/-! ### The calls for the XML printer are legal -/

theorem legal_asXml {wide : Bool} {c : XCall}
    (h : LegalCall wide (plain c) ∨ LegalDoctype (plain c) ∨ plain c = .endDocument) :
    ∀ c' ∈ asXml c, LegalCall wide c' ∨ LegalDoctype c' ∨ c' = .endDocument := by
  intro c' hc'
  cases c with
  | start ns n ds as =>
    have hl : LegalCall wide (.startElement n ds as) := by
      rcases h with h | h | h
      · exact h
      · exact absurd h (by simp [plain, LegalDoctype])
      · cases h
    have ht : LegalCall wide (.startElement n ds (as.map (translate n))) := by
      obtain ⟨h1, h2, h3, h4⟩ := hl
      refine ⟨h1, h2, ?_, ?_⟩
      · intro a ha
        obtain ⟨b, hb, rfl⟩ := List.mem_map.mp ha
        have hb' := h3 b hb
        unfold translate
        split
        · refine ⟨hb'.1, fun c hc => ?_⟩
          have := Html.escapeUri_chars (fun c hc => (hb'.2 c hc).1) c hc
          exact ⟨this.1, Or.inr (by omega)⟩
        · exact hb'
      · rw [List.map_map]
        have : (fun a : UStr × UStr => a.1) ∘ translate n = fun a => a.1 := by
          funext a; simp only [Function.comp, translate]; split <;> rfl
        rw [this]
        exact h4
    simp only [asXml] at hc'
    split at hc'
    · split at hc'
      · simp at hc'; rw [hc']; exact Or.inl ht
      · simp at hc'
        rcases hc' with rfl | rfl
        · exact Or.inl ht
        · exact Or.inl (fun c hc => nomatch hc)
    · simp at hc'; rw [hc']; exact Or.inl hl
  | _ => simp only [asXml, List.mem_singleton] at hc'; rw [hc']; exact h

theorem writable_asXml {enc : Codec} {c : XCall} (h : Writable enc (plain c)) :
    ∀ c' ∈ asXml c, Writable enc c' := by
  intro c' hc'
  cases c with
  | start ns n ds as =>
    have ht : Writable enc (.startElement n ds (as.map (translate n))) := by
      refine ⟨h.1, h.2.1, ?_⟩
      intro a ha
      obtain ⟨b, hb, rfl⟩ := List.mem_map.mp ha
      have := h.2.2 b hb
      unfold translate
      split <;> exact this
    simp only [asXml] at hc'
    split at hc'
    · split at hc'
      · simp at hc'; rw [hc']; exact ht
      · simp at hc'
        rcases hc' with rfl | rfl
        · exact ht
        · trivial
    · simp at hc'; rw [hc']; exact h
  | _ => simp only [asXml, List.mem_singleton] at hc'; rw [hc']; exact h

theorem doc_asXml : ∀ (cs : List XCall) (ph : Phase) (o : List UStr), DocCalls ph o (cs.map plain) →
    DocCalls ph o (cs.flatMap asXml) := by
  intro cs
  induction cs with
  | nil => intro ph o h; exact h
  | cons c cs ih =>
    intro ph o h
    rw [List.map_cons] at h
    rw [List.flatMap_cons]
    cases c with
    | start ns n ds as =>
      have hr := ih _ _ h.2
      simp only [asXml]
      split
      · split
        · exact ⟨h.1, hr⟩
        · exact ⟨h.1, by simp, hr⟩
      · exact ⟨h.1, hr⟩
    | stop ns n => obtain ⟨o', h1, h2⟩ := h; exact ⟨o', h1, ih _ _ h2⟩
    | text s => exact ⟨h.1, ih _ _ h.2⟩
    | cdata s => exact ⟨h.1, ih _ _ h.2⟩
    | pi t d => exact ih ph o h
    | comment s => exact ih ph o h
    | doctype a b d => exact ⟨h.1, h.2.1, ih _ _ h.2.2⟩
    | endDocument =>
      obtain ⟨h1, h2, h3⟩ := h
      have : cs = [] := by simpa using h3
      subst this
      exact ⟨h1, h2, rfl⟩
    | startDocument sa => exact absurd h id
    | rawText s => exact absurd h id

theorem want_refl {ns : Option UStr} (h : ns ≠ some xhtmlNs) (n : UStr) (as : List (UStr × UStr)) :
    WantAttrs ns n as as := by
  have hx : isXhtml ns = false := by
    cases e : isXhtml ns with
    | false => rfl
    | true => exact absurd ((isXhtml_iff ns).mp e) h
  induction as with
  | nil => exact .nil
  | cons a as ih => exact .cons ⟨rfl, by simp [hx]⟩ ih

theorem want_translate {n : UStr} {as : List (UStr × UStr)} (h : ∀ a ∈ as, ∀ c ∈ a.2, Legal c) :
    WantAttrs (some xhtmlNs) n as (as.map (translate n)) := by
  induction as with
  | nil => exact .nil
  | cons a as ih =>
    exact .cons (translate_want (h a (by simp))) (ih (fun b hb => h b (by simp [hb])))

theorem wanted_asXml {wide : Bool} {cs : List XCall} (h : ∀ c ∈ cs, LegalStart wide c) :
    Wanted cs (events (cs.flatMap asXml)) := by
  induction cs with
  | nil => exact .nil
  | cons c cs ih =>
    have ih := ih (fun x hx => h x (by simp [hx]))
    have hc := h c (by simp)
    unfold events at ih ⊢
    rw [List.flatMap_cons, List.flatMap_append]
    cases c with
    | start ns n ds as =>
      simp only [asXml]
      by_cases hx : ns = some xhtmlNs
      · have := want_translate (n := n) (fun a ha c hc' => (hc.2 a ha c hc').1)
        simp only [hx, if_true]
        split
        · exact .start this ih
        · exact .start this ih
      · simp only [hx, if_false]
        exact .start (want_refl hx n as) ih
    | _ =>
      simp only [asXml, List.flatMap_cons, List.flatMap_nil, List.append_nil]
      exact .other (nofun) ih

end Verif.Write.Xhtml
