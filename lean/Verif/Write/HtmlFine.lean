import Verif.Write.HtmlDoc

/-
What a printer writes can be encoded, and has only legal characters.
-/
namespace Verif.Write.Html
open Verif Verif.Write Verif.Write.Html.Spec
open Verif.Write.Spec (Legal space skipSpace upTo eol needSpace Phase Raw Occurs LegalText Encodable)

/-- It can be written, if its strings can be encoded, and what it writes reads back unchanged. -/
def HFine (wide : Bool) (enc : Codec) (op : HOp) : Prop := HOpOk op ∧ Raw (hopText wide enc op)

theorem hfine_ascii (wide : Bool) (enc : Codec) {s : UStr} (h : s.all (· < 128) = true)
    (h13 : s.all (fun c => decide (Legal c ∧ c ≠ 13)) = true) : HFine wide enc (.base (.ascii s)) :=
  fine_ascii wide enc h h13

theorem hfine_encode (wide : Bool) (enc : Codec) {s : UStr} (h : Raw s) : HFine wide enc (.base (.encode s)) :=
  ⟨trivial, h⟩

theorem encodable_name {enc : Codec} (ha : ∀ c < 128, enc [c] ≠ none) {n : UStr} (h : Spec.isName n = true) :
    Encodable enc n := fun c hc => ha c (hname_ascii h c hc)

theorem fine_attr (wide : Bool) {enc : Codec} (ha : ∀ c < 128, enc [c] ≠ none) {version element : UStr}
    {b : UStr × Option UStr} (hb : AttrOk wide version element b) :
    ∀ op ∈ attrOps (named version) b, HFine wide enc op ∧ HOpEncodable enc op := by
  obtain ⟨n, v⟩ := b
  obtain ⟨hn, _, hv⟩ := hb
  have h1 : HFine wide enc (.base (.ascii (u!! " "))) ∧ HOpEncodable enc (.base (.ascii (u!! " "))) :=
    ⟨hfine_ascii wide enc (by decide) (by decide), trivial⟩
  have h2 : HFine wide enc (.base (.encode n)) ∧ HOpEncodable enc (.base (.encode n)) :=
    ⟨hfine_encode wide enc (hname_raw hn), encodable_name ha hn⟩
  have h3 : ∀ s : UStr, s ∈ [u!! "=", u!! "\"", u!! "'"] →
      HFine wide enc (.base (.ascii s)) ∧ HOpEncodable enc (.base (.ascii s)) := by
    intro s hs
    simp only [List.mem_cons, List.not_mem_nil, or_false] at hs
    rcases hs with rfl | rfl | rfl <;>
      exact ⟨hfine_ascii wide enc (by decide) (by decide), trivial⟩
  have h4 : ∀ {q : Nat} {m : HMap} {s : UStr}, AttrMap version q m → v = some s → HFine wide enc (.escapeAttr s m) ∧
      HOpEncodable enc (.escapeAttr s m) := by
    intro q m s hm e
    obtain ⟨k1, k2⟩ := hv s e
    refine ⟨⟨attrMap_ascii hm, ?_⟩, trivial⟩
    show Raw (escAttr enc m (sanitize wide s))
    rw [sanitize_of k1]
    exact escAttr_raw (ha 123 (by decide)) hm s fun c hc => ⟨(k1 c hc).1, k2 c hc⟩
  intro op hop
  cases v with
  | none =>
    simp only [attrOps, List.mem_cons, List.not_mem_nil, or_false] at hop
    rcases hop with rfl | rfl
    · exact h1
    · exact h2
  | some s =>
    unfold attrOps at hop
    dsimp only at hop
    split at hop
    · simp only [List.cons_append, List.nil_append, List.mem_cons, List.not_mem_nil, or_false] at hop
      rcases hop with rfl | rfl | rfl | rfl | rfl | rfl
      · exact h1
      · exact h2
      · exact h3 _ (by simp)
      · exact h3 _ (by simp)
      · exact h4 (attrMap_apos version) rfl
      · exact h3 _ (by simp)
    · simp only [List.cons_append, List.nil_append, List.mem_cons, List.not_mem_nil, or_false] at hop
      rcases hop with rfl | rfl | rfl | rfl | rfl | rfl
      · exact h1
      · exact h2
      · exact h3 _ (by simp)
      · exact h3 _ (by simp)
      · exact h4 (attrMap_quot version) rfl
      · exact h3 _ (by simp)

/-- One call. -/
theorem fine_hcall (wide : Bool) {enc : Codec} (ha : ∀ c < 128, enc [c] ≠ none) (version : UStr) {p : HPrinter}
    (hp : p.named = named version) (he : p.elementName = none) {c : HCall} (hl : LegalCall wide c) (hg : GoodCall version c)
    (hend : ∀ ns n, c = .endElement ns n → Spec.isName n = true) :
    (∀ op ∈ (p.call c).1, HFine wide enc op ∧ (Writable enc c → HOpEncodable enc op)) ∧
    (p.call c).2.named = named version ∧ (p.call c).2.elementName = none := by
  have hclose : closeTag p = ([], p) := by unfold closeTag; rw [he]; rfl
  have lit : ∀ s : UStr, s.all (· < 128) = true → s.all (fun c => decide (Legal c ∧ c ≠ 13)) = true →
      HFine wide enc (.base (.ascii s)) ∧ (Writable enc c → HOpEncodable enc (.base (.ascii s))) :=
    fun s h1 h2 => ⟨hfine_ascii wide enc h1 h2, fun _ => trivial⟩
  have enco : ∀ s : UStr, Raw s → (Writable enc c → Encodable enc s) →
      HFine wide enc (.base (.encode s)) ∧ (Writable enc c → HOpEncodable enc (.base (.encode s))) :=
    fun s h1 h2 => ⟨hfine_encode wide enc h1, h2⟩
  have name : ∀ s : UStr, Spec.isName s = true →
      HFine wide enc (.base (.encode s)) ∧ (Writable enc c → HOpEncodable enc (.base (.encode s))) :=
    fun s h => enco s (hname_raw h) fun _ => encodable_name ha h
  cases c with
  | startDocument v => exact hl.elim
  | rawText s => exact hl.elim
  | endDocument =>
    have h1 : p.call .endDocument = ([], p) := by simp [HPrinter.call, he, truthy]
    rw [h1]
    exact ⟨nofun, hp, he⟩
  | startElement ns n nsdecls as =>
    obtain ⟨rfl, rfl, hn, has⟩ := hl
    obtain ⟨_, hok⟩ := translates_ok (version := version) hn (fun a h => ⟨has a h, hg a h⟩)
    refine ⟨fun op hop => ?_, hp, rfl⟩
    have h1 : (p.call (.startElement none n [] as)).1 = [.base (.ascii (u!! "<")), .base (.encode n)] ++
        ((as.map (translate (toLower n))).flatMap (attrOps p.named) ++ [.base (.ascii (u!! ">"))]) := by
      simp [HPrinter.call, htmlStart, xmlStart, he, truthy]
    rw [h1] at hop
    rcases List.mem_append.1 hop with hop | hop
    · simp only [List.mem_cons, List.not_mem_nil, or_false] at hop
      rcases hop with rfl | rfl
      · exact lit _ (by decide) (by decide)
      · exact name _ hn
    · rcases List.mem_append.1 hop with hop | hop
      · obtain ⟨b, hb, hop⟩ := List.mem_flatMap.1 hop
        rw [hp] at hop
        have := fine_attr wide ha (hok b hb) op hop
        exact ⟨this.1, fun _ => this.2⟩
      · rw [List.mem_singleton] at hop
        subst hop
        exact lit _ (by decide) (by decide)
  | endElement ns n =>
    have : ns = none := hl
    subst this
    have hn := hend _ _ rfl
    refine ⟨fun op hop => ?_, hp, he⟩
    have h1 : (p.call (.endElement none n)).1 =
        if isVoid n then [] else bases [.ascii (u!! "</"), .encode n, .ascii (u!! ">")] := by
      show (htmlEnd p n).1 = _
      unfold htmlEnd; rw [forbidden_iff hn]
    rw [h1] at hop
    split at hop
    · cases hop
    · simp only [bases, List.map_cons, List.map_nil, List.mem_cons, List.not_mem_nil, or_false] at hop
      rcases hop with rfl | rfl | rfl
      · exact lit _ (by decide) (by decide)
      · exact name _ hn
      · exact lit _ (by decide) (by decide)
  | text s =>
    have h1 : p.call (.text s) = ([.base (.escape s (textMap p.named))], p) := by
      simp [HPrinter.call, hclose]
    rw [h1]
    refine ⟨fun op hop => ?_, hp, he⟩
    rw [List.mem_singleton] at hop
    subst hop
    rw [hp]
    have hlt : LegalText wide s := hl
    refine ⟨⟨textMap_ascii version, ?_⟩, fun _ => trivial⟩
    have ht : hopText wide enc (.base (.escape s (textMap (named version)))) =
        s.flatMap (escChar enc (textMap (named version))) := by
      simp [hopText, opText, sanitize_of hlt]
    rw [ht]
    intro c hc
    obtain ⟨d, hd, hc⟩ := List.mem_flatMap.1 hc
    rcases text_cases enc (hlt d hd).1 (hg d hd) with ⟨k1, k2⟩ | ⟨w, k1, k2, k3⟩
    · rw [k1, List.mem_singleton] at hc
      subst hc
      exact ⟨(hlt c hd).1, k2.2.2.2⟩
    · rw [k1] at hc
      rcases List.mem_cons.1 hc with rfl | hc
      · exact ⟨by decide, by decide⟩
      · exact ⟨(k3 c hc).1, (k3 c hc).2.1⟩
  | comment s =>
    have h1 : p.call (.comment s) = (bases [.ascii (u!! "<!--"), .encode s, .ascii (u!! "-->")], p) := by
      simp [HPrinter.call, hclose]
    rw [h1]
    refine ⟨fun op hop => ?_, hp, he⟩
    simp only [bases, List.map_cons, List.map_nil, List.mem_cons, List.not_mem_nil, or_false] at hop
    rcases hop with rfl | rfl | rfl
    · exact lit _ (by decide) (by decide)
    · exact enco _ hl.1 fun h => h
    · exact lit _ (by decide) (by decide)
  | pi t d =>
    have h1 : p.call (.pi t d) = (bases (piOps t d), p) := by
      simp [HPrinter.call, hclose]
    rw [h1]
    refine ⟨fun op hop => ?_, hp, he⟩
    cases d with
    | nil =>
      simp only [bases, piOps, List.isEmpty_nil, if_true, List.append_nil, List.cons_append, List.nil_append, List.map_cons,
        List.map_nil, List.mem_cons, List.not_mem_nil, or_false] at hop
      rcases hop with rfl | rfl | rfl
      · exact lit _ (by decide) (by decide)
      · exact enco _ hl.1 fun h => h.1
      · exact lit _ (by decide) (by decide)
    | cons a d =>
      simp only [bases, piOps, List.isEmpty_cons, Bool.false_eq_true, if_false, List.cons_append, List.nil_append,
        List.map_cons, List.map_nil, List.mem_cons, List.not_mem_nil, or_false] at hop
      rcases hop with rfl | rfl | rfl | rfl | rfl
      · exact lit _ (by decide) (by decide)
      · exact enco _ hl.1 fun h => h.1
      · exact lit _ (by decide) (by decide)
      · exact enco _ hl.2.1 fun h => h.2
      · exact lit _ (by decide) (by decide)
  | doctype n pub sys =>
    obtain ⟨hn, hpub, hsys⟩ := hl
    have h2 : (doctypeCall p n pub sys).2 = p := by
      unfold doctypeCall
      split
      · rfl
      · rw [hclose]
    have h0 : p.call (.doctype n pub sys) = ((doctypeCall p n pub sys).1, p) := Prod.ext rfl h2
    rw [h0]
    refine ⟨fun op hop => ?_, hp, he⟩
    have empty : Raw ([] : UStr) ∧ Encodable enc [] := ⟨nofun, nofun⟩
    have pubOk : HFine wide enc (.base (.encode (pub.getD []))) ∧
        (Writable enc (.doctype n pub sys) → HOpEncodable enc (.base (.encode (pub.getD [])))) := by
      cases pub with
      | none => exact enco _ empty.1 fun _ => empty.2
      | some x => exact enco _ (hpub x rfl).1 fun h => h.1 x rfl
    have sysOk : HFine wide enc (.base (.encode (sys.getD []))) ∧
        (Writable enc (.doctype n pub sys) → HOpEncodable enc (.base (.encode (sys.getD [])))) := by
      cases sys with
      | none => exact enco _ empty.1 fun _ => empty.2
      | some x => exact enco _ (hsys x rfl).1 fun h => h.2 x rfl
    have hq : ∀ s : UStr, s ∈ [u!! "<!DOCTYPE ", u!! " PUBLIC \"", u!! "\">\n", u!! "\" \"", u!! " SYSTEM \"", u!! "\"", u!! ">\n"] →
        s.all (· < 128) = true ∧ s.all (fun c => decide (Legal c ∧ c ≠ 13)) = true := by decide
    have lit' : ∀ s : UStr, s ∈ [u!! "<!DOCTYPE ", u!! " PUBLIC \"", u!! "\">\n", u!! "\" \"", u!! " SYSTEM \"", u!! "\"", u!! ">\n"] →
        HFine wide enc (.base (.ascii s)) ∧ (Writable enc (.doctype n pub sys) → HOpEncodable enc (.base (.ascii s))) :=
      fun s hs => lit s (hq s hs).1 (hq s hs).2
    have hops : ∀ op ∈ [HOp.base (.ascii (u!! "<!DOCTYPE ")), .base (.encode n), .base (.ascii (u!! " PUBLIC \"")),
        .base (.encode (pub.getD [])), .base (.ascii (u!! "\">\n")), .base (.ascii (u!! "\" \"")),
        .base (.encode (sys.getD [])), .base (.ascii (u!! " SYSTEM \""))],
        HFine wide enc op ∧ (Writable enc (.doctype n pub sys) → HOpEncodable enc op) := by
      intro op hop
      simp only [List.mem_cons, List.not_mem_nil, or_false] at hop
      rcases hop with rfl | rfl | rfl | rfl | rfl | rfl | rfl | rfl
      · exact lit' _ (by simp)
      · exact name _ hn
      · exact lit' _ (by simp)
      · exact pubOk
      · exact lit' _ (by simp)
      · exact lit' _ (by simp)
      · exact sysOk
      · exact lit' _ (by simp)
    refine hops op ?_
    unfold doctypeCall doctypeOps at hop
    rw [hclose] at hop
    revert hop
    cases truthy pub <;> cases truthy sys <;>
      (simp only [Bool.and_true, Bool.and_false, Bool.not_true, Bool.not_false, Bool.false_eq_true, if_true, if_false, bases,
        List.nil_append, List.map_cons, List.map_nil, List.mem_cons, List.not_mem_nil, or_false]
       intro h
       revert h
       grind)

/-- The calls of a document. -/
theorem fine_hcalls (wide : Bool) {enc : Codec} (ha : ∀ c < 128, enc [c] ≠ none) (version : UStr) :
    ∀ (cs : List HCall) (p : HPrinter) (ph : Phase) (o : List UStr), p.named = named version → p.elementName = none →
    (∀ c ∈ cs, LegalCall wide c ∧ GoodCall version c) → DocCalls ph o cs → (∀ n ∈ o, Spec.isName n = true) →
    ∀ op ∈ p.calls cs, HFine wide enc op ∧ ((∀ c ∈ cs, Writable enc c) → HOpEncodable enc op) := by
  intro cs
  induction cs with
  | nil => intro p ph o _ _ _ _ _ op h; cases h
  | cons c cs ih =>
    intro p ph o hp he hcs hd ho op hop
    have hc := hcs c (by simp)
    have hcs' : ∀ c ∈ cs, LegalCall wide c ∧ GoodCall version c := fun x hx => hcs x (by simp [hx])
    have hend : ∀ ns n, c = .endElement ns n → Spec.isName n = true := by
      rintro ns n rfl
      obtain ⟨o', rfl, _⟩ := hd
      exact ho n (by simp)
    obtain ⟨h1, h2, h3⟩ := fine_hcall wide ha version hp he hc.1 hc.2 hend
    rw [HPrinter.calls] at hop
    rcases List.mem_append.1 hop with hop | hop
    · exact ⟨(h1 op hop).1, fun h => (h1 op hop).2 (h c (by simp))⟩
    · have hrest : ∃ ph' o', DocCalls ph' o' cs ∧ ∀ n ∈ o', Spec.isName n = true := by
        cases c with
        | startDocument v => exact hd.elim
        | rawText s => exact hd.elim
        | endDocument => obtain ⟨_, _, rfl⟩ := hd; exact ⟨.root, [], ⟨rfl, rfl⟩, nofun⟩
        | startElement ns n nsdecls as =>
          refine ⟨_, _, hd.2.2.2, fun m hm => ?_⟩
          rcases List.mem_cons.1 hm with rfl | hm
          · exact hc.1.2.2.1
          · exact ho m hm
        | endElement ns n =>
          obtain ⟨o', rfl, hd⟩ := hd
          exact ⟨_, _, hd, fun m hm => ho m (by simp [hm])⟩
        | text s => exact ⟨_, _, hd.2.2, ho⟩
        | comment s => exact ⟨_, _, hd.2.2, ho⟩
        | pi t d => exact ⟨_, _, hd.2.2, ho⟩
        | doctype n a b => exact ⟨_, _, hd.2.2, nofun⟩
      obtain ⟨ph', o', hd', ho'⟩ := hrest
      have := ih (p.call c).2 ph' o' h2 h3 hcs' hd' ho' op hop
      exact ⟨this.1, fun h => this.2 fun x hx => h x (by simp [hx])⟩

end Verif.Write.Html
