import Verif.Xslt.Rd.Run
/-
A document.
-/
namespace Verif.Xslt.Rd
open Verif.Content
open Verif.Write (UStr)
open Spec (Item Ctx St)

variable {N : Type}

def stylesheet_ : UStr := u!! "stylesheet"
def template_ : UStr := u!! "template"

theorem root_dfa : start_ rootModel = ([[(.xsl stylesheet_, 1), (.xsl (u!! "transform"), 1), (.fin, 2), (.result, 3)], [(.fin, 2)], [],
    [(.result, 3), (.fin, 2)]], 0) := by decide +kernel

theorem root_step (i : Item) : (step .root (start_ rootModel) i).isSome =
    (match i with | .xsl l => decide (l = u!! "stylesheet") || decide (l = u!! "transform") | .other => true | .chars => false) := by
  rw [root_dfa, step]
  cases i with
  | xsl l =>
    simp only [transit, tok, List.getElem?_cons_zero, lookup]
    by_cases h1 : l = u!! "stylesheet"
    · subst h1; rfl
    · by_cases h2 : l = u!! "transform"
      · subst h2; rfl
      · have h3 : ¬ Tok.xsl stylesheet_ = .xsl l := fun e => h1 (by cases e; rfl)
        have h4 : ¬ Tok.xsl (u!! "transform") = .xsl l := fun e => h2 (by cases e; rfl)
        simp only [h3, h4, if_false, reduceCtorEq, h1, h2, decide_false]
        rfl
  | other => rfl
  | chars => rfl

/-- The element of a frame is that of its content. -/
theorem element_eq {rd rd' : Reader N} {f f3 p : Frame N} {v : Val} {r : Spec.Content} {L : Nat} (hp : Post rd rd' f f3 p v r.trees r.bound L)
    (hl : f.locals = p.locals) (hk : f.kids = []) :
    f3.element p = .elem f.klass f.name (if r.bound then .push :: r.trees ++ [.pop] else r.trees) := by
  have hkids : f3.kids = r.trees := by rw [hp.frame]; show f.kids ++ r.trees = _; rw [hk]; rfl
  have hbd := hp.bound
  rw [hl] at hbd
  simp only [ne_eq, not_true_eq_false, false_or] at hbd
  rw [Frame.element, hkids, show f3.klass = f.klass by rw [hp.frame], show f3.name = f.name by rw [hp.frame]]
  cases hrb : r.bound with
  | true =>
    rw [hrb] at hbd
    rw [if_neg (hbd.2 rfl)]; rfl
  | false =>
    rw [hrb] at hbd
    have : f3.locals = p.locals := Classical.byContradiction fun h => by
      have := hbd.1 h; cases this
    rw [if_pos this]; rfl

/-- The start of the stylesheet element that stands for a literal result element. -/
theorem start_sheet (H : Hooks N) (rd : Reader N) (p : Frame N) (n : N) (seen : List UStr) (ha : Agrees rd.cache seen)
    (hst : rd.stack = [p]) (hv : p.val = start_ rootModel) :
    (H.zero n = true ∧ ∃ e, startElement H { name := (some xslNs, stylesheet_), decls := [], attrs := [((none, ver_), .num n)] } rd = .error e) ∨
    (H.zero n = false ∧ ∃ (fs : Frame N) (cache : List (UStr × Class)),
      startElement H { name := (some xslNs, stylesheet_), decls := [], attrs := [((none, ver_), .num n)] } rd =
        .ok { rd with next := rd.next + 1, cache := cache, sheet := some rd.next,
                      stack := [fs, { p with val := (p.val.1, 1) }] } ∧
      Agrees cache seen ∧ fs.node = rd.next ∧ fs.klass = .xsl stylesheet_ ∧ fs.name = (some xslNs, stylesheet_) ∧ fs.kids = [] ∧
        fs.val = start_ transform.1 ∧ fs.locals = p.locals ∧ fs.cur = p.cur) := by
  have hcls : elementClass stylesheet_ = some { klass := .xsl stylesheet_, model := transform.1, token := .xsl stylesheet_, attrs := some transform.2 } := rfl
  obtain ⟨cache, hca, hcl⟩ : ∃ cache, Agrees cache seen ∧ classify H rd.cache p.fc p.ext (some xslNs, stylesheet_) =
      .ok (cache, { klass := .xsl stylesheet_, model := transform.1, token := .xsl stylesheet_, attrs := some transform.2 }) := by
    unfold classify
    rw [if_pos rfl]
    cases hl : lookup stylesheet_ rd.cache with
    | some c =>
      rcases ha.known _ _ hl with h | ⟨h, _⟩
      · rw [hcls] at h; cases h
        exact ⟨rd.cache, ha, rfl⟩
      · rw [hcls] at h; cases h
    | none =>
      refine ⟨_, ⟨fun l' c' h' => ?_, fun l' h' => ?_⟩, rfl⟩
      · rw [lookup] at h'
        split at h'
        · rename_i e; subst e; cases h'; exact .inl hcls
        · exact ha.known l' c' h'
      · rw [lookup] at h'
        split at h'
        · cases h'
        · exact ha.new l' h'
  have hadv : advance p (.xsl stylesheet_) = .ok { p with val := (p.val.1, 1) } := by
    rw [advance, hv, root_dfa]; rfl
  unfold startElement
  rw [hst]
  dsimp only [List.nil_append]
  rw [hcl]
  dsimp only
  rw [hadv]
  dsimp only
  rw [attributes_eq H _ (.inl ⟨_, rfl⟩)]
  dsimp only
  rw [show isSheet stylesheet_ = true from rfl]
  have hleg : ∀ (f : Frame N), legalAttrs H true transform.2 [((none, ver_), AVal.num n)] f =
      if H.zero n then .error .badValue else .ok ([], { f with attrs := f.attrs ++ [(u!! "id", .none)], ext := [] ++ f.ext, fc := !H.one n, version := some n }) := by
    intro f
    show legalAttrs H true [(u!! "id", { type := .id }), (ext_, { type := .prefixes }), (excl_, { type := .prefixes }),
      (ver_, { type := .number, required := true })] _ _ = _
    simp only [legal_cons]
    cases hz : H.zero n <;>
      simp [lookup, ver_, ext_, excl_, prepare, prepareDefault, standardAttr, prefixUris, hz, legalAttrs]
  rw [hleg]
  cases hz : H.zero n with
  | true => exact .inl ⟨rfl, _, rfl⟩
  | false =>
    right
    exact ⟨rfl, _, cache, rfl, hca, rfl, rfl, rfl, rfl, rfl, rfl, rfl⟩

theorem closes_start {H : Hooks N} {k : Klass} {name : Name} {cls : Class} (hc : ClassOf H k name cls)
    (ha : Spec.allows (Spec.rule H k) [] = true) : closes (start_ cls.model) = true := by
  have := walk_ok hc []
  rw [ha] at this
  exact this

/-- A literal result element as a stylesheet. -/
theorem simplified_spec (H : Hooks N) (hg : Good H) (rd : Reader N) (f p : Frame N) (n : N) (seen : List UStr) (ha : Agrees rd.cache seen)
    (hst : rd.stack = [f, p]) (hp : p.kids = []) (hlen : p.locals < rd.dicts.length) (hnext : p.node < rd.next)
    (hroot : rd.root = some p.node) (hsheet : rd.sheet = none) (hk : f.klass = .literal) (hver : f.version = some n)
    (hcl : closes f.val = true) :
    (H.zero n = true ∧ ∃ e, endElement H rd = .error e) ∨
    (H.zero n = false ∧ ∃ rd' p', endElement H rd = .ok rd' ∧ rd'.stack = [p'] ∧ rd'.sheet.isSome = true ∧
      p'.kids = [Spec.simplified (f.element p)]) := by
  obtain ⟨q, hq⟩ := Option.isSome_iff_exists.1 hcl
  rw [endElement, hst]
  dsimp only
  rw [if_pos ⟨by rw [hsheet]; rfl, hroot⟩, hq]
  dsimp only
  rw [if_neg (by simp [hk]), hver]
  dsimp only
  rcases start_sheet H { rd with stack := [{ p with val := start_ rootModel }] } { p with val := start_ rootModel } n seen ha rfl rfl with
    ⟨hz, e, h1⟩ | ⟨hz, fs, cache, h1, h2, h3, h4, h5, h6, h7, h8, h9⟩
  · left
    refine ⟨hz, e, ?_⟩
    show andThen (startElement H { name := (some xslNs, stylesheet_), decls := [], attrs := [((none, ver_), .num n)] } _) _ = _
    rw [h1]; rfl
  right
  refine ⟨hz, ?_⟩
  show ∃ rd' p', andThen (startElement H { name := (some xslNs, stylesheet_), decls := [], attrs := [((none, ver_), .num n)] } _) _ = _ ∧ _
  rw [h1]
  dsimp only [andThen]
  -- the context in the stylesheet element
  have hdict : ∃ d, rd.dicts[p.locals]? = some d := ⟨_, List.getElem?_eq_getElem hlen⟩
  obtain ⟨d, hd⟩ := hdict
  let c : Ctx := { fc := fs.fc, cur := fs.cur, ext := fs.ext, vis := d, top := true }
  let st : St := { globals := rd.globals, seen }
  have hb : Base { rd with next := rd.next + 1, cache := cache, sheet := some rd.next, stack := [fs, { p with val := ((start_ rootModel).1, 1) }] } fs c st := by
    refine ⟨rfl, rfl, rfl, ?_, ?_, rfl, h2, ?_, ?_, ?_⟩
    · rw [h8]; exact hd
    · show true = decide (some rd.next = some fs.node)
      rw [h3]; simp
    · rw [h3]; exact Nat.lt_succ_self _
    · intro s e; cases e; exact Nat.lt_succ_self _
    · intro s e
      have e : rd.root = some s := e
      rw [hroot] at e; cases e
      show p.node < rd.next + 1
      omega
  have hkind : Spec.kind H c st.seen (some xslNs, template_) = some (.xsl template_) := rfl
  have hts := start_spec H hg _ fs _ c st (some xslNs, template_) [] [((none, u!! "match"), u!! "/")] rfl hb (by decide) (by decide)
    (fun k hk' hs => by rw [hkind] at hk'; cases hk'; cases hs)
  have hstep : step fs.klass fs.val (.xsl template_) = some ((start_ transform.1).1, 2) := by
    rw [h7, h4]; decide +kernel
  have hok : Spec.attrsOk H (Spec.inside H c (.xsl template_) [] [((none, u!! "match"), u!! "/")]) c.top (.xsl template_) (some xslNs, template_)
      [((none, u!! "match"), u!! "/")] = true := by
    have hfind : Spec.find template_ Spec.elements = some (.paramsThenTemplate, [(u!! "match", .pattern, false), (u!! "name", .qname, false),
      (u!! "priority", .number, false), (u!! "mode", .qname, false)]) := by decide +kernel
    simp only [Spec.attrsOk, hfind]
    simp [Spec.declared, Spec.find, Spec.valid, hg.slash, Spec.isSheet, template_]
  rw [hkind, Option.bind_some] at hts
  rw [show Spec.item (.xsl template_) = .xsl template_ from rfl, hstep, Option.bind_some, if_pos hok] at hts
  rcases hts with ⟨x, rd2, hx, h10, f4, h11⟩ | ⟨hx, _⟩
  rotate_left
  · cases hx
  cases hx
  have h10' : startElement H { name := (some xslNs, u!! "template"), decls := [], attrs := [((none, u!! "match"), AVal.str (u!! "/"))] }
      { rd with next := rd.next + 1, cache := cache, sheet := some rd.next,
                stack := [fs, { p with val := ((start_ rootModel).1, 1) }] } = .ok rd2 := h10
  rw [h10']
  dsimp only at h11 ⊢
  rw [appendTop, h11.stack]
  dsimp only
  obtain ⟨cls, hcls, hval⟩ := h11.cls
  have hc4 : closes f4.val = true := by
    rw [hval]
    exact closes_start hcls (by rw [show Spec.rule H (.xsl template_) = .paramsThenTemplate from rfl]; rfl)
  obtain ⟨q4, hq4⟩ := Option.isSome_iff_exists.1 hc4
  have hcs : transit (start_ transform.1).1 2 .fin = some 1 := by decide +kernel
  have he : endPlain { rd2 with stack := [{ f4 with kids := f4.kids ++ [f.element p] },
                                          { fs with val := ((start_ transform.1).1, 2) },
                                          { p with val := ((start_ rootModel).1, 1) }] } =
      .ok { rd2 with stack := [{ fs with val := ((start_ transform.1).1, 2), kids := [.elem (.xsl template_) (some xslNs, template_) [f.element p]] },
                               { p with val := ((start_ rootModel).1, 1) }] } := by
    unfold endPlain
    dsimp only
    rw [hq4]
    dsimp only [bindVariable]
    rw [if_neg (by rw [h11.klass]; decide)]
    have : Frame.element { f4 with kids := f4.kids ++ [f.element p] } { fs with val := ((start_ transform.1).1, 2) } =
        .elem (.xsl template_) (some xslNs, template_) [f.element p] := by
      unfold Frame.element
      dsimp only
      rw [h11.klass, h11.name_, h11.kids, if_pos h11.locals]
      rfl
    rw [this, h6]
    rfl
  rw [he]
  dsimp only
  unfold endPlain
  dsimp only
  rw [hcs]
  dsimp only [bindVariable]
  rw [if_neg (by rw [h4]; decide)]
  refine ⟨_, _, rfl, rfl, ?_, ?_⟩
  · show rd2.sheet.isSome = true
    rw [h11.sheet]; rfl
  · show p.kids ++ [Frame.element _ _] = _
    rw [hp]
    unfold Frame.element
    dsimp only
    rw [h4, h5, if_pos h8]
    rfl

/-- A new reader, at the start of the document. -/
theorem start_base (cache : List (UStr × Class)) (seen : List UStr) (ha : Agrees cache seen) :
    ∃ root : Frame N, (startDocument (Reader.new cache : Reader N)).stack = [root] ∧ root.klass = .root ∧ root.val = start_ rootModel ∧
      root.kids = [] ∧ root.node = 0 ∧ root.locals = 0 ∧
      Base (startDocument (Reader.new cache)) root Spec.outside { globals := [], seen } :=
  ⟨_, rfl, rfl, rfl, rfl, rfl, rfl, ⟨rfl, rfl, rfl, rfl, rfl, rfl, ha, Nat.lt_succ_self _, nofun, fun s e => by
    cases e; exact Nat.lt_succ_self _⟩⟩

/-- What a new reader reads is what XSLT says the document is. -/
theorem read_spec (H : Hooks N) (hg : Good H) (cache : List (UStr × Class)) (seen : List UStr) (ha : Agrees cache seen) (d : Doc)
    (hw : Spec.wf false d = true) : read H cache d = Spec.document H seen d := by
  obtain ⟨root, hst, hrk, hrv, hrkids, hrn, hrl, hb⟩ := start_base (N := N) cache seen ha
  cases d with
  | text s =>
    rw [Spec.document, read, readDoc, run, characters, hst]
    dsimp only
    rw [hrv, root_dfa]
    rfl
  | elem name decls attrs kids =>
    rw [Spec.wf] at hw
    simp only [Bool.and_eq_true, decide_eq_true_eq] at hw
    obtain ⟨⟨⟨-, hw2⟩, hw3⟩, hw4⟩ := hw
    rw [Spec.document, read, readDoc, run]
    rw [show List.map (fun a => (a.1, AVal.str a.2)) attrs = lift (N := N) attrs from rfl]
    have hstart := start_spec H hg _ root [] Spec.outside { globals := [], seen } name decls attrs hst hb hw2 hw3 (fun _ _ _ => rfl)
    rw [hrk, hrv] at hstart
    rw [Spec.node]
    cases hk : Spec.kind H Spec.outside seen name with
    | none =>
      rw [hk] at hstart
      rcases hstart with ⟨x, rd2, h1, _⟩ | ⟨_, e, h2⟩
      · cases h1
      · rw [h2]
    | some k =>
      rw [hk, Option.bind_some] at hstart
      dsimp only
      cases hs : step .root (start_ rootModel) (Spec.item k) with
      | none =>
        rw [hs] at hstart
        rcases hstart with ⟨x, rd2, h1, _⟩ | ⟨_, e, h2⟩
        · cases h1
        · rw [h2]
          have hrs := root_step (Spec.item k)
          rw [hs] at hrs
          cases k with
          | xsl l =>
            have hrs : false = (decide (l = u!! "stylesheet") || decide (l = u!! "transform")) := hrs
            generalize Spec.attrsOk H (Spec.inside H Spec.outside (.xsl l) decls attrs) Spec.outside.top (.xsl l) name attrs = ok
            generalize Spec.content H (Spec.inside H Spec.outside (.xsl l) decls attrs) kids _ = content
            cases ok with
            | false => rfl
            | true =>
              cases content with
              | none => rfl
              | some r =>
                simp only [if_true]
                generalize Spec.allows (Spec.rule H (.xsl l)) r.items = fin
                cases fin with
                | false => rfl
                | true =>
                  simp only [if_true]
                  show none = if (decide (l = u!! "stylesheet") || decide (l = u!! "transform")) = true then _ else _
                  rw [← hrs]; rfl
          | _ => cases hrs
      | some v =>
        rw [hs, Option.bind_some] at hstart
        cases hat : Spec.attrsOk H (Spec.inside H Spec.outside k decls attrs) Spec.outside.top k name attrs with
        | false =>
          rw [hat] at hstart
          rcases hstart with ⟨x, rd2, h1, _⟩ | ⟨_, e, h2⟩
          · cases h1
          · rw [h2]; rfl
        | true =>
          rw [hat] at hstart
          rcases hstart with ⟨x, rd2, h1, h2, f, h3⟩ | ⟨h1, _⟩
          rotate_left
          · cases h1
          cases h1
          rw [h2]
          dsimp only at h3 ⊢
          simp only [if_true]
          have hi2 : Inv rd2 f { root with val := v } [] (Spec.inside H Spec.outside k decls attrs)
              { globals := [], seen := if k = .undefinedXslt then name.2 :: seen else seen } 1 :=
            ⟨h3.base, h3.stack, fun e => by
                rw [h3.root, h3.node] at e
                have := hb.root _ e
                omega, .inl h3.locals, by show root.locals < 1; omega, by rw [h3.dicts]; exact Nat.le_refl _⟩
          have ih := contents_run H hg kids rd2 f { root with val := v } [] _ _ 1 hi2 hw4
          obtain ⟨cls, hcls, hval⟩ := h3.cls
          rw [h3.klass, hval] at ih
          unfold contentIn at ih
          generalize Spec.content H (Spec.inside H Spec.outside k decls attrs) kids
            { globals := [], seen := if k = .undefinedXslt then name.2 :: seen else seen } = content at ih ⊢
          cases content with
          | none =>
            rcases ih with ⟨x, rd3, h4, _⟩ | ⟨_, e, h5⟩
            · cases h4
            · rw [h5]
          | some r =>
            rw [Option.bind_some] at ih
            dsimp only
            rw [← walk_ok hcls]
            cases hwk : walk k (start_ cls.model) r.items with
            | none =>
              rw [hwk] at ih
              rcases ih with ⟨x, rd3, h4, _⟩ | ⟨_, e, h5⟩
              · cases h4
              · rw [h5]; rfl
            | some v3 =>
              rw [hwk] at ih
              rcases ih with ⟨x, rd3, h4, h5, f3, c3, hi3, hp3⟩ | ⟨h4, _⟩
              rotate_left
              · cases h4
              cases h4
              rw [h5]
              dsimp only at hi3 hp3 ⊢
              have htree : f3.element { root with val := v } = .elem k name (if r.bound then .push :: r.trees ++ [.pop] else r.trees) := by
                have := element_eq hp3 h3.locals h3.kids
                rwa [h3.klass, h3.name_] at this
              have hf3v : f3.val = v3 := by rw [hp3.frame]
              have hf3k : f3.klass = k := by rw [hp3.frame]; exact h3.klass
              have hf3ver : f3.version = Spec.version H k attrs := by rw [hp3.frame]; exact h3.version
              have hroot3 : rd3.root = some root.node := by
                rw [hp3.root, h3.root, hrn]; rfl
              by_cases hcl : closes v3 = true
              rotate_left
              · -- the element may not end here
                have hnone : transit f3.val.1 f3.val.2 .fin = none := by
                  rw [hf3v]
                  cases ht : transit v3.1 v3.2 .fin with
                  | none => rfl
                  | some q => exact absurd (by simp [closes, ht]) hcl
                have : ∃ e, endElement H rd3 = .error e := by
                  rw [endElement, hi3.stack]
                  dsimp only
                  split
                  · rw [hnone]; exact ⟨_, rfl⟩
                  · rw [endPlain, hi3.stack]
                    dsimp only
                    rw [hnone]; exact ⟨_, rfl⟩
                obtain ⟨e, he⟩ := this
                rw [he]
                simp [hcl]
              · simp only [Option.any_some, hcl, if_true]
                cases hsk : Spec.isSheet k with
                | true =>
                  -- xsl:stylesheet
                  have hl : ∃ l, k = .xsl l ∧ (decide (l = u!! "stylesheet") || decide (l = u!! "transform")) = true := by
                    cases k with
                    | xsl l => exact ⟨l, rfl, hsk⟩
                    | _ => cases hsk
                  obtain ⟨l, rfl, hl⟩ := hl
                  have hsh : rd3.sheet.isNone = false := by
                    rw [hp3.sheet, h3.sheet, hsk]; rfl
                  obtain ⟨q, hq⟩ := Option.isSome_iff_exists.1 (show (transit f3.val.1 f3.val.2 .fin).isSome = true by rw [hf3v]; exact hcl)
                  have hend : endElement H rd3 = .ok { rd3 with stack := [{ root with val := v, kids := root.kids ++ [f3.element { root with val := v }] }] } := by
                    rw [endElement, hi3.stack]
                    dsimp only
                    rw [if_neg (by rw [hsh]; simp), endPlain, hi3.stack]
                    dsimp only
                    rw [hq]
                    dsimp only [bindVariable]
                    rw [if_neg]
                    rw [hf3k]
                    rintro (h | h) <;> (cases h; cases hl)
                  rw [hend]
                  dsimp only [endDocument]
                  rw [hsh, htree, hrkids]
                  show _ = if (decide (l = u!! "stylesheet") || decide (l = u!! "transform")) = true then _ else _
                  rw [hl]
                  rfl
                | false =>
                  have hsh : rd3.sheet = none := by
                    rw [hp3.sheet, h3.sheet, hsk]; rfl
                  have hkk : (k = .undefinedXslt ∧ name.1 = some xslNs) ∨ (k = .literal ∧ name.1 ≠ some xslNs) := by
                    have hrs := root_step (Spec.item k)
                    rw [hs] at hrs
                    unfold Spec.kind at hk
                    split at hk
                    · rename_i hx
                      split at hk
                      · cases hk
                        have hrs : true = (decide (name.2 = u!! "stylesheet") || decide (name.2 = u!! "transform")) := hrs
                        have hsk : (decide (name.2 = u!! "stylesheet") || decide (name.2 = u!! "transform")) = false := hsk
                        rw [hsk] at hrs; cases hrs
                      · split at hk <;> cases hk
                        exact .inl ⟨rfl, hx⟩
                    · rename_i hx
                      split at hk
                      · rename_i hm; cases hm
                      · cases hk; exact .inr ⟨rfl, hx⟩
                  rcases hkk with ⟨rfl, hx⟩ | ⟨rfl, hx⟩
                  · -- an unknown element
                    have : ∃ e, endElement H rd3 = .error e := by
                      obtain ⟨q, hq⟩ := Option.isSome_iff_exists.1 (show (transit f3.val.1 f3.val.2 .fin).isSome = true by rw [hf3v]; exact hcl)
                      rw [endElement, hi3.stack]
                      dsimp only
                      rw [if_pos ⟨by rw [hsh]; rfl, hroot3⟩, hq]
                      dsimp only
                      rw [if_pos (by rw [hf3k]; decide)]
                      exact ⟨_, rfl⟩
                    obtain ⟨e, he⟩ := this
                    rw [he]
                    dsimp only [Spec.item]
                    rw [if_pos hx]
                  · dsimp only [Spec.item]
                    rw [if_neg hx]
                    cases hv : Spec.version H .literal attrs with
                    | none =>
                      have : ∃ e, endElement H rd3 = .error e := by
                        obtain ⟨q, hq⟩ := Option.isSome_iff_exists.1 (show (transit f3.val.1 f3.val.2 .fin).isSome = true by rw [hf3v]; exact hcl)
                        rw [endElement, hi3.stack]
                        dsimp only
                        rw [if_pos ⟨by rw [hsh]; rfl, hroot3⟩, hq]
                        dsimp only
                        rw [if_neg (by rw [hf3k]; simp), hf3ver, hv]
                        exact ⟨_, rfl⟩
                      obtain ⟨e, he⟩ := this
                      rw [he]
                    | some n =>
                      dsimp only
                      have hnx : root.node < rd3.next := by
                        have := hi3.pnode
                        rw [show f3.node = f.node by rw [hp3.frame], h3.node] at this
                        have := hb.pnode
                        omega
                      rcases simplified_spec H hg rd3 f3 { root with val := v } n r.st.seen hi3.cache hi3.stack hrkids
                          (by have := hi3.len; show root.locals < _; omega) hnx hroot3 hsh hf3k (hf3ver.trans hv) (by rw [hf3v]; exact hcl) with
                        ⟨hz, e, he⟩ | ⟨hz, rd4, p4, he, h6, h7, h8⟩
                      · rw [hz, he]; rfl
                      · rw [hz, he]
                        dsimp only [endDocument]
                        rw [h6]
                        dsimp only
                        rw [if_neg (by cases hh : rd4.sheet <;> simp_all), h8, htree]
                        rfl

end Verif.Xslt.Rd
