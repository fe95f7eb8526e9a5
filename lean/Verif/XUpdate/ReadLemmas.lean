import Verif.XUpdate.ReadSpec
/-
The reader follows the specification: tables, attributes, and the run over a document.
-/
namespace Verif.XUpdate.Read
open Verif Verif.Content Verif.XUpdate.Read.Spec
open Verif.Write (UStr)
open Verif.Names (isQName splitQName)

/-! ### The dictionary of elements -/

theorem lookup_names (l : UStr) : lookup l names = tagOf l := by
  simp only [names, lookup, tagOf, eq_comm (b := l)]

/-! ### The tables -/

/-- The model of what may stand at a place. -/
def contentAt : Place → Content Tok
  | .root => documentContent
  | .commands => toplevelContent
  | .template => templateContent
  | .string => charTemplateContent
  | .chars => textContent
  | .nothing => emptyContent

theorem contentOf_inside (t : Tag) : contentOf t = contentAt (inside t) := by cases t <;> rfl

/-- What may come next at a place. -/
def allowed (p : Place) : Tok → Bool
  | .xu t => mayStand p t
  | .literal => literalMayStand p
  | .text => textMayStand p
  | .empty => p = .nothing
  | .fin => true

def allTags : List Tag := [.modifications, .insertBefore, .insertAfter, .append, .update, .remove, .rename, .variable,
  .cond, .element, .attribute, .text, .pi, .comment, .valueOf]
def allToks : List Tok := allTags.map .xu ++ [.literal, .text, .empty, .fin]

theorem mem_allToks (t : Tok) : t ∈ allToks := by
  cases t with
  | xu t => cases t <;> decide
  | _ => decide

/-- The state is one before the end. -/
def live (dfa : List (List (Tok × Nat))) (q : Nat) : Bool := match dfa[q]? with
  | some (_ :: _) => true
  | _ => false

/-- All states before the end allow the same. -/
def uniform (p : Place) : Bool :=
  let dfa := table (contentAt p)
  live dfa 0 && (List.range dfa.length).all fun q => !live dfa q || allToks.all fun t =>
    match transit dfa q t with
    | none => !allowed p t
    | some q' => allowed p t && (t == .fin || live dfa q')

theorem uniform_all : ([Place.commands, .template, .string, .chars, .nothing].all uniform) = true := by decide +kernel

theorem uniform_of {p : Place} (h : p ≠ .root) : uniform p = true := by
  have := uniform_all
  simp only [List.all_cons, List.all_nil, Bool.and_true, Bool.and_eq_true] at this
  cases p <;> simp_all

theorem live_zero {p : Place} (h : p ≠ .root) : live (table (contentAt p)) 0 = true := by
  have := uniform_of h
  simp only [uniform, Bool.and_eq_true] at this
  exact this.1

theorem transit_uniform {p : Place} (h : p ≠ .root) {q : Nat} (hq : live (table (contentAt p)) q = true) (t : Tok) :
    match transit (table (contentAt p)) q t with
    | none => allowed p t = false
    | some q' => allowed p t = true ∧ (t = .fin ∨ live (table (contentAt p)) q' = true) := by
  have := uniform_of h
  simp only [uniform, Bool.and_eq_true, List.all_eq_true, List.mem_range] at this
  have hl : q < (table (contentAt p)).length := by
    rw [live] at hq
    cases hx : (table (contentAt p))[q]? with
    | none => simp [hx] at hq
    | some r => exact (List.getElem?_eq_some_iff.1 hx).1
  have := this.2 q hl
  simp only [hq, Bool.not_true, Bool.false_or, List.all_eq_true] at this
  have := this t (mem_allToks t)
  revert this
  cases transit (table (contentAt p)) q t with
  | none => simp
  | some q' => simp

theorem root_xu (t : Tag) : (transit (table documentContent) 0 (.xu t)).isSome = mayStand .root t := by
  cases t <;> decide +kernel

theorem root_literal : transit (table documentContent) 0 .literal = none := by decide +kernel

/-! ### Attributes -/

theorem attr_value (attrs : List Attr) (n : UStr) : attr? attrs n = value attrs n := by
  rw [attr?, value, List.head?_filter]
  congr 2
  funext a
  simp

theorem lookup_head {K V : Type} [DecidableEq K] (k : K) (l : List (K × V)) :
    lookup k l = (l.filter fun x => x.1 = k).head?.map (·.2) := by
  induction l with
  | nil => rfl
  | cons a l ih =>
    obtain ⟨k', v⟩ := a
    simp only [lookup, List.filter_cons]
    by_cases h : k' = k
    · simp [h]
    · simp [h, ih]

theorem lookup_any {K V : Type} [DecidableEq K] (k : K) (l : List (K × V)) :
    (l.any fun x => x.1 = k) = (lookup k l).isSome := by
  induction l with
  | nil => rfl
  | cons a l ih =>
    obtain ⟨k', v⟩ := a
    simp only [lookup, List.any_cons, ih]
    by_cases h : k' = k <;> simp [h]

/-- The element is as `usual` has it. -/
def usualAttrs (t : Tag) (attrs : List Attr) : Bool := match t with
  | .element | .attribute => (value attrs (u!! "namespace")).isNone
  | .variable => ((value attrs (u!! "name")).map isQName).getD true
  | _ => true

/-- The result of an element function, according to the specification. -/
def outcome (m : Option Err) (h : Head) : Except Err Head := match m with
  | some e => .error e
  | none => .ok h

theorem withSelect_spec (H : Hooks) (tag : UStr) (attrs : List Attr) (mk : UStr → Head) :
    withSelect H tag attrs mk = outcome (need tag attrs (u!! "select") (badExpr H)) (mk ((value attrs (u!! "select")).getD [])) := by
  simp only [withSelect, requiredExpr, required, attr_value, need]
  cases value attrs (u!! "select") with
  | none => rfl
  | some v => simp only [expression, badExpr]; cases H.expr v <;> rfl

theorem variableName_spec (nss : Nss) (v : UStr) (hv : isQName v = true) :
    variableName nss v = match badPrefix nss v with
      | some e => .error e
      | none => .ok (varName nss v) := by
  simp only [variableName, hv, if_true, badPrefix, varName]
  rcases hs : splitQName v with ⟨p, l⟩
  rcases p with _ | _ | ⟨c, p⟩
  · rfl
  · rfl
  · simp only [lookup_any]
    rw [← lookup_head]
    cases lookup (some (c :: p)) nss <;> rfl

theorem factory_spec (H : Hooks) (t : Tag) (tag : UStr) (nss : Nss) (attrs : List Attr) (hu : usualAttrs t attrs = true) :
    factory H t tag nss attrs = outcome (attrMistake H t tag nss attrs) (head t nss attrs) := by
  cases t with
  | modifications =>
    simp only [factory, modificationsElement, required, attr_value, attrMistake, need, head]
    cases value attrs (u!! "version") with
    | none => rfl
    | some v =>
      dsimp only
      by_cases h : v = u!! "1.0"
      · rw [if_neg (not_not_intro h), if_pos h]; rfl
      · rw [if_pos h, if_neg h]; rfl
  | insertBefore => exact withSelect_spec ..
  | insertAfter => exact withSelect_spec ..
  | update => exact withSelect_spec ..
  | remove => exact withSelect_spec ..
  | rename => exact withSelect_spec ..
  | valueOf => exact withSelect_spec ..
  | text => rfl
  | comment => rfl
  | append =>
    simp only [factory, appendElement, requiredExpr, optionalExpr, required, attr_value, attrMistake, need, may, head]
    cases value attrs (u!! "select") with
    | none => rfl
    | some v =>
      simp only [expression, badExpr]
      cases H.expr v with
      | false => rfl
      | true =>
        cases value attrs (u!! "child") with
        | none => rfl
        | some w => cases h : H.expr w <;> simp [h, outcome]
  | «variable» =>
    simp only [factory, variableElement, optionalExpr, required, attr_value, attrMistake, need, may, head]
    simp only [usualAttrs] at hu
    revert hu
    cases value attrs (u!! "name") with
    | none => intro _; rfl
    | some v =>
      intro hu
      simp only [Option.map_some, Option.getD_some] at hu
      dsimp only
      rw [variableName_spec nss v hu]
      cases badPrefix nss v with
      | some e => rfl
      | none =>
        simp only [expression, badExpr]
        cases value attrs (u!! "select") with
        | none => rfl
        | some w => cases h : H.expr w <;> simp [h, outcome]
  | cond =>
    simp only [factory, ifElement, requiredExpr, required, attr_value, attrMistake, need, head]
    cases value attrs (u!! "test") with
    | none => rfl
    | some v => simp only [expression, badExpr]; cases H.expr v <;> rfl
  | pi =>
    simp only [factory, piElement, requiredAvt, required, attr_value, attrMistake, need, head]
    cases value attrs (u!! "name") with
    | none => rfl
    | some v => simp only [badAvt]; cases H.avt v <;> rfl
  | element =>
    simp only [factory, namedElement, requiredAvt, namespaceAttr, required, attr_value, attrMistake, need, may, head]
    simp only [usualAttrs, Option.isNone_iff_eq_none] at hu
    rw [hu]
    cases value attrs (u!! "name") with
    | none => rfl
    | some v => simp only [badAvt]; cases H.avt v <;> rfl
  | «attribute» =>
    simp only [factory, namedElement, requiredAvt, namespaceAttr, required, attr_value, attrMistake, need, may, head]
    simp only [usualAttrs, Option.isNone_iff_eq_none] at hu
    rw [hu]
    cases value attrs (u!! "name") with
    | none => rfl
    | some v => simp only [badAvt]; cases H.avt v <;> rfl

/-! ### Text -/

theorem dropWhile_nil {p : Nat → Bool} (l : List Nat) : l.dropWhile p = [] ↔ l.all p = true := by
  induction l with
  | nil => simp
  | cons a l ih =>
    rw [List.dropWhile_cons]
    cases h : p a <;> simp [h, ih]

theorem strip_nil (s : UStr) : strip s = [] ↔ counts s = false := by
  rw [strip, List.reverse_eq_nil_iff, dropWhile_nil, List.all_reverse]
  constructor
  · intro h
    have h2 : (s.dropWhile isSpace) = [] := by
      cases hd : s.dropWhile isSpace with
      | nil => rfl
      | cons a l =>
        have := List.head?_dropWhile_not isSpace s
        simp only [hd, List.head?_cons] at this
        simp only [hd, List.all_cons, Bool.and_eq_true] at h
        simp [h.1] at this
    rw [dropWhile_nil, List.all_eq_true] at h2
    simpa [counts] using h2
  · intro h
    have : s.dropWhile isSpace = [] := by rw [dropWhile_nil]; simpa [counts] using h
    rw [this]; rfl

/-! ### The run -/

theorem run_append (H : Hooks) (es es' : List Event) : ∀ fs, run H fs (es ++ es') = match run H fs es with
    | .error e => .error e
    | .ok fs => run H fs es' := by
  induction es with
  | nil => intro fs; rfl
  | cons e es ih =>
    intro fs
    simp only [List.cons_append, run]
    cases step H fs e with
    | error x => rfl
    | ok fs1 => exact ih fs1

/-- The opened element: what it is, according to the specification. -/
theorem open_spec (H : Hooks) (nss : Nss) (ns : Option UStr) (loc tag : UStr) (decls : Nss) (attrs : List Attr) (kids : List Doc)
    (hu : usual (.elem ns loc tag decls attrs kids) = true) :
    (∃ e, open' H nss ns loc tag attrs = .error e ∧ ∀ p parent nss0, decls ++ nss0 = nss →
        mistake H p parent nss0 (.elem ns loc tag decls attrs kids) = some e) ∨
    ∃ hd p' tok, open' H nss ns loc tag attrs = .ok (hd, contentAt p', tok) ∧ p' ≠ .root ∧ tok ≠ .fin ∧
      (tok = .literal ∨ ∃ t, tok = .xu t) ∧
      ∀ nss0, decls ++ nss0 = nss →
        items nss0 (.elem ns loc tag decls attrs kids) = [.node hd (itemsAll nss kids)] ∧
        ∀ p parent, mistake H p parent nss0 (.elem ns loc tag decls attrs kids) =
          (if allowed p tok then none else some (.illegalChild parent tag)).or (mistakes H p' tag nss kids) := by
  rw [usual] at hu
  simp only [open']
  by_cases hns : ns = some xupdateNs
  · simp only [hns, if_true, lookup_names] at hu ⊢
    cases ht : tagOf loc with
    | none =>
      left
      refine ⟨_, rfl, ?_⟩
      intro p parent nss0 _
      rw [mistake]; simp [ht]
    | some t =>
      have hu' : usualAttrs t attrs = true := by
        simp only [ht, Bool.and_eq_true] at hu
        have := hu.1
        cases t <;> first | rfl | exact this
      dsimp only
      rw [factory_spec H t tag nss attrs hu']
      cases hm : attrMistake H t tag nss attrs with
      | some e =>
        left
        refine ⟨e, rfl, ?_⟩
        intro p parent nss0 h0
        rw [mistake]; simp [ht, h0, hm]
      | none =>
        right
        refine ⟨head t nss attrs, inside t, .xu t, ?_, by cases t <;> decide, (nofun), .inr ⟨t, rfl⟩, ?_⟩
        · rw [contentOf_inside]; rfl
        · intro nss0 h0
          constructor
          · rw [items]; simp [ht, h0]
          · intro p parent
            rw [mistake, if_pos rfl, ht]; dsimp only; rw [h0, hm]; rfl
  · simp only [hns, if_false] at hu ⊢
    right
    refine ⟨_, .template, .literal, rfl, by decide, (nofun), .inl rfl, ?_⟩
    intro nss0 h0
    constructor
    · rw [items]; simp [hns, h0]
    · intro p parent
      rw [mistake, if_neg hns, h0]; rfl

theorem usual_kids {ns : Option UStr} {loc tag : UStr} {decls : Nss} {attrs : List Attr} {kids : List Doc}
    (hu : usual (.elem ns loc tag decls attrs kids) = true) : usualAll kids = true := by
  rw [usual, Bool.and_eq_true] at hu
  exact hu.2

/-- What a run has to do to the frame at the top. -/
def Reads (H : Hooks) (f : Frame) (fs : List Frame) (p : Place) (es : List Event) (m : Option Err) (is : List Item) : Prop :=
  match m with
  | some e => run H (f :: fs) es = .error e
  | none => ∃ q, live (table (contentAt p)) q = true ∧
      run H (f :: fs) es = .ok ({ f with state := q, kids := f.kids ++ is } :: fs)

mutual
theorem node_run (H : Hooks) : ∀ (d : Doc) (p : Place) (f : Frame) (fs : List Frame), usual d = true → p ≠ .root →
    f.dfa = table (contentAt p) → live (table (contentAt p)) f.state = true →
    Reads H f fs p (events d) (mistake H p f.name f.nss d) (items f.nss d)
  | .other, p, f, fs, _, _, _, hl => by
    rw [mistake, items, events]
    exact ⟨f.state, hl, by simp [run]⟩
  | .text s, p, f, fs, _, hp, hd, hl => by
    rw [mistake, items, events]
    have htr := transit_uniform hp hl .text
    cases hc : counts s with
    | false =>
      refine ⟨f.state, hl, ?_⟩
      simp [run, step, characters, (strip_nil s).2 hc]
    | true =>
      have hs : strip s ≠ [] := by rw [Ne, strip_nil]; simp [hc]
      cases ht : transit (table (contentAt p)) f.state .text with
      | none =>
        simp only [ht, allowed] at htr
        simp [Reads, htr, run, step, characters, hs, hd, ht]
      | some q =>
        simp only [ht, allowed] at htr
        simp only [htr.1, Bool.not_true, Bool.and_false, if_true]
        refine ⟨q, htr.2.resolve_left (nofun), ?_⟩
        simp [run, step, characters, hs, hd, ht]
  | .elem ns loc tag decls attrs kids, p, f, fs, hu, hp, hd, hl => by
    rw [events]
    rcases open_spec H (decls ++ f.nss) ns loc tag decls attrs kids hu with
      ⟨e, ho, hm⟩ | ⟨hd', p', tok, ho, hp', hfin, htk, hrest⟩
    · rw [hm p f.name f.nss rfl]
      simp [Reads, run, step, startElement, inScope, ho]
    · obtain ⟨hi, hm⟩ := hrest f.nss rfl
      rw [hm p f.name, hi]
      have htr := transit_uniform hp hl tok
      cases ht : transit (table (contentAt p)) f.state tok with
      | none =>
        simp only [ht] at htr
        simp [Reads, htr, run, step, startElement, inScope, ho, hd, ht]
      | some q =>
        simp only [ht] at htr
        have hq : live (table (contentAt p)) q = true := htr.2.resolve_left hfin
        have hk := nodes_run H kids p' ⟨some hd', [], tag, decls ++ f.nss, table (contentAt p'), 0⟩
          ({ f with state := q } :: fs) (usual_kids hu) hp' rfl (live_zero hp')
        dsimp only at hk
        simp only [htr.1, if_true, Option.none_or]
        have hrun : run H (f :: fs) (.start ns loc tag decls attrs :: (eventsAll kids ++ [.fin])) =
            run H (⟨some hd', [], tag, decls ++ f.nss, table (contentAt p'), 0⟩ :: { f with state := q } :: fs)
              (eventsAll kids ++ [.fin]) := by
          simp [run, step, startElement, inScope, ho, hd, ht]
        cases hms : mistakes H p' tag (decls ++ f.nss) kids with
        | some e =>
          rw [hms] at hk
          simp only [Reads] at hk ⊢
          rw [hrun, run_append, hk]
        | none =>
          rw [hms] at hk
          obtain ⟨q', hq', hk⟩ := hk
          refine ⟨q, hq, ?_⟩
          rw [hrun, run_append, hk]
          have hf := transit_uniform hp' hq' .fin
          cases hft : transit (table (contentAt p')) q' .fin with
          | none => simp [hft, allowed] at hf
          | some q2 => simp [run, step, endElement, hft]
theorem nodes_run (H : Hooks) : ∀ (ds : List Doc) (p : Place) (f : Frame) (fs : List Frame), usualAll ds = true → p ≠ .root →
    f.dfa = table (contentAt p) → live (table (contentAt p)) f.state = true →
    Reads H f fs p (eventsAll ds) (mistakes H p f.name f.nss ds) (itemsAll f.nss ds)
  | [], p, f, fs, _, _, _, hl => by
    rw [mistakes, itemsAll, eventsAll]
    exact ⟨f.state, hl, by simp [run]⟩
  | d :: ds, p, f, fs, hu, hp, hd, hl => by
    rw [usualAll, Bool.and_eq_true] at hu
    rw [mistakes, itemsAll, eventsAll]
    have h1 := node_run H d p f fs hu.1 hp hd hl
    cases hm : mistake H p f.name f.nss d with
    | some e =>
      rw [hm] at h1
      simp only [Reads, Option.some_or] at h1 ⊢
      rw [run_append, h1]
    | none =>
      rw [hm] at h1
      obtain ⟨q, hq, h1⟩ := h1
      have h2 := nodes_run H ds p { f with state := q, kids := f.kids ++ items f.nss d } fs hu.2 hp hd hq
      simp only [Option.none_or]
      dsimp only at h2
      cases hms : mistakes H p f.name f.nss ds with
      | some e =>
        rw [hms] at h2
        simp only [Reads] at h2 ⊢
        rw [run_append, h1]; exact h2
      | none =>
        rw [hms] at h2
        obtain ⟨q', hq', h2⟩ := h2
        refine ⟨q', hq', ?_⟩
        rw [run_append, h1]
        simpa [List.append_assoc] using h2
end

theorem parse_spec (H : Hooks) (ns : Option UStr) (loc tag : UStr) (decls : Nss) (attrs : List Attr) (kids : List Doc)
    (hu : usual (.elem ns loc tag decls attrs kids) = true) :
    match mistake H .root (u!! "#document") outside (.elem ns loc tag decls attrs kids) with
    | some e => parse H (events (.elem ns loc tag decls attrs kids)) = .error e
    | none => ∃ i, items outside (.elem ns loc tag decls attrs kids) = [i] ∧
        parse H (events (.elem ns loc tag decls attrs kids)) = .ok i := by
  rw [events]
  rcases open_spec H (decls ++ outside) ns loc tag decls attrs kids hu with
    ⟨e, ho, hm⟩ | ⟨hd', p', tok, ho, hp', hfin, htk, hrest⟩
  · rw [hm .root (u!! "#document") outside rfl]
    simp only [outside] at ho
    simp [parse, run, step, initial, startElement, inScope, ho]
  · obtain ⟨hi, hm⟩ := hrest outside rfl
    rw [hm .root (u!! "#document"), hi]
    have htr : (transit (table documentContent) 0 tok).isSome = allowed .root tok := by
      rcases htk with h | ⟨t, h⟩
      · subst h; rw [root_literal]; rfl
      · subst h; exact root_xu t
    simp only [outside] at ho
    cases ht : transit (table documentContent) 0 tok with
    | none =>
      rw [ht] at htr
      simp [← htr, parse, run, step, initial, startElement, inScope, ho, ht]
    | some q =>
      rw [ht] at htr
      have hk := nodes_run H kids p' ⟨some hd', [], tag, decls ++ outside, table (contentAt p'), 0⟩
        [⟨none, [], u!! "#document", outside, table documentContent, q⟩] (usual_kids hu) hp' rfl (live_zero hp')
      have hrun : run H initial (.start ns loc tag decls attrs :: (eventsAll kids ++ [.fin])) =
          run H (⟨some hd', [], tag, decls ++ outside, table (contentAt p'), 0⟩ ::
            [⟨none, [], u!! "#document", outside, table documentContent, q⟩]) (eventsAll kids ++ [.fin]) := by
        simp [run, step, initial, startElement, inScope, ho, ht, outside]
      simp only [← htr, Option.isSome_some, if_true, Option.none_or]
      dsimp only at hk
      cases hms : mistakes H p' tag (decls ++ outside) kids with
      | some e =>
        rw [hms] at hk
        simp only [Reads] at hk
        simp only [parse]
        rw [hrun, run_append, hk]
      | none =>
        rw [hms] at hk
        obtain ⟨q', hq', hk⟩ := hk
        refine ⟨_, rfl, ?_⟩
        have hf := transit_uniform hp' hq' .fin
        simp only [parse]
        rw [hrun, run_append, hk]
        cases hft : transit (table (contentAt p')) q' .fin with
        | none => simp [hft, allowed] at hf
        | some q2 => simp [run, step, endElement, hft, result]

end Verif.XUpdate.Read
