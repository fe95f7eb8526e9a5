import Verif.Write.VisitStep
import Verif.Write.DocLemmas

/-
What the visitor writes for a whole tree.
-/
namespace Verif.Write
open Verif Verif.Write.Spec

theorem nodup_map_of {α β γ : Type} {l : List α} {f : α → β} {g : α → γ} (h : (l.map g).Nodup)
    (hfg : ∀ a ∈ l, ∀ b ∈ l, f a = f b → g a = g b) : (l.map f).Nodup := by
  induction l with
  | nil => simp
  | cons x l ih =>
    simp only [List.map_cons, List.nodup_cons] at h ⊢
    refine ⟨?_, ih h.2 fun a ha b hb => hfg a (by simp [ha]) b (by simp [hb])⟩
    intro hm
    obtain ⟨y, hy, he⟩ := List.mem_map.1 hm
    exact h.1 (List.mem_map.2 ⟨y, hy, hfg y (by simp [hy]) x (by simp) he⟩)

theorem dset_new {α : Type} [DecidableEq α] {d : List (α × UStr)} {k : α} (h : k ∉ d.map (·.1)) (v : UStr) :
    dset d k v = d ++ [(k, v)] := by
  induction d with
  | nil => rfl
  | cons e d ih =>
    obtain ⟨j, w⟩ := e
    simp only [List.map_cons, List.mem_cons, not_or] at h
    rw [dset, if_neg (Ne.symm h.1), ih h.2]
    rfl

theorem addAttrs {attrs : List Attr} (h : ∀ a ∈ attrs, a.ns ≠ some xmlnsNs) : ∀ {d : List (UStr × UStr)},
    (d.map (·.1) ++ attrs.map fun a => qname a.pfx a.loc).Nodup →
    attrs.foldl addAttr d = d ++ attrs.map fun a => (qname a.pfx a.loc, a.value) := by
  induction attrs with
  | nil => intro d _; simp
  | cons a as ih =>
    intro d hd
    rw [List.foldl_cons, addAttr, if_neg (h a (by simp)), dset_new, ih (fun b hb => h b (by simp [hb]))]
    · simp
    · simpa using hd
    · intro hm
      rw [List.nodup_append] at hd
      exact hd.2.2 _ hm (qname a.pfx a.loc) (by simp) rfl

/-- What `LegalAttr` gives. -/
theorem attr_facts {wide : Bool} {chain : List (List (Option UStr × UStr))} (hc : LegalChain wide chain) {a : Attr}
    (ha : LegalAttr wide chain a) : a.ns ≠ some xmlnsNs ∧ isName (qname a.pfx a.loc) = true ∧
      splitName (qname a.pfx a.loc) = some (a.pfx, a.loc) ∧ declOf (qname a.pfx a.loc, a.value) = none := by
  obtain ⟨h1, h2, h3⟩ := ha
  cases hns : a.ns with
  | none =>
    rw [hns] at h3
    obtain ⟨h3, h4⟩ := h3
    have hs : splitName (qname a.pfx a.loc) = some (a.pfx, a.loc) :=
      splitName_qname (by rw [h3]; intro q hq; cases hq) h1
    refine ⟨by simp, ?_, hs, ?_⟩
    · rw [h3]; exact (ncName_name h1).1
    · unfold declOf
      rw [hs, h3]
      simp [h4]
  | some u =>
    rw [hns] at h3
    obtain ⟨q, h3, h4⟩ := h3
    have hl := bound_legal hc h4
    have hq := legalBinding_nc hl q rfl
    have hn := legal_nonempty hl
    have hs : splitName (qname a.pfx a.loc) = some (a.pfx, a.loc) :=
      splitName_qname (by rw [h3]; intro r hr; cases hr; exact hq) h1
    refine ⟨?_, ?_, hs, ?_⟩
    · intro h5; cases h5; exact hn.2.1 rfl
    · rw [h3]; exact isName_qname hq h1
    · unfold declOf
      rw [hs, h3]
      simp [hn.2.2]

theorem qnames_nodup {wide : Bool} {chain : List (List (Option UStr × UStr))} (hc : LegalChain wide chain)
    {attrs : List Attr} (ha : ∀ a ∈ attrs, LegalAttr wide chain a) (hn : (attrs.map fun a => (a.ns, a.loc)).Nodup) :
    (attrs.map fun a => qname a.pfx a.loc).Nodup := by
  refine nodup_map_of hn ?_
  intro a h1 b h2 he
  have h3 := (attr_facts hc (ha a h1)).2.2.1
  rw [he, (attr_facts hc (ha b h2)).2.2.1] at h3
  cases h4 : b.pfx with
  | none =>
    have hb := (ha b h2).2.2
    have haa := (ha a h1).2.2
    simp only [Option.some.injEq, Prod.mk.injEq] at h3
    rw [h3.2]
    rw [h4] at h3
    cases hbn : b.ns with
    | some u => rw [hbn] at hb; obtain ⟨q, hq, _⟩ := hb; rw [h4] at hq; cases hq
    | none =>
      cases han : a.ns with
      | some u => rw [han] at haa; obtain ⟨q, hq, _⟩ := haa; rw [← h3.1] at hq; cases hq
      | none => rfl
  | some q =>
    have hb := (ha b h2).2.2
    have haa := (ha a h1).2.2
    simp only [Option.some.injEq, Prod.mk.injEq] at h3
    rw [h3.2]
    cases hbn : b.ns with
    | none => rw [hbn] at hb; rw [h4] at hb; cases hb.1
    | some u =>
      cases han : a.ns with
      | none => rw [han] at haa; rw [← h3.1, h4] at haa; cases haa.1
      | some v =>
        rw [hbn] at hb; rw [han] at haa
        obtain ⟨q1, hq1, hb1⟩ := hb
        obtain ⟨q2, hq2, hb2⟩ := haa
        rw [← h3.1, hq1] at hq2
        cases hq2
        rw [bound_unique hc hb1 hb2]

/-- The expanded name of an attribute, where there is one. -/
def xnameOf (scope : List (Option UStr × UStr)) (a : UStr × UStr) : XName := (expandAttr scope a.1).getD (none, [])

theorem expandAttrs_eq {scope : List (Option UStr × UStr)} {as : List (UStr × UStr)}
    (h : ∀ a ∈ as, (declOf a).isNone = true → (expandAttr scope a.1).isSome = true) :
    expandAttrs scope as = some ((as.filter fun a => (declOf a).isNone).map fun a => (xnameOf scope a, a.2)) := by
  induction as with
  | nil => rfl
  | cons a as ih =>
    rw [expandAttrs, ih fun b hb => h b (by simp [hb])]
    dsimp only
    cases hd : declOf a with
    | some d => simp [hd]
    | none =>
      have := h a (by simp) (by simp [hd])
      obtain ⟨x, hx⟩ := Option.isSome_iff_exists.1 this
      simp [hd, hx, xnameOf]

theorem expandAttr_of {wide : Bool} {chain : List (List (Option UStr × UStr))} (hc : LegalChain wide chain)
    {scope : List (Option UStr × UStr)}
    (hb : ∀ q u, Bound chain (some q) u → namespaceOf scope (some q) = some (some u)) {a : Attr}
    (ha : LegalAttr wide chain a) : expandAttr scope (qname a.pfx a.loc) = some (a.ns, a.loc) := by
  unfold expandAttr
  rw [(attr_facts hc ha).2.2.1]
  have h3 := ha.2.2
  cases hns : a.ns with
  | none => rw [hns] at h3; rw [h3.1]
  | some u =>
    rw [hns] at h3
    obtain ⟨q, hq, hbq⟩ := h3
    rw [hq]
    dsimp only
    rw [hb q u hbq]
    rfl

theorem filterMap_declOf {em : List (Option UStr × UStr)} (hem : ∀ e ∈ em, legalBinding e = true) :
    (em.map fun d => (declName d.1, d.2)).filterMap declOf = em ∧
    ((em.map fun d => (declName d.1, d.2)).filter fun a => (declOf a).isNone) = [] := by
  induction em with
  | nil => simp
  | cons e em ih =>
    obtain ⟨p, u⟩ := e
    have h := (declName_split (legalBinding_nc (hem (p, u) (by simp)))).2 u
    obtain ⟨h1, h2⟩ := ih fun e he => hem e (by simp [he])
    simp [h, h1, h2]

theorem filterMap_attrs {wide : Bool} {chain : List (List (Option UStr × UStr))} (hc : LegalChain wide chain)
    {attrs : List Attr} (ha : ∀ a ∈ attrs, LegalAttr wide chain a) :
    (attrs.map fun a => (qname a.pfx a.loc, a.value)).filterMap declOf = [] ∧
    ((attrs.map fun a => (qname a.pfx a.loc, a.value)).filter fun a => (declOf a).isNone) =
      attrs.map fun a => (qname a.pfx a.loc, a.value) := by
  induction attrs with
  | nil => simp
  | cons a as ih =>
    have h := (attr_facts hc (ha a (by simp))).2.2.2
    obtain ⟨h1, h2⟩ := ih fun e he => ha e (by simp [he])
    simp [h, h1, h2]

/-- The orders of iteration. -/
def GoodOrders (o : Orders) : Prop := (∀ d, (o.ns d).Perm d) ∧ ∀ d, (o.attrs d).Perm d

/-- What is known about a legal element. -/
structure ElementFacts (wide : Bool) (cur : List (Option UStr × UStr)) (chain : List (List (Option UStr × UStr)))
    (scope : List (Option UStr × UStr)) (o : Orders) (ns pfx : Option UStr) (loc : UStr)
    (decls : List (Option UStr × UStr)) (attrs : List Attr) : Prop where
  legal : LegalCall wide (.startElement (qname pfx loc) (o.ns (emitted cur (decls :: chain) ns pfx attrs))
    (o.attrs (attrs.foldl addAttr [])))
  legalChain : LegalChain wide (decls :: chain)
  plain : ∀ as : List (UStr × UStr), as.Perm ((o.ns (emitted cur (decls :: chain) ns pfx attrs)).map
      (fun d => (declName d.1, d.2)) ++ o.attrs (attrs.foldl addAttr [])) →
    (as.filter fun a => (declOf a).isNone).Perm (attrs.map fun a => (qname a.pfx a.loc, a.value))
  read : ∀ as : List (UStr × UStr), as.Perm ((o.ns (emitted cur (decls :: chain) ns pfx attrs)).map
      (fun d => (declName d.1, d.2)) ++ o.attrs (attrs.foldl addAttr [])) →
    (as.filterMap declOf).all legalBinding = true ∧
    expandElement (as.filterMap declOf ++ scope) (qname pfx loc) = some (ns, loc) ∧
    (∃ ys, expandAttrs (as.filterMap declOf ++ scope) as = some ys ∧
      ys.Perm (attrs.map fun a => ((a.ns, a.loc), a.value)) ∧ (ys.map (·.1)).Nodup) ∧
    Inv (dupdate cur (emitted cur (decls :: chain) ns pfx attrs)) (decls :: chain) (as.filterMap declOf ++ scope)

theorem element_facts {wide : Bool} {o : Orders} (ho : GoodOrders o) {cur : List (Option UStr × UStr)}
    {chain : List (List (Option UStr × UStr))} {scope : List (Option UStr × UStr)} (hi : Inv cur chain scope)
    (hc : LegalChain wide chain) {ns pfx : Option UStr} {loc : UStr} {decls : List (Option UStr × UStr)}
    {attrs : List Attr} {children : List Tree} (ht : LegalTree wide chain (.element ns pfx loc decls attrs children)) :
    ElementFacts wide cur chain scope o ns pfx loc decls attrs := by
  obtain ⟨h1, h2, h3, h4, h5, _⟩ := ht
  have hc' : LegalChain wide (decls :: chain) := by
    intro ds hds
    rcases List.mem_cons.1 hds with rfl | hds
    · exact h1
    · exact hc ds hds
  have hn : NameOk (decls :: chain) ns pfx := by
    cases ns <;> exact h3
  have hx : ∀ a ∈ attrs, a.ns ≠ some xmlnsNs := fun a ha => (attr_facts hc' (h4 a ha)).1
  have hq := qnames_nodup hc' h4 h5
  have hattrs : attrs.foldl addAttr [] = attrs.map fun a => (qname a.pfx a.loc, a.value) := by
    rw [addAttrs hx (by simpa using hq)]; simp
  obtain ⟨_, hnc⟩ := orNone_of hc' hn
  have hname : isName (qname pfx loc) = true := by
    cases pfx with
    | none => exact (ncName_name h2).1
    | some q => exact isName_qname (hnc q rfl) h2
  generalize hem : emitted cur (decls :: chain) ns pfx attrs = em at *
  obtain ⟨e1, e2, _, _, _⟩ := emitted_step hi hc' hn hx (hem.symm ▸ ho.1 em)
  have hperm := ho.2 (attrs.map fun a => (qname a.pfx a.loc, a.value))
  obtain ⟨d1, d2⟩ := filterMap_declOf fun e he => (e2 e he).1
  obtain ⟨d3, d4⟩ := filterMap_attrs hc' h4
  rw [← hem] at *
  have hdecl : ∀ as : List (UStr × UStr), as.Perm ((o.ns (emitted cur (decls :: chain) ns pfx attrs)).map
      (fun d => (declName d.1, d.2)) ++ o.attrs (attrs.foldl addAttr [])) →
      (as.filterMap declOf).Perm (emitted cur (decls :: chain) ns pfx attrs) := by
    intro as has
    have := has.filterMap declOf
    rw [List.filterMap_append, d1] at this
    rw [hattrs] at this
    have h6 := hperm.filterMap declOf
    rw [d3] at h6
    rw [h6.eq_nil, List.append_nil] at this
    exact this.trans (ho.1 _)
  have hplain : ∀ as : List (UStr × UStr), as.Perm ((o.ns (emitted cur (decls :: chain) ns pfx attrs)).map
      (fun d => (declName d.1, d.2)) ++ o.attrs (attrs.foldl addAttr [])) →
      (as.filter fun a => (declOf a).isNone).Perm (attrs.map fun a => (qname a.pfx a.loc, a.value)) := by
    intro as has
    have := has.filter fun a => (declOf a).isNone
    rw [List.filter_append, d2, List.nil_append, hattrs] at this
    have h6 := hperm.filter fun a => (declOf a).isNone
    rw [d4] at h6
    exact this.trans h6
  refine ⟨?_, hc', hplain, ?_⟩
  · refine ⟨hname, ?_, ?_, ?_⟩
    · intro d hd
      exact ⟨(declName_split (legalBinding_nc (u := d.2) (e2 d hd).1)).1, (e2 d hd).2⟩
    · intro a ha
      rw [hattrs] at ha
      obtain ⟨b, hb, rfl⟩ := List.mem_map.1 (hperm.mem_iff.1 ha)
      exact ⟨(attr_facts hc' (h4 b hb)).2.1, (h4 b hb).2.1⟩
    · rw [List.nodup_append]
      refine ⟨?_, ?_, ?_⟩
      · refine nodup_map_of e1 ?_
        intro a ha b hb he
        have h6 := (declName_split (legalBinding_nc (u := a.2) (e2 a ha).1)).2 []
        rw [he, (declName_split (legalBinding_nc (u := b.2) (e2 b hb).1)).2 []] at h6
        simp only [Option.some.injEq, Prod.mk.injEq, and_true] at h6
        exact h6.symm
      · rw [hattrs]
        refine (hperm.map _).nodup_iff.2 ?_
        rw [List.map_map]
        exact hq
      · intro x hx1 y hy1 hxy
        subst hxy
        obtain ⟨d, hd, rfl⟩ := List.mem_map.1 hx1
        obtain ⟨a, ha, hae⟩ := List.mem_map.1 hy1
        rw [hattrs] at ha
        obtain ⟨b, hb, rfl⟩ := List.mem_map.1 (hperm.mem_iff.1 ha)
        have h6 := (declName_split (legalBinding_nc (u := d.2) (e2 d hd).1)).2 b.value
        have h7 := (attr_facts hc' (h4 b hb)).2.2.2
        dsimp only at hae
        rw [hae, h6] at h7
        cases h7
  · intro as has
    have hp := hdecl as has
    obtain ⟨f1, f2, f3, f4, f5⟩ := emitted_step hi hc' hn hx hp
    refine ⟨?_, ?_, ?_, f3⟩
    · rw [List.all_eq_true]; exact fun e he => (f2 e he).1
    · unfold expandElement
      rw [splitName_qname hnc h2]
      dsimp only
      rw [f4]; rfl
    · have hpl := hplain as has
      have hex : ∀ a ∈ as, (declOf a).isNone = true → ∃ b ∈ attrs, a = (qname b.pfx b.loc, b.value) := by
        intro a ha hd
        have : a ∈ as.filter fun a => (declOf a).isNone := List.mem_filter.2 ⟨ha, hd⟩
        obtain ⟨b, hb, he⟩ := List.mem_map.1 (hpl.mem_iff.1 this)
        exact ⟨b, hb, he.symm⟩
      refine ⟨_, expandAttrs_eq ?_, ?_, ?_⟩
      · intro a ha hd
        obtain ⟨b, hb, rfl⟩ := hex a ha hd
        rw [expandAttr_of hc' f5 (h4 b hb)]; rfl
      · refine (hpl.map _).trans ?_
        rw [List.map_map]
        have : attrs.map ((fun a => (xnameOf (as.filterMap declOf ++ scope) a, a.2)) ∘ fun a => (qname a.pfx a.loc, a.value)) =
            attrs.map fun a => ((a.ns, a.loc), a.value) := by
          refine List.map_congr_left fun b hb => ?_
          simp only [Function.comp, xnameOf]
          rw [expandAttr_of hc' f5 (h4 b hb)]; rfl
        rw [this]
      · rw [List.map_map]
        have h6 : (((as.filter fun a => (declOf a).isNone).map
            ((fun a => a.1) ∘ fun a => (xnameOf (as.filterMap declOf ++ scope) a, a.2)))).Perm
            (attrs.map fun a => (a.ns, a.loc)) := by
          refine (hpl.map _).trans ?_
          rw [List.map_map]
          have : attrs.map (((fun a => a.1) ∘ fun a => (xnameOf (as.filterMap declOf ++ scope) a, a.2)) ∘
              fun a => (qname a.pfx a.loc, a.value)) = attrs.map fun a => (a.ns, a.loc) := by
            refine List.map_congr_left fun b hb => ?_
            simp only [Function.comp, xnameOf]
            rw [expandAttr_of hc' f5 (h4 b hb)]; rfl
          rw [this]
        exact h6.nodup_iff.2 h5

end Verif.Write

namespace Verif.Write
open Verif Verif.Write.Spec

theorem sameEvs_append {a b : List Ev} : ∀ {es : List Ev}, SameEvs es (a ++ b) → ∃ x y, es = x ++ y ∧ SameEvs x a ∧ SameEvs y b := by
  induction a with
  | nil => intro es h; exact ⟨[], es, rfl, .nil, h⟩
  | cons e a ih =>
    intro es h
    cases h with
    | cons h1 h2 =>
      obtain ⟨x, y, rfl, h3, h4⟩ := ih h2
      exact ⟨_ :: x, y, rfl, .cons h1 h3, h4⟩

theorem sameEvs_trans_append {a b c d : List Ev} (h : SameEvs a b) (h2 : SameEvs c d) : SameEvs (a ++ c) (b ++ d) := by
  induction h with
  | nil => exact h2
  | cons h1 _ ih => exact .cons h1 ih

theorem sameXEvs_append {a b c d : List XEv} (h : SameXEvs a b) (h2 : SameXEvs c d) : SameXEvs (a ++ c) (b ++ d) := by
  induction h with
  | nil => exact h2
  | cons h1 _ ih => exact .cons h1 ih

theorem sameXEvs_refl (a : List XEv) : SameXEvs a a := by
  induction a with
  | nil => exact .nil
  | cons e a ih => exact .cons (.refl e) ih

theorem sameEvs_rfl (a : List Ev) : SameEvs a a := by
  induction a with
  | nil => exact .nil
  | cons e a ih => exact .cons (.refl e) ih

theorem same_start {n : UStr} {bs : List (UStr × UStr)} {e : Ev} (h : SameEv e (.start n bs)) :
    ∃ as, e = .start n as ∧ as.Perm bs := by
  cases h with
  | start n as bs hp => exact ⟨as, rfl, hp⟩
  | refl => exact ⟨_, rfl, List.Perm.refl _⟩

theorem same_chars {s : UStr} {es : List Ev} (h : SameEvs es (s.map .char)) : es = s.map .char := by
  induction s generalizing es with
  | nil => cases h; rfl
  | cons c s ih =>
    cases h with
    | cons h1 h2 =>
      cases h1
      rw [ih h2]; rfl

theorem resolve_chars (stack : List (List (Option UStr × UStr))) (s : UStr) (rest : List Ev) :
    resolve stack (s.map .char ++ rest) = (resolve stack rest).map (s.map XEv.char ++ ·) := by
  induction s with
  | nil => simp
  | cons c s ih =>
    simp only [List.map_cons, List.cons_append, resolve, ih]
    cases resolve stack rest <;> rfl

theorem nest_chars_append (s : UStr) (o : List UStr) (rest : List Ev) : nest o (s.map .char ++ rest) = nest o rest := by
  induction s with
  | nil => rfl
  | cons c s ih => simpa [nest] using ih

theorem events_append (a b : List Call) : events (a ++ b) = events a ++ events b := by simp [events]
theorem events_cons (c : Call) (cs : List Call) : events (c :: cs) = expected c ++ events cs := by simp [events]

section
variable {wide : Bool} {o : Orders} (ho : GoodOrders o)
include ho

mutual
/-- A reader resolves what is written for a tree to what the tree is. -/
theorem resolve_visit : ∀ (t : Tree) {cur : List (Option UStr × UStr)} {chain stack : List (List (Option UStr × UStr))},
    LegalTree wide chain t → LegalChain wide chain → Inv cur chain (stack.headD []) →
    ∀ {es : List Ev}, SameEvs es (events (visit o cur chain t)) →
    ∃ xs, SameXEvs xs (treeEvents t) ∧ ∀ rest, resolve stack (es ++ rest) = (resolve stack rest).map (xs ++ ·)
  | .element ns pfx loc decls attrs children, cur, chain, stack, ht, hc, hi, es, hes => by
    have hf := element_facts ho hi hc ht
    obtain ⟨_, _, _, _, _, h6⟩ := ht
    simp only [visit, events_cons, events_append, expected, List.cons_append, List.nil_append] at hes
    cases hes with
    | cons h1 h2 =>
      obtain ⟨x, y, rfl, h3, h4⟩ := sameEvs_append h2
      have hy : y = [.stop (qname pfx loc)] := by
        cases h4 with
        | cons h5 h7 => cases h5; simp only [events, List.flatMap_nil] at h7; cases h7; rfl
      subst hy
      obtain ⟨as, rfl, hp⟩ := same_start h1
      obtain ⟨f1, f2, ⟨ys, f3, f4, f5⟩, f6⟩ := hf.read as hp
      obtain ⟨xs, g1, g2⟩ := resolve_visitAll children (stack := (as.filterMap declOf ++ stack.headD []) :: stack)
        h6 hf.legalChain f6 h3
      refine ⟨.start (ns, loc) ys :: (xs ++ [.stop (ns, loc)]), ?_, ?_⟩
      · rw [treeEvents]
        exact .cons (.start _ _ _ f4) (sameXEvs_append g1 (sameXEvs_refl _))
      · intro rest
        simp only [List.cons_append, List.append_assoc, List.nil_append, resolve]
        rw [if_pos f1, f2, f3]
        dsimp only
        rw [if_pos f5, g2]
        simp only [resolve, List.headD_cons, List.tail_cons, f2]
        cases resolve stack rest <;> simp
  | .text s, cur, chain, stack, ht, hc, hi, es, hes => by
    simp [visit, events, expected] at hes
    rw [same_chars hes]
    exact ⟨s.map .char, sameXEvs_refl _, resolve_chars stack s⟩
  | .comment s, cur, chain, stack, ht, hc, hi, es, hes => by
    simp [visit, events, expected] at hes
    cases hes with
    | cons h1 h2 =>
      cases h1; cases h2
      exact ⟨[.comment s], sameXEvs_refl _, fun rest => by simp [resolve]⟩
  | .pi t d, cur, chain, stack, ht, hc, hi, es, hes => by
    simp [visit, events, expected] at hes
    cases hes with
    | cons h1 h2 =>
      cases h1; cases h2
      exact ⟨[.pi t d], sameXEvs_refl _, fun rest => by simp [resolve]⟩

theorem resolve_visitAll : ∀ (ts : List Tree) {cur : List (Option UStr × UStr)} {chain stack : List (List (Option UStr × UStr))},
    LegalTrees wide chain ts → LegalChain wide chain → Inv cur chain (stack.headD []) →
    ∀ {es : List Ev}, SameEvs es (events (visitAll o cur chain ts)) →
    ∃ xs, SameXEvs xs (treesEvents ts) ∧ ∀ rest, resolve stack (es ++ rest) = (resolve stack rest).map (xs ++ ·)
  | [], cur, chain, stack, ht, hc, hi, es, hes => by
    simp only [visitAll, events, List.flatMap_nil] at hes
    cases hes
    exact ⟨[], .nil, fun rest => by simp⟩
  | t :: ts, cur, chain, stack, ht, hc, hi, es, hes => by
    simp only [visitAll, events_append] at hes
    obtain ⟨x, y, rfl, h3, h4⟩ := sameEvs_append hes
    obtain ⟨xs, g1, g2⟩ := resolve_visit t ht.1 hc hi h3
    obtain ⟨ys, g3, g4⟩ := resolve_visitAll ts ht.2 hc hi h4
    refine ⟨xs ++ ys, ?_, ?_⟩
    · rw [treesEvents]; exact sameXEvs_append g1 g3
    · intro rest
      rw [List.append_assoc, g2, g4]
      cases resolve stack rest <;> simp
end

mutual
/-- Without namespaces: the events of the tree, apart from the declarations. -/
theorem plain_visit : ∀ (t : Tree) {cur : List (Option UStr × UStr)} {chain : List (List (Option UStr × UStr))}
    {scope : List (Option UStr × UStr)}, LegalTree wide chain t → LegalChain wide chain → Inv cur chain scope →
    ∀ {es : List Ev}, SameEvs es (events (visit o cur chain t)) → SameEvs (es.map dropDecls) (plainEvents t)
  | .element ns pfx loc decls attrs children, cur, chain, scope, ht, hc, hi, es, hes => by
    have hf := element_facts ho hi hc ht
    obtain ⟨_, _, _, _, _, h6⟩ := ht
    simp only [visit, events_cons, events_append, expected, List.cons_append, List.nil_append] at hes
    cases hes with
    | cons h1 h2 =>
      obtain ⟨x, y, rfl, h3, h4⟩ := sameEvs_append h2
      have hy : y = [.stop (qname pfx loc)] := by
        cases h4 with
        | cons h5 h7 => cases h5; simp only [events, List.flatMap_nil] at h7; cases h7; rfl
      subst hy
      obtain ⟨as, rfl, hp⟩ := same_start h1
      have g1 := plain_visitAll children h6 hf.legalChain (hf.read as hp).2.2.2 h3
      simp only [List.map_cons, List.map_append, List.map_nil, plainEvents, dropDecls]
      exact .cons (.start _ _ _ (hf.plain as hp)) (sameEvs_trans_append g1 (sameEvs_rfl _))
  | .text s, cur, chain, stack, ht, hc, hi, es, hes => by
    simp [visit, events, expected] at hes
    rw [same_chars hes, plainEvents, List.map_map]
    exact sameEvs_rfl _
  | .comment s, cur, chain, stack, ht, hc, hi, es, hes => by
    simp [visit, events, expected] at hes
    cases hes with
    | cons h1 h2 => cases h1; cases h2; exact sameEvs_rfl _
  | .pi t d, cur, chain, stack, ht, hc, hi, es, hes => by
    simp [visit, events, expected] at hes
    cases hes with
    | cons h1 h2 => cases h1; cases h2; exact sameEvs_rfl _

theorem plain_visitAll : ∀ (ts : List Tree) {cur : List (Option UStr × UStr)} {chain : List (List (Option UStr × UStr))}
    {scope : List (Option UStr × UStr)}, LegalTrees wide chain ts → LegalChain wide chain → Inv cur chain scope →
    ∀ {es : List Ev}, SameEvs es (events (visitAll o cur chain ts)) → SameEvs (es.map dropDecls) (plainsEvents ts)
  | [], cur, chain, scope, ht, hc, hi, es, hes => by
    simp only [visitAll, events, List.flatMap_nil] at hes
    cases hes
    exact .nil
  | t :: ts, cur, chain, scope, ht, hc, hi, es, hes => by
    simp only [visitAll, events_append] at hes
    obtain ⟨x, y, rfl, h3, h4⟩ := sameEvs_append hes
    rw [List.map_append, plainsEvents]
    exact sameEvs_trans_append (plain_visit t ht.1 hc hi h3) (plain_visitAll ts ht.2 hc hi h4)
end

mutual
/-- The calls are legal and balanced. -/
theorem calls_visit : ∀ (t : Tree) {cur : List (Option UStr × UStr)} {chain : List (List (Option UStr × UStr))}
    {scope : List (Option UStr × UStr)}, LegalTree wide chain t → LegalChain wide chain → Inv cur chain scope →
    (∀ c ∈ visit o cur chain t, LegalCall wide c ∧ CanonicalCall c) ∧
    (∀ open_ rest, nest open_ (events (visit o cur chain t) ++ rest) = nest open_ rest) ∧
    ∀ open_ rest, open_ ≠ [] → (DocCalls .root open_ (visit o cur chain t ++ rest) ↔ DocCalls .root open_ rest)
  | .element ns pfx loc decls attrs children, cur, chain, scope, ht, hc, hi => by
    have hf := element_facts ho hi hc ht
    obtain ⟨_, _, _, _, _, h6⟩ := ht
    obtain ⟨g1, g2, g3⟩ := calls_visitAll children h6 hf.legalChain (hf.read _ (List.Perm.refl _)).2.2.2
    refine ⟨?_, ?_, ?_⟩
    · intro c hcm
      simp only [visit, List.mem_cons, List.mem_append, List.not_mem_nil, or_false] at hcm
      rcases hcm with rfl | hcm | rfl
      · exact ⟨hf.legal, trivial⟩
      · exact g1 c hcm
      · exact ⟨trivial, trivial⟩
    · intro open_ rest
      simp only [visit, events_cons, events_append, expected, List.cons_append, List.nil_append, nest, List.append_assoc]
      rw [g2]
      simp [events, nest]
    · intro open_ rest hop
      simp only [visit, List.cons_append, List.append_assoc, DocCalls, List.nil_append]
      rw [g3 _ _ (by simp)]
      simp only [DocCalls]
      constructor
      · rintro ⟨_, o', h1, h2⟩; cases h1; exact h2
      · intro h; exact ⟨fun h2 => absurd h2 hop, _, rfl, h⟩
  | .text s, cur, chain, scope, ht, hc, hi => by
    refine ⟨?_, ?_, ?_⟩
    · intro c hcm
      simp only [visit, List.mem_singleton] at hcm
      subst hcm; exact ⟨ht, trivial⟩
    · intro open_ rest
      simp only [visit, events, List.flatMap_cons, List.flatMap_nil, expected, List.append_nil]
      exact nest_chars_append s open_ rest
    · intro open_ rest hop
      simp [visit, DocCalls, hop]
  | .comment s, cur, chain, scope, ht, hc, hi => by
    refine ⟨?_, ?_, ?_⟩
    · intro c hcm
      simp only [visit, List.mem_singleton] at hcm
      subst hcm; exact ⟨ht, trivial⟩
    · intro open_ rest
      simp [visit, events, expected, nest]
    · intro open_ rest hop
      simp [visit, DocCalls]
  | .pi t d, cur, chain, scope, ht, hc, hi => by
    refine ⟨?_, ?_, ?_⟩
    · intro c hcm
      simp only [visit, List.mem_singleton] at hcm
      subst hcm; exact ⟨ht, trivial⟩
    · intro open_ rest
      simp [visit, events, expected, nest]
    · intro open_ rest hop
      simp [visit, DocCalls]

theorem calls_visitAll : ∀ (ts : List Tree) {cur : List (Option UStr × UStr)} {chain : List (List (Option UStr × UStr))}
    {scope : List (Option UStr × UStr)}, LegalTrees wide chain ts → LegalChain wide chain → Inv cur chain scope →
    (∀ c ∈ visitAll o cur chain ts, LegalCall wide c ∧ CanonicalCall c) ∧
    (∀ open_ rest, nest open_ (events (visitAll o cur chain ts) ++ rest) = nest open_ rest) ∧
    ∀ open_ rest, open_ ≠ [] → (DocCalls .root open_ (visitAll o cur chain ts ++ rest) ↔ DocCalls .root open_ rest)
  | [], cur, chain, scope, ht, hc, hi => by simp [visitAll, events]
  | t :: ts, cur, chain, scope, ht, hc, hi => by
    obtain ⟨g1, g2, g3⟩ := calls_visit t ht.1 hc hi
    obtain ⟨k1, k2, k3⟩ := calls_visitAll ts ht.2 hc hi
    refine ⟨?_, ?_, ?_⟩
    · intro c hcm
      rw [visitAll, List.mem_append] at hcm
      exact hcm.elim (g1 c) (k1 c)
    · intro open_ rest
      rw [visitAll, events_append, List.append_assoc, g2, k2]
    · intro open_ rest hop
      rw [visitAll, List.append_assoc, g3 _ _ hop, k3 _ _ hop]
end

end

theorem legalTrees_append {wide : Bool} {chain : List (List (Option UStr × UStr))} {a b : List Tree} :
    LegalTrees wide chain (a ++ b) ↔ LegalTrees wide chain a ∧ LegalTrees wide chain b := by
  induction a with
  | nil => simp [LegalTrees]
  | cons t a ih => simp [LegalTrees, ih, and_assoc]

theorem visitAll_append (o : Orders) (cur : List (Option UStr × UStr)) (chain : List (List (Option UStr × UStr)))
    (a b : List Tree) : visitAll o cur chain (a ++ b) = visitAll o cur chain a ++ visitAll o cur chain b := by
  induction a with
  | nil => rfl
  | cons t a ih => simp [visitAll, ih]

theorem doc_misc (o : Orders) (cur : List (Option UStr × UStr)) (chain : List (List (Option UStr × UStr)))
    {ts : List Tree} (h : ts.all isMisc = true) (ph : Phase) (open_ : List UStr) (rest : List Call) :
    DocCalls ph open_ (visitAll o cur chain ts ++ rest) ↔ DocCalls ph open_ rest := by
  induction ts with
  | nil => rfl
  | cons t ts ih =>
    simp only [List.all_cons, Bool.and_eq_true] at h
    cases t with
    | element => simp [isMisc] at h
    | text => simp [isMisc] at h
    | comment s => simp only [visitAll, visit, List.cons_append, List.nil_append, DocCalls]; exact ih h.2
    | pi t d => simp only [visitAll, visit, List.cons_append, List.nil_append, DocCalls]; exact ih h.2

theorem firstElement_misc {a : List Tree} (h : a.all isMisc = true) (ts : List Tree) :
    firstElement (a ++ ts) = firstElement ts := by
  induction a with
  | nil => rfl
  | cons t a ih =>
    simp only [List.all_cons, Bool.and_eq_true] at h
    cases t with
    | element => simp [isMisc] at h
    | text => simp [isMisc] at h
    | comment s => simp only [List.cons_append, firstElement]; exact ih h.2
    | pi t d => simp only [List.cons_append, firstElement]; exact ih h.2

end Verif.Write
