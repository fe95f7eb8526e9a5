import Verif.Write.StructSpec
import Verif.Write.VisitTree

/-
What `feed` writes for a structure.
-/
namespace Verif.Write
open Verif Verif.Write.Spec

theorem splitName_spec {q : UStr} {p : Option UStr} {l : UStr} (h : splitName q = some (p, l)) :
    prefixPart q = p ∧ localPart q = l ∧ structPrefix q = p.getD [] ∧ isName q = true ∧
      ∀ r, p = some r → ncName r = true := by
  have h0 := h
  unfold splitName at h
  split at h
  · rename_i hd
    split at h
    · rename_i hn
      cases h
      refine ⟨by simp [prefixPart, h0], by simp [localPart, h0], ?_, (ncName_name hn).1, fun r hr => by cases hr⟩
      unfold structPrefix; rw [hd]; rfl
    · cases h
  · rename_i c l' hd
    split at h
    · rename_i hn
      cases h
      simp only [Bool.and_eq_true] at hn
      refine ⟨by simp [prefixPart, h0], by simp [localPart, h0], ?_, ?_, fun r hr => by cases hr; exact hn.1⟩
      · unfold structPrefix; rw [hd]; rfl
      · have h1 := List.takeWhile_append_dropWhile (p := fun c => decide (c ≠ 58)) (l := q)
        have hc : c = 58 := by
          have := List.head?_dropWhile_not (fun c => decide (c ≠ 58)) q
          rw [hd] at this
          simpa using this
        subst hc
        rw [hd] at h1
        have h2 := isName_qname hn.1 hn.2
        rw [← h1]
        simpa using h2
    · cases h

theorem split_cases {q : UStr} (h : (splitName q).isSome = true) : ∃ p l, splitName q = some (p, l) := by
  obtain ⟨⟨p, l⟩, h⟩ := Option.isSome_iff_exists.1 h
  exact ⟨p, l, h⟩

theorem nsFirst_declared {content : List Obj} (h : nsFirst content = true) : leadingNs content = declared content := by
  induction content with
  | nil => rfl
  | cons x xs ih =>
    have hd : ∀ ys : List Obj, ys.all noNs = true → declared ys = [] := by
      intro ys
      induction ys with
      | nil => intro _; rfl
      | cons y ys ih2 =>
        intro hy
        simp only [List.all_cons, Bool.and_eq_true] at hy
        cases y <;> first | (simp [noNs] at hy; done) | exact ih2 hy.2
    cases x with
    | ns p u => simp only [nsFirst] at h; simp [leadingNs, declared, ih h]
    | _ => rw [hd _ h]; rfl

theorem leadObj_head (content : List Obj) : leadObj content = (content.filter noNs).head? := by
  induction content with
  | nil => rfl
  | cons x xs ih => cases x <;> first | exact ih | rfl

theorem described_none {S : List (Option UStr × UStr)} {content : List Obj} (h : (content.filter noNs) = []) :
    describedAll S content = [] := by
  induction content with
  | nil => rfl
  | cons x xs ih =>
    cases x with
    | ns p u => simp only [List.filter_cons, noNs] at h; simp [describedAll, described, ih h]
    | _ => simp [noNs] at h

theorem leads_false {S : List (Option UStr × UStr)} {content : List Obj} (h : leads content = false)
    (hl : ((content.filter noNs).head?.map Obj.truth).getD true = true ∨ describedAll S content = []) :
    describedAll S content = [] := by
  rcases hl with hl | hl
  · unfold leads at h
    rw [leadObj_head] at h
    cases hc : (content.filter noNs).head? with
    | none => exact described_none (List.head?_eq_none_iff.1 hc)
    | some o => rw [hc] at h hl; simp at h hl; rw [hl] at h; cases h
  · exact hl

theorem declName_plain (p : Option UStr) : declName (plainPrefix p) = declName p := by
  match p with
  | none => rfl
  | some [] => rfl
  | some (_ :: _) => rfl

theorem plain_keys {l : List (Option UStr × UStr)} (h : ((l.map plainDecl).map (·.1)).Nodup) : (l.map (·.1)).Nodup := by
  rw [List.map_map] at h
  refine nodup_map_of h ?_
  intro a _ b _ he
  simp only [Function.comp, plainDecl, he]

theorem plain_key {p : Option UStr} (hp : ∀ r, p = some r → ncName r = true) : plainPrefix (some (p.getD [])) = p := by
  match p with
  | none => rfl
  | some [] => exact absurd (hp [] rfl) (by decide)
  | some (_ :: _) => rfl

theorem made_eq {P outer : List (Option UStr × UStr)} (hP : ∀ k, dget P k = nearest outer k) {ns : Option UStr} {q : UStr}
    {content : List Obj} (hq : structPrefix q = (prefixPart q).getD []) (hf : nsFirst content = true) :
    newPrefixes P ns q content = madeDecls outer ns q content := by
  unfold newPrefixes madeDecls ownDecl
  rw [nsFirst_declared hf, hq]
  cases ns with
  | none => rfl
  | some u => rw [hP]

theorem scope_made {outer : List (Option UStr × UStr)} {ns : Option UStr} {q : UStr} {content : List Obj} (k : Option UStr) :
    nearest (scopeOf outer ns q content) k = (dget (madeDecls outer ns q content) k).or (nearest outer k) := by
  rw [nearest_eq, nearest_eq]
  unfold scopeOf madeDecls
  cases ns with
  | none => simp [dget_append]
  | some u =>
    dsimp only
    rw [nearest_eq]
    split
    · rename_i h
      rw [List.append_nil, dget_append, dget]
      split
      · rename_i he; rw [he] at h; rw [h]
      · rfl
    · simp only [dget_append, dget, Option.or_assoc]
      split <;> simp

theorem plain_scope_made {outer : List (Option UStr × UStr)} {ns : Option UStr} {q : UStr} {content : List Obj}
    (hk : plainPrefix (some ((prefixPart q).getD [])) = prefixPart q)
    (hi : ∀ u, ns = some u → InForce outer q u) (p : Option UStr) :
    nearest ((scopeOf outer ns q content).map plainDecl) p =
      (dget ((madeDecls outer ns q content).map plainDecl) p).or (nearest (outer.map plainDecl) p) := by
  rw [nearest_eq, nearest_eq]
  unfold scopeOf madeDecls
  cases ns with
  | none => simp [dget_append]
  | some u =>
    dsimp only
    have hi := hi u rfl
    unfold InForce at hi
    split
    · rename_i h
      have h := hi h
      rw [List.append_nil, List.map_append, List.map_cons, dget_append]
      simp only [plainDecl, hk, dget]
      rw [nearest_eq] at h
      split
      · rename_i he; rw [← he, h]
      · rfl
    · simp only [List.map_append, List.map_cons, List.map_nil, dget_append, plainDecl, hk, dget, Option.or_assoc]
      split <;> simp

/-- The attributes that are written. -/
theorem structAttr_mem {attrs : List ((Option UStr × UStr) × Option UStr)} {x : UStr × UStr}
    (h : x ∈ attrs.filterMap structAttr) : ∃ a ∈ attrs, a.2 = some x.2 ∧ a.1.2 = x.1 := by
  obtain ⟨⟨k, v⟩, ha, he⟩ := List.mem_filterMap.1 h
  cases v with
  | none => cases he
  | some v => cases he; exact ⟨_, ha, rfl, rfl⟩

theorem structAttr_expand {wide : Bool} {scope : List (Option UStr × UStr)} {ns : Option UStr} {q v : UStr}
    (h : LegalStructAttr wide scope ns q v) : expandAttr scope q = some (structAttrName scope ns q) := by
  obtain ⟨h1, _, _, h4⟩ := h
  obtain ⟨p, l, hs⟩ := split_cases h1
  obtain ⟨e1, e2, _⟩ := splitName_spec hs
  unfold expandAttr structAttrName
  rw [hs]
  rw [e1] at h4 ⊢
  rw [e2]
  match ns, p, h4 with
  | none, none, _ => rfl
  | none, some r, h4 =>
    dsimp only at h4 ⊢
    obtain ⟨x, hx⟩ := Option.isSome_iff_exists.1 h4
    rw [hx]; rfl
  | some u, none, h4 => dsimp only at h4; subst h4; rfl
  | some u, some r, h4 =>
    dsimp only at h4 ⊢
    rw [h4.2]
    simp [nsName, h4.1]

theorem expandAttr_congr {R S : List (Option UStr × UStr)} (h : ∀ p, nearest R p = nearest S p) (q : UStr) :
    expandAttr R q = expandAttr S q := by
  unfold expandAttr
  cases splitName q with
  | none => rfl
  | some x =>
    obtain ⟨p, l⟩ := x
    cases p with
    | none => rfl
    | some p => simp only [namespaceOf, h]

theorem structAttrs_eq {wide : Bool} {R S : List (Option UStr × UStr)} (h : ∀ p, nearest R p = nearest S p)
    {attrs : List ((Option UStr × UStr) × Option UStr)}
    (ha : ∀ a ∈ attrs, ∀ v, a.2 = some v → LegalStructAttr wide S a.1.1 a.1.2 v) :
    (attrs.filterMap structAttr).map (fun a => (xnameOf R a, a.2)) = structAttrs S attrs := by
  unfold structAttrs
  induction attrs with
  | nil => rfl
  | cons a as ih =>
    obtain ⟨⟨ns, q⟩, v⟩ := a
    have ih := ih fun b hb => ha b (by simp [hb])
    cases v with
    | none => exact ih
    | some v =>
      have := structAttr_expand (ha ((ns, q), some v) (by simp) v rfl)
      show (xnameOf R (q, v), v) :: _ = (structAttrName S ns q, v) :: _
      rw [xnameOf, expandAttr_congr h, this, ih]; rfl

theorem declOf_attrs {wide : Bool} {S : List (Option UStr × UStr)} {attrs : List ((Option UStr × UStr) × Option UStr)}
    (ha : ∀ a ∈ attrs, ∀ v, a.2 = some v → LegalStructAttr wide S a.1.1 a.1.2 v) :
    (attrs.filterMap structAttr).filterMap declOf = [] ∧
    ((attrs.filterMap structAttr).filter fun a => (declOf a).isNone) = attrs.filterMap structAttr := by
  induction attrs with
  | nil => exact ⟨rfl, rfl⟩
  | cons a as ih =>
    obtain ⟨⟨ns, q⟩, v⟩ := a
    obtain ⟨h1, h2⟩ := ih fun b hb => ha b (by simp [hb])
    cases v with
    | none => exact ⟨h1, h2⟩
    | some v =>
      have h3 := (ha ((ns, q), some v) (by simp) v rfl).2.1
      have h4 : declOf (q, v) = none := by simpa using h3
      have h5 : List.filterMap structAttr (((ns, q), some v) :: as) = (q, v) :: as.filterMap structAttr := rfl
      rw [h5]
      simp only [List.filterMap_cons, List.filter_cons, h4, h1, h2, Option.isNone_none, if_true, and_self]

/-- What is known about a legal `E`. -/
structure StructFacts (wide : Bool) (P outer R : List (Option UStr × UStr)) (ns : Option UStr) (q : UStr)
    (attrs : List ((Option UStr × UStr) × Option UStr)) (content : List Obj) : Prop where
  legal : LegalCall wide (.startElement q (newPrefixes P ns q content) (attrs.filterMap structAttr))
  prefixes : ∀ k, dget (dupdate P (newPrefixes P ns q content)) k = nearest (scopeOf outer ns q content) k
  read : ∀ as : List (UStr × UStr), as.Perm ((newPrefixes P ns q content).map
      (fun d => (declName d.1, d.2)) ++ attrs.filterMap structAttr) →
    (as.filterMap declOf).all legalBinding = true ∧
    expandElement (as.filterMap declOf ++ R) q = some (structName ((scopeOf outer ns q content).map plainDecl) ns q) ∧
    (∃ ys, expandAttrs (as.filterMap declOf ++ R) as = some ys ∧
      ys.Perm (structAttrs ((scopeOf outer ns q content).map plainDecl) attrs) ∧ (ys.map (·.1)).Nodup) ∧
    (∀ p, nearest (as.filterMap declOf ++ R) p = nearest ((scopeOf outer ns q content).map plainDecl) p) ∧
    ∀ e ∈ as.filterMap declOf ++ R, legalBinding e = true

theorem struct_facts {wide : Bool} {P outer R : List (Option UStr × UStr)} (hP : ∀ k, dget P k = nearest outer k)
    (hR : ∀ p, nearest R p = nearest (outer.map plainDecl) p) (hL : ∀ e ∈ R, legalBinding e = true)
    {ns : Option UStr} {q : UStr} {attrs : List ((Option UStr × UStr) × Option UStr)} {content : List Obj}
    (ho : LegalObj wide outer (.elem ns q attrs content)) : StructFacts wide P outer R ns q attrs content := by
  obtain ⟨⟨h1, h1'⟩, h2, ⟨h3, h3'⟩, h4, h5, h6, _, _⟩ := ho
  obtain ⟨p, l, hs⟩ := split_cases h1
  obtain ⟨e1, e2, e3, e4, e5⟩ := splitName_spec hs
  have hk : plainPrefix (some ((prefixPart q).getD [])) = prefixPart q := by rw [e1]; exact plain_key e5
  have hm : newPrefixes P ns q content = madeDecls outer ns q content := made_eq hP (by rw [e3, e1]) h6
  generalize hM : madeDecls outer ns q content = M at *
  generalize hS : (scopeOf outer ns q content).map plainDecl = S at *
  have hdn : M.map (fun d => (declName d.1, d.2)) = (M.map plainDecl).map (fun d => (declName d.1, d.2)) := by
    rw [List.map_map]
    refine List.map_congr_left fun d _ => ?_
    simp only [Function.comp, plainDecl, declName_plain]
  obtain ⟨d1, d2⟩ := filterMap_declOf fun e he => (h3' e he).1
  obtain ⟨d3, d4⟩ := declOf_attrs h4
  have hnd : ((attrs.filterMap structAttr).map (·.1)).Nodup := by
    rw [← structAttrs_eq (fun _ => rfl) h4, List.map_map] at h5
    refine nodup_map_of h5 ?_
    intro a _ b _ he
    simp only [Function.comp, xnameOf, he]
  refine ⟨hm ▸ ⟨e4, ?_, ?_, ?_⟩, ?_, ?_⟩
  · intro d hd
    have hd' := h3' (plainDecl d) (List.mem_map.2 ⟨d, hd, rfl⟩)
    have := (declName_split (legalBinding_nc (u := d.2) hd'.1)).1
    exact ⟨by rw [← declName_plain]; exact this, hd'.2⟩
  · intro a ha
    obtain ⟨b, hb, hb1, hb2⟩ := structAttr_mem ha
    have hl := h4 b hb _ hb1
    obtain ⟨p', l', hs'⟩ := split_cases hl.1
    rw [← hb2]
    exact ⟨(splitName_spec hs').2.2.2.1, hl.2.2.1⟩
  · rw [List.nodup_append]
    refine ⟨?_, hnd, ?_⟩
    · refine nodup_map_of (g := fun d => plainPrefix d.1) (by rw [List.map_map] at h3; exact h3) ?_
      intro a ha b hb he
      have h7 := (declName_split (legalBinding_nc (u := a.2) (h3' (plainDecl a) (List.mem_map.2 ⟨a, ha, rfl⟩)).1)).2 []
      have h8 := (declName_split (legalBinding_nc (u := b.2) (h3' (plainDecl b) (List.mem_map.2 ⟨b, hb, rfl⟩)).1)).2 []
      simp only [plainDecl, declName_plain] at h7 h8
      rw [he, h8] at h7
      simp only [Option.some.injEq, Prod.mk.injEq, and_true] at h7
      exact h7.symm
    · intro x hx y hy hxy
      subst hxy
      obtain ⟨d, hd, rfl⟩ := List.mem_map.1 hx
      obtain ⟨a, ha, hae⟩ := List.mem_map.1 hy
      have h7 := (declName_split (legalBinding_nc (u := d.2) (h3' (plainDecl d) (List.mem_map.2 ⟨d, hd, rfl⟩)).1)).2 a.2
      simp only [plainDecl, declName_plain] at h7
      rw [← d4] at ha
      have h8 := (List.mem_filter.1 ha).2
      rw [← hae] at h7
      have : (a.1, a.2) = a := rfl
      rw [this] at h7
      rw [h7] at h8; cases h8
  · intro k
    rw [hm, dget_dupdate _ _ (plain_keys h3), hP, scope_made, hM]
  · rw [hm, hS]
    intro as has
    have hp1 : (as.filterMap declOf).Perm (M.map plainDecl) := by
      have := has.filterMap declOf
      rw [List.filterMap_append, hdn, d1, d3, List.append_nil] at this
      exact this
    have hp2 : (as.filter fun a => (declOf a).isNone).Perm (attrs.filterMap structAttr) := by
      have := has.filter fun a => (declOf a).isNone
      rw [List.filter_append, hdn, d2, d4, List.nil_append] at this
      exact this
    have hall : ∀ e ∈ as.filterMap declOf, legalBinding e = true := fun e he => (h3' e (hp1.mem_iff.1 he)).1
    have hnear : ∀ p, nearest (as.filterMap declOf ++ R) p = nearest S p := by
      intro p
      rw [← hS, plain_scope_made hk h2, hM, nearest_eq, dget_append, dget_perm hp1 ((hp1.map _).nodup_iff.2 h3),
        ← nearest_eq R, hR]
    refine ⟨List.all_eq_true.2 hall, ?_, ?_, hnear, ?_⟩
    · unfold expandElement structName
      rw [hs]
      dsimp only
      rw [e2]
      have hn : namespaceOf (as.filterMap declOf ++ R) p = namespaceOf S p := by simp only [namespaceOf, hnear]
      rw [hn]
      rw [e1] at h1' ⊢
      cases ns with
      | none =>
        dsimp only at h1' ⊢
        obtain ⟨x, hx⟩ := Option.isSome_iff_exists.1 h1'
        rw [hx]; rfl
      | some u => dsimp only at h1' ⊢; rw [h1']; rfl
    · have hex : ∀ a ∈ as, (declOf a).isNone = true → (expandAttr (as.filterMap declOf ++ R) a.1).isSome = true := by
        intro a ha hd
        have : a ∈ as.filter fun a => (declOf a).isNone := List.mem_filter.2 ⟨ha, hd⟩
        obtain ⟨b, hb, hb1, hb2⟩ := structAttr_mem (hp2.mem_iff.1 this)
        rw [← hb2, expandAttr_congr hnear, structAttr_expand (h4 b hb _ hb1)]; rfl
      have hp3 := hp2.map fun a => (xnameOf (as.filterMap declOf ++ R) a, a.2)
      rw [structAttrs_eq hnear h4] at hp3
      exact ⟨_, expandAttrs_eq hex, hp3, (hp3.map _).nodup_iff.2 h5⟩
    · intro e he
      rcases List.mem_append.1 he with he | he
      · exact hall e he
      · exact hL e he

theorem inv_raw {outer R : List (Option UStr × UStr)} {chain : List (List (Option UStr × UStr))}
    (hR : ∀ p, nearest R p = nearest (outer.map plainDecl) p) (hL : ∀ e ∈ R, legalBinding e = true)
    (h : nearest (outer.map plainDecl) none = none ∨ nearest (outer.map plainDecl) none = some []) :
    Inv initialNs chain R := by
  refine inv_free ?_ ?_
  · intro u hu
    have := hL _ (dget_mem hu)
    exact (legal_xml this).1 rfl
  · rw [← nearest_eq, hR]; exact h

section
variable {wide : Bool} {o : Orders} (ho : GoodOrders o)
include ho

mutual
/-- A reader resolves what is written for an object to what it stands for. -/
theorem resolve_feed : ∀ (x : Obj) {P outer : List (Option UStr × UStr)} {stack : List (List (Option UStr × UStr))},
    LegalObj wide outer x → (∀ k, dget P k = nearest outer k) →
    (∀ p, nearest (stack.headD []) p = nearest (outer.map plainDecl) p) →
    (∀ e ∈ stack.headD [], legalBinding e = true) →
    ∀ {es : List Ev}, SameEvs es (events (feed o P x)) →
    ∃ xs, SameXEvs xs (described outer x) ∧ ∀ rest, resolve stack (es ++ rest) = (resolve stack rest).map (xs ++ ·)
  | .elem ns q attrs content, P, outer, stack, hx, hP, hR, hL, es, hes => by
    have hf := struct_facts hP hR hL hx
    obtain ⟨_, _, _, _, _, _, h7, h8⟩ := hx
    simp only [feed, events_cons, events_append, expected, List.cons_append, List.nil_append] at hes
    cases hes with
    | cons h1 h2 =>
      obtain ⟨x, y, rfl, h3, h4⟩ := sameEvs_append h2
      have hy : y = [.stop q] := by
        cases h4 with
        | cons h5 h9 => cases h5; simp only [events, List.flatMap_nil] at h9; cases h9; rfl
      subst hy
      obtain ⟨as, rfl, hp⟩ := same_start h1
      obtain ⟨f1, f2, ⟨ys, f3, f4, f5⟩, f6, f7⟩ := hf.read as hp
      have hc : ∃ xs, SameXEvs xs (describedAll (scopeOf outer ns q content) content) ∧
          ∀ rest, resolve ((as.filterMap declOf ++ stack.headD []) :: stack) (x ++ rest) =
            (resolve ((as.filterMap declOf ++ stack.headD []) :: stack) rest).map (xs ++ ·) := by
        cases hl : leads content with
        | true =>
          rw [hl, if_pos rfl] at h3
          exact resolve_feedAll content (stack := (as.filterMap declOf ++ stack.headD []) :: stack) h8 hf.prefixes f6 f7 h3
        | false =>
          rw [hl] at h3
          simp only [Bool.false_eq_true, if_false, events, List.flatMap_nil] at h3
          cases h3
          rw [leads_false hl h7]
          exact ⟨[], .nil, fun rest => by simp⟩
      obtain ⟨xs, g1, g2⟩ := hc
      refine ⟨.start (structName ((scopeOf outer ns q content).map plainDecl) ns q) ys ::
        (xs ++ [.stop (structName ((scopeOf outer ns q content).map plainDecl) ns q)]), ?_, ?_⟩
      · rw [described]
        exact .cons (.start _ _ _ f4) (sameXEvs_append g1 (sameXEvs_refl _))
      · intro rest
        simp only [List.cons_append, List.append_assoc, List.nil_append, resolve]
        rw [if_pos f1, f2, f3]
        dsimp only
        rw [if_pos f5, g2]
        simp only [resolve, List.headD_cons, List.tail_cons, f2]
        cases resolve stack rest <;> simp
  | .ns p u, P, outer, stack, hx, hP, hR, hL, es, hes => by
    simp only [feed, events, List.flatMap_nil] at hes
    cases hes
    exact ⟨[], .nil, fun rest => by simp⟩
  | .raw trees, P, outer, stack, hx, hP, hR, hL, es, hes => by
    rw [feed] at hes
    rw [described]
    exact resolve_visitAll ho trees hx.1 (fun ds h => by cases h) (inv_raw hR hL hx.2) hes
  | .text s, P, outer, stack, hx, hP, hR, hL, es, hes => by
    simp [feed, events, expected] at hes
    rw [same_chars hes]
    exact ⟨s.map .char, by rw [described]; exact sameXEvs_refl _, resolve_chars stack s⟩
  | .value s t, P, outer, stack, hx, hP, hR, hL, es, hes => by
    simp [feed, events, expected] at hes
    rw [same_chars hes]
    exact ⟨s.map .char, by rw [described]; exact sameXEvs_refl _, resolve_chars stack s⟩
  | .iter items t, P, outer, stack, hx, hP, hR, hL, es, hes => by
    rw [feed] at hes
    rw [described]
    exact resolve_feedAll items hx.2 hP hR hL hes
  | .call r, P, outer, stack, hx, hP, hR, hL, es, hes => by
    rw [feed] at hes
    rw [described]
    exact resolve_feed r hx.2 hP hR hL hes
  | .root content, P, outer, stack, hx, hP, hR, hL, es, hes => by cases hx

theorem resolve_feedAll : ∀ (xs : List Obj) {P outer : List (Option UStr × UStr)} {stack : List (List (Option UStr × UStr))},
    LegalObjs wide outer xs → (∀ k, dget P k = nearest outer k) →
    (∀ p, nearest (stack.headD []) p = nearest (outer.map plainDecl) p) →
    (∀ e ∈ stack.headD [], legalBinding e = true) →
    ∀ {es : List Ev}, SameEvs es (events (feedAll o P xs)) →
    ∃ ys, SameXEvs ys (describedAll outer xs) ∧ ∀ rest, resolve stack (es ++ rest) = (resolve stack rest).map (ys ++ ·)
  | [], P, outer, stack, hx, hP, hR, hL, es, hes => by
    simp only [feedAll, events, List.flatMap_nil] at hes
    cases hes
    exact ⟨[], .nil, fun rest => by simp⟩
  | x :: xs, P, outer, stack, hx, hP, hR, hL, es, hes => by
    simp only [feedAll, events_append] at hes
    obtain ⟨a, b, rfl, h3, h4⟩ := sameEvs_append hes
    obtain ⟨ys, g1, g2⟩ := resolve_feed x hx.1 hP hR hL h3
    obtain ⟨zs, g3, g4⟩ := resolve_feedAll xs hx.2 hP hR hL h4
    refine ⟨ys ++ zs, ?_, ?_⟩
    · rw [describedAll]; exact sameXEvs_append g1 g3
    · intro rest
      rw [List.append_assoc, g2, g4]
      cases resolve stack rest <;> simp
end

mutual
/-- The calls are legal and balanced. -/
theorem calls_feed : ∀ (x : Obj) {P outer R : List (Option UStr × UStr)},
    LegalObj wide outer x → (∀ k, dget P k = nearest outer k) →
    (∀ p, nearest R p = nearest (outer.map plainDecl) p) → (∀ e ∈ R, legalBinding e = true) →
    (∀ c ∈ feed o P x, LegalCall wide c) ∧
    (∀ open_ rest, nest open_ (events (feed o P x) ++ rest) = nest open_ rest) ∧
    ∀ open_ rest, open_ ≠ [] → (DocCalls .root open_ (feed o P x ++ rest) ↔ DocCalls .root open_ rest)
  | .elem ns q attrs content, P, outer, R, hx, hP, hR, hL => by
    have hf := struct_facts hP hR hL hx
    obtain ⟨_, _, _, _, _, _, _, h8⟩ := hx
    obtain ⟨_, _, _, f6, f7⟩ := hf.read _ (List.Perm.refl _)
    obtain ⟨g1, g2, g3⟩ := calls_feedAll content h8 hf.prefixes f6 f7
    refine ⟨?_, ?_, ?_⟩
    · intro c hcm
      simp only [feed, List.mem_cons, List.mem_append, List.not_mem_nil, or_false] at hcm
      rcases hcm with rfl | hcm | rfl
      · exact hf.legal
      · split at hcm
        · exact g1 c hcm
        · cases hcm
      · trivial
    · intro open_ rest
      simp only [feed, events_cons, events_append, expected, List.cons_append, List.nil_append, nest, List.append_assoc]
      split
      · rw [g2]; simp [events, nest]
      · simp [events, nest]
    · intro open_ rest hop
      simp only [feed, List.cons_append, List.append_assoc, DocCalls, List.nil_append]
      split
      · rw [g3 _ _ (by simp)]
        simp only [DocCalls]
        constructor
        · rintro ⟨_, o', h1, h2⟩; cases h1; exact h2
        · intro h; exact ⟨fun h2 => absurd h2 hop, _, rfl, h⟩
      · simp only [List.nil_append, DocCalls]
        constructor
        · rintro ⟨_, o', h1, h2⟩; cases h1; exact h2
        · intro h; exact ⟨fun h2 => absurd h2 hop, _, rfl, h⟩
  | .ns p u, P, outer, R, hx, hP, hR, hL => by simp [feed, events]
  | .raw trees, P, outer, R, hx, hP, hR, hL => by
    obtain ⟨h1, h2, h3⟩ := calls_visitAll ho trees hx.1 (fun ds h => by cases h) (inv_raw hR hL hx.2)
    rw [feed]
    exact ⟨fun c hc => (h1 c hc).1, h2, h3⟩
  | .text s, P, outer, R, hx, hP, hR, hL => by
    refine ⟨?_, ?_, ?_⟩
    · intro c hcm
      simp only [feed, List.mem_singleton] at hcm
      subst hcm; exact hx
    · intro open_ rest
      simp only [feed, events, List.flatMap_cons, List.flatMap_nil, expected, List.append_nil]
      exact nest_chars_append s open_ rest
    · intro open_ rest hop
      simp [feed, DocCalls, hop]
  | .value s t, P, outer, R, hx, hP, hR, hL => by
    refine ⟨?_, ?_, ?_⟩
    · intro c hcm
      simp only [feed, List.mem_singleton] at hcm
      subst hcm; exact hx
    · intro open_ rest
      simp only [feed, events, List.flatMap_cons, List.flatMap_nil, expected, List.append_nil]
      exact nest_chars_append s open_ rest
    · intro open_ rest hop
      simp [feed, DocCalls, hop]
  | .iter items t, P, outer, R, hx, hP, hR, hL => by
    rw [feed]; exact calls_feedAll items hx.2 hP hR hL
  | .call r, P, outer, R, hx, hP, hR, hL => by
    rw [feed]; exact calls_feed r hx.2 hP hR hL
  | .root content, P, outer, R, hx, hP, hR, hL => by cases hx

theorem calls_feedAll : ∀ (xs : List Obj) {P outer R : List (Option UStr × UStr)},
    LegalObjs wide outer xs → (∀ k, dget P k = nearest outer k) →
    (∀ p, nearest R p = nearest (outer.map plainDecl) p) → (∀ e ∈ R, legalBinding e = true) →
    (∀ c ∈ feedAll o P xs, LegalCall wide c) ∧
    (∀ open_ rest, nest open_ (events (feedAll o P xs) ++ rest) = nest open_ rest) ∧
    ∀ open_ rest, open_ ≠ [] → (DocCalls .root open_ (feedAll o P xs ++ rest) ↔ DocCalls .root open_ rest)
  | [], P, outer, R, hx, hP, hR, hL => by simp [feedAll, events]
  | x :: xs, P, outer, R, hx, hP, hR, hL => by
    obtain ⟨g1, g2, g3⟩ := calls_feed x hx.1 hP hR hL
    obtain ⟨k1, k2, k3⟩ := calls_feedAll xs hx.2 hP hR hL
    refine ⟨?_, ?_, ?_⟩
    · intro c hcm
      rw [feedAll, List.mem_append] at hcm
      exact hcm.elim (g1 c) (k1 c)
    · intro open_ rest
      rw [feedAll, events_append, List.append_assoc, g2, k2]
    · intro open_ rest hop
      rw [feedAll, List.append_assoc, g3 _ _ hop, k3 _ _ hop]
end
end

end Verif.Write
