import Verif.Xslt.Rd.Class
/-
The attributes of an element of any class.
-/
namespace Verif.Xslt.Rd
open Verif.Content
open Verif.Write (UStr)
open Verif.Names (isQName splitQName)

variable {N : Type}

/-- What is assumed of the rest of the program: `.` is an expression and `/` a pattern, and the tables of extension
elements have each name once and no default that is an error. -/
structure Good (H : Hooks N) : Prop where
  dot : H.expression (u!! ".") = true
  slash : H.pattern (u!! "/") = true
  ext : ∀ n x as, H.ext n = some (x, some as) → (as.map Prod.fst).Nodup ∧ ∀ y ∈ as, plainDefault y.2 = true

/-- The class that the reader finds for an element. -/
inductive ClassOf (H : Hooks N) : Klass → Name → Class → Prop
  | xsl (l m as) : lookup l elementClasses = some (m, as) →
      ClassOf H (.xsl l) (some xslNs, l) { klass := .xsl l, model := m, token := .xsl l, attrs := some as }
  | undefinedXslt (l) : lookup l elementClasses = none → ClassOf H .undefinedXslt (some xslNs, l) undefinedXslt
  | ext (n x as) : H.ext n = some (x, as) →
      ClassOf H (.ext n) n { klass := .ext n, model := x.model, token := .result, attrs := as }
  | undefinedExt (n) : ClassOf H .undefinedExt n undefinedExt
  | literal (n) : ClassOf H .literal n literal

/-- What the frame of an element is after its attributes. -/
structure Inside (H : Hooks N) (c : Spec.Ctx) (k : Klass) (attrs : List (Name × UStr)) (f f' : Frame N) : Prop where
  same : Same f f'
  fc : f'.fc = c.fc
  ext : f'.ext = c.ext
  version : f'.version = Spec.version H k attrs
  binds : (k = .xsl (u!! "variable") ∨ k = .xsl (u!! "param")) →
    ∃ n, Spec.binds k f.cur attrs = some n ∧ lookup (u!! "name") f'.attrs = some (.name n)

/-- One computation after the other. -/
def thenE {α β ε : Type} (x : Except ε α) (g : α → Except ε β) : Except ε β :=
  match x with
  | .error e => .error e
  | .ok a => g a

theorem Decides.bind {α β ε : Type} {b1 b2 : Bool} {x : Except ε α} {g : α → Except ε β} {P : α → Prop} {Q : β → Prop}
    (h : Decides b1 x P) (hg : b1 = true → ∀ a, P a → Decides b2 (g a) Q) :
    Decides (b1 && b2) (thenE x g) Q := by
  rcases h with ⟨rfl, a, rfl, hp⟩ | ⟨rfl, e, rfl⟩
  · exact (hg rfl a hp).congr (by simp)
  · exact .inr ⟨rfl, e, rfl⟩

theorem binds_none {k : Klass} (h : ¬ (k = .xsl (u!! "variable") ∨ k = .xsl (u!! "param"))) (nss : Nss)
    (attrs : List (Name × UStr)) : Spec.binds k nss attrs = none := if_neg h

theorem inside_of_sets (H : Hooks N) {c0 : Spec.Ctx} {k : Klass} {decls : Nss} {attrs : List (Name × UStr)} {f f' : Frame N}
    {ver pre : Option UStr} (hv : f.version = none) (hcur : f.cur = decls ++ c0.cur) (hfc : f.fc = c0.fc) (hext : f.ext = c0.ext)
    (h1 : Spec.standard k ver_ attrs = ver) (h2 : Spec.standard k ext_ attrs = pre)
    (hk : ¬ (k = .xsl (u!! "variable") ∨ k = .xsl (u!! "param")))
    (hs : Same f f') (hset : Sets H ver pre f f') : Inside H (Spec.inside H c0 k decls attrs) k attrs f f' := by
  have hver : Spec.version H k attrs = ver.bind H.float := by
    unfold Spec.version
    rw [show Spec.standard k (u!! "version") attrs = ver from h1]
    cases ver <;> rfl
  refine ⟨hs, ?_, ?_, ?_, fun h => absurd h hk⟩
  · rw [hset.fc]
    show _ = match Spec.version H k attrs with | some n => !H.one n | none => c0.fc
    rw [hver, hfc]
    cases ver.bind H.float <;> rfl
  · rw [hset.ext]
    show _ = match Spec.standard k ext_ attrs with
      | some v => (H.words v).filterMap (fun w => Spec.find (Spec.prefixOf w) (decls ++ c0.cur)) ++ c0.ext
      | none => c0.ext
    rw [h2, hcur, hext]
    cases pre <;> rfl
  · rw [hset.version, hver, hv]
    cases ver.bind H.float <;> rfl

theorem declared_filter (H : Hooks N) (nss : Nss) (as : List (UStr × AttrInfo)) (attrs : List (Name × UStr))
    (hreq : ∀ y ∈ as, plainName y = false → y.2.required = false) (hcol : attrs.all (fun a => ':'.toNat ∉ a.1.2) = true) :
    Spec.declared H nss ((as.filter plainName).map attrOf) attrs = Spec.declared H nss (as.map attrOf) attrs := by
  rw [declared_eq, declared_eq, Bool.eq_iff_iff, List.all_eq_true, List.all_eq_true]
  constructor
  · intro h x hx
    cases hp : plainName x with
    | true => exact h x (List.mem_filter.2 ⟨hx, hp⟩)
    | false =>
      have hl : lookup (none, x.1) attrs = none := by
        cases hl : lookup (none, x.1) attrs with
        | none => rfl
        | some v =>
          have h3 := List.all_eq_true.1 hcol _ (lookup_mem hl)
          have h4 : plainName x = true := h3
          rw [hp] at h4; cases h4
      rw [okAttr, hl]
      show (!x.2.required) = true
      rw [hreq x hx hp]; rfl
  · intro h x hx
    exact h x (List.mem_filter.1 hx).1

theorem rest_filter (as : List (UStr × AttrInfo)) (attrs : List (Name × UStr)) (fc : Bool)
    (hcol : attrs.all (fun a => ':'.toNat ∉ a.1.2) = true) :
    (without (as.map Prod.fst) attrs).all (fun a => a.1.1.isSome || fc) =
      attrs.all (fun a => a.1.1.isSome || decide (a.1.2 ∈ ((as.filter plainName).map attrOf).map Prod.fst) || fc) := by
  have hmem : ∀ a ∈ attrs, a.1.2 ∈ ((as.filter plainName).map attrOf).map Prod.fst ↔ a.1.2 ∈ as.map Prod.fst := by
    intro a ha
    have hp : ':'.toNat ∉ a.1.2 := of_decide_eq_true (List.all_eq_true.1 hcol a ha)
    rw [List.map_map]
    constructor
    · intro h
      obtain ⟨x, hx, e⟩ := List.mem_map.1 h
      exact List.mem_map.2 ⟨x, (List.mem_filter.1 hx).1, e⟩
    · intro h
      obtain ⟨x, hx, e⟩ := List.mem_map.1 h
      exact List.mem_map.2 ⟨x, List.mem_filter.2 ⟨hx, decide_eq_true (by rw [e]; exact hp)⟩, e⟩
  rw [Bool.eq_iff_iff, List.all_eq_true, List.all_eq_true]
  constructor
  · intro h a ha
    by_cases hs : a.1.1.isSome = true
    · simp [hs]
    · by_cases hm : a.1.2 ∈ as.map Prod.fst
      · rw [decide_eq_true ((hmem a ha).2 hm)]; simp
      · have := h a (List.mem_filter.2 ⟨ha, by simp [hm]⟩)
        simp only [Bool.or_eq_true] at this ⊢
        rcases this with h | h
        · exact .inl (.inl h)
        · exact .inr h
  · intro h a ha
    have ha' := List.mem_filter.1 ha
    have h1 := h a ha'.1
    have h2 := ha'.2
    simp only [Bool.or_eq_true, decide_eq_true_eq] at h1 h2 ⊢
    rcases h1 with (h1 | h1) | h1
    · exact .inl h1
    · rcases h2 with h2 | h2
      · exact .inl h2
      · exact absurd ((hmem a ha'.1).1 h1) h2
    · exact .inr h1

theorem qname_name (H : Hooks N) {nss : Nss} {v : UStr} {a : Value N} (h : prepareStr H nss .qname v = .ok a) :
    a = .name (match splitQName v with
      | (some p, l) => ((Spec.find (some p) nss).getD none, l)
      | (none, l) => (none, l)) := by
  rw [prepareStr] at h
  unfold prepareQName at h
  split at h
  · rename_i n hq
    cases h
    split at hq
    · generalize splitQName v = q at hq ⊢
      obtain ⟨p, l⟩ := q
      cases p with
      | none => cases hq; rfl
      | some p =>
        simp only [find_eq] at hq ⊢
        cases hl : lookup (some p) nss with
        | none => rw [hl] at hq; cases hq
        | some u => rw [hl] at hq; cases hq; rfl
    · cases hq
  · cases h

theorem present {H : Hooks N} {nss : Nss} {as : List (UStr × AttrInfo)} {attrs : List (Name × UStr)} {n : UStr} {i : AttrInfo}
    (h : Spec.declared H nss (as.map attrOf) attrs = true) (hm : (n, i) ∈ as) (hr : i.required = true) :
    ∃ v, lookup (none, n) attrs = some v := by
  rw [declared_eq] at h
  have h1 := List.all_eq_true.1 h _ hm
  rw [okAttr] at h1
  cases hl : lookup (none, n) attrs with
  | some v => exact ⟨v, rfl⟩
  | none => rw [hl] at h1; simp [hr] at h1

/-- The end of the attributes of an XSLT element. -/
def finish (H : Hooks N) (l : UStr) (f : Frame N) : Except Err (Frame N) :=
  if l = u!! "import" ∨ l = u!! "include" then
    match lookup (u!! "href") f.attrs with
    | some (.str h) => if H.combine h then .ok f else .error .combine
    | _ => .ok f
  else .ok f

theorem attributes_eq (H : Hooks N) (k : Klass) (hk : (∃ l, k = .xsl l) ∨ k = .undefinedXslt) (m : Content Tok) (t : Tok)
    (as : List (UStr × AttrInfo)) (top : Bool) (s : Start N) (f : Frame N) :
    attributes H { klass := k, model := m, token := t, attrs := some as } top s f =
      thenE (legalAttrs H (isSheet s.name.2) as s.attrs f) (fun x =>
        thenE (restXsl x.2.fc x.1) (fun _ => finish H s.name.2 x.2)) := by
  rcases hk with ⟨l, rfl⟩ | rfl <;>
  · unfold attributes
    dsimp only [Option.getD_some]
    cases legalAttrs H (isSheet s.name.2) as s.attrs f with
    | error e => rfl
    | ok x =>
      obtain ⟨as', g⟩ := x
      show _ = thenE (restXsl g.fc as') _
      unfold thenE
      dsimp only
      cases restXsl g.fc as' <;> rfl

/-- The attributes of an XSLT element other than `xsl:stylesheet`. -/
theorem attributes_xsl (H : Hooks N) (hg : Good H) (c0 : Spec.Ctx) (l : UStr) (m : Content Tok) (as : List (UStr × AttrInfo))
    (hl : lookup l elementClasses = some (m, as)) (hs : isSheet l = false) (decls : Nss) (attrs : List (Name × UStr))
    (hcol : attrs.all (fun a => ':'.toNat ∉ a.1.2) = true) (top : Bool) (f : Frame N)
    (hat : f.attrs = []) (hv : f.version = none) (hcur : f.cur = decls ++ c0.cur) (hfc : f.fc = c0.fc) (hext : f.ext = c0.ext) :
    Decides (Spec.attrsOk H (Spec.inside H c0 (.xsl l) decls attrs) top (.xsl l) (some xslNs, l) attrs)
      (attributes H { klass := .xsl l, model := m, token := .xsl l, attrs := some as } top
        { name := (some xslNs, l), decls, attrs := lift attrs } f)
      (Inside H (Spec.inside H c0 (.xsl l) decls attrs) (.xsl l) attrs f) := by
  obtain ⟨r, sas, h1, h2, h3, h4, h5, h6, h7⟩ := entries_ok _ (lookup_mem hl)
  have hss : Spec.isSheet (.xsl l) = false := hs
  have hst : ∀ a, Spec.standard (.xsl l) a attrs = none := by
    intro a
    simp only [Spec.standard, hss, Bool.false_eq_true, if_false]
  have hfc' : (Spec.inside H c0 (.xsl l) decls attrs).fc = f.fc := by
    show (match Spec.version H (.xsl l) attrs with | some n => !H.one n | none => c0.fc) = _
    rw [Spec.version, hst, hfc]
  have hext' : (Spec.inside H c0 (.xsl l) decls attrs).ext = f.ext := by
    show (match Spec.standard (.xsl l) (u!! "extension-element-prefixes") attrs with
      | some v => _ | none => c0.ext) = _
    rw [hst, hext]
  have hcur' : (Spec.inside H c0 (.xsl l) decls attrs).cur = f.cur := hcur.symm
  have hb : Spec.attrsOk H (Spec.inside H c0 (.xsl l) decls attrs) top (.xsl l) (some xslNs, l) attrs =
      (Spec.declared H f.cur (as.map attrOf) attrs && ((without (as.map Prod.fst) attrs).all (fun a => a.1.1.isSome || f.fc) &&
        (!(l = u!! "import" || l = u!! "include") || (lookup (none, u!! "href") attrs).all H.combine))) := by
    dsimp only at h1 h4
    simp only [Spec.attrsOk, h1]
    rw [hss, hcur', hfc', rest_filter as attrs f.fc hcol, ← declared_filter H f.cur as attrs h7 hcol, ← h4]
    simp only [find_eq, Bool.not_false, Bool.true_or, Bool.and_true, Bool.and_assoc]
  rw [hb]
  rw [attributes_eq H _ (.inl ⟨l, rfl⟩)]
  dsimp only
  rw [hs]
  refine Decides.bind (legal_plain H as attrs f h5 (fun x hx nss => prepareDefault_ok H hg.dot nss x.2 (h6 x hx))) ?_
  rintro hdec ⟨as', g⟩ ⟨hr, hk⟩
  dsimp only at hr hk ⊢
  subst hr
  rw [show f.fc = g.fc from hk.fc.symm]
  refine Decides.bind (restXsl_spec g.fc _) fun _ _ _ => ?_
  have hin : Inside H (Spec.inside H c0 (.xsl l) decls attrs) (.xsl l) attrs f g := by
    refine ⟨hk.same, hk.fc.trans hfc'.symm, hk.ext.trans hext'.symm, ?_, ?_⟩
    · rw [hk.version, hv, Spec.version, hst]
    · intro hvar
      have hl' : lookup l elementClasses = some variable_ := by
        rcases hvar with h | h <;> (cases h; rfl)
      rw [hl] at hl'
      have has : as = variable_.2 := congrArg Prod.snd (Option.some.inj hl')
      obtain ⟨v, hvl⟩ := present (n := u!! "name") (i := { type := .qname, required := true }) hdec (by rw [has]; decide) rfl
      obtain ⟨a, ha1, ha2⟩ := hk.vals (u!! "name") (by rw [hat]; rfl) { type := .qname, required := true } (by rw [has]; decide) v hvl
      rw [qname_name H ha1] at ha2
      refine ⟨_, ?_, ha2⟩
      rw [Spec.binds, if_pos hvar, find_eq, hvl]
      dsimp only
      generalize splitQName v = q
      obtain ⟨_ | p, l⟩ := q <;> rfl
  unfold finish
  by_cases hi : l = u!! "import" ∨ l = u!! "include"
  · rw [if_pos hi]
    have hl' : lookup l elementClasses = some combining := by
      rcases hi with h | h <;> (subst h; rfl)
    rw [hl] at hl'
    have has : as = combining.2 := congrArg Prod.snd (Option.some.inj hl')
    obtain ⟨v, hvl⟩ := present (n := u!! "href") (i := { type := .uri, required := true }) hdec (by rw [has]; decide) rfl
    obtain ⟨a, ha1, ha2⟩ := hk.vals (u!! "href") (by rw [hat]; rfl) { type := .uri, required := true } (by rw [has]; decide) v hvl
    cases ha1
    rw [ha2, hvl]
    have : (decide (l = u!! "import") || decide (l = u!! "include")) = true := by simpa using hi
    rw [this]
    simp only [Bool.not_true, Bool.false_or, Option.all_some]
    cases hc : H.combine v with
    | true => exact .inl ⟨rfl, g, rfl, hin⟩
    | false => exact .inr ⟨rfl, _, rfl⟩
  · rw [if_neg hi]
    refine .inl ⟨?_, g, rfl, hin⟩
    have : (decide (l = u!! "import") || decide (l = u!! "include")) = false := by simpa using hi
    rw [this]; rfl

/-- The attributes of `xsl:stylesheet`. -/
theorem attributes_sheet (H : Hooks N) (c0 : Spec.Ctx) (l : UStr) (hs : isSheet l = true) (decls : Nss)
    (attrs : List (Name × UStr)) (hcol : attrs.all (fun a => ':'.toNat ∉ a.1.2) = true) (top : Bool) (f : Frame N)
    (hv : f.version = none) (hcur : f.cur = decls ++ c0.cur) (hfc : f.fc = c0.fc) (hext : f.ext = c0.ext) :
    Decides (Spec.attrsOk H (Spec.inside H c0 (.xsl l) decls attrs) top (.xsl l) (some xslNs, l) attrs)
      (attributes H { klass := .xsl l, model := transform.1, token := .xsl l, attrs := some transform.2 } top
        { name := (some xslNs, l), decls, attrs := lift attrs } f)
      (Inside H (Spec.inside H c0 (.xsl l) decls attrs) (.xsl l) attrs f) := by
  have hss : Spec.isSheet (.xsl l) = true := hs
  have hl : l = u!! "stylesheet" ∨ l = u!! "transform" := by simpa [isSheet] using hs
  have hel : Spec.find l Spec.elements = some (.topLevel, (transform.2.filter plainName).map attrOf) := by
    rcases hl with rfl | rfl <;> decide +kernel
  have hst : ∀ a, Spec.standard (.xsl l) a attrs = lookup (none, a) attrs := by
    intro a
    simp only [Spec.standard, hss, if_true, find_eq]
  have hnot : ¬ (l = u!! "import" ∨ l = u!! "include") := by rcases hl with rfl | rfl <;> decide
  have hvar : ¬ (Klass.xsl l = .xsl (u!! "variable") ∨ Klass.xsl l = .xsl (u!! "param")) := by
    rcases hl with rfl | rfl <;> decide
  have hcur' : (Spec.inside H c0 (.xsl l) decls attrs).cur = f.cur := hcur.symm
  have hb : Spec.attrsOk H (Spec.inside H c0 (.xsl l) decls attrs) top (.xsl l) (some xslNs, l) attrs =
      ((Spec.declared H f.cur (transform.2.map attrOf) attrs && (bound H f.cur ext_ attrs && bound H f.cur excl_ attrs)) &&
        ((without (transform.2.map Prod.fst) attrs).all (fun a => a.1.1.isSome || (Spec.inside H c0 (.xsl l) decls attrs).fc) &&
          true)) := by
    simp only [Spec.attrsOk, hel]
    rw [hss, hcur', rest_filter transform.2 attrs _ hcol, ← declared_filter H f.cur transform.2 attrs (by decide) hcol]
    have : (decide (l = u!! "import") || decide (l = u!! "include")) = false := by simpa using hnot
    rw [this]
    simp only [find_eq, Bool.not_false, Bool.not_true, Bool.true_or, Bool.false_or, Bool.and_true, bound]
    show (_ && _ && ((lookup (none, ext_) attrs).all _ && (lookup (none, excl_) attrs).all _)) = _
    ac_rfl
  rw [hb, attributes_eq H _ (.inl ⟨l, rfl⟩)]
  dsimp only
  rw [hs]
  refine Decides.bind (sheet_attrs H attrs f) ?_
  rintro hdec ⟨as', g⟩ ⟨hr, hsame, hset⟩
  dsimp only at hr hsame hset ⊢
  subst hr
  have hin : Inside H (Spec.inside H c0 (.xsl l) decls attrs) (.xsl l) attrs f g :=
    inside_of_sets H hv hcur hfc hext (hst _) (hst _) hvar hsame hset
  rw [← hin.fc]
  refine Decides.bind (restXsl_spec g.fc _) fun _ _ _ => ?_
  rw [finish, if_neg hnot]
  exact .inl ⟨rfl, g, rfl, hin⟩

theorem lookup_without (names : List UStr) (attrs : List (Name × UStr)) (a : UStr) :
    lookup (some xslNs, a) (without names attrs) = lookup (some xslNs, a) attrs := by
  induction attrs with
  | nil => rfl
  | cons x attrs ih =>
    obtain ⟨⟨ns, l⟩, v⟩ := x
    unfold without at ih ⊢
    by_cases h : (ns.isSome || decide (l ∉ names)) = true
    · rw [List.filter_cons_of_pos (by exact h), lookup, lookup, ih]
    · rw [List.filter_cons_of_neg (by exact h), lookup, ih, if_neg]
      rintro ⟨⟩
      simp at h

theorem without_xslAttrs (H : Hooks N) (nss : Nss) (names : List UStr) (attrs : List (Name × UStr)) :
    Spec.xslAttrs H nss (without names attrs) = Spec.xslAttrs H nss attrs := by
  unfold Spec.xslAttrs without
  rw [List.all_filter]
  congr 1
  funext x
  obtain ⟨⟨ns, l⟩, v⟩ := x
  cases ns <;> simp

theorem without_all (names : List UStr) (attrs : List (Name × UStr)) :
    (without names attrs).all (fun a => !true || a.1.1.isSome) = attrs.all (fun a => a.1.1.isSome || decide (a.1.2 ∈ names)) := by
  unfold without
  rw [List.all_filter]
  congr 1
  funext x
  obtain ⟨⟨ns, l⟩, v⟩ := x
  cases ns <;> simp

/-- The attributes of an element of any class. -/
theorem attributes_spec (H : Hooks N) (hg : Good H) (c0 : Spec.Ctx) {k : Klass} {name : Name} {c : Class} (hc : ClassOf H k name c)
    (decls : Nss) (attrs : List (Name × UStr)) (hn : (attrs.map Prod.fst).Nodup)
    (hcol : attrs.all (fun a => ':'.toNat ∉ a.1.2) = true) (top : Bool) (f : Frame N)
    (hat : f.attrs = []) (hv : f.version = none) (hcur : f.cur = decls ++ c0.cur) (hfc : f.fc = c0.fc) (hext : f.ext = c0.ext) :
    Decides (Spec.attrsOk H (Spec.inside H c0 k decls attrs) top k name attrs)
      (attributes H c top { name, decls, attrs := lift attrs } f) (Inside H (Spec.inside H c0 k decls attrs) k attrs f) := by
  cases hc with
  | xsl l m as hl =>
    cases hs : isSheet l with
    | false => exact attributes_xsl H hg c0 l m as hl hs decls attrs hcol top f hat hv hcur hfc hext
    | true =>
      have hl' : lookup l elementClasses = some transform := by
        have : l = u!! "stylesheet" ∨ l = u!! "transform" := by simpa [isSheet] using hs
        rcases this with rfl | rfl <;> rfl
      rw [hl] at hl'
      cases hl'
      exact attributes_sheet H c0 l hs decls attrs hcol top f hv hcur hfc hext
  | undefinedXslt l hl =>
    have hns : isSheet l = false := by
      cases hs : isSheet l with
      | false => rfl
      | true =>
        have : l = u!! "stylesheet" ∨ l = u!! "transform" := by simpa [isSheet] using hs
        rcases this with rfl | rfl <;> cases hl
    have hnot : ¬ (l = u!! "import" ∨ l = u!! "include") := by
      rintro (rfl | rfl) <;> cases hl
    have hst : ∀ a, Spec.standard .undefinedXslt a attrs = none := fun _ => rfl
    have hin : Inside H (Spec.inside H c0 .undefinedXslt decls attrs) .undefinedXslt attrs f f :=
      inside_of_sets H hv hcur hfc hext (hst _) (hst _) (by simp) (.refl f) (.none H f)
    rw [undefinedXslt, attributes_eq H _ (.inr rfl)]
    dsimp only
    rw [hns]
    have hb : Spec.attrsOk H (Spec.inside H c0 .undefinedXslt decls attrs) top .undefinedXslt (some xslNs, l) attrs
        = (attrs.all (fun a => a.1.1.isSome || f.fc) && true) := by
      rw [Bool.and_true, hin.fc]; rfl
    rw [hb]
    show Decides _ (thenE (restXsl f.fc (lift attrs)) (fun _ => finish H l f)) _
    refine Decides.bind (restXsl_spec f.fc _) fun _ _ _ => ?_
    rw [finish, if_neg hnot]
    exact .inl ⟨rfl, f, rfl, hin⟩
  | ext n x as he =>
    have hst : ∀ a, Spec.standard (.ext name) a attrs = lookup (some xslNs, a) attrs := fun a => find_eq _ _
    have hcur' : (Spec.inside H c0 (.ext name) decls attrs).cur = f.cur := hcur.symm
    cases as with
    | none =>
      have hb : Spec.attrsOk H (Spec.inside H c0 (.ext name) decls attrs) top (.ext name) name attrs
          = (attrs.all (fun a => !false || a.1.1.isSome) && Spec.xslAttrs H f.cur attrs) := by
        simp only [Spec.attrsOk, he, hcur']
        simp
      rw [hb]
      exact (restExt_spec H false attrs hn f).mono fun f' hf =>
        inside_of_sets H hv hcur hfc hext (hst _) (hst _) (by simp) hf.1 hf.2
    | some as =>
      have hb : Spec.attrsOk H (Spec.inside H c0 (.ext name) decls attrs) top (.ext name) name attrs
          = (Spec.declared H f.cur (as.map attrOf) attrs && ((without (as.map Prod.fst) attrs).all (fun a => !true || a.1.1.isSome)
            && Spec.xslAttrs H f.cur (without (as.map Prod.fst) attrs))) := by
        simp only [Spec.attrsOk, he, hcur']
        rw [without_xslAttrs, without_all]
        simp only [Bool.and_assoc]
        rfl
      obtain ⟨hnd, hpl⟩ := hg.ext _ _ _ he
      have ha : attributes H { klass := .ext name, model := x.model, token := .result, attrs := some as } top
          { name, decls, attrs := lift attrs } f = thenE (legalAttrs H false as (lift attrs) f) (fun x => restExt H true x.1 x.2) := by
        unfold attributes
        dsimp only
        cases legalAttrs H false as (lift attrs) f <;> rfl
      rw [hb, ha]
      refine Decides.bind (legal_plain H as attrs f hnd (fun x hx nss => prepareDefault_ok H hg.dot nss x.2 (hpl x hx))) ?_
      rintro hdec ⟨as', g⟩ ⟨hr, hk⟩
      dsimp only at hr hk ⊢
      subst hr
      rw [show f.cur = g.cur from hk.same.cur.symm]
      refine (restExt_spec H true _ ?_ g).mono fun f' hf => ?_
      · exact List.Sublist.nodup (List.Sublist.map _ List.filter_sublist) hn
      · have h := inside_of_sets H (c0 := c0) (k := .ext name) (decls := decls) (attrs := attrs) (hk.version.trans hv)
          (hk.same.cur.trans hcur) (hk.fc.trans hfc) (hk.ext.trans hext) (hst _) (hst _) (by simp) hf.1
          (by simpa only [lookup_without] using hf.2)
        exact ⟨hk.same.trans hf.1, h.fc, h.ext, h.version, by simp⟩
  | undefinedExt =>
    have hst : ∀ a, Spec.standard .undefinedExt a attrs = lookup (some xslNs, a) attrs := fun a => find_eq _ _
    have hb : Spec.attrsOk H (Spec.inside H c0 .undefinedExt decls attrs) top .undefinedExt name attrs
        = (attrs.all (fun a => !false || a.1.1.isSome) && Spec.xslAttrs H f.cur attrs) := by
      simp only [Spec.attrsOk, hcur]
      simp [Spec.inside]
    rw [hb]
    exact (restExt_spec H false attrs hn f).mono fun f' hf =>
      inside_of_sets H hv hcur hfc hext (hst _) (hst _) (by simp) hf.1 hf.2
  | literal =>
    have hst : ∀ a, Spec.standard .literal a attrs = lookup (some xslNs, a) attrs := fun a => find_eq _ _
    have hcur' : (Spec.inside H c0 .literal decls attrs).cur = f.cur := hcur.symm
    have ha : attributes H literal top { name, decls, attrs := lift attrs } f = thenE (restLiteral H (lift attrs) f)
        (fun g => if top && name.1.isNone && !g.fc then .error .illegalChild else .ok g) := by
      unfold attributes literal
      dsimp only
      cases restLiteral H (lift attrs) f <;> rfl
    have hb : Spec.attrsOk H (Spec.inside H c0 .literal decls attrs) top .literal name attrs
        = ((Spec.xslAttrs H f.cur attrs && attrs.all (fun a => a.1.1 = some xslNs || Spec.valid H f.cur (.avt .string) a.2)) &&
          (!top || name.1.isSome || (Spec.inside H c0 .literal decls attrs).fc)) := by
      simp only [Spec.attrsOk, hcur']
    rw [hb, ha]
    refine Decides.bind (restLiteral_spec H attrs hn f) fun _ g hgs => ?_
    have hin : Inside H (Spec.inside H c0 .literal decls attrs) .literal attrs f g :=
      inside_of_sets H hv hcur hfc hext (hst _) (hst _) (by simp) hgs.1 hgs.2
    rw [← hin.fc]
    by_cases h : (top && name.1.isNone && !g.fc) = true
    · rw [if_pos h]
      refine .inr ⟨?_, _, rfl⟩
      simp only [Bool.and_eq_true] at h
      obtain ⟨⟨h1, h2⟩, h3⟩ := h
      rw [h1]
      rw [Option.isNone_iff_eq_none] at h2
      rw [h2]
      simpa using h3
    · rw [if_neg h]
      refine .inl ⟨?_, g, rfl, hin⟩
      cases ht : top <;> cases hm : name.1 <;> cases hf : g.fc <;> simp_all

end Verif.Xslt.Rd
