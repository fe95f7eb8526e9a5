import Verif.Xslt.Rd.Frames
/-
The loops over the attributes of an element decide what the specification says of them.
-/
namespace Verif.Xslt.Rd
open Verif.Content
open Verif.Write (UStr)

variable {N : Type}

/-- A computation decides `b`, and what it gives has the property `P`. -/
def Decides {α ε : Type} (b : Bool) (x : Except ε α) (P : α → Prop) : Prop :=
  (b = true ∧ ∃ a, x = .ok a ∧ P a) ∨ (b = false ∧ ∃ e, x = .error e)

theorem Decides.mono {α ε : Type} {b : Bool} {x : Except ε α} {P Q : α → Prop} (h : Decides b x P) (hp : ∀ a, P a → Q a) :
    Decides b x Q := by
  rcases h with ⟨h1, a, h2, h3⟩ | h
  · exact .inl ⟨h1, a, h2, hp a h3⟩
  · exact .inr h

theorem Decides.congr {α ε : Type} {b b' : Bool} {x : Except ε α} {P : α → Prop} (h : Decides b x P) (e : b' = b) :
    Decides b' x P := e ▸ h

theorem sets_cons {H : Hooks N} {attrs : List (Name × UStr)} {a : Name} {v : UStr} {f g h : Frame N}
    (hn : a ∉ attrs.map Prod.fst) (hs : Same f g)
    (h1 : Sets H (if a = (some xslNs, ver_) then some v else none) (if a = (some xslNs, ext_) then some v else none) f g)
    (h2 : Sets H (lookup (some xslNs, ver_) attrs) (lookup (some xslNs, ext_) attrs) g h) :
    Sets H (lookup (some xslNs, ver_) ((a, v) :: attrs)) (lookup (some xslNs, ext_) ((a, v) :: attrs)) f h := by
  have hno : ∀ (k : Name), k ∉ attrs.map Prod.fst → lookup k attrs = none := by
    intro k hk
    clear h1 h2 hn
    induction attrs with
    | nil => rfl
    | cons x xs ih =>
      obtain ⟨n, w⟩ := x
      simp only [List.map_cons, List.mem_cons, not_or] at hk
      rw [lookup, if_neg (fun e => hk.1 e.symm)]
      exact ih hk.2
  have hl : ∀ k : Name, lookup k ((a, v) :: attrs) = (if a = k then some v else none).or (lookup k attrs) := by
    intro k
    rw [lookup]
    split <;> rfl
  rw [hl, hl]
  refine Sets.append hs h1 h2 ?_ ?_
  · by_cases e : a = (some xslNs, ver_)
    · subst e; exact .inr (hno _ hn)
    · exact .inl (if_neg e)
  · by_cases e : a = (some xslNs, ext_)
    · subst e; exact .inr (hno _ hn)
    · exact .inl (if_neg e)

theorem Sets.none (H : Hooks N) (f : Frame N) : Sets H none none f f := ⟨rfl, rfl, rfl⟩

/-- The attributes that are left on an extension element. -/
theorem restExt_spec (H : Hooks N) (validate : Bool) (attrs : List (Name × UStr)) (hn : (attrs.map Prod.fst).Nodup) (f : Frame N) :
    Decides (attrs.all (fun a => !validate || a.1.1.isSome) && Spec.xslAttrs H f.cur attrs) (restExt H validate (lift attrs) f)
      (fun f' => Same f f' ∧ Sets H (lookup (some xslNs, ver_) attrs) (lookup (some xslNs, ext_) attrs) f f') := by
  induction attrs generalizing f with
  | nil => exact .inl ⟨rfl, f, rfl, .refl f, .none H f⟩
  | cons x attrs ih =>
    obtain ⟨⟨ns, l⟩, v⟩ := x
    rw [List.map_cons, List.nodup_cons] at hn
    show Decides _ (if (validate && ns.isNone) = true then _ else _) _
    by_cases hv : (validate && ns.isNone) = true
    · rw [if_pos hv]
      refine .inr ⟨?_, _, rfl⟩
      simp only [Bool.and_eq_true] at hv
      simp [hv.1, Option.isNone_iff_eq_none.1 hv.2]
    · rw [if_neg hv]
      have hv' : (!validate || ns.isSome) = true := by
        cases validate <;> cases ns <;> simp_all
      by_cases hx : ns = some xslNs
      · subst hx
        rw [if_pos rfl]
        rcases resultAttr_spec H f l v with ⟨h1, g, h2, h3, h4⟩ | ⟨h1, e, h2⟩
        · rw [h2]
          refine ((ih hn.2 g).mono fun f' hf => ⟨h3.trans hf.1, sets_cons hn.1 h3 ?_ hf.2⟩).congr ?_
          · simp [Spec.xslAttrs, h1, h3.cur]
          · simpa using h4
        · rw [h2]
          exact .inr ⟨by simp [Spec.xslAttrs, h1], e, rfl⟩
      · rw [if_neg hx]
        refine ((ih hn.2 f).mono fun f' hf => ⟨hf.1, sets_cons hn.1 (.refl f) ?_ hf.2⟩).congr ?_
        · simp [Spec.xslAttrs, hx]
          cases validate <;> cases ns <;> simp_all
        · simpa [hx] using Sets.none H f

/-- The attributes of a literal result element. -/
theorem restLiteral_spec (H : Hooks N) (attrs : List (Name × UStr)) (hn : (attrs.map Prod.fst).Nodup) (f : Frame N) :
    Decides (Spec.xslAttrs H f.cur attrs && attrs.all (fun a => a.1.1 = some xslNs || Spec.valid H f.cur (.avt .string) a.2))
      (restLiteral H (lift attrs) f)
      (fun f' => Same f f' ∧ Sets H (lookup (some xslNs, ver_) attrs) (lookup (some xslNs, ext_) attrs) f f') := by
  induction attrs generalizing f with
  | nil => exact .inl ⟨rfl, f, rfl, .refl f, .none H f⟩
  | cons x attrs ih =>
    obtain ⟨⟨ns, l⟩, v⟩ := x
    rw [List.map_cons, List.nodup_cons] at hn
    show Decides _ (if ns = some xslNs then _ else _) _
    by_cases hx : ns = some xslNs
    · subst hx
      rw [if_pos rfl]
      rcases resultAttr_spec H f l v with ⟨h1, g, h2, h3, h4⟩ | ⟨h1, e, h2⟩
      · rw [h2]
        refine ((ih hn.2 g).mono fun f' hf => ⟨h3.trans hf.1, sets_cons hn.1 h3 ?_ hf.2⟩).congr ?_
        · simp [Spec.xslAttrs, h1, h3.cur]
        · simpa using h4
      · rw [h2]
        exact .inr ⟨by simp [Spec.xslAttrs, h1], e, rfl⟩
    · rw [if_neg hx]
      show Decides _ (match prepareStr H f.cur (.avt .string) v with | .ok _ => _ | .error e => _) _
      have hok := prepareStr_ok H f.cur (.avt .string) v
      cases hp : prepareStr H f.cur (.avt .string) v with
      | ok a =>
        rw [hp] at hok
        have hv := hok.1 ⟨a, rfl⟩
        refine ((ih hn.2 f).mono fun f' hf => ⟨hf.1, sets_cons hn.1 (.refl f) ?_ hf.2⟩).congr ?_
        · simp [Spec.xslAttrs, hx, hv]
        · simpa [hx] using Sets.none H f
      | error e =>
        refine .inr ⟨?_, e, rfl⟩
        rw [hp] at hok
        have hv : Spec.valid H f.cur (.avt .string) v = false := by
          cases hv : Spec.valid H f.cur (.avt .string) v with
          | false => rfl
          | true => exact absurd (hok.2 hv) (by simp)
        simp [hx, hv]

/-- The attributes that are left on an XSLT element. -/
theorem restXsl_spec (fc : Bool) (attrs : List (Name × UStr)) :
    Decides (attrs.all (fun a => a.1.1.isSome || fc)) (restXsl fc (lift attrs : List (Name × AVal N))) (fun _ => True) := by
  induction attrs with
  | nil => exact .inl ⟨rfl, (), rfl, trivial⟩
  | cons x attrs ih =>
    obtain ⟨⟨ns, l⟩, v⟩ := x
    cases ns with
    | none =>
      show Decides _ (if fc = true then _ else _) _
      cases fc with
      | true => exact ih.congr (by simp)
      | false => exact .inr ⟨by simp, _, rfl⟩
    | some u => exact ih.congr (by simp)

/-- An attribute of the class, there or not. -/
def okAttr (H : Hooks N) (nss : Nss) (a : UStr) (i : AttrInfo) (attrs : List (Name × UStr)) : Bool :=
  match lookup (none, a) attrs with
  | some v => Spec.valid H nss i.type v
  | none => !i.required

def attrOf (x : UStr × AttrInfo) : Spec.Attr := (x.1, x.2.type, x.2.required)

theorem declared_eq (H : Hooks N) (nss : Nss) (ls : List (UStr × AttrInfo)) (attrs : List (Name × UStr)) :
    Spec.declared H nss (ls.map attrOf) attrs = ls.all (fun x => okAttr H nss x.1 x.2 attrs) := by
  unfold Spec.declared
  rw [List.all_map]
  congr 1
  funext x
  simp only [Function.comp, find_eq, attrOf, okAttr]
  cases lookup (none, x.1) attrs <;> rfl

/-- One attribute: the value that is kept. -/
theorem step_spec (H : Hooks N) (a : UStr) (i : AttrInfo) (attrs : List (Name × UStr)) (nss : Nss)
    (hd : IsOk (prepareDefault H nss i.type i.default)) :
    Decides (okAttr H nss a i attrs)
      (if (lookup (none, a) (lift attrs : List (Name × AVal N))).isNone && i.required then .error Err.missingAttr
        else prepare H nss i (lookup (none, a) (lift attrs)))
      (fun value => (∀ v, lookup (none, a) attrs = some v → prepareStr H nss i.type v = .ok value) ∧
        (lookup (none, a) attrs = none → prepareDefault H nss i.type i.default = .ok value)) := by
  rw [lookup_lift, okAttr]
  cases hl : lookup (none, a) attrs with
  | none =>
    cases hr : i.required with
    | true => exact .inr ⟨rfl, _, rfl⟩
    | false =>
      obtain ⟨d, hd⟩ := hd
      exact .inl ⟨rfl, d, hd, by simp, fun _ => hd⟩
  | some v =>
    have hok := prepareStr_ok H nss i.type v
    show Decides _ (prepareStr H nss i.type v) _
    cases hp : prepareStr H nss i.type v with
    | ok x =>
      rw [hp] at hok
      exact .inl ⟨hok.1 ⟨x, rfl⟩, x, rfl, fun w hw => by cases hw; exact hp, by simp⟩
    | error e =>
      rw [hp] at hok
      refine .inr ⟨?_, e, rfl⟩
      cases hv : Spec.valid H nss i.type v with
      | false => exact hv
      | true => exact absurd (hok.2 hv) (by simp)

theorem legal_cons (H : Hooks N) (std : Bool) (a : UStr) (i : AttrInfo) (ls : List (UStr × AttrInfo)) (as : List (Name × AVal N))
    (f : Frame N) : legalAttrs H std ((a, i) :: ls) as f =
      (match (if (lookup (none, a) as).isNone && i.required then .error Err.missingAttr
          else prepare H f.cur i (lookup (none, a) as)) with
        | .error e => .error e
        | .ok value => match (if std then standardAttr H f a value else .ok { f with attrs := f.attrs ++ [(a, value)] }) with
          | .error e => .error e
          | .ok f => legalAttrs H std ls (as.filter (fun x => x.1 ≠ (none, a))) f) := by
  rw [legalAttrs]
  split
  · rfl
  · rfl

/-- The attributes that are not among the names. -/
def without (names : List UStr) (attrs : List (Name × UStr)) : List (Name × UStr) :=
  attrs.filter (fun a => a.1.1.isSome || a.1.2 ∉ names)

theorem without_cons (n : UStr) (ns : List UStr) (attrs : List (Name × UStr)) :
    without ns (attrs.filter (fun x => x.1 ≠ (none, n))) = without (n :: ns) attrs := by
  unfold without
  rw [List.filter_filter]
  congr 1
  funext x
  obtain ⟨⟨ns', l⟩, v⟩ := x
  cases ns' with
  | some u => simp
  | none => 
    by_cases h : l = n <;> simp [h]

/-- What is kept of the attributes of an XSLT element or of an extension element. -/
structure Kept (H : Hooks N) (ls : List (UStr × AttrInfo)) (attrs : List (Name × UStr)) (f f' : Frame N) : Prop where
  same : Same f f'
  fc : f'.fc = f.fc
  version : f'.version = f.version
  ext : f'.ext = f.ext
  vals : ∀ n, lookup n f.attrs = none → ∀ i, (n, i) ∈ ls → ∀ v, lookup (none, n) attrs = some v → ∃ a,
    prepareStr H f.cur i.type v = .ok a ∧ lookup n f'.attrs = some a
  old : ∀ n, n ∉ ls.map Prod.fst → lookup n f'.attrs = lookup n f.attrs

theorem lookup_append {K V : Type} [DecidableEq K] (k : K) (l m : List (K × V)) :
    lookup k (l ++ m) = (lookup k l).or (lookup k m) := by
  induction l with
  | nil => rfl
  | cons x l ih =>
    obtain ⟨a, v⟩ := x
    rw [List.cons_append, lookup, lookup]
    split
    · rfl
    · exact ih

theorem legal_plain (H : Hooks N) (ls : List (UStr × AttrInfo)) (attrs : List (Name × UStr)) (f : Frame N)
    (hn : (ls.map Prod.fst).Nodup) (hd : ∀ x ∈ ls, ∀ nss, IsOk (prepareDefault H nss x.2.type x.2.default)) :
    Decides (Spec.declared H f.cur (ls.map attrOf) attrs) (legalAttrs H false ls (lift attrs) f)
      (fun r => r.1 = lift (without (ls.map Prod.fst) attrs) ∧ Kept H ls attrs f r.2) := by
  rw [declared_eq]
  induction ls generalizing attrs f with
  | nil =>
    refine .inl ⟨rfl, _, rfl, ?_, ⟨.refl f, rfl, rfl, rfl, nofun, fun _ _ => rfl⟩⟩
    have : attrs.filter (fun _ => true) = attrs := List.filter_eq_self.2 (by simp)
    simp [without, this]
  | cons x ls ih =>
    obtain ⟨a, i⟩ := x
    rw [List.map_cons, List.nodup_cons] at hn
    rw [legal_cons]
    have hall : ls.all (fun x => okAttr H f.cur x.1 x.2 (attrs.filter (fun x => x.1 ≠ (none, a))))
        = ls.all (fun x => okAttr H f.cur x.1 x.2 attrs) := by
      rw [Bool.eq_iff_iff, List.all_eq_true, List.all_eq_true]
      refine forall_congr' fun x => forall_congr' fun hx => ?_
      have hne : (none, x.1) ≠ ((none, a) : Name) := fun e => hn.1 (by
        cases e; exact List.mem_map.2 ⟨x, hx, rfl⟩)
      rw [okAttr, okAttr, lookup_filter hne]
    rcases step_spec H a i attrs f.cur (hd (a, i) (by simp) f.cur) with ⟨h1, value, h2, h3, h4⟩ | ⟨h1, e, h2⟩
    · rw [h2]
      simp only [Bool.false_eq_true, if_false]
      rw [filter_lift]
      refine ((ih (attrs.filter (fun x => x.1 ≠ (none, a))) { f with attrs := f.attrs ++ [(a, value)] } hn.2
        (fun x hx => hd x (by simp [hx]))).mono ?_).congr ?_
      · rintro ⟨r, g⟩ ⟨hr, hk⟩
        refine ⟨?_, ⟨⟨hk.same.node, hk.same.klass, hk.same.name, hk.same.kids, hk.same.val, hk.same.locals, hk.same.cur⟩,
          hk.fc, hk.version, hk.ext, ?_, ?_⟩⟩
        · rw [hr, without_cons]; rfl
        · intro n hn0 j hj v hv
          rcases List.mem_cons.1 hj with e | hj'
          · cases e
            refine ⟨value, h3 v hv, ?_⟩
            rw [hk.old a hn.1]
            show lookup a (f.attrs ++ [(a, value)]) = _
            rw [lookup_append, hn0]
            simp [lookup]
          · have hne : n ≠ a := fun e => hn.1 (by subst e; exact List.mem_map.2 ⟨(_, j), hj', rfl⟩)
            refine hk.vals n ?_ j hj' v ?_
            · show lookup n (f.attrs ++ [(a, value)]) = _
              rw [lookup_append, hn0]
              simp [lookup, Ne.symm hne]
            · rw [lookup_filter (by simpa using hne)]; exact hv
        · intro n hnn
          simp only [List.map_cons, List.mem_cons, not_or] at hnn
          rw [hk.old n hnn.2]
          show lookup n (f.attrs ++ [(a, value)]) = _
          rw [lookup_append]
          simp [lookup, Ne.symm hnn.1]
      · rw [List.all_cons]
        show (okAttr H f.cur a i attrs && _) = ls.all (fun x => okAttr H f.cur x.1 x.2 _)
        rw [hall, h1]; simp
    · rw [h2]
      exact .inr ⟨by rw [List.all_cons, h1]; rfl, e, rfl⟩

end Verif.Xslt.Rd
