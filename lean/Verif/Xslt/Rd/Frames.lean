import Verif.Xslt.Rd.Attrs
/-
What the attributes of an element do to its frame.
-/
namespace Verif.Xslt.Rd
open Verif.Content
open Verif.Write (UStr)
open Verif.Names (isQName splitQName)

variable {N : Type}

/-- The attributes of a document as the reader gets them. -/
def lift (attrs : List (Name × UStr)) : List (Name × AVal N) := attrs.map (fun a => (a.1, .str a.2))

theorem lookup_lift (k : Name) (attrs : List (Name × UStr)) :
    lookup k (lift attrs : List (Name × AVal N)) = (lookup k attrs).map .str := by
  induction attrs with
  | nil => rfl
  | cons a as ih =>
    obtain ⟨n, v⟩ := a
    show (if n = k then _ else _) = _
    rw [lookup]
    split
    · rfl
    · exact ih

theorem filter_lift (k : Name) (attrs : List (Name × UStr)) :
    (lift attrs : List (Name × AVal N)).filter (fun x => x.1 ≠ k) = lift (attrs.filter (fun x => x.1 ≠ k)) := by
  unfold lift
  rw [List.filter_map]
  rfl

theorem lookup_filter {k a : Name} (h : k ≠ a) (attrs : List (Name × UStr)) :
    lookup k (attrs.filter (fun x => x.1 ≠ a)) = lookup k attrs := by
  induction attrs with
  | nil => rfl
  | cons x as ih =>
    obtain ⟨n, v⟩ := x
    by_cases hn : n = a
    · rw [List.filter_cons_of_neg (by simp [hn]), ih, lookup, if_neg (fun e => h (e.symm.trans hn))]
    · rw [List.filter_cons_of_pos (by simpa using hn), lookup, lookup, ih]

/-- The fields of a frame that attributes do not touch. -/
structure Same (f f' : Frame N) : Prop where
  node : f'.node = f.node
  klass : f'.klass = f.klass
  name : f'.name = f.name
  kids : f'.kids = f.kids
  val : f'.val = f.val
  locals : f'.locals = f.locals
  cur : f'.cur = f.cur

theorem Same.refl (f : Frame N) : Same f f := ⟨rfl, rfl, rfl, rfl, rfl, rfl, rfl⟩
theorem Same.trans {f g h : Frame N} (a : Same f g) (b : Same g h) : Same f h :=
  ⟨b.1.trans a.1, b.2.trans a.2, b.3.trans a.3, b.4.trans a.4, b.5.trans a.5, b.6.trans a.6, b.7.trans a.7⟩

/-- What an element declares for itself: the version and the namespaces of extensions. -/
structure Sets (H : Hooks N) (ver : Option UStr) (pre : Option UStr) (f f' : Frame N) : Prop where
  fc : f'.fc = match ver.bind H.float with
    | some n => !H.one n
    | none => f.fc
  version : f'.version = match ver.bind H.float with
    | some n => some n
    | none => f.version
  ext : f'.ext = match pre with
    | some v => (H.words v).filterMap (fun w => Spec.find (Spec.prefixOf w) f.cur) ++ f.ext
    | none => f.ext

theorem prefixes_ok (H : Hooks N) (nss : Nss) (v : UStr) :
    (Spec.valid H nss .prefixes v = true ∧ prepareStr H nss .prefixes v = .ok (.prefixes ((H.words v).map Spec.prefixOf))) ∨
    (Spec.valid H nss .prefixes v = false ∧ ∃ e, prepareStr H nss .prefixes v = .error e) := by
  cases hv : Spec.valid H nss .prefixes v with
  | true =>
    left
    refine ⟨rfl, ?_⟩
    have hv : (H.words v).all Spec.isPrefix = true := hv
    obtain ⟨l, hl⟩ := (prepareAll_ok preparePrefix_ok _).2 hv
    rw [prepareStr, hl]
    rw [prepareAll_eq (fun w a h => preparePrefix_eq h) hl]
  | false =>
    right
    refine ⟨rfl, ?_⟩
    cases h : prepareStr H nss .prefixes v with
    | error e => exact ⟨e, rfl⟩
    | ok a => 
      have := (prepareStr_ok H nss .prefixes v).1 ⟨a, h⟩
      rw [hv] at this; cases this

theorem uris_ok (H : Hooks N) (nss : Nss) (v : UStr) :
    (Spec.prefixesBound H nss v = true ∧ prefixUris nss ((H.words v).map Spec.prefixOf)
      = .ok ((H.words v).filterMap (fun w => Spec.find (Spec.prefixOf w) nss))) ∨
    (Spec.prefixesBound H nss v = false ∧ ∃ e, prefixUris nss ((H.words v).map Spec.prefixOf) = .error e) := by
  have hb : Spec.prefixesBound H nss v = true ↔ IsOk (prefixUris nss ((H.words v).map Spec.prefixOf)) := by
    rw [prefixUris_ok, List.all_map]
    unfold Spec.prefixesBound
    simp only [find_eq]
    rfl
  cases hu : prefixUris nss ((H.words v).map Spec.prefixOf) with
  | error e =>
    right
    refine ⟨?_, e, rfl⟩
    rw [hu] at hb
    cases h : Spec.prefixesBound H nss v with
    | false => rfl
    | true => exact absurd (hb.1 h) (by simp)
  | ok us =>
    left
    refine ⟨hb.2 ⟨us, hu⟩, ?_⟩
    rw [prefixUris_eq hu, List.filterMap_map]
    simp only [find_eq]
    rfl

def ext_ : UStr := u!! "extension-element-prefixes"
def excl_ : UStr := u!! "exclude-result-prefixes"
def ver_ : UStr := u!! "version"

/-- The three standard attributes, when they are there. -/
theorem std_ext (H : Hooks N) (f : Frame N) (v : UStr) :
    (Spec.prefixesBound H f.cur v = true ∧ standardAttr H f ext_ (.prefixes ((H.words v).map Spec.prefixOf))
      = .ok { f with ext := (H.words v).filterMap (fun w => Spec.find (Spec.prefixOf w) f.cur) ++ f.ext }) ∨
    (Spec.prefixesBound H f.cur v = false ∧
      ∃ e, standardAttr H f ext_ (.prefixes ((H.words v).map Spec.prefixOf)) = .error e) := by
  rcases uris_ok H f.cur v with ⟨h1, h2⟩ | ⟨h1, e, h2⟩
  · left; exact ⟨h1, by simp [standardAttr, ext_, h2]⟩
  · right; exact ⟨h1, e, by simp [standardAttr, ext_, h2]⟩

theorem std_excl (H : Hooks N) (f : Frame N) (v : UStr) :
    (Spec.prefixesBound H f.cur v = true ∧ standardAttr H f excl_ (.prefixes ((H.words v).map Spec.prefixOf)) = .ok f) ∨
    (Spec.prefixesBound H f.cur v = false ∧
      ∃ e, standardAttr H f excl_ (.prefixes ((H.words v).map Spec.prefixOf)) = .error e) := by
  rcases uris_ok H f.cur v with ⟨h1, h2⟩ | ⟨h1, e, h2⟩
  · left; exact ⟨h1, by simp [standardAttr, excl_, h2]⟩
  · right; exact ⟨h1, e, by simp [standardAttr, excl_, h2]⟩

theorem std_ver (H : Hooks N) (f : Frame N) (n : N) :
    standardAttr H f ver_ (.number n) = .ok { f with fc := !H.one n, version := some n } := by
  simp [standardAttr, ver_]

theorem std_other (H : Hooks N) (f : Frame N) (a : UStr) (v : Value N) (h1 : a ≠ ext_) (h2 : a ≠ excl_) (h3 : a ≠ ver_) :
    standardAttr H f a v = .ok { f with attrs := f.attrs ++ [(a, v)] } := by
  unfold ext_ at h1; unfold excl_ at h2; unfold ver_ at h3
  unfold standardAttr; rw [if_neg h1, if_neg h2, if_neg h3]

theorem lookup_result (a : UStr) : (a = excl_ ∧ lookup a resultAttrs = some { type := .prefixes }) ∨
    (a = ext_ ∧ lookup a resultAttrs = some { type := .prefixes }) ∨
    (a = u!! "use-attribute-sets" ∧ lookup a resultAttrs = some { type := .qnames }) ∨
    (a = ver_ ∧ lookup a resultAttrs = some { type := .number }) ∨
    (a ≠ excl_ ∧ a ≠ ext_ ∧ a ≠ u!! "use-attribute-sets" ∧ a ≠ ver_ ∧ lookup a resultAttrs = none) := by
  by_cases h1 : a = excl_
  · left; subst h1; exact ⟨rfl, rfl⟩
  · by_cases h2 : a = ext_
    · right; left; subst h2; exact ⟨rfl, rfl⟩
    · by_cases h3 : a = u!! "use-attribute-sets"
      · right; right; left; subst h3; exact ⟨rfl, rfl⟩
      · by_cases h4 : a = ver_
        · right; right; right; left; subst h4; exact ⟨rfl, rfl⟩
        · right; right; right; right
          refine ⟨h1, h2, h3, h4, ?_⟩
          unfold resultAttrs
          rw [lookup, if_neg (fun e => h1 e.symm), lookup, if_neg (fun e => h2 e.symm), lookup,
            if_neg (fun e => h3 e.symm), lookup, if_neg (fun e => h4 e.symm), lookup]

/-- An attribute of the XSLT namespace on another element. -/
theorem resultAttr_spec (H : Hooks N) (f : Frame N) (a v : UStr) :
    (Spec.xslAttr H f.cur a v = true ∧ ∃ f', resultAttr H f a (.str v) = .ok f' ∧ Same f f' ∧
      Sets H (if a = ver_ then some v else none) (if a = ext_ then some v else none) f f') ∨
    (Spec.xslAttr H f.cur a v = false ∧ ∃ e, resultAttr H f a (.str v) = .error e) := by
  unfold resultAttr
  rcases lookup_result a with ⟨rfl, h⟩ | ⟨rfl, h⟩ | ⟨rfl, h⟩ | ⟨rfl, h⟩ | ⟨h1, h2, h3, h4, h⟩
  · rw [h]
    simp only [prepare]
    have hx : Spec.xslAttr H f.cur excl_ v = (Spec.valid H f.cur .prefixes v && Spec.prefixesBound H f.cur v) := by
      simp [Spec.xslAttr, excl_, Spec.valid]
    rw [hx]
    rcases prefixes_ok H f.cur v with ⟨h1, h2⟩ | ⟨h1, e, h2⟩
    · rw [h1, h2]
      rcases std_excl H f v with ⟨h3, h4⟩ | ⟨h3, e, h4⟩
      · left
        exact ⟨by rw [h3]; rfl, f, h4, .refl f, ⟨rfl, rfl, rfl⟩⟩
      · right
        exact ⟨by rw [h3]; rfl, e, h4⟩
    · right
      rw [h1, h2]
      exact ⟨rfl, e, rfl⟩
  · rw [h]
    simp only [prepare]
    have hx : Spec.xslAttr H f.cur ext_ v = (Spec.valid H f.cur .prefixes v && Spec.prefixesBound H f.cur v) := by
      simp [Spec.xslAttr, ext_, Spec.valid]
    rw [hx]
    rcases prefixes_ok H f.cur v with ⟨h1, h2⟩ | ⟨h1, e, h2⟩
    · rw [h1, h2]
      rcases std_ext H f v with ⟨h3, h4⟩ | ⟨h3, e, h4⟩
      · left
        exact ⟨by rw [h3]; rfl, _, h4, ⟨rfl, rfl, rfl, rfl, rfl, rfl, rfl⟩, ⟨rfl, rfl, rfl⟩⟩
      · right
        exact ⟨by rw [h3]; rfl, e, h4⟩
    · right
      rw [h1, h2]
      exact ⟨rfl, e, rfl⟩
  · rw [h]
    simp only [prepare]
    have hx : Spec.xslAttr H f.cur (u!! "use-attribute-sets") v = Spec.valid H f.cur .qnames v := by
      simp [Spec.xslAttr, Spec.valid]
    rw [hx]
    cases hp : prepareStr H f.cur .qnames v with
    | ok a =>
      left
      refine ⟨(prepareStr_ok H f.cur .qnames v).1 ⟨a, hp⟩, _, std_other H f _ a (by decide) (by decide) (by decide),
        ⟨rfl, rfl, rfl, rfl, rfl, rfl, rfl⟩, ⟨rfl, rfl, rfl⟩⟩
    | error e =>
      right
      refine ⟨?_, e, rfl⟩
      have := (prepareStr_ok H f.cur .qnames v).2
      rw [hp] at this
      cases hv : Spec.valid H f.cur .qnames v with
      | false => rfl
      | true => exact absurd (this hv) (by simp)
  · rw [h]
    simp only [prepare]
    have hx : Spec.xslAttr H f.cur ver_ v = (H.float v).isSome := by
      simp [Spec.xslAttr, ver_]
    rw [hx, prepareStr]
    cases hf : H.float v with
    | none => right; exact ⟨rfl, _, rfl⟩
    | some n =>
      left
      refine ⟨rfl, _, std_ver H f n, ⟨rfl, rfl, rfl, rfl, rfl, rfl, rfl⟩, ⟨?_, ?_, rfl⟩⟩
      · simp [hf]
      · simp [hf]
  · right
    rw [h]
    refine ⟨?_, _, rfl⟩
    unfold excl_ at h1; unfold ext_ at h2; unfold ver_ at h4
    unfold Spec.xslAttr
    rw [if_neg h4, if_neg h3, if_neg]
    simpa using ⟨h2, h1⟩

/-- Two steps, at most one of which sets something. -/
theorem Sets.append {H : Hooks N} {v1 v2 p1 p2 : Option UStr} {f g h : Frame N} (hs : Same f g) (a : Sets H v1 p1 f g)
    (b : Sets H v2 p2 g h) (hv : v1 = none ∨ v2 = none) (hp : p1 = none ∨ p2 = none) :
    Sets H (v1.or v2) (p1.or p2) f h := by
  refine ⟨?_, ?_, ?_⟩
  · rcases hv with rfl | rfl
    · simpa [b.fc] using a.fc ▸ rfl
    · have h2 : h.fc = g.fc := b.fc
      simpa [h2] using a.fc
  · rcases hv with rfl | rfl
    · have h1 : g.version = f.version := a.version
      simpa [h1] using b.version
    · have h2 : h.version = g.version := b.version
      simpa [h2] using a.version
  · rcases hp with rfl | rfl
    · have h1 : g.ext = f.ext := a.ext
      simpa [h1, hs.cur] using b.ext
    · have h2 : h.ext = g.ext := b.ext
      simpa [h2] using a.ext

end Verif.Xslt.Rd
