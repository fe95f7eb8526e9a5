import Verif.Iri.Resolver.Model
import Verif.Iri.Props
import Verif.Iri.PercentProps
import Verif.Iri.RelProps
import Verif.Iri.Resolver.Jail
/-
C87: what resolvers open.
-/
namespace Verif.Iri.Resolver
open Verif.Iri Verif.Iri.Spec

/-! ### Specification -/

/-- The documentation of `authorize`: the first rule that matches decides, and it allows the URI. -/
def Granted (rules : List Rule) (uri : Str) : Prop :=
  ∃ before r after, rules = before ++ r :: after ∧ (∀ x ∈ before, x.test uri = false) ∧ r.test uri = true ∧ r.allow = true

/-- The URI begins with the scheme. -/
def HasScheme (uri s : Str) : Prop := IsScheme s ∧ ∃ rest, uri = s ++ ':' :: rest

/-- Opening a URI: for file the local path (see C08), otherwise the URI. -/
inductive Opens : Str → Target → Prop
  | file {uri p} : HasScheme uri (s!! "file") → uriToOsPath uri = .ok p → Opens uri (.file p)
  | url {uri} : ¬ HasScheme uri (s!! "file") → Opens uri (.url uri)

/-- The base URI with leniency. -/
def baseOf (r : Resolver) (b : Str) : Str := if r.lenient ∧ b.head? = some '/' then s!! "file://" ++ b else b

theorem authorize_iff : ∀ (rules : List Rule) (uri : Str), authorize rules uri = true ↔ Granted rules uri
  | [], uri => by simp [authorize, Granted]
  | r :: rs, uri => by
    rw [authorize]
    by_cases h : r.test uri
    · rw [if_pos h]
      constructor
      · intro ha; exact ⟨[], r, rs, rfl, nofun, h, ha⟩
      · rintro ⟨b, r', a, e, h1, h2, h3⟩
        cases b with
        | nil => cases e; exact h3
        | cons x b => cases e; rw [h1 r (.head _)] at h; cases h
    · rw [if_neg h, authorize_iff rs uri]
      constructor
      · rintro ⟨b, r', a, e, h1, h2, h3⟩
        refine ⟨r :: b, r', a, by rw [e]; rfl, fun x hx => ?_, h2, h3⟩
        rcases List.mem_cons.1 hx with rfl | hx
        · simpa using h
        · exact h1 x hx
      · rintro ⟨b, r', a, e, h1, h2, h3⟩
        cases b with
        | nil => cases e; exact absurd h2 h
        | cons x b => cases e; exact ⟨b, r', a, rfl, fun y hy => h1 y (.tail _ hy), h2, h3⟩

theorem hasScheme_iff {uri s : Str} : HasScheme uri s ↔ getScheme uri = some s := getScheme_some.symm

theorem open_iff (r : Resolver) (uri : Str) (t : Target) :
    r.open uri (getScheme uri) = .ok t ↔ (r.rules = [] ∨ Granted r.rules uri) ∧ Opens uri t := by
  unfold Resolver.open
  rw [← authorize_iff]
  by_cases h1 : r.rules ≠ [] ∧ authorize r.rules uri = false
  · rw [if_pos h1]
    constructor
    · intro h; cases h
    · rintro ⟨h | h, _⟩
      · exact absurd h h1.1
      · rw [h] at h1; cases h1.2
  · rw [if_neg h1]
    have hg : r.rules = [] ∨ authorize r.rules uri = true := by
      by_cases e : r.rules = []
      · exact .inl e
      · cases h : authorize r.rules uri with
        | true => exact .inr rfl
        | false => exact absurd ⟨e, h⟩ h1
    by_cases h2 : getScheme uri = some (s!! "file")
    · rw [if_pos h2]
      have hs := hasScheme_iff.2 h2
      cases hp : uriToOsPath uri with
      | ok p =>
        constructor
        · intro h; cases h; exact ⟨hg, .file hs hp⟩
        · rintro ⟨_, h⟩
          cases h with
          | file _ h' => rw [hp] at h'; cases h'; rfl
          | url h' => exact absurd hs h'
      | error e =>
        constructor
        · intro h; cases h
        · rintro ⟨_, h⟩
          cases h with
          | file _ h' => rw [hp] at h'; cases h'
          | url h' => exact absurd hs h'
    · rw [if_neg h2]
      have hs : ¬ HasScheme uri (s!! "file") := fun h => h2 (hasScheme_iff.1 h)
      constructor
      · intro h; cases h; exact ⟨hg, .url hs⟩
      · rintro ⟨_, h⟩
        cases h with
        | file h' _ => exact absurd h' hs
        | url _ => rfl

/-! ### Theorems -/

/-- C87. Without a base URI: a URI is opened exactly if it has a supported scheme and the rules, if there are any, grant
it. -/
theorem C87_resolve_absolute (r : Resolver) (ref : Str) (t : Target) :
    r.resolve ref none = .ok t ↔ (∃ s ∈ r.schemes, HasScheme ref s) ∧ (r.rules = [] ∨ Granted r.rules ref) ∧ Opens ref t := by
  unfold Resolver.resolve Resolver.target
  simp only [hasScheme_iff]
  cases hs : getScheme ref with
  | none => simp
  | some s =>
    dsimp only
    by_cases hm : s ∈ r.schemes
    · rw [if_pos hm]
      dsimp only
      have := open_iff r ref t
      rw [hs] at this
      rw [this]
      constructor
      · intro h; exact ⟨⟨s, hm, rfl⟩, h⟩
      · exact fun h => h.2
    · rw [if_neg hm]
      constructor
      · intro h; cases h
      · rintro ⟨⟨s', h1, h2⟩, _⟩; cases h2; exact absurd h1 hm

/-- C87. With a base URI: what is opened is the reference made absolute (see C03), and the rules, if there are any, grant
that URI. -/
theorem C87_resolve_based (r : Resolver) (ref b : Str) (t : Target) :
    r.resolve ref (some b) = .ok t ↔ ∃ uri, Iri.absolutize ref (baseOf r b) r.schemes = .ok uri ∧ (r.rules = [] ∨ Granted r.rules uri) ∧ Opens uri t := by
  unfold Resolver.resolve Resolver.target Resolver.absolutize
  dsimp only
  have hb : (if r.lenient ∧ b.head? = some '/' then s!! "file://" ++ b else b) = baseOf r b := rfl
  rw [hb]
  cases ha : Iri.absolutize ref (baseOf r b) r.schemes with
  | ok uri =>
    dsimp only
    rw [open_iff]
    constructor
    · intro h; exact ⟨uri, rfl, h⟩
    · rintro ⟨uri', h, h'⟩; cases h; exact h'
  | error e =>
    dsimp only
    constructor
    · intro h; cases h
    · rintro ⟨uri', h, h'⟩; cases h

/-- C87, the jail. If there are rules then whatever is opened, in any sequence of calls, is a URI that the rules grant. -/
theorem C87_granted (r : Resolver) (hr : r.rules ≠ []) (calls : List (Str × Option Str)) :
    ∀ t ∈ calls.filterMap (fun c => (r.resolve c.1 c.2).toOption), ∃ uri, Granted r.rules uri ∧ Opens uri t := by
  intro t ht
  obtain ⟨⟨ref, b⟩, _, hc⟩ := List.mem_filterMap.1 ht
  dsimp only at hc
  have hok : r.resolve ref b = .ok t := by
    cases h : r.resolve ref b with
    | ok x => rw [h] at hc; cases hc; rfl
    | error e => rw [h] at hc; cases hc
  cases b with
  | none =>
    obtain ⟨_, h2, h3⟩ := (C87_resolve_absolute r ref t).1 hok
    exact ⟨ref, h2.resolve_left hr, h3⟩
  | some b =>
    obtain ⟨uri, _, h2, h3⟩ := (C87_resolve_based r ref b t).1 hok
    exact ⟨uri, h2.resolve_left hr, h3⟩

/-- C87. A relative reference is resolved only if the base URI has a supported scheme; the result has that scheme. -/
theorem C87_scheme_partial (r : Resolver) (hs : r.schemes ≠ []) (ref b : Str) (hrel : ∀ s, ¬ HasScheme ref s) (t : Target)
    (h : r.resolve ref (some b) = .ok t) : ∃ s ∈ r.schemes, HasScheme (baseOf r b) s := by
  obtain ⟨uri, h1, _, _⟩ := (C87_resolve_based r ref b t).1 h
  have ha : isAbsolute ref = false := by
    unfold isAbsolute
    cases hg : getScheme ref with
    | none => rfl
    | some s => exact absurd (hasScheme_iff.2 hg) (hrel s)
  unfold Iri.absolutize at h1
  rw [ha] at h1
  simp only [Bool.false_eq_true, if_false] at h1
  by_cases hb : baseOf r b = [] ∨ (!isAbsolute (baseOf r b)) = true
  · rw [if_pos hb] at h1; cases h1
  · rw [if_neg hb] at h1
    by_cases hl : r.schemes ≠ [] ∧ getScheme (baseOf r b) ∉ r.schemes.map some
    · rw [if_pos hl] at h1; cases h1
    · have : getScheme (baseOf r b) ∈ r.schemes.map some := Classical.byContradiction fun h => hl ⟨hs, h⟩
      obtain ⟨s, hm, e⟩ := List.mem_map.1 this
      exact ⟨s, hm, hasScheme_iff.2 e.symm⟩

/-- The rule of a jail: only URIs of files below a directory. -/
def jail (dir : Str) : Rule := ⟨fun uri => (s!! "file://" ++ dir ++ s!! "/").isPrefixOf uri, true⟩

/-- C87, the jail for files. The only rule is that the URI is of a file below a directory. A relative reference against the
URI of a local file without dot segments (and without percent-encoding in either) opens only files below the directory, by
a path without dot segments. -/
theorem C87_jail_partial (r : Resolver) (dir : Str) (hr : r.rules = [jail ('/' :: dir)]) (hd : ∀ c ∈ dir, c ∉ s!! "?#")
    (ref base : Str) (R B : UriRef) (hR : IsParse ref R) (hB : IsParse base B) (nR : '\n' ∉ ref) (nB : '\n' ∉ base)
    (hrel : R.scheme = none) (sB : B.scheme = some (s!! "file")) (aB : B.authority = some []) (pB : ∃ p, B.path = '/' :: p)
    (dB : NoDotSegments B.path) (pr : '%' ∉ ref) (pb : '%' ∉ base) (t : Target) (h : r.resolve ref (some base) = .ok t) :
    ∃ p, t = .file p ∧ (∃ below, p = '/' :: dir ++ '/' :: below) ∧ NoDotSegments p := by
  obtain ⟨uri, h1, h2, h3⟩ := (C87_resolve_based r ref base t).1 h
  have hb : baseOf r base = base := by
    unfold baseOf
    rw [if_neg]
    rintro ⟨_, e⟩
    rw [← hB.1, recompose_eq, unsplit_eq, sB] at e
    cases e
  rw [hb] at h1
  obtain ⟨T, rfl, g⟩ := absolutize_good hR hB nR nB hrel sB aB pB dB pr pb r.schemes uri h1
  have hgr : Granted r.rules (unsplitUriRef T) := h2.resolve_left (by rw [hr]; exact nofun)
  have hpre : (s!! "file://" ++ '/' :: (dir ++ s!! "/")) <+: unsplitUriRef T := by
    rw [hr] at hgr
    obtain ⟨b, x, a, e, _, h2, _⟩ := hgr
    have hx : x = jail ('/' :: dir) := by
      cases b with
      | nil => cases e; rfl
      | cons y b => cases b <;> cases e
    subst hx
    have hp : (s!! "file://" ++ '/' :: dir ++ s!! "/").isPrefixOf (unsplitUriRef T) = true := h2
    have := List.isPrefixOf_iff_prefix.1 hp
    simpa using this
  have hpath := good_prefix g (d := dir ++ s!! "/") (by
    intro c hc
    rcases List.mem_append.1 hc with h | h
    · exact hd c h
    · rw [List.mem_singleton.1 h]; decide) hpre
  have hsch : HasScheme (unsplitUriRef T) (s!! "file") := by
    refine hasScheme_iff.2 (getScheme_some.2 ⟨?_, ?_⟩)
    · exact ⟨'f', s!! "ile", rfl, by decide, by decide⟩
    · exact ⟨pre (s!! "//") T.authority ++ (T.path ++ (pre (s!! "?") T.query ++ pre (s!! "#") T.fragment)), by
        rw [unsplit_eq, g.scheme]; simp [post]⟩
  cases h3 with
  | url hn => exact absurd hsch hn
  | file _ hp =>
    rename_i p
    have := good_path g hp
    subst this
    refine ⟨_, rfl, ?_, g.nodots⟩
    obtain ⟨below, e⟩ := hpath
    exact ⟨below, by rw [← e]; simp⟩

/-- C87, input sources. What is opened for a new input source has been granted by its resolver; a string that looks like
XML opens nothing. -/
theorem C87_source_partial (env : Env) (r : Resolver) (hr : r.rules ≠ []) (arg : Str) (s : Source) (t : Option Target)
    (h : newSource env r arg = .ok (s, t)) : s.resolver = r ∧ (env.isxml arg = true → t = none) ∧ ∀ x, t = some x → Granted r.rules s.uri ∧ Opens s.uri x := by
  have key : ∀ uri x, r.resolve uri none = .ok x → Granted r.rules uri ∧ Opens uri x := fun uri x hx =>
    have := ((C87_resolve_absolute r uri x).1 hx).2
    ⟨this.1.resolve_left hr, this.2⟩
  unfold newSource at h
  split at h
  · cases h
  · split at h
    · cases h; exact ⟨rfl, fun _ => rfl, nofun⟩
    · rename_i hx
      split at h
      · cases hres : r.resolve arg none with
        | ok x => rw [hres] at h; cases h; exact ⟨rfl, fun h => absurd h hx, fun y e => by cases e; exact key _ _ hres⟩
        | error e => rw [hres] at h; cases h
      · split at h
        · cases hres : r.resolve (pathUri env arg) none with
          | ok x => rw [hres] at h; cases h; exact ⟨rfl, fun h => absurd h hx, fun y e => by cases e; exact key _ _ hres⟩
          | error e => rw [hres] at h; cases h
        · cases h

/-- C87. A resolver with a registry that has no handler for the scheme and no default handler opens what the resolver
opens. -/
theorem C87_registry_partial (r : Resolver) (handlers : Option Str → Bool) (uri : Str) (base : Option Str) (s : Str)
    (hs : HasScheme uri s) (h1 : handlers (some s) = false) (h2 : handlers none = false) (a : Access) :
    registryResolve r handlers uri base = .ok a ↔ ∃ t, a = .target t ∧ r.resolve uri base = .ok t := by
  unfold registryResolve
  rw [hasScheme_iff.1 hs]
  dsimp only
  rw [h1, h2]
  simp only [Bool.false_eq_true, if_false]
  cases r.resolve uri base with
  | ok t => constructor
            · intro h; cases h; exact ⟨t, rfl, rfl⟩
            · rintro ⟨t', rfl, h⟩; cases h; rfl
  | error e => constructor
               · intro h; cases h
               · rintro ⟨t', _, h⟩; cases h

/-! ### Examples -/

def jailed : Resolver := { rules := [jail (s!! "/srv/data")] }
example : jailed.resolve (s!! "b/./c.xml") (some (s!! "file:///srv/data/a.xml")) = .ok (.file (s!! "/srv/data/b/c.xml")) := by decide +kernel
example : jailed.resolve (s!! "../x.xml") (some (s!! "file:///srv/data/a.xml")) = .error .denied := by decide +kernel
example : jailed.resolve (s!! "http://a/") none = .error .denied := by decide +kernel
example : ∃ R B, IsParse (s!! "b/./c.xml") R ∧ IsParse (s!! "file:///srv/data/a.xml") B ∧ R.scheme = none ∧ B.scheme = some (s!! "file") ∧
    B.authority = some [] ∧ (∃ p, B.path = '/' :: p) ∧ NoDotSegments B.path :=
  ⟨_, _, parse_of (by decide) (by rfl : splitUriRef _ = .ok ⟨none, none, s!! "b/./c.xml", none, none⟩),
    parse_of (by decide) (by rfl : splitUriRef _ = .ok ⟨some (s!! "file"), some [], s!! "/srv/data/a.xml", none, none⟩), rfl, rfl, rfl, ⟨_, rfl⟩, noDots_iff.2 (by decide)⟩
example : ({ rules := [⟨fun u => (s!! "http://bad/").isPrefixOf u, false⟩, ⟨fun _ => true, true⟩] } : Resolver).resolve (s!! "http://bad/x") none = .error .denied := by decide +kernel
example : ({ rules := [⟨fun u => (s!! "http://bad/").isPrefixOf u, false⟩, ⟨fun _ => true, true⟩] } : Resolver).resolve (s!! "http://good/x") none = .ok (.url (s!! "http://good/x")) := by decide +kernel

/-! ### Where the code differs from its documentation -/

/-- A URI of an unsupported scheme is opened if there is a base URI. -/
theorem C87_refuted_scheme : ({} : Resolver).resolve (s!! "gopher://a/") none = .error .scheme ∧
    ({} : Resolver).resolve (s!! "gopher://a/") (some (s!! "http://b/")) = .ok (.url (s!! "gopher://a/")) := by decide +kernel

/-- Schemes are compared with case. -/
theorem C87_refuted_case : ({} : Resolver).resolve (s!! "HTTP://a/") none = .error .scheme := by decide +kernel

/-- An empty list of rules grants everything. -/
theorem C87_refuted_no_rules (uri : Str) : ¬ Granted [] uri ∧ ({ rules := [] } : Resolver).resolve (s!! "file:///etc/passwd") none = .ok (.file (s!! "/etc/passwd")) :=
  ⟨fun h => absurd ((authorize_iff _ _).2 h) (nofun), by decide +kernel⟩

/-- A `urllib2.Request` is never opened. -/
theorem C87_refuted_request (r : Resolver) (url : Str) : ∃ e, r.resolveRequest url = .error e := by
  unfold Resolver.resolveRequest
  split
  · exact ⟨_, rfl⟩
  · exact ⟨_, rfl⟩

/-- The handlers of a registry are called for URIs that the rules deny. -/
theorem C87_refuted_registry : authorize jailed.rules (s!! "http://a/") = false ∧
    registryResolve jailed (fun k => k == some (s!! "http")) (s!! "http://a/") none = .ok (.handler (some (s!! "http")) (s!! "http://a/") none) := by decide +kernel

/-- An absolute reference with dot segments, and one with percent-encoded dots, leave the jail. -/
theorem C87_refuted_jail :
    jailed.resolve (s!! "file:///srv/data/../../etc/passwd") none = .ok (.file (s!! "/srv/data/../../etc/passwd")) ∧
    jailed.resolve (s!! "%2e%2e/%2e%2e/etc/passwd") (some (s!! "file:///srv/data/a.xml")) = .ok (.file (s!! "/srv/data/../../etc/passwd")) := by decide +kernel

def plainEnv : Env := { isfile := fun _ => false, isxml := fun s => s.head? = some '<', cwd := s!! "/home", urn := s!! "urn:uuid:1" }

/-- The rules of the resolver do not hold for what a document refers to (external entities, included stylesheets): the
new source has the default resolver. -/
theorem C87_refuted_entities :
    opened plainEnv jailed (s!! "file:///srv/data/a.xml") [s!! "file:///etc/passwd"] = [.file (s!! "/srv/data/a.xml"), .file (s!! "/etc/passwd")] ∧
    authorize jailed.rules (s!! "file:///etc/passwd") = false := by decide +kernel

end Verif.Iri.Resolver
