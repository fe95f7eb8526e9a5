import Verif.Iri.Safe
import Verif.Iri.Abs
/-
C105: `make_urllib_safe`.
-/
namespace Verif.Iri
open Spec

/-! ### Specification -/

/-- A registered name: plain characters and escapes. -/
def IsRegName (h : Str) : Prop :=
  ∃ items : List Str, h = items.flatten ∧ ∀ i ∈ items,
    (∃ c, i = [c] ∧ c ∈ s!! "0123456789ABCDEFGHIJKLMNOPQRSTUVWXYZabcdefghijklmnopqrstuvwxyz-_.!~*'();&=+$,") ∨
    (∃ a b, i = ['%', a, b] ∧ a ∈ s!! "0123456789ABCDEFabcdef" ∧ b ∈ s!! "0123456789ABCDEFabcdef")

/-- User information with its delimiter. -/
def userPart : Option Str → Str
  | some u => u ++ s!! "@"
  | none => []

/-- A port with its delimiter. -/
def portPart : Option Str → Str
  | some p => s!! ":" ++ p
  | none => []

/-- An authority with its parts; the parts are not empty if they are there. -/
structure AuthParts (auth : Str) (user : Option Str) (host : Str) (port : Option Str) : Prop where
  whole : auth = userPart user ++ host ++
    portPart port
  user_ok : ∀ u, user = some u → u ≠ [] ∧ '@' ∉ u
  host_ok : host ≠ [] ∧ '@' ∉ host ∧ ':' ∉ host
  port_ok : ∀ p, port = some p → p ≠ [] ∧ '@' ∉ p ∧ ':' ∉ p

/-- The path as `urllib` wants it: on Windows the first colon of a file URI becomes a bar. -/
def SafePath (nt : Bool) (scheme : Option Str) (path path' : Str) : Prop :=
  (nt = true ∧ scheme = some (s!! "file") ∧ ∃ a b, ':' ∉ a ∧ path = a ++ ':' :: b ∧ path' = a ++ '|' :: b) ∨
  (¬ (nt = true ∧ scheme = some (s!! "file") ∧ ':' ∈ path) ∧ path' = path)

/-! ### Lemmas -/

theorem isRegName_cons {i h : Str} (hi : (∃ c, i = [c] ∧ c ∈ regNameChars) ∨
    (∃ a b, i = ['%', a, b] ∧ a ∈ regNameHex ∧ b ∈ regNameHex)) (h1 : IsRegName h) : IsRegName (i ++ h) := by
  obtain ⟨items, e, ha⟩ := h1
  refine ⟨i :: items, by simp [e], ?_⟩
  intro x hx
  rcases List.mem_cons.1 hx with rfl | hx
  · exact hi
  · exact ha x hx

theorem regName_sound {h : Str} (hn : '\n' ∉ h) : regName h = true → IsRegName h := by
  induction h using regName.induct with
  | case1 => intro _; exact ⟨[], rfl, by simp⟩
  | case2 a b r ih =>
    intro hr
    rw [regName] at hr
    simp only [Bool.and_eq_true, List.contains_iff_mem] at hr
    exact isRegName_cons (i := ['%', a, b]) (Or.inr ⟨a, b, rfl, hr.1.1, hr.1.2⟩) (ih (by simp at hn; exact hn.2.2) hr.2)
  | case3 c r hx hc0 hc =>
    intro hr
    rw [regName.eq_3 _ _ hx] at hr
    rw [if_pos hc0] at hr
    exact isRegName_cons (i := [c]) (Or.inl ⟨c, rfl, List.contains_iff_mem.1 hc0⟩) (hc (by simp at hn; exact hn.2) hr)
  | case4 c r hx hc =>
    intro hr
    rw [regName.eq_3 _ _ hx] at hr
    rw [if_neg hc] at hr
    simp at hr
    exact absurd hr.1 (by intro e; subst e; simp at hn)

theorem regName_complete {h : Str} (h1 : IsRegName h) : regName h = true := by
  obtain ⟨items, rfl, ha⟩ := h1
  induction items with
  | nil => rfl
  | cons i items ih =>
    have ih := ih (fun x hx => ha x (by simp [hx]))
    rw [List.flatten_cons]
    rcases ha i (by simp) with ⟨c, rfl, hc⟩ | ⟨a, b, rfl, h2, h3⟩
    · have hm : regNameChars.contains c = true := List.contains_iff_mem.2 hc
      have hp : ∀ (a b : Char) (r : List Char), c = '%' → items.flatten = a :: b :: r → False := by
        rintro _ _ _ rfl _; revert hc; decide
      rw [List.singleton_append, regName.eq_3 _ _ hp, if_pos hm, ih]
    · have e2 : regNameHex.contains a = true := List.contains_iff_mem.2 h2
      have e3 : regNameHex.contains b = true := List.contains_iff_mem.2 h3
      show regName ('%' :: a :: b :: items.flatten) = true
      rw [regName, e2, e3, ih]; rfl

theorem firstColon_eq (p : Str) : (':' ∉ p ∧ firstColon p = p) ∨
    ∃ a b, ':' ∉ a ∧ p = a ++ ':' :: b ∧ firstColon p = a ++ '|' :: b := by
  induction p with
  | nil => exact Or.inl ⟨by simp, rfl⟩
  | cons c r ih =>
    by_cases hc : c = ':'
    · subst hc; exact Or.inr ⟨[], r, by simp, rfl, rfl⟩
    · have hc' : ¬ ':' = c := fun e => hc e.symm
      rcases ih with ⟨h1, h2⟩ | ⟨a, b, h1, h2, h3⟩
      · exact Or.inl ⟨by simp [hc', h1], by rw [firstColon, if_neg hc, h2]⟩
      · exact Or.inr ⟨c :: a, b, by simp [hc', h1], by rw [h2]; rfl, by rw [firstColon, if_neg hc, h3]; rfl⟩

theorem safePath_eq (nt : Bool) (scheme : Option Str) (path : Str) :
    SafePath nt scheme path (if nt && scheme == some (s!! "file") then firstColon path else path) := by
  by_cases h : nt = true ∧ scheme = some (s!! "file")
  · obtain ⟨rfl, rfl⟩ := h
    rcases firstColon_eq path with ⟨h1, h2⟩ | ⟨a, b, h1, h2, h3⟩
    · exact Or.inr ⟨fun h => h1 h.2.2, by simpa using h2⟩
    · exact Or.inl ⟨rfl, rfl, a, b, h1, h2, by simpa using h3⟩
  · refine Or.inr ⟨fun h2 => h ⟨h2.1, h2.2.1⟩, ?_⟩
    rw [if_neg (by simpa using h)]

theorem parts_split {auth : Str} {user : Option Str} {host : Str} {port : Option Str} (h : AuthParts auth user host port) :
    ∃ hp, splitUser (some auth) = .ok (user, some hp) ∧ splitPort (some hp) = .ok (some host, port) := by
  obtain ⟨hw, hu, ⟨hh0, hh1, hh2⟩, hport⟩ := h
  refine ⟨host ++ portPart port, ?_, ?_⟩
  · have hat : '@' ∉ host ++ portPart port := by
      cases port with
      | none => simpa [portPart] using hh1
      | some p => simp [portPart, hh1, (hport p rfl).2.1]
    cases user with
    | none =>
      simp only [userPart, List.nil_append] at hw
      rw [hw]
      unfold splitUser
      simp only
      rw [if_neg (by simpa using hat)]
    | some u =>
      have e : auth = u ++ '@' :: (host ++ portPart port) := by
        rw [hw]; simp [userPart]
      rw [e]
      unfold splitUser
      simp only
      rw [if_pos (by simp), Py.split_append_cons (hu u rfl).2, Py.split_of_not_mem hat]
      rfl
  · cases port with
    | none =>
      have e : host ++ portPart none = host := by simp [portPart]
      rw [e]
      unfold splitPort
      simp only
      rw [if_neg (by simpa using hh2)]
    | some p =>
      have e : host ++ portPart (some p) = host ++ ':' :: p := by simp [portPart]
      rw [e]
      unfold splitPort
      simp only
      rw [if_pos (by simp), Py.split_append_cons hh2, Py.split_of_not_mem (hport p rfl).2.2]
      rfl

/-! ### C105 -/

/-- C105. A reference without authority only loses its fragment. -/
theorem C105_no_authority (nt : Bool) (idna : Str → Except Err Str) (ref : Str) (R : UriRef) (h : IsParse ref R)
    (hn : '\n' ∉ ref) (ha : R.authority = none ∨ R.authority = some []) :
    ∃ path', SafePath nt R.scheme R.path path' ∧
      makeUrllibSafe nt idna ref = .ok (recompose { R with path := path', fragment := none }) := by
  refine ⟨_, safePath_eq nt R.scheme R.path, ?_⟩
  unfold makeUrllibSafe
  rw [parse_split h hn, recompose_eq]
  rcases ha with ha | ha
  · simp [bind, Except.bind, ha, splitUser, splitPort, safeAuth]
  · simp [bind, Except.bind, ha, splitUser, splitPort, safeAuth]

/-- C105. A registered name as host is decoded and converted; user information and port stay; the fragment goes. -/
theorem C105_reg_name (nt : Bool) (idna : Str → Except Err Str) (ref : Str) (R : UriRef) (h : IsParse ref R)
    (hn : '\n' ∉ ref) (auth host : Str) (user port : Option Str) (ha : R.authority = some auth)
    (hp : AuthParts auth user host port) (hr : IsRegName host) (host' : Str)
    (hi : idna (percentDecode none host) = .ok host') :
    ∃ path' auth', SafePath nt R.scheme R.path path' ∧
      auth' = userPart user ++ host' ++
        portPart port ∧
      makeUrllibSafe nt idna ref = .ok (recompose { R with authority := some auth', path := path', fragment := none }) := by
  refine ⟨_, _, safePath_eq nt R.scheme R.path, rfl, ?_⟩
  obtain ⟨q, h1, h2⟩ := parts_split hp
  have h3 : safeAuth idna (some auth) user (some host) port = .ok (some (safeJoin user host' port)) := by
    have hreg := regName_complete hr
    cases host with
    | nil => exact absurd rfl hp.host_ok.1
    | cons c r => rw [safeAuth, if_pos hreg, hi]; rfl
  have h4 : safeJoin user host' port = userPart user ++ host' ++
        portPart port := by
    unfold safeJoin
    congr 1
    · congr 1
      rcases user with _ | _ | ⟨c, u⟩
      · rfl
      · exact absurd rfl (hp.user_ok [] rfl).1
      · rfl
    · rcases port with _ | _ | ⟨c, u⟩
      · rfl
      · exact absurd rfl (hp.port_ok [] rfl).1
      · rfl
  unfold makeUrllibSafe
  rw [parse_split h hn, recompose_eq, ← h4]
  simp only [bind, Except.bind, ha, h1, h2, h3]

/-- C105. Any other host without colons stays as it is. -/
theorem C105_other_host (nt : Bool) (idna : Str → Except Err Str) (ref : Str) (R : UriRef) (h : IsParse ref R)
    (hn : '\n' ∉ ref) (auth host : Str) (user port : Option Str) (ha : R.authority = some auth)
    (hp : AuthParts auth user host port) (hr : ¬ IsRegName host) :
    ∃ path', SafePath nt R.scheme R.path path' ∧
      makeUrllibSafe nt idna ref = .ok (recompose { R with path := path', fragment := none }) := by
  refine ⟨_, safePath_eq nt R.scheme R.path, ?_⟩
  obtain ⟨q, h1, h2⟩ := parts_split hp
  have hnl : '\n' ∉ host := by
    intro hm
    apply hn
    rw [← h.1, recompose_eq, unsplit_eq, ha, hp.whole]
    simp [pre, hm]
  have h3 : safeAuth idna (some auth) user (some host) port = .ok (some auth) := by
    cases host with
    | nil => rfl
    | cons c r => rw [safeAuth, if_neg (fun e => hr (regName_sound hnl e))]
  unfold makeUrllibSafe
  rw [parse_split h hn, recompose_eq]
  simp only [bind, Except.bind, ha, h1, h2, h3]

/-- C105 refuted for IPv6 addresses, which end in a ValueError ("too many values to unpack"). -/
theorem C105_refuted_ipv6 (nt : Bool) (idna : Str → Except Err Str) :
    makeUrllibSafe nt idna (s!! "http://[::1]/a") = .error .valueError := by
  cases nt <;> rfl

example : makeUrllibSafe false .ok (s!! "http://u:p@h%41.org:80/a?q#f") = .ok (s!! "http://u:p@hA.org:80/a?q") ∧
    makeUrllibSafe true .ok (s!! "file:///C:/a:b#f") = .ok (s!! "file:///C|/a:b") ∧
    makeUrllibSafe false .ok (s!! "file:///C:/a:b#f") = .ok (s!! "file:///C:/a:b") ∧
    makeUrllibSafe false .ok (s!! "http://h[/a") = .ok (s!! "http://h[/a") := by decide +kernel

example : AuthParts (s!! "u:p@h%41.org:80") (some (s!! "u:p")) (s!! "h%41.org") (some (s!! "80")) :=
  ⟨by decide, by rintro u ⟨⟩; decide, by decide, by rintro u ⟨⟩; decide⟩
example : IsRegName (s!! "h%41") :=
  ⟨[s!! "h", s!! "%41"], rfl, by
    intro i hi
    simp at hi
    rcases hi with rfl | rfl
    · exact Or.inl ⟨'h', rfl, by decide⟩
    · exact Or.inr ⟨'4', '1', rfl, by decide, by decide⟩⟩

end Verif.Iri
