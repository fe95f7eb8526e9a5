import Verif.Iri.NtPath
import Verif.Iri.PercentLemmas3
import Verif.Iri.Rds
/-
C102: Windows paths and file URIs.
-/
namespace Verif.Iri.Nt
open Verif Verif.Iri Verif.Iri.Spec

/-! ### Specification -/

/-- A backslash before each name. -/
def path : List Str → Str
  | [] => []
  | n :: ns => '\\' :: (n ++ path ns)

/-- A name in a path: bytes without separators, and not a dot segment. -/
def Name (n : Str) : Prop := (∀ c ∈ n, c.toNat < 256) ∧ '\\' ∉ n ∧ '/' ∉ n ∧ n ≠ s!! "." ∧ n ≠ s!! ".."

/-- The names of a path: none is empty but possibly the last (for a path that ends in a backslash). -/
def Names : List Str → Prop
  | [] => False
  | [n] => Name n
  | n :: m :: ns => Name n ∧ n ≠ [] ∧ Names (m :: ns)

/-- "c:" and the like. -/
def DriveSpec (s : Str) : Prop :=
  ∃ a b, s = [a, b] ∧ a ∈ s!! "abcdefghijklmnopqrstuvwxyzABCDEFGHIJKLMNOPQRSTUVWXYZ" ∧ (b = ':' ∨ b = '|')

/-! ### Lemmas -/

theorem names_all : ∀ {ns : List Str}, Names ns → ∀ n ∈ ns, Name n
  | [], h => h.elim
  | [n], h => by intro m hm; simp at hm; subst hm; exact h
  | n :: m :: ns, h => by
    intro x hx
    rcases List.mem_cons.1 hx with rfl | hx
    · exact h.1
    · exact names_all h.2.2 x hx

theorem names_ne {ns : List Str} (h : Names ns) : ns ≠ [] := by rintro rfl; exact h

theorem join_path {ns : List Str} (h : ns ≠ []) : Py.join (s!! "\\") ([] :: ns) = path ns := by
  induction ns with
  | nil => exact absurd rfl h
  | cons n ns ih =>
    cases ns with
    | nil => simp [Py.join, path]
    | cons m ms =>
      have := ih (by simp)
      simp only [Py.join, path] at this ⊢
      simp at this ⊢
      rw [← this]

theorem split_path {ns : List Str} (h : Names ns) : Py.split '\\' (path ns) = [] :: ns := by
  rw [← join_path (names_ne h)]
  apply Py.split_join (by simp)
  intro k hk
  rcases List.mem_cons.1 hk with rfl | hk
  · simp
  · exact (names_all h k hk).2.1

/-- The encoded names. -/
def enc (ns : List Str) : List Str := ns.map (percentEncode {})

theorem not_mem_pe {c : Char} {s : Str} (hs : ∀ c ∈ s, c.toNat < 256) (h1 : c ≠ '%') (h2 : isUnreserved c = false) :
    c ∉ percentEncode {} s := by
  intro h
  simp only [percentEncode, List.mem_flatMap] at h
  obtain ⟨d, hd, hc⟩ := h
  rcases mem_encodeByte_default (hs d hd) _ rfl hc with h | h | ⟨h, _⟩
  · exact h1 h
  · rw [h2] at h; cases h
  · cases h

theorem decode_pe {s : Str} (hs : ∀ c ∈ s, c.toNat < 256) : percentDecode none (percentEncode {} s) = s := by
  have := percentDecode_percentEncode (o := {}) rfl (Or.inl rfl) hs []
  simpa [percentDecode, Py.split] using this

theorem join_enc {ns : List Str} (h : ns ≠ []) :
    Py.join (s!! "/") (([] :: ns).map (percentEncode {})) = cat (enc ns) := by
  cases ns with
  | nil => exact absurd rfl h
  | cons n ns =>
    rw [← slash_join (by simp [enc])]
    simp [Py.join, enc, percentEncode]

theorem pe_dots {s d : Str} (hs : ∀ c ∈ s, c.toNat < 256) (hd : percentDecode none d = d) (hn : s ≠ d) :
    percentEncode {} s ≠ d := by
  intro e
  exact hn (by rw [← decode_pe hs, e, hd])

theorem enc_slash {ns : List Str} (h : Names ns) : ∀ k ∈ enc ns, '/' ∉ k := by
  intro k hk
  obtain ⟨n, hn, rfl⟩ := List.mem_map.1 hk
  exact not_mem_pe (names_all h n hn).1 (by decide) (by decide)

theorem rds_enc {ns : List Str} (h : Names ns) : removeDotSegments (cat (enc ns)) = cat (enc ns) := by
  have hne : enc ns ≠ [] := by simpa [enc] using names_ne h
  rw [← slash_join hne]
  apply rds_id
  rw [Py.split_join hne (enc_slash h)]
  intro s hs
  obtain ⟨n, hn, rfl⟩ := List.mem_map.1 hs
  have := names_all h n hn
  exact ⟨pe_dots this.1 (by decide) this.2.2.2.1, pe_dots this.1 (by decide) this.2.2.2.2⟩

theorem subSlash_cons {c : Char} (h : c ≠ '%') (s : Str) : subSlash (c :: s) = c :: subSlash s := by
  rw [subSlash]
  rintro a b r rfl
  exact fun _ => h rfl

theorem slashCode_facts : ∀ n < 256, n ≠ 47 → n ≠ 92 → isSlashCode (hexDigit (n / 16)) (hexDigit (n % 16)) = false := by
  decide +kernel

theorem subSlash_pe {n : Str} (h : ∀ c ∈ n, c.toNat < 256) (h1 : '\\' ∉ n) (h2 : '/' ∉ n) (t : Str) :
    subSlash (percentEncode {} n ++ t) = percentEncode {} n ++ subSlash t := by
  induction n with
  | nil => rfl
  | cons c n ih =>
    simp only [List.mem_cons, not_or] at h1 h2
    have ih := ih (fun d hd => h d (by simp [hd])) h1.2 h2.2
    have e : percentEncode {} (c :: n) = encodeByte {} c ++ percentEncode {} n := by simp [percentEncode]
    have hc := h c (by simp)
    rw [e, List.append_assoc, List.append_assoc]
    have hp : subSlash (pct c.toNat ++ (percentEncode {} n ++ t)) = pct c.toNat ++ subSlash (percentEncode {} n ++ t) := by
      have a1 : c.toNat ≠ 47 := by
        intro e; have := ofNat_toNat c; rw [e] at this; exact h2.1 this
      have a2 : c.toNat ≠ 92 := by
        intro e; have := ofNat_toNat c; rw [e] at this; exact h1.1 this
      simp only [pct, List.cons_append, List.nil_append]
      rw [subSlash, slashCode_facts _ hc a1 a2]
      simp only [Bool.false_eq_true, if_false]
      rw [subSlash_cons (hexDigit_ne_pct _ (by omega)), subSlash_cons (hexDigit_ne_pct _ (by omega))]
    have hb : subSlash (encodeByte {} c ++ (percentEncode {} n ++ t)) =
        encodeByte {} c ++ subSlash (percentEncode {} n ++ t) := by
      unfold encodeByte
      split
      · rename_i h; exact subSlash_cons (unreserved_ne_pct h) _
      · simp only [Bool.false_and, Bool.false_eq_true, if_false, ite_self, if_true]
        exact hp
    rw [hb, ih]

theorem subSlash_enc {ns : List Str} (h : ∀ n ∈ ns, Name n) : subSlash (cat (enc ns)) = cat (enc ns) := by
  induction ns with
  | nil => rfl
  | cons n ns ih =>
    have hn := h n (by simp)
    have e : cat (enc (n :: ns)) = '/' :: (percentEncode {} n ++ cat (enc ns)) := by simp [enc, cat]
    rw [e, subSlash_cons (by decide), subSlash_pe hn.1 hn.2.1 hn.2.2.1, ih (fun x hx => h x (by simp [hx]))]

theorem decode_enc {ns : List Str} (h : ∀ n ∈ ns, Name n) :
    percentDecode none (backslashes (cat (enc ns))) = path ns := by
  induction ns with
  | nil => rfl
  | cons n ns ih =>
    have hn := h n (by simp)
    have e : backslashes (cat (enc (n :: ns))) = '\\' :: (percentEncode {} n ++ backslashes (cat (enc ns))) := by
      have : cat (enc (n :: ns)) = s!! "/" ++ (percentEncode {} n ++ cat (enc ns)) := by simp [enc, cat]
      rw [this, backslashes, replace1_append, replace1_append,
        replace1_id (not_mem_pe hn.1 (by decide) (by decide) : '/' ∉ percentEncode {} n)]
      rfl
    rw [e, percentDecode_cons (by decide), percentDecode_percentEncode rfl (Or.inl rfl) hn.1,
      ih (fun x hx => h x (by simp [hx]))]
    rfl

theorem path_slash {ns : List Str} (h : ∀ n ∈ ns, Name n) : '/' ∉ path ns := by
  induction ns with
  | nil => simp [path]
  | cons n ns ih =>
    have hn := h n (by simp)
    have := ih (fun x hx => h x (by simp [hx]))
    simp [path, hn.2.2.1, this]

theorem noAdj_name {n : Str} (h : '\\' ∉ n) (t : Str) : noAdj (n ++ t) = noAdj t := by
  induction n with
  | nil => rfl
  | cons c n ih =>
    simp only [List.mem_cons, not_or] at h
    rw [List.cons_append, noAdj, ih h.2]
    intro r e
    exact fun e' => h.1 e.symm

theorem noAdj_path : ∀ {ns : List Str}, Names ns → noAdj (path ns) = true
  | [], h => h.elim
  | [n], h => by
    have : noAdj n = true := by have := noAdj_name h.2.1 []; simpa [noAdj] using this
    cases n with
    | nil => rfl
    | cons c n =>
      have hc : c ≠ '\\' := by rintro rfl; exact h.2.1 (by simp)
      simp only [path, List.append_nil]
      rw [noAdj]
      · exact this
      · intro r _ e; simp at e; exact hc e.1
  | n :: m :: ns, h => by
    have ih := noAdj_path h.2.2
    have hb := noAdj_name h.1.2.1 (path (m :: ns))
    cases n with
    | nil => exact absurd rfl h.2.1
    | cons c n =>
      have hc : c ≠ '\\' := by rintro rfl; exact h.1.2.1 (by simp)
      rw [path, noAdj]
      · rw [hb]; exact ih
      · intro r _ e; simp at e; exact hc e.1

theorem path_cons {ns : List Str} (h : Names ns) : ∃ r, path ns = '\\' :: r ∧ ∀ t, r ≠ '\\' :: t := by
  match ns, h with
  | [n], h =>
    refine ⟨n, by simp [path], ?_⟩
    rintro t rfl; exact h.2.1 (by simp)
  | n :: m :: ns, h =>
    refine ⟨n ++ path (m :: ns), rfl, ?_⟩
    intro t e
    cases n with
    | nil => exact h.2.1 rfl
    | cons c n => simp at e; exact h.1.2.1 (by simp [e.1])

theorem rest_path {ns : List Str} (h : Names ns) : ntRest (path ns) = some { abspath := some (path ns) } := by
  obtain ⟨r, e, hr⟩ := path_cons h
  have hn := noAdj_path h
  rw [e] at hn ⊢
  rw [ntRest]
  · rw [hn]; rfl
  · intro t e'; exact hr t e'

theorem backslashes_id {s : Str} (h : '/' ∉ s) : backslashes s = s := replace1_id h

theorem split_file {a e : Str} (ha : ∀ c ∈ a, c ∉ s!! "/?#") (h1 : ∀ c ∈ e, c ∉ s!! "?#") (h2 : e.head? = some '/') :
    splitUriRef (s!! "file://" ++ (a ++ e)) = .ok ⟨some (s!! "file"), some a, e, none, none⟩ := by
  have hwf : WellFormed ⟨some (s!! "file"), some a, e, none, none⟩ := by
    refine ⟨?_, ?_, h1, ?_, ?_, ?_, ?_⟩
    · intro s hs; simp at hs; subst hs; decide
    · intro a ha'; simp at ha'; subst ha'; exact ha
    · simp
    · intro _
      cases e with
      | nil => simp at h2
      | cons c r => simp at h2; subst h2; right; exact ⟨r, rfl⟩
    · simp
    · simp
  have := split_unsplit hwf (by simp)
  rw [unsplit_eq] at this
  simpa [pre, post] using this

theorem pe_ok {n : Str} (h : ∀ c ∈ n, c.toNat < 256) : ∀ c ∈ percentEncode {} n, c ∉ s!! "/?#" := by
  intro c hc hm
  have : c = '/' ∨ c = '?' ∨ c = '#' := by simpa using hm
  rcases this with rfl | rfl | rfl <;> exact not_mem_pe h (by decide) (by decide) hc

theorem cat_ok {ns : List Str} (h : ∀ n ∈ ns, Name n) : ∀ c ∈ cat (enc ns), c ∉ s!! "?#" := by
  intro c hc hm
  simp only [cat, List.mem_flatMap] at hc
  obtain ⟨k, hk, hc⟩ := hc
  obtain ⟨n, hn, rfl⟩ := List.mem_map.1 hk
  rcases List.mem_cons.1 hc with rfl | hc
  · revert hm; decide
  · exact pe_ok (h n hn).1 c hc (by simp at hm ⊢; exact Or.inr hm)

theorem split_cat {l : List Str} (h : l ≠ []) (hs : ∀ k ∈ l, '/' ∉ k) : Py.split '/' (cat l) = [] :: l := by
  rw [← slash_join h, Py.split]
  simp [Py.split_join h hs]

theorem letter_iff (c : Char) : isLetter c = true ↔ c ∈ s!! "abcdefghijklmnopqrstuvwxyzABCDEFGHIJKLMNOPQRSTUVWXYZ" := by
  rw [isLetter, List.contains_iff_mem]; rfl

theorem driveLetter_none {s : Str} (h : ¬ DriveSpec s) : driveLetter s = none := by
  unfold driveLetter
  split
  · rename_i a b
    split
    · rename_i hc; exact absurd ⟨a, b, rfl, (letter_iff a).1 hc.2, hc.1⟩ h
    · rfl
  · rfl

theorem upper_letter : ∀ d ∈ s!! "abcdefghijklmnopqrstuvwxyzABCDEFGHIJKLMNOPQRSTUVWXYZ",
    isLetter (upper d) = true ∧ upper (upper d) = upper d ∧ d ≠ '/' ∧ upper d ≠ '%' ∧ upper d ∉ s!! "/?#" := by decide

theorem nonempty_path {ns : List Str} (h : Names ns) : path ns ≠ [] := by
  obtain ⟨r, e, _⟩ := path_cons h; rw [e]; simp

/-! ### C102 -/

/-- The URI of a path with a drive, and back: the same path, the drive in upper case. -/
theorem C102_drive (d : Char) (ns : List Str)
    (hd : d ∈ s!! "abcdefghijklmnopqrstuvwxyzABCDEFGHIJKLMNOPQRSTUVWXYZ") (h : Names ns) :
    ∃ uri, osPathToUriNt (d :: ':' :: path ns) = some uri ∧
      uri = s!! "file:///" ++ (upper d :: ':' :: cat (ns.map (percentEncode {}))) ∧
      uriToOsPathNt uri = .ok (upper d :: ':' :: path ns) := by
  obtain ⟨u1, u2, u3, u4, u5⟩ := upper_letter d hd
  have all := names_all h
  have e1 : osPathToUriNt (d :: ':' :: path ns) = some (s!! "file:///" ++ (upper d :: ':' :: cat (enc ns))) := by
    unfold osPathToUriNt
    rw [backslashes_id (by simp [path_slash all]; exact fun e => u3 e.symm)]
    have : splitNtPath (d :: ':' :: path ns) = some { drive := some d, abspath := some (path ns) } := by
      simp only [splitNtPath, ntDrive, (letter_iff d).2 hd, if_true, rest_path h, Option.map_some, Option.some_or]
    rw [this]
    simp only [Option.map_some, ntUri, truthy, Option.getD_some, Option.getD_none, nonempty_path h, ne_eq,
      not_false_eq_true, decide_true, if_true, not_true_eq_false, decide_false, Bool.false_eq_true, if_false]
    rw [split_path h, join_enc (names_ne h), rds_enc h]
    rfl
  refine ⟨_, e1, rfl, ?_⟩
  have hne : enc ns ≠ [] := by simpa [enc] using names_ne h
  have e2 : splitUriRef (s!! "file:///" ++ (upper d :: ':' :: cat (enc ns))) =
      .ok ⟨some (s!! "file"), some [], '/' :: upper d :: ':' :: cat (enc ns), none, none⟩ := by
    refine split_file (a := []) (e := '/' :: upper d :: ':' :: cat (enc ns)) (by simp) ?_ rfl
    intro c hc
    simp only [List.mem_cons] at hc
    rcases hc with rfl | rfl | rfl | hc
    · decide
    · intro hm; exact u5 (by simp at hm ⊢; exact Or.inr hm)
    · decide
    · exact cat_ok all c hc
  unfold uriToOsPathNt
  change (match splitUriRef (s!! "file:///" ++ (upper d :: ':' :: cat (enc ns))) with
    | .error e => _
    | .ok r => _) = _
  rw [e2]
  simp only
  rw [if_neg (by simp)]
  have e3 : subSlash ('/' :: upper d :: ':' :: cat (enc ns)) = '/' :: upper d :: ':' :: cat (enc ns) := by
    rw [subSlash_cons (by decide), subSlash_cons u4, subSlash_cons (by decide), subSlash_enc all]
  have e4 : Py.split '/' ('/' :: upper d :: ':' :: cat (enc ns)) = [] :: [upper d, ':'] :: enc ns := by
    have : '/' :: upper d :: ':' :: cat (enc ns) = cat ([upper d, ':'] :: enc ns) := by simp [cat]
    rw [this, split_cat (by simp)]
    intro k hk
    rcases List.mem_cons.1 hk with rfl | hk
    · simp; intro e; exact u5 (by rw [← e]; simp)
    · exact enc_slash h k hk
  have e5 : percentDecode none [upper d, ':'] = [upper d, ':'] := by
    rw [percentDecode_cons u4, percentDecode_cons (by decide)]; rfl
  have e6 : find (some []) ('/' :: upper d :: ':' :: cat (enc ns)) = (none, some (upper d), cat (enc ns)) := by
    simp only [find, e3, inPath, e4, rootedDrive, e5, driveLetter, u1, true_or, true_and, if_true, rejoin, hne, if_false]
    rw [slash_join hne]
  rw [e6]
  simp only [assemble, truthy, Option.getD_none, ne_eq, not_true_eq_false, decide_false, Bool.false_eq_true, if_false]
  rw [decode_enc all, u2]

/-- The URI of a path from the root of the current drive, and back.  The first name must not look like a drive. -/
theorem C102_root (n : Str) (ns : List Str) (h : Names (n :: ns)) (hn : ¬ DriveSpec n) :
    ∃ uri, osPathToUriNt (path (n :: ns)) = some uri ∧
      uri = s!! "file://" ++ cat ((n :: ns).map (percentEncode {})) ∧
      uriToOsPathNt uri = .ok (path (n :: ns)) := by
  have all := names_all h
  have e1 : osPathToUriNt (path (n :: ns)) = some (s!! "file://" ++ cat (enc (n :: ns))) := by
    unfold osPathToUriNt
    rw [backslashes_id (path_slash all)]
    have : splitNtPath (path (n :: ns)) = some { abspath := some (path (n :: ns)) } := by
      have hd : ntDrive (path (n :: ns)) = none := by
        rw [path]
        unfold ntDrive
        split
        · rename_i e; simp at e; rw [← e.1]; rfl
        · rfl
      rw [splitNtPath, hd, rest_path h]; rfl
    rw [this]
    simp only [Option.map_some, ntUri, truthy, Option.getD_some, Option.getD_none, nonempty_path h, ne_eq,
      not_false_eq_true, decide_true, if_true, not_true_eq_false, decide_false, Bool.false_eq_true, if_false]
    rw [split_path h, join_enc (names_ne h), rds_enc h]
    rfl
  refine ⟨_, e1, rfl, ?_⟩
  have hne : enc (n :: ns) ≠ [] := by simp [enc]
  have hh : (cat (enc (n :: ns))).head? = some '/' := by simp [enc, cat]
  have e2 : splitUriRef (s!! "file://" ++ cat (enc (n :: ns))) =
      .ok ⟨some (s!! "file"), some [], cat (enc (n :: ns)), none, none⟩ :=
    split_file (a := []) (by simp) (cat_ok all) hh
  unfold uriToOsPathNt
  change (match splitUriRef (s!! "file://" ++ cat (enc (n :: ns))) with
    | .error e => _
    | .ok r => _) = _
  rw [e2]
  simp only
  rw [if_neg (by simp)]
  have e6 : find (some []) (cat (enc (n :: ns))) = (none, none, cat (enc (n :: ns))) := by
    simp only [find, subSlash_enc all, inPath, split_cat hne (enc_slash h)]
    have hdl : driveLetter (percentDecode none (percentEncode {} n)) = none := by
      rw [decode_pe (all n (by simp)).1]; exact driveLetter_none hn
    have hen : enc (n :: ns) = percentEncode {} n :: enc ns := rfl
    rw [hen]
    split
    · rename_i e
      simp at e
      have h0 : n = [] := by
        rw [← decode_pe (all n (by simp)).1, e.1]; rfl
      cases ns with
      | nil => simp [enc] at e
      | cons m ms => exact absurd h0 h.2.1
    · rename_i e; simp at e; obtain ⟨rfl, rfl⟩ := e
      simp only [rootedDrive, hdl]
    · rename_i e; simp at e
    · rename_i e1 e2 e3 e; simp at e; obtain ⟨rfl, rfl⟩ := e
      exact absurd rfl (e2 _ _ rfl)
    · rename_i e; simp at e
  rw [e6]
  simp only [assemble, truthy, Option.getD_none, ne_eq, not_true_eq_false, decide_false, Bool.false_eq_true, if_false]
  rw [decode_enc all]
  obtain ⟨r, er, hr⟩ := path_cons h
  rw [er]
  simp only [List.head?_cons, if_true, List.dropWhile_cons, decide_true]
  cases r with
  | nil => rfl
  | cons c r =>
    have : c ≠ '\\' := by rintro rfl; exact hr r rfl
    simp [this]

/-- The URI of a path on another computer (UNC), and back.  The host must not be "localhost" nor look like a drive, and
something, if only a backslash, must follow the share. -/
theorem C102_unc (host share : Str) (ns : List Str) (hh : Name host) (h0 : host ≠ []) (hl : host ≠ s!! "localhost")
    (hd : ¬ DriveSpec host) (hs : Name share) (hs0 : share ≠ []) (h : Names ns) :
    ∃ uri, osPathToUriNt (s!! "\\\\" ++ host ++ path (share :: ns)) = some uri ∧
      uri = s!! "file://" ++ percentEncode {} host ++ cat ((share :: ns).map (percentEncode {})) ∧
      uriToOsPathNt uri = .ok (s!! "\\\\" ++ host ++ path (share :: ns)) := by
  have hall : Names (share :: ns) := by
    cases ns with
    | nil => exact h.elim
    | cons m ms => exact ⟨hs, hs0, h⟩
  have all := names_all hall
  have tw : ∀ {a r : Str}, '\\' ∉ a → (a ++ '\\' :: r).takeWhile notBs = a ∧
      (a ++ '\\' :: r).dropWhile notBs = '\\' :: r := by
    intro a r ha
    refine ⟨takeWhile_append_stop ?_ ?_, dropWhile_append_stop ?_ ?_⟩ <;>
      first
        | (intro x hx; simp [notBs]; rintro rfl; exact ha hx)
        | simp [notBs]
  obtain ⟨r, er, _⟩ := path_cons h
  have e1 : osPathToUriNt (s!! "\\\\" ++ host ++ path (share :: ns)) =
      some (s!! "file://" ++ percentEncode {} host ++ cat (enc (share :: ns))) := by
    unfold osPathToUriNt
    rw [backslashes_id (by simp [path_slash all, hh.2.2.1])]
    have e0 : s!! "\\\\" ++ host ++ path (share :: ns) = '\\' :: '\\' :: (host ++ '\\' :: (share ++ path ns)) := by
      simp [path]
    have : splitNtPath (s!! "\\\\" ++ host ++ path (share :: ns)) =
        some { host := some host, share := some share, abspath := some (path ns) } := by
      have hdr : ntDrive (s!! "\\\\" ++ host ++ path (share :: ns)) = none := by
        rw [e0]; rfl
      rw [splitNtPath, hdr, e0, Option.none_or, ntRest, ntHost, (tw hh.2.1).2]
      simp only
      rw [(tw hh.2.1).1, ntShare, er, (tw hs.2.1).1, (tw hs.2.1).2, ← er]
      simp only [hs0, nonempty_path h, noAdj_path h, ne_eq, not_false_eq_true, and_self, if_true]
    rw [this]
    simp only [Option.map_some, ntUri, truthy, Option.getD_some, nonempty_path h, h0, hs0, ne_eq,
      not_false_eq_true, decide_true, if_true]
    rw [split_path h, join_enc (names_ne h), rds_enc h]
    simp [enc, cat]
  refine ⟨_, e1, rfl, ?_⟩
  have hc : (cat (enc (share :: ns))).head? = some '/' := by simp [enc, cat]
  have e2 : splitUriRef (s!! "file://" ++ percentEncode {} host ++ cat (enc (share :: ns))) =
      .ok ⟨some (s!! "file"), some (percentEncode {} host), cat (enc (share :: ns)), none, none⟩ := by
    rw [List.append_assoc]
    exact split_file (pe_ok hh.1) (cat_ok all) hc
  unfold uriToOsPathNt
  change (match splitUriRef (s!! "file://" ++ percentEncode {} host ++ cat (enc (share :: ns))) with
    | .error e => _
    | .ok r => _) = _
  rw [e2]
  simp only
  rw [if_neg (by simp)]
  have e3 : percentEncode {} host ≠ [] := pe_dots hh.1 (by decide) h0
  have e4 : percentEncode {} host ≠ s!! "localhost" := pe_dots hh.1 (by decide) hl
  have e6 : find (some (percentEncode {} host)) (cat (enc (share :: ns))) =
      (some host, none, cat (enc (share :: ns))) := by
    cases hp : percentEncode {} host with
    | nil => exact absurd hp e3
    | cons c a =>
      rw [hp] at e4
      simp only [find, e4, if_false]
      rw [← hp]
      simp only [inAuthority, decode_pe hh.1, driveLetter_none hd]
  rw [e6]
  simp only [assemble, truthy, Option.getD_some, h0, ne_eq, not_false_eq_true, decide_true, if_true]
  rw [decode_enc all]

/-- The URI of a relative path, and back (no working directory).  The first name must not be empty, nor start like a
drive. -/
theorem C102_relative (n : Str) (ns : List Str) (hn : Name n) (h0 : n ≠ []) (h : ns = [] ∨ Names ns)
    (hd : ∀ a r, n = a :: ':' :: r → a ∉ s!! "abcdefghijklmnopqrstuvwxyzABCDEFGHIJKLMNOPQRSTUVWXYZ") (hp : ¬ DriveSpec n) :
    ∃ uri, osPathToUriNt (n ++ path ns) = some uri ∧
      uri = s!! "file:" ++ (percentEncode {} n ++ cat (ns.map (percentEncode {}))) ∧
      uriToOsPathNt uri = .ok (n ++ path ns) := by
  have hall : Names (n :: ns) := by
    cases ns with
    | nil => exact hn
    | cons m ms => rcases h with h | h
                   · cases h
                   · exact ⟨hn, h0, h⟩
  have all := names_all hall
  have alln : ∀ m ∈ ns, Name m := fun m hm => all m (by simp [hm])
  have hnb : ∃ c r, n = c :: r ∧ c ≠ '\\' := by
    cases n with
    | nil => exact absurd rfl h0
    | cons c r => exact ⟨c, r, rfl, by rintro rfl; exact hn.2.1 (by simp)⟩
  have sp : Py.split '\\' (n ++ path ns) = n :: ns := by
    have := split_path hall
    rw [path, Py.split] at this
    simpa using this
  have cons_join : '/' :: Py.join (s!! "/") ((n :: ns).map (percentEncode {})) =
      '/' :: (percentEncode {} n ++ cat (enc ns)) := by
    rw [slash_join (by simp)]; simp [cat, enc]
  have e1 : osPathToUriNt (n ++ path ns) = some (s!! "file:" ++ (percentEncode {} n ++ cat (enc ns))) := by
    unfold osPathToUriNt
    rw [backslashes_id (by simp [path_slash alln, hn.2.2.1])]
    have adj : noAdj (n ++ path ns) = true := by
      rw [noAdj_name hn.2.1]
      rcases h with rfl | h
      · rfl
      · exact noAdj_path h
    have : splitNtPath (n ++ path ns) = some { relpath := some (n ++ path ns) } := by
      have hdr : ntDrive (n ++ path ns) = none := by
        unfold ntDrive
        split
        · rename_i a r e
          have : isLetter a = false := by
            cases hl : isLetter a with
            | false => rfl
            | true =>
              rw [letter_iff] at hl
              cases n with
              | nil => exact absurd rfl h0
              | cons x n =>
                simp at e
                obtain ⟨rfl, e⟩ := e
                cases n with
                | nil =>
                  cases ns with
                  | nil => simp [path] at e
                  | cons m ms => simp [path] at e
                | cons y n => simp at e; obtain ⟨rfl, e⟩ := e; exact absurd hl (hd _ n rfl)
          simp [this]
        · rfl
      obtain ⟨c, r, rfl, hc⟩ := hnb
      rw [splitNtPath, hdr, Option.none_or, ntRest]
      · rw [adj]; rfl
      · intro r e; simp at e; exact hc e.1
      · intro r e; simp at e; exact hc e.1
    have hne : n ++ path ns ≠ [] := by simp [h0]
    rw [this]
    simp only [Option.map_some, ntUri, truthy, Option.getD_none, ne_eq,
      not_true_eq_false, decide_false, Bool.false_eq_true, if_false, Option.getD_some]
    rw [sp, (List.cons.inj cons_join).2]
    simp
  refine ⟨_, e1, rfl, ?_⟩
  have p0 : percentEncode {} n ≠ [] := pe_dots hn.1 (by decide) h0
  have hcat : ∀ c ∈ percentEncode {} n ++ cat (enc ns), c ∉ s!! "?#" := by
    intro c hc
    rcases List.mem_append.1 hc with hc | hc
    · intro hm; exact pe_ok hn.1 c hc (by simp at hm ⊢; exact Or.inr hm)
    · exact cat_ok alln c hc
  have hslash : ∀ t, percentEncode {} n ++ cat (enc ns) ≠ '/' :: t := by
    intro t e
    cases hx : percentEncode {} n with
    | nil => exact p0 hx
    | cons c r =>
      rw [hx] at e; simp at e
      exact pe_ok hn.1 c (by rw [hx]; simp) (by simp [e.1])
  have e2 : splitUriRef (s!! "file:" ++ (percentEncode {} n ++ cat (enc ns))) =
      .ok ⟨some (s!! "file"), none, percentEncode {} n ++ cat (enc ns), none, none⟩ := by
    have hwf : WellFormed ⟨some (s!! "file"), none, percentEncode {} n ++ cat (enc ns), none, none⟩ := by
      refine ⟨?_, ?_, hcat, ?_, ?_, ?_, ?_⟩
      · intro s hs; simp at hs; subst hs; decide
      · simp
      · simp
      · simp
      · first
          | (intro _ t e; exact hslash _ e)
          | (intro _; rintro ⟨t, e⟩; exact hslash _ e)
          | simp
      · simp
    have := split_unsplit hwf (by simp)
    rw [unsplit_eq] at this
    simpa [pre, post] using this
  unfold uriToOsPathNt
  change (match splitUriRef (s!! "file:" ++ (percentEncode {} n ++ cat (enc ns))) with
    | .error e => _
    | .ok r => _) = _
  rw [e2]
  simp only
  rw [if_neg (by simp)]
  have e3 : subSlash (percentEncode {} n ++ cat (enc ns)) = percentEncode {} n ++ cat (enc ns) := by
    rw [subSlash_pe hn.1 hn.2.1 hn.2.2.1, subSlash_enc alln]
  have e4 : Py.split '/' (percentEncode {} n ++ cat (enc ns)) = percentEncode {} n :: enc ns := by
    have hs := split_cat (l := enc (n :: ns)) (by simp [enc]) (enc_slash hall)
    have : cat (enc (n :: ns)) = '/' :: (percentEncode {} n ++ cat (enc ns)) := by simp [cat, enc]
    rw [this, Py.split] at hs
    simpa [enc] using hs
  have e6 : find none (percentEncode {} n ++ cat (enc ns)) = (none, none, percentEncode {} n ++ cat (enc ns)) := by
    simp only [find, e3, inPath, e4]
    split
    · rename_i e; simp at e; exact absurd e.1 p0
    · rename_i e; simp at e; exact absurd e.1 p0
    · rename_i e; simp at e; exact absurd e.1 p0
    · rename_i e; simp at e; obtain ⟨rfl, rfl⟩ := e
      simp only [relativeDrive, decode_pe hn.1, driveLetter_none hp]
    · rename_i e; simp at e
  rw [e6]
  have e7 : percentDecode none (backslashes (percentEncode {} n ++ cat (enc ns))) = n ++ path ns := by
    rw [backslashes, replace1_append,
      replace1_id (not_mem_pe hn.1 (by decide) (by decide) : '/' ∉ percentEncode {} n),
      percentDecode_percentEncode rfl (Or.inl rfl) hn.1]
    have := decode_enc alln
    rw [backslashes] at this
    rw [this]
  simp only [assemble, truthy, Option.getD_none, ne_eq, not_true_eq_false, decide_false, Bool.false_eq_true, if_false]
  rw [e7]
  obtain ⟨c, r, rfl, hc⟩ := hnb
  simp [hc]

example : Names [s!! "Program Files", s!! "50%\xe9", []] ∧ ¬ DriveSpec (s!! "x:y") := by
  refine ⟨⟨⟨by decide, by decide, by decide, by decide, by decide⟩, by decide,
    ⟨by decide, by decide, by decide, by decide, by decide⟩, by decide,
    ⟨by decide, by decide, by decide, by decide, by decide⟩⟩, ?_⟩
  rintro ⟨a, b, e, _⟩; simp at e

example : osPathToUriNt (s!! "c:\\Program Files\\50%") = some (s!! "file:///C:/Program%20Files/50%25") ∧
    osPathToUriNt (s!! "c:/a/../b") = some (s!! "file:///C:/b") ∧
    osPathToUriNt (s!! "\\\\h\\s\\x") = some (s!! "file://h/s/x") ∧
    osPathToUriNt (s!! "a\\..\\b") = some (s!! "file:a/../b") ∧
    osPathToUriNt (s!! "\\\\h\\s") = none ∧ osPathToUriNt (s!! "c:\\a\\\\b") = none := by decide +kernel

/-- The result of `uri_to_os_path` in the examples. -/
def result (o : Except Err Str) : Option Str :=
  match o with
  | .ok s => some s
  | .error _ => none

/-- The examples of the documentation of `uri_to_os_path`. -/
example : result (uriToOsPathNt (s!! "file:x/y/z")) = some (s!! "x\\y\\z") ∧
    result (uriToOsPathNt (s!! "file:/x/y/z")) = some (s!! "\\x\\y\\z") ∧
    result (uriToOsPathNt (s!! "file:///c|/x/y/z")) = some (s!! "C:\\x\\y\\z") ∧
    result (uriToOsPathNt (s!! "file://c:/x/y/z")) = some (s!! "C:\\x\\y\\z") ∧
    result (uriToOsPathNt (s!! "file:////host/share/x")) = some (s!! "\\\\host\\share\\x") ∧
    result (uriToOsPathNt (s!! "file://host/x:/y/z")) = some (s!! "\\\\host\\x:\\y\\z") ∧
    result (uriToOsPathNt (s!! "file://localhost/c:/x")) = some (s!! "C:\\x") ∧
    result (uriToOsPathNt (s!! "file:///C:%5Cx%5Cy%5Cz")) = some (s!! "C:\\x\\y\\z") ∧
    result (uriToOsPathNt (s!! "http://h/x")) = none := by decide +kernel

/-- Nothing but a file URI or a relative reference is converted. -/
theorem C102_refuses (uri : Str) (r : UriRef) (hr : splitUriRef uri = .ok r) (s : Str) (hs : r.scheme = some s)
    (h : s ≠ s!! "file") : uriToOsPathNt uri = .error .nonFileUri := by
  unfold uriToOsPathNt
  rw [hr]
  simp only [hs]
  rw [if_pos (by simpa using h)]

/-- A path relative to the current directory of a drive comes back as another path: "c:a" as "\C:a".  So do paths with
both a drive and a host, and those on the host "localhost". -/
theorem C102_refuted_back :
    (osPathToUriNt (s!! "c:a")).bind (fun u => result (uriToOsPathNt u)) = some (s!! "\\C:a") ∧
    (osPathToUriNt (s!! "c:\\\\h\\s\\x")).bind (fun u => result (uriToOsPathNt u)) = some (s!! "\\\\h\\C:\\s\\x") ∧
    (osPathToUriNt (s!! "\\\\localhost\\s\\x")).bind (fun u => result (uriToOsPathNt u)) = some (s!! "\\s\\x") := by
  decide +kernel

/-- An escaped bar after the drive letter is understood after a slash, but not at the start of the path, where two
characters are cut off instead of four. -/
theorem C102_refuted_escaped_drive :
    result (uriToOsPathNt (s!! "/c%7C/a/b")) = some (s!! "C:\\a\\b") ∧
    result (uriToOsPathNt (s!! "c|/a/b")) = some (s!! "C:\\a\\b") ∧
    result (uriToOsPathNt (s!! "c%7C/a/b")) = some (s!! "C:7C\\a\\b") := by decide +kernel

example : result (uriToOsPathNt (s!! "file:////h%41/s%20t/a")) = some (s!! "\\\\hA\\s t\\a") ∧
    result (uriToOsPathNt (s!! "file:c:/a/b")) = some (s!! "C:\\a\\b") := by decide +kernel

end Verif.Iri.Nt
