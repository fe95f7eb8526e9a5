import Verif.Iri.Ws
/-
Properties C05, C08, C09, C11, C12 (lib/lib/iri.py).
-/
namespace Verif.Iri
open Spec

/-- A byte string: every character stands for one octet. -/
def Bytes (s : Str) : Prop := ∀ c ∈ s, c.toNat < 256

instance (s : Str) : Decidable (Bytes s) := by unfold Bytes; infer_instance

/-! ## C05: percent_encode and percent_decode -/

/-- C05. Decoding an encoded byte string gives it back, for both settings of `encodeReserved` and every
set of reserved characters that does not contain '%' (the default does not). -/
theorem C05_decode_encode (o : EncOpts) (s : Str) (hs : Bytes s) (hp : o.spaceToPlus = false)
    (hr : o.encodeReserved = true ∨ '%' ∉ o.reservedChars) :
    percentDecode none (percentEncode o s) = s := by
  have := percentDecode_percentEncode hp hr hs []
  simpa using this

example : Bytes (s!! "a b/100% \xe9") ∧ '%' ∉ RESERVED := by decide
example : percentEncode {} (s!! "a b/100%\xe9") = s!! "a%20b%2F100%25%E9" := by decide
example : percentDecode none (s!! "a%20b%2F100%25%E9") = s!! "a b/100%\xe9" := by decide

/-- C05, with `spaceToPlus`: turning '+' back into a space before decoding inverts the encoding. -/
theorem C05_decode_encode_plus (o : EncOpts) (s : Str) (hs : Bytes s) (hp : o.spaceToPlus = true)
    (he : o.encodeReserved = true) :
    percentDecode none ((percentEncode o s).map (fun c => if c = '+' then ' ' else c)) = s := by
  have h := percentDecode_percentEncode_plus hp he hs []
  have e : ∀ t : Str, replace1 '+' [' '] t = t.map (fun c => if c = '+' then ' ' else c) := by
    intro t
    induction t with
    | nil => rfl
    | cons c t ih =>
      simp only [replace1, List.flatMap_cons, List.map_cons] at ih ⊢
      rw [ih]; split <;> rfl
  rw [← e]
  simpa using h

example : percentEncode { spaceToPlus := true } (s!! "a b+c") = s!! "a+b%2Bc" := by decide

/-- Without `encodeReserved` the '+' characters of the data are kept, and `spaceToPlus` loses information. -/
theorem C05_plus_refuted : percentEncode { spaceToPlus := true, encodeReserved := false } (s!! " ") =
    percentEncode { spaceToPlus := true, encodeReserved := false } (s!! "+") := by decide

/-- C05. The output of `percent_encode` is one token per input byte: an unreserved character, a
well-formed upper-case triplet, a reserved character when `encodeReserved` is off, or '+' for
`spaceToPlus`. -/
theorem C05_encode_output (o : EncOpts) (s : Str) (hs : Bytes s) :
    ∃ toks : List Str, percentEncode o s = toks.flatten ∧ toks.length = s.length ∧
      ∀ t ∈ toks, Token ((if o.encodeReserved then [] else o.reservedChars) ++
        (if o.spaceToPlus then s!! "+" else [])) t := by
  refine ⟨s.map (encodeByte o), by simp [percentEncode, List.flatMap_def], by simp, ?_⟩
  intro t ht
  obtain ⟨c, hc, rfl⟩ := List.mem_map.1 ht
  exact encodeByte_token o c (hs c hc)

/-- C05, decoding. On data in which every '%' begins a triplet, `percent_decode` replaces exactly the
triplets by the octets they denote. -/
theorem C05_decode_meaning (s t : Str) (h : Decodes s t) : percentDecode none s = t :=
  percentDecode_decodes h

example : Decodes (s!! "a%2fb") (s!! "a/b") :=
  .char _ _ _ (by decide) (.triplet '2' 'f' _ _ (by decide) (by decide) (.char _ _ _ (by decide) .nil))

/-- C05, `unicode` strings: the decoded octets are the UTF-8 encoding of the original characters. -/
theorem C05_unicode (o : EncOpts) (s : Str) (hp : o.spaceToPlus = false)
    (hr : o.encodeReserved = true ∨ '%' ∉ o.reservedChars) :
    ∃ octets, Utf8Seq (s.map Char.toNat) octets ∧
      percentDecode none (percentEncodeU o s) = octets.map Char.ofNat := by
  refine ⟨(s.map Char.toNat).flatMap utf8, utf8Seq_flatMap _ ?_, ?_⟩
  · intro n hn
    obtain ⟨c, _, rfl⟩ := List.mem_map.1 hn
    exact char_lt c
  · rw [percentDecode_encodeU hp hr]
    simp [List.flatMap_map]

example : percentEncodeU {} (s!! "é€") = s!! "%C3%A9%E2%82%AC" := by decide

/-- `percent_decode` relies on Python's `int()`, which accepts signs and white space: "%+1" is not a
triplet, yet it is decoded. -/
theorem C05_lenient_refuted : percentDecode none (s!! "%+1") = ['\x01'] ∧ ¬ PctWellFormed (s!! "%+1") := by
  refine ⟨by decide, ?_⟩
  intro h
  cases h with
  | char _ _ h => exact h rfl
  | triplet _ _ _ ha => revert ha; decide

/-! ## C08: POSIX paths and file URIs -/

/-- C08. Converting an absolute POSIX path to a file URI and back gives the path with its dot segments
removed as RFC 3986 5.2.4 prescribes. -/
theorem C08_path_uri_path (q : Str) (h : Bytes q) :
    uriToOsPath (osPathToUri ('/' :: q)) = .ok (Spec.removeDotSegments ('/' :: q)) := by
  rw [osPathToUri_abs]
  obtain ⟨r, hr, -⟩ := rds_segments q
  have hb : ∀ c ∈ removeDotSegments ('/' :: q), c.toNat < 256 := by
    intro c hc
    rcases List.mem_cons.1 (rds_mem hc) with rfl | hc
    · decide
    · exact h c hc
  have hu := split_file_uri (e := (removeDotSegments ('/' :: q)).flatMap encPathChar) ?_ ?_
  · unfold uriToOsPath
    rw [hu]
    simp only
    rw [if_neg (by simp), if_neg (by simp), decode_encPath hb, rds_rfc]
  · intro c hc
    simp only [List.mem_flatMap] at hc
    obtain ⟨d, hd, hc⟩ := hc
    rcases mem_encPathChar (hb d hd) hc with rfl | rfl | hc
    · decide
    · decide
    · intro hm
      have : ∀ x ∈ s!! "?#", isUnreserved x = false := by decide
      rw [this c hm] at hc; cases hc
  · rw [hr]; rfl

/-- C08. In particular a path without dot segments comes back unchanged. -/
theorem C08_roundtrip (q : Str) (h : Bytes q) (hd : NoDotSegments ('/' :: q)) :
    uriToOsPath (osPathToUri ('/' :: q)) = .ok ('/' :: q) := by
  rw [C08_path_uri_path q h, ← rds_rfc, rds_id]
  rw [noDots_iff] at hd
  intro s hs
  exact hd s (by simp [Py.split, hs])

example : NoDotSegments (s!! "/a b/%2F//c\n") := by rw [noDots_iff]; decide
example : osPathToUri (s!! "/a b/%2F//c") = s!! "file:///a%20b/%252F//c" := by decide

/-- A URI with a host other than localhost, or another scheme, is refused. -/
theorem C08_refuses (r : UriRef) (hw : WellFormed r) (hf : ∀ f, r.fragment = some f → '\n' ∉ f) :
    (∀ sch, r.scheme = some sch → sch ≠ s!! "file" → uriToOsPath (unsplitUriRef r) = .error .nonFileUri) ∧
    (∀ h, r.scheme = some (s!! "file") → r.authority = some h → h ≠ [] → h ≠ s!! "localhost" →
      uriToOsPath (unsplitUriRef r) = .error .unixRemoteHostFileUri) := by
  constructor
  · intro sch hs hne
    unfold uriToOsPath
    rw [split_unsplit hw hf]
    simp [hs, hne]
  · intro h hs ha h1 h2
    unfold uriToOsPath
    rw [split_unsplit hw hf]
    simp [hs, ha, h1, h2]

/-- C08. No host, an empty host and "localhost" all name the local file, with or without the scheme. -/
theorem C08_local_hosts (r : UriRef) (hw : WellFormed r) (hf : ∀ f, r.fragment = some f → '\n' ∉ f)
    (hs : r.scheme = some (s!! "file")) (ha : r.authority = some (s!! "localhost")) :
    (∃ p, uriToOsPath (unsplitUriRef r) = .ok p) ∧
    uriToOsPath (unsplitUriRef { r with authority := some [] }) = uriToOsPath (unsplitUriRef r) ∧
    uriToOsPath (unsplitUriRef { r with scheme := none }) = uriToOsPath (unsplitUriRef r) ∧
    ((∀ p, r.path ≠ '/' :: '/' :: p) →
      uriToOsPath (unsplitUriRef { r with authority := none }) = uriToOsPath (unsplitUriRef r)) := by
  obtain ⟨w1, w2, w3, w4, w5, w6, w7⟩ := hw
  have e0 : uriToOsPath (unsplitUriRef r) = .ok (percentDecode none (escapeSlash r.path)) := by
    unfold uriToOsPath
    rw [split_unsplit ⟨w1, w2, w3, w4, w5, w6, w7⟩ hf]
    simp [hs, ha]
  refine ⟨⟨_, e0⟩, ?_, ?_, ?_⟩
  · rw [e0]; unfold uriToOsPath
    rw [split_unsplit (r := { r with authority := some [] })
      ⟨w1, by simp, w3, w4, fun _ => w5 (by simp [ha]), by simp, by simp⟩ hf]
    simp [hs]
  · rw [e0]; unfold uriToOsPath
    rw [split_unsplit (r := { r with scheme := none }) ⟨by simp, w2, w3, w4, w5, w6, by simp [ha]⟩ hf]
    simp [ha]
  · intro hp
    rw [e0]; unfold uriToOsPath
    rw [split_unsplit (r := { r with authority := none })
      ⟨w1, by simp, w3, w4, by simp, fun _ => hp, by simp [hs]⟩ hf]
    simp [hs]

example : uriToOsPath (s!! "file://localhost/a%20b") = .ok (s!! "/a b") := by decide
example : uriToOsPath (s!! "file://host/x") = .error .unixRemoteHostFileUri := by decide

/-! ## C09: public identifiers and URNs (RFC 3151) -/

/-- The namespace-specific string of the URN is free of generic-URI delimiters and newlines. -/
theorem nss_chars {p : Str} (hp : ∀ c ∈ p, c.toNat < 256) :
    ∀ c ∈ Py.join (s!! ":") ((split2 '/' '/' p).map (fun d => Py.join (s!! ";")
      ((split2 ':' ':' d).map (percentEncode urnOpts)))), c ∈ unreserved ∨ c ∈ s!! "%+:;" := by
  have mj : ∀ (sep : Char) (l : List Str) (c : Char), c ∈ Py.join [sep] l → c = sep ∨ ∃ p ∈ l, c ∈ p := by
    intro sep l c
    induction l with
    | nil => simp [Py.join]
    | cons x l ih =>
      cases l with
      | nil => intro h; exact Or.inr ⟨x, by simp, h⟩
      | cons y l =>
        intro h
        simp only [Py.join, List.append_assoc, List.mem_append] at h
        rcases h with h | h | h
        · exact Or.inr ⟨x, by simp, h⟩
        · simp at h; exact Or.inl h
        · rcases ih h with h | ⟨p, hp, h⟩
          · exact Or.inl h
          · exact Or.inr ⟨p, by simp [hp], h⟩
  intro c hc
  rcases mj ':' _ c hc with rfl | ⟨x, hx, hc⟩
  · right; decide
  · obtain ⟨d, hd, rfl⟩ := List.mem_map.1 hx
    rcases mj ';' _ c hc with rfl | ⟨y, hy, hc⟩
    · right; decide
    · obtain ⟨e, he, rfl⟩ := List.mem_map.1 hy
      simp only [percentEncode, List.mem_flatMap] at hc
      obtain ⟨z, hz, hc⟩ := hc
      have hz' : z.toNat < 256 := hp z (mem_of_mem_split2 hd (mem_of_mem_split2 he hz))
      rcases mem_encodeByte_default hz' _ rfl hc with rfl | h | ⟨_, rfl⟩
      · right; decide
      · left; exact (unreserved_iff c).1 h
      · right; decide

theorem urn_core (p : Str) (hp : ∀ c ∈ p, c.toNat < 256) :
    urnToPublicId (s!! "urn:publicid:" ++ Py.join (s!! ":") ((split2 '/' '/' p).map (fun d => Py.join (s!! ";")
      ((split2 ':' ':' d).map (percentEncode urnOpts))))) = .ok p := by
  have hc := nss_chars hp
  have hd := nss_join_colon (split2 '/' '/' p) (fun q hq c hcc => hp c (mem_of_mem_split2 hq hcc)) []
  rw [(join_split2 '/' '/' p).1, nss_nil, List.append_nil, List.append_nil] at hd
  generalize Py.join (s!! ":") ((split2 '/' '/' p).map (fun d => Py.join (s!! ";")
      ((split2 ':' ':' d).map (percentEncode urnOpts)))) = x at hc hd
  have hq : ∀ c ∈ s!! "publicid:" ++ x, c ∉ s!! "?#" := by
    intro c hcm hm
    have h1 : ∀ y ∈ s!! "?#", y ∉ unreserved ∧ y ∉ s!! "%+:;" ∧ y ∉ s!! "publicid:" := by decide
    rcases List.mem_append.1 hcm with h | h
    · exact (h1 c hm).2.2 h
    · exact (hc c h).elim (h1 c hm).1 (h1 c hm).2.1
  have hwf : WellFormed ⟨some (s!! "urn"), none, s!! "publicid:" ++ x, none, none⟩ := by
    refine ⟨?_, by simp, hq, by simp, by simp, ?_, by simp⟩
    · intro s hs; simp at hs; subst hs; decide
    · intro _ r h; simp at h
  have hs := split_unsplit hwf (by simp)
  rw [unsplit_eq] at hs
  simp only [pre, post, List.append_nil, List.nil_append] at hs
  unfold urnToPublicId
  rw [if_neg (by simp)]
  have e : s!! "urn:publicid:" ++ x = s!! "urn" ++ s!! ":" ++ (s!! "publicid:" ++ x) := by simp
  rw [e, hs]
  simp only
  have e1 : (s!! "publicid:" ++ x).dropWhile (· ≠ ':') = ':' :: x :=
    dropWhile_ne_sep (a := s!! "publicid") (by decide)
  have e2 : (s!! "publicid:" ++ x).takeWhile (· ≠ ':') = s!! "publicid" :=
    takeWhile_ne_sep (a := s!! "publicid") (by decide)
  rw [e1, e2, if_pos (by decide)]
  simp only
  rw [if_pos (by decide)]
  exact congrArg _ hd

/-- C09. Converting a white-space normalised public identifier to a URN and back gives it back, for
every byte string (any number of "//", "::", "+", "%", ":", ";", non-ASCII octets, in any overlap). -/
theorem C09_roundtrip (p : Str) (hb : Bytes p) (hw : WsNormal p) :
    urnToPublicId (publicIdToUrn p) = .ok p := by
  unfold publicIdToUrn
  simp only
  rw [strip_id hw.first hw.last, condense_id hw.inner hw.single false (by simp)]
  exact urn_core p hb

example : WsNormal (s!! "+//IDN example.org//DTD XML Bookmarks 1.0::a:/;b//EN") ∧
    Bytes (s!! "+//IDN example.org//DTD XML Bookmarks 1.0::a:/;b//EN") :=
  ⟨⟨by decide, by decide, by decide, by decide⟩, by decide⟩
example : publicIdToUrn (s!! "+//IDN a b//c:::d") = s!! "urn:publicid:%2B:IDN+a+b:c;%3Ad" := by decide

/-- C09. Any other public identifier comes back white-space normalised, with the same other characters. -/
theorem C09_normalises (p : Str) (hb : Bytes p) :
    ∃ q, urnToPublicId (publicIdToUrn p) = .ok q ∧ WsNormal q ∧
      q.filter (· ∉ whiteSpace) = p.filter (· ∉ whiteSpace) := by
  refine ⟨condense false (strip p), ?_, ?_, ?_⟩
  · refine urn_core _ ?_
    intro c hc
    rcases mem_condense_strip hc with h | rfl
    · exact hb c h
    · decide
  · obtain ⟨h1, h2, -, -⟩ := condense_props (strip p) false
    obtain ⟨f, l⟩ := strip_ends p
    obtain ⟨f', l'⟩ := condense_ends (strip p) false
    refine ⟨h1, h2, ?_, ?_⟩
    · intro c hc
      cases hs : strip p with
      | nil => rw [hs] at hc; simp [condense] at hc
      | cons d t =>
        have hd := f d (by rw [hs]; rfl)
        rw [f' d (by rw [hs]; rfl) hd] at hc
        simp at hc; subst hc; exact hd
    · intro c hc
      rcases hs : (strip p).getLast? with _ | d
      · rw [List.getLast?_eq_none_iff.1 hs] at hc; simp [condense] at hc
      · have hd := l d hs
        rw [l' d hs hd] at hc
        simp at hc; subst hc; exact hd
  · rw [(condense_props (strip p) false).2.2.2, strip_filter]

/-- C09. The URN only contains unreserved characters and '%', '+', ':', ';' after its prefix. -/
theorem C09_alphabet (p : Str) (hb : Bytes p) :
    ∃ x, publicIdToUrn p = s!! "urn:publicid:" ++ x ∧ ∀ c ∈ x, c ∈ unreserved ∨ c ∈ s!! "%+:;" := by
  refine ⟨_, rfl, nss_chars ?_⟩
  intro c hc
  rcases mem_condense_strip hc with h | rfl
  · exact hb c h
  · decide

/-- C09. What is not a `urn:publicid:` URN is refused. -/
theorem C09_refuses (r : UriRef) (hw : WellFormed r) (hf : ∀ f, r.fragment = some f → '\n' ∉ f)
    (h : r.scheme = none ∨ ∃ s, r.scheme = some s ∧ s.map lower ≠ s!! "urn") :
    urnToPublicId (unsplitUriRef r) = .error .invalidPublicIdUrn := by
  unfold urnToPublicId
  split
  · rfl
  · rw [split_unsplit hw hf]
    rcases h with h | ⟨s, h, hne⟩
    · simp [h]
    · simp [h, hne]

/-! ## C11: iri_to_uri -/

/-- C11. ASCII input is returned unchanged. -/
theorem C11_ascii_unchanged (iri : List Nat) (h : ∀ c ∈ iri, c < 128) : iriToUri none iri = some iri :=
  iriToUri_ascii none iri h

/-- C11. Whenever `iri_to_uri` returns, the result is ASCII, provided U+0080 does not occur in the IRI (it
is let through: `C11_refuted_x80`). -/
theorem C11_ascii_result_partial (iri uri : List Nat) (h : iriToUri none iri = some uri) (h80 : 0x80 ∉ iri) :
    ∀ c ∈ uri, c < 128 := by
  intro c hc
  rcases iriToUri_out (by simp) h c hc with h | ⟨_, h⟩
  · exact h
  · exact absurd h h80

/-- C11. `iri_to_uri` is idempotent (same proviso). -/
theorem C11_idempotent_partial (iri uri : List Nat) (h : iriToUri none iri = some uri) (h80 : 0x80 ∉ iri) :
    iriToUri none uri = some uri :=
  iriToUri_ascii none uri (C11_ascii_result_partial iri uri h h80)

/-- C11. For every sequence of Unicode scalar values free of C1 controls, of '%' and of U+E000..U+FFFF,
`iri_to_uri` succeeds on its UTF-16 form, and percent-decoding the result gives its UTF-8 encoding. -/
theorem C11_decodes_back_partial (us : List Nat) (hs : ∀ n ∈ us, IsScalar n)
    (hc1 : ∀ n ∈ us, ¬ (128 ≤ n ∧ n < 160)) (hbmp : ∀ n ∈ us, ¬ (0xE000 ≤ n ∧ n < 0x10000))
    (hpc : '%'.toNat ∉ us) :
    ∃ uri octets, iriToUri none (us.flatMap utf16) = some uri ∧ Utf8Seq us octets ∧
      percentDecode none (uri.map Char.ofNat) = octets.map Char.ofNat := by
  have hconv : ∀ n ∈ us, convertible n := by
    intro n hn
    have h1 := hs n hn; have h2 := hc1 n hn; have h3 := hbmp n hn
    unfold IsScalar at h1; unfold convertible; omega
  refine ⟨_, us.flatMap utf8, iriToUri_scalars us hconv, utf8Seq_flatMap us ?_, decode_iri us hconv hpc⟩
  intro n hn
  have := hconv n hn; unfold convertible at this; omega

example : iriToUri none ([0x68, 0xE9, 0x1F600].flatMap utf16) =
    some ((s!! "h%C3%A9%F0%9F%98%80").map Char.toNat) := by decide

/-- U+0080 is not encoded, so the result is not ASCII. -/
theorem C11_refuted_x80 : iriToUri none [0x80] = some [0x80] := by decide
/-- The legal characters U+E000..U+FFFF (such as U+FF21) make `iri_to_uri` raise. -/
theorem C11_refuted_bmp : ∀ n, 0xE000 ≤ n → n < 0x10000 → iriToUri none [n] = none := by
  intro n h1 h2
  rw [iriToUri]
  simp only [show n > 128 by omega, show ¬ n < 160 by omega, show n > 55295 by omega,
    show ¬ n < 56320 by omega, show ¬ n < 57344 by omega, if_true, if_false]
/-- An unpaired high surrogate is silently dropped, or paired with a low surrogate further on. -/
theorem C11_refuted_surrogate : iriToUri none [0x61, 0xD83D, 0x62] = some [0x61, 0x62] ∧
    iriToUri none [0xD83D, 0x62, 0xDE00] = some ((s!! "b%F0%9F%98%80").map Char.toNat) := by decide

/-! ## C12: normalisation -/

/-- C12. `normalize_path_segments` is idempotent. -/
theorem C12_path_idempotent (p : Str) :
    normalizePathSegments (normalizePathSegments p) = normalizePathSegments p := by
  cases p with
  | nil => rfl
  | cons c q =>
    by_cases h : c = '/'
    · subst h
      obtain ⟨r, hr, -⟩ := rds_segments q
      have e : normalizePathSegments ('/' :: q) = removeDotSegments ('/' :: q) := by
        simp [normalizePathSegments]
      rw [e]
      have e2 : normalizePathSegments (removeDotSegments ('/' :: q)) =
          removeDotSegments (removeDotSegments ('/' :: q)) := by
        rw [hr]; simp [normalizePathSegments]
      rw [e2, rds_idem]
    · simp [normalizePathSegments, h]

/-- C12. `normalize_path_segments` leaves relative paths alone and applies RFC 3986 5.2.4 to others. -/
theorem C12_path_meaning (p : Str) : normalizePathSegments p =
    if p.head? = some '/' then Spec.removeDotSegments p else p := by
  cases p with
  | nil => rfl
  | cons c q =>
    by_cases h : c = '/'
    · subst h; simp [normalizePathSegments, rds_rfc]
    · simp [normalizePathSegments, h]

/-- C12. `normalize_percent_encoding` decodes exactly the triplets that denote unreserved characters
(RFC 3986 6.2.2.2), on strings in which every '%' begins a triplet. -/
theorem C12_percent_meaning_partial (s : Str) (h : PctWellFormed s) : NormalizesPct s (normalizePercentEncoding s) :=
  normalize_spec h

/-- C12. `normalize_percent_encoding` is idempotent on those strings. -/
theorem C12_percent_idempotent_partial (s : Str) (h : PctWellFormed s) :
    normalizePercentEncoding (normalizePercentEncoding s) = normalizePercentEncoding s := by
  obtain ⟨h1, h2⟩ := NormalizesPct.fix (normalize_spec h)
  exact NormalizesPct.unique (normalize_spec h1) h2

example : PctWellFormed (s!! "%7Ea%2fb") :=
  .triplet '7' 'E' _ (by decide) (by decide) (.char _ _ (by decide)
    (.triplet '2' 'f' _ (by decide) (by decide) (.char _ _ (by decide) .nil)))
example : normalizePercentEncoding (s!! "%7Ea%2fb") = s!! "~a%2fb" := by decide

/-- On malformed input it is not idempotent: decoding may create a new triplet. -/
theorem C12_percent_refuted : normalizePercentEncoding (s!! "%%341") = s!! "%41" ∧
    normalizePercentEncoding (s!! "%41") = s!! "A" := by decide

/-- C12. `normalize_case` is idempotent, on every component tuple, with and without host normalisation. -/
theorem C12_case_idempotent (doHost : Bool) (r : UriRef) :
    normalizeCase doHost (normalizeCase doHost r) = normalizeCase doHost r := by
  rcases r with ⟨sch, au, path, q, f⟩
  simp only [normalizeCase, UriRef.mk.injEq, Option.map_map, up_idem]
  refine ⟨?_, ?_, trivial, ?_, ?_⟩
  · cases sch with
    | none => rfl
    | some s => simp [up_lower, lower_props]
  · cases au with
    | none => rfl
    | some a =>
      cases doHost with
      | false => simp [up_idem]
      | true => simp [normAuth_fix (up_idem a)]
  · cases q <;> simp [up_idem]
  · cases f <;> simp [up_idem]

/-- C12. Apart from the host and scheme, `normalize_case` changes nothing but the case of letters: every
component of the result equals the original up to letter case. -/
theorem C12_case_only (r : UriRef) :
    (normalizeCase false r).scheme.map (·.map lower) = r.scheme.map (·.map lower) ∧
    (normalizeCase false r).authority.map (·.map lower) = r.authority.map (·.map lower) ∧
    (normalizeCase false r).path.map lower = r.path.map lower ∧
    (normalizeCase false r).query.map (·.map lower) = r.query.map (·.map lower) ∧
    (normalizeCase false r).fragment.map (·.map lower) = r.fragment.map (·.map lower) := by
  rcases r with ⟨sch, au, path, q, f⟩
  refine ⟨?_, ?_, up_lower path, ?_, ?_⟩
  · cases sch <;> simp only [normalizeCase, Option.map_none, Option.map_some, up_lower, map_lower_idem]
  · cases au <;> simp [normalizeCase, up_lower]
  · cases q <;> simp [normalizeCase, up_lower]
  · cases f <;> simp [normalizeCase, up_lower]

theorem lower_eq (c : Char) : lower c = c.toLower := by
  by_cases h : c.toNat < 128
  · exact char_lt_of (P := fun c => lower c = c.toLower) 128 h (by decide +kernel)
  · have h1 : lower c = c := Classical.byContradiction (fun hh => h (lower_lt hh))
    rw [h1]
    unfold Char.toLower
    rw [dif_neg]
    intro hh
    apply h
    change c.val.toNat < 128
    have := hh.2
    rw [UInt32.le_iff_toNat_le] at this
    have e : ('Z' : Char).val.toNat = 90 := rfl
    simp at this
    omega

theorem isLowerHex_mem (c : Char) : isLowerHex c = true ↔ c ∈ s!! "0123456789abcdef" := by
  constructor
  · intro h
    have := isLowerHex_lt h
    revert h
    exact char_lt_of (P := fun c => isLowerHex c = true → c ∈ s!! "0123456789abcdef") 128 this (by decide +kernel)
  · revert c; simp only [List.forall_mem_cons]; decide

theorem upper_hex_eq {c : Char} (h : isLowerHex c = true) : upper c = c.toUpper := by
  have := isLowerHex_lt h
  revert h
  exact char_lt_of (P := fun c => isLowerHex c = true → upper c = c.toUpper) 128 this (by decide +kernel)

theorem up_spec {s : Str} (h : PctWellFormed s) : UpperCasesTriplets s (upperTriplets s) := by
  induction h with
  | nil => rw [up_nil]; exact .nil
  | char c s hc _ ih => rw [up_cons hc]; exact .char c _ _ hc ih
  | triplet a b s ha hb _ ih =>
    by_cases hh : isLowerHex a = true ∧ isLowerHex b = true
    · rw [up_triplet hh.1 hh.2, upper_hex_eq hh.1, upper_hex_eq hh.2]
      exact .raised a b _ _ ((isLowerHex_mem a).1 hh.1) ((isLowerHex_mem b).1 hh.2) ih
    · rw [up_other, up_cons (hexAny_ne_pct ha), up_cons (hexAny_ne_pct hb)]
      · refine .kept a b _ _ ha hb ?_ ih
        simp only [isLowerHex_mem] at hh
        by_cases h1 : a ∈ s!! "0123456789abcdef"
        · right; intro h2; exact hh ⟨h1, h2⟩
        · exact Or.inl h1
      · intro x y r e
        simp only [List.cons.injEq] at e
        rw [← e.1, ← e.2.1]; exact hh

/-- C12. What `normalize_case` does, component by component: the scheme is lower-cased; path, query and
fragment (and the authority if the host is left alone) get upper-case triplets. For a well-formed component. -/
theorem C12_case_meaning (doHost : Bool) (r : UriRef) :
    (normalizeCase doHost r).scheme = r.scheme.map (·.map Char.toLower) ∧
    (PctWellFormed r.path → UpperCasesTriplets r.path (normalizeCase doHost r).path) ∧
    (∀ q, r.query = some q → PctWellFormed q →
      ∃ q', (normalizeCase doHost r).query = some q' ∧ UpperCasesTriplets q q') ∧
    (∀ f, r.fragment = some f → PctWellFormed f →
      ∃ f', (normalizeCase doHost r).fragment = some f' ∧ UpperCasesTriplets f f') ∧
    (∀ a, r.authority = some a → PctWellFormed a →
      ∃ a', (normalizeCase false r).authority = some a' ∧ UpperCasesTriplets a a') ∧
    ((r.query = none → (normalizeCase doHost r).query = none) ∧
     (r.fragment = none → (normalizeCase doHost r).fragment = none) ∧
     (r.authority = none → (normalizeCase doHost r).authority = none)) := by
  refine ⟨?_, up_spec, ?_, ?_, ?_, ?_, ?_, ?_⟩
  · unfold normalizeCase
    cases r.scheme with
    | none => rfl
    | some s =>
      simp only [Option.map_some, up_lower]
      rw [show lower = Char.toLower from funext lower_eq]
  · intro q hq hw; exact ⟨_, by unfold normalizeCase; rw [hq]; rfl, up_spec hw⟩
  · intro q hq hw; exact ⟨_, by unfold normalizeCase; rw [hq]; rfl, up_spec hw⟩
  · intro q hq hw; exact ⟨_, by unfold normalizeCase; rw [hq]; rfl, up_spec hw⟩
  all_goals (intro h; unfold normalizeCase; rw [h]; rfl)

/-- C12. With host normalisation, the host of an authority `userinfo@host:port` is lower-cased, and
userinfo and port are treated like every other component. -/
theorem C12_host_meaning (r : UriRef) (u : Option Str) (h : Str) (p : Option Str)
    (hr : r.authority = some (post ['@'] u ++ h ++ pre [':'] p))
    (h1 : ∀ x, u = some x → '@' ∉ x) (h2 : '@' ∉ h) (h3 : ':' ∉ h)
    (h4 : ∀ q, p = some q → '@' ∉ q ∧ '\n' ∉ q) :
    (normalizeCase true r).authority =
      some (post ['@'] (u.map upperTriplets) ++ h.map Char.toLower ++ pre [':'] (p.map upperTriplets)) := by
  have mem_up : ∀ (x : Str) (c : Char), c ∉ s!! "0123456789ABCDEF" → c ∈ upperTriplets x → c ∈ x := by
    intro x c hc hm
    have : ∀ (x y : Str), Pointwise UpRel x y → c ∈ y → c ∈ x := by
      intro x y hp
      induction hp with
      | nil => simp
      | cons hr _ ih =>
        intro hm
        simp only [List.mem_cons] at hm ⊢
        rcases hm with rfl | hm
        · rcases hr with rfl | ⟨hx, rfl⟩
          · exact Or.inl rfl
          · exfalso; apply hc
            have := isLowerHex_lt hx
            revert hx
            exact char_lt_of (P := fun c => isLowerHex c = true → upper c ∈ s!! "0123456789ABCDEF") 128 this (by decide +kernel)
        · exact Or.inr (ih hm)
    exact this _ _ (up_rel x) hm
  unfold normalizeCase
  rw [hr, ← joinAuth_eq]
  simp only [Option.map_some, if_true, up_joinAuth]
  unfold normAuth
  rw [splitAuthority_join]
  · simp only [up_lower]
    rw [joinAuth_eq, show lower = Char.toLower from funext lower_eq]
  · intro x hx
    rw [Option.map_eq_some_iff] at hx
    obtain ⟨y, hy, rfl⟩ := hx
    exact fun hm => h1 y hy (mem_up _ _ (by decide) hm)
  · intro _
    refine ⟨fun hm => h2 (mem_up _ _ (by decide) hm), ?_⟩
    intro x hx
    rw [Option.map_eq_some_iff] at hx
    obtain ⟨y, hy, rfl⟩ := hx
    exact fun hm => (h4 y hy).1 (mem_up _ _ (by decide) hm)
  · exact fun hm => h3 (mem_up _ _ (by decide) hm)
  · intro x hx
    rw [Option.map_eq_some_iff] at hx
    obtain ⟨y, hy, rfl⟩ := hx
    exact fun hm => (h4 y hy).2 (mem_up _ _ (by decide) hm)

example : normalizeCase true ⟨some (s!! "HTTP"), some (s!! "U%c3@EX.org:80"), s!! "/%c3%a9", none, none⟩ =
  ⟨some (s!! "http"), some (s!! "U%C3@ex.org:80"), s!! "/%C3%A9", none, none⟩ := by decide

/-- The documentation promises upper-case triplets; a triplet of mixed case is left as it is. -/
theorem C12_case_mixed_refuted : (normalizeCase false ⟨none, none, s!! "%aB%Ab", none, none⟩).path =
    s!! "%aB%Ab" := by decide

end Verif.Iri
