import Verif.Xslt.Rd.Document
/-
The cache of element classes that all readers share, after any documents have been read.
-/
namespace Verif.Xslt.Rd
open Verif.Write (UStr)
variable {N : Type}

/-- The cache that a reader leaves, also after an exception. -/
def leaves (r : Except (Err × Reader N) (Reader N × Read)) : List (UStr × Class) :=
  match r with
  | .ok (rd, _) => rd.cache
  | .error (_, rd) => rd.cache

/-- The cache after documents have been read, each by a new reader, with or without success
(reader/__init__.py:320: a default argument, one for the life of the program). -/
def cacheAfter (H : Hooks N) : List Doc → List (UStr × Class) → List (UStr × Class)
  | [], cache => cache
  | d :: ds, cache => cacheAfter H ds (leaves (readDoc H d (Reader.new cache)))

/-- The same for one event. -/
def resCache (r : Res N) : List (UStr × Class) :=
  match r with
  | .ok rd => rd.cache
  | .error (_, rd) => rd.cache

/-- A cache that knows, apart from the elements of XSLT, only names of `S`. -/
def Holds (S : UStr → Prop) (cache : List (UStr × Class)) : Prop := ∃ seen, Agrees cache seen ∧ ∀ l ∈ seen, S l

theorem classify_keeps (H : Hooks N) {S : UStr → Prop} {cache : List (UStr × Class)} (hc : Holds S cache) (fc : Bool)
    (ext : List (Option UStr)) (name : Name) (hn : name.1 = some xslNs → (Spec.find name.2 Spec.elements).isSome = true ∨ S name.2)
    {r : List (UStr × Class) × Class} (h : classify H cache fc ext name = .ok r) : Holds S r.1 := by
  obtain ⟨seen, ha, hs⟩ := hc
  have := classify_spec H cache { fc, ext, cur := [], vis := [], top := false } seen ha name
  dsimp only at this
  rw [h] at this
  rcases this with ⟨k, r', hk, hr, _, _, _, hag⟩ | ⟨_, e, he⟩
  · cases hr
    refine ⟨_, hag, ?_⟩
    split
    · rename_i hku
      subst hku
      intro l hl
      rcases List.mem_cons.1 hl with rfl | hl
      · unfold Spec.kind at hk
        split at hk
        · rename_i hx
          rcases hn hx with h' | h'
          · rw [h'] at hk; cases hk
          · exact h'
        · split at hk
          · split at hk <;> cases hk
          · cases hk
      · exact hs l hl
    · exact hs
  · cases he

theorem start_keeps (H : Hooks N) {S : UStr → Prop} {rd : Reader N} (hc : Holds S rd.cache) (s : Start N)
    (hn : s.name.1 = some xslNs → (Spec.find s.name.2 Spec.elements).isSome = true ∨ S s.name.2) :
    Holds S (resCache (startElement H s rd)) := by
  unfold startElement
  split
  · exact hc
  · dsimp only
    split
    · exact hc
    · rename_i cache c h
      have := classify_keeps H hc _ _ _ hn h
      split
      · exact this
      · split <;> exact this

theorem andThen_keeps {S : UStr → Prop} {r : Res N} (hr : Holds S (resCache r)) {k : Reader N → Res N}
    (hk : ∀ rd, Holds S rd.cache → Holds S (resCache (k rd))) : Holds S (resCache (andThen r k)) := by
  cases r with
  | ok rd => exact hk rd hr
  | error e => exact hr

theorem bind_keeps (f p : Frame N) (rest : List (Frame N)) (rd : Reader N) : resCache (bindVariable f p rest rd) = rd.cache := by
  unfold bindVariable
  dsimp only
  split
  · split
    · split
      · split <;> rfl
      · split
        · rfl
        · split
          · rfl
          · split <;> rfl
    · rfl
  · rfl

theorem endPlain_keeps (rd : Reader N) : resCache (endPlain rd) = rd.cache := by
  unfold endPlain
  split
  · split
    · rfl
    · exact bind_keeps _ _ _ _
  · rfl

theorem append_keeps (t : Tree) (rd : Reader N) : resCache (appendTop t rd) = rd.cache := by
  unfold appendTop
  split <;> rfl

theorem end_keeps (H : Hooks N) {S : UStr → Prop} {rd : Reader N} (hc : Holds S rd.cache) :
    Holds S (resCache (endElement H rd)) := by
  unfold endElement
  split
  · split
    · split
      · exact hc
      · split
        · exact hc
        · split
          · exact hc
          · refine andThen_keeps (by apply start_keeps H; exact hc; exact fun _ => .inl rfl) fun rd1 h1 => ?_
            refine andThen_keeps (by apply start_keeps H; exact h1; exact fun _ => .inl rfl) fun rd2 h2 => ?_
            refine andThen_keeps (by rw [append_keeps]; exact h2) fun rd3 h3 => ?_
            refine andThen_keeps (by rw [endPlain_keeps]; exact h3) fun rd4 h4 => ?_
            rw [endPlain_keeps]; exact h4
    · rw [endPlain_keeps]; exact hc
  · exact hc

theorem chars_keeps (s : UStr) (rd : Reader N) : resCache (characters s rd) = rd.cache := by
  unfold characters
  split
  · rfl
  · split <;> rfl

mutual
theorem run_keeps (H : Hooks N) {S : UStr → Prop} : ∀ (d : Doc) (rd : Reader N), Holds S rd.cache →
    (∀ l ∈ Spec.unknowns d, S l) → Holds S (resCache (run H d rd))
  | .text s, rd, hc, _ => by rw [run, chars_keeps]; exact hc
  | .elem name decls attrs kids, rd, hc, hn => by
    have hs := start_keeps H hc { name, decls, attrs := attrs.map (fun a => (a.1, .str a.2)) } (fun hx => by
      cases hf : (Spec.find name.2 Spec.elements).isSome with
      | true => exact .inl rfl
      | false => exact .inr (hn _ (by rw [Spec.unknowns, if_pos ⟨hx, by simpa using hf⟩]; exact .head _)))
    rw [run]
    split
    · rename_i e he; rw [he] at hs; exact hs
    · rename_i rd1 he
      rw [he] at hs
      have h2 := runs_keeps H kids rd1 hs (fun l hl => hn l (by
        rw [Spec.unknowns]; split
        · exact .tail _ hl
        · exact hl))
      split
      · rename_i e he; rw [he] at h2; exact h2
      · rename_i rd2 he; rw [he] at h2; exact end_keeps H h2
theorem runs_keeps (H : Hooks N) {S : UStr → Prop} : ∀ (ds : List Doc) (rd : Reader N), Holds S rd.cache →
    (∀ l ∈ Spec.unknownss ds, S l) → Holds S (resCache (runs H ds rd))
  | [], rd, hc, _ => by rw [runs]; exact hc
  | d :: ds, rd, hc, hn => by
    rw [Spec.unknownss] at hn
    have h1 := run_keeps H d rd hc (fun l hl => hn l (List.mem_append_left _ hl))
    rw [runs]
    split
    · rename_i e he; rw [he] at h1; exact h1
    · rename_i rd1 he
      rw [he] at h1
      exact runs_keeps H ds rd1 h1 (fun l hl => hn l (List.mem_append_right _ hl))
end

theorem readDoc_keeps (H : Hooks N) {S : UStr → Prop} (d : Doc) (rd : Reader N) (hc : Holds S rd.cache)
    (hn : ∀ l ∈ Spec.unknowns d, S l) : Holds S (leaves (readDoc H d rd)) := by
  have := run_keeps H d (startDocument rd) hc hn
  unfold readDoc
  split
  · rename_i e he; rw [he] at this; exact this
  · rename_i rd1 he
    rw [he] at this
    unfold endDocument
    split
    · exact this
    · dsimp only
      split
      · split <;> exact this
      · exact this
      · split <;> exact this

theorem cacheAfter_keeps (H : Hooks N) {S : UStr → Prop} : ∀ (ds : List Doc) (cache : List (UStr × Class)), Holds S cache →
    (∀ d ∈ ds, ∀ l ∈ Spec.unknowns d, S l) → Holds S (cacheAfter H ds cache)
  | [], _, hc, _ => hc
  | d :: ds, cache, hc, hn => by
    rw [cacheAfter]
    exact cacheAfter_keeps H ds _ (readDoc_keeps H d _ hc (hn d (.head _))) (fun d' h => hn d' (.tail _ h))

/-- At the start of the program the cache is empty. -/
theorem empty_holds (S : UStr → Prop) : Holds S [] := ⟨[], ⟨nofun, fun _ _ => nofun⟩, nofun⟩

/-! A document without unknown XSLT elements means the same whatever has been met before. -/

def withSeen (seen : List UStr) (n : Spec.Node) : Spec.Node := { n with st := { n.st with seen } }
def withSeenC (seen : List UStr) (n : Spec.Content) : Spec.Content := { n with st := { n.st with seen } }

mutual
theorem node_seen (H : Hooks N) (c : Spec.Ctx) : ∀ (d : Doc) (st : Spec.St) (seen : List UStr), Spec.unknowns d = [] →
    Spec.node H c d { st with seen } = (Spec.node H c d st).map (withSeen seen)
  | .text s, st, seen, _ => by rw [Spec.node, Spec.node]; rfl
  | .elem name decls attrs kids, st, seen, hu => by
    rw [Spec.unknowns] at hu
    have hkind : Spec.kind H c seen name = Spec.kind H c st.seen name := by
      unfold Spec.kind
      split
      · rename_i hx
        split
        · rfl
        · rename_i hf
          rw [if_pos ⟨hx, by simpa using hf⟩] at hu; cases hu
      · rfl
    have hku : ∀ k, Spec.kind H c st.seen name = some k → k ≠ .undefinedXslt := by
      rintro k hk rfl
      unfold Spec.kind at hk
      split at hk
      · rename_i hx
        split at hk
        · cases hk
        · rename_i hf
          rw [if_pos ⟨hx, by simpa using hf⟩] at hu; cases hu
      · split at hk
        · split at hk <;> cases hk
        · cases hk
    have hkids : Spec.unknownss kids = [] := by
      split at hu
      · cases hu
      · exact hu
    rw [Spec.node, Spec.node]
    dsimp only
    rw [hkind]
    cases hk : Spec.kind H c st.seen name with
    | none => rfl
    | some k =>
      dsimp only
      rw [if_neg (hku k hk), if_neg (hku k hk), content_seen H _ kids st seen hkids]
      generalize Spec.content H _ kids _ = r
      split
      · cases r with
        | none => rfl
        | some r =>
          simp only [Option.map_some, withSeenC]
          split <;> simp [withSeen]
      · rfl
theorem content_seen (H : Hooks N) (c : Spec.Ctx) : ∀ (ds : List Doc) (st : Spec.St) (seen : List UStr), Spec.unknownss ds = [] →
    Spec.content H c ds { st with seen } = (Spec.content H c ds st).map (withSeenC seen)
  | [], st, seen, _ => by rw [Spec.content, Spec.content]; rfl
  | d :: ds, st, seen, hu => by
    rw [Spec.unknownss, List.append_eq_nil_iff] at hu
    rw [Spec.content, Spec.content, node_seen H c d st seen hu.1]
    cases Spec.node H c d st with
    | none => rfl
    | some n =>
      simp only [Option.map_some, withSeen]
      cases n.binds with
      | none =>
        dsimp only
        rw [content_seen H c ds n.st seen hu.2]
        cases Spec.content H c ds n.st <;> rfl
      | some v =>
        dsimp only
        split
        · split
          · rfl
          · have := content_seen H c ds { n.st with globals := v :: n.st.globals } seen hu.2
            dsimp only at this
            rw [this]
            cases Spec.content H c ds _ <;> rfl
        · split
          · rfl
          · rw [content_seen H _ ds n.st seen hu.2]
            cases Spec.content H _ ds n.st <;> rfl
end

theorem document_seen (H : Hooks N) (d : Doc) (seen : List UStr) (hu : Spec.unknowns d = []) :
    Spec.document H seen d = Spec.document H [] d := by
  cases d with
  | text s => rfl
  | elem name decls attrs kids =>
    rw [Spec.document, Spec.document, node_seen H Spec.outside _ { globals := [], seen := [] } seen hu]
    cases Spec.node H Spec.outside _ _ <;> rfl

end Verif.Xslt.Rd
