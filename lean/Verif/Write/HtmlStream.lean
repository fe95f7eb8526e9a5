import Verif.Write.HtmlSpec
import Verif.Write.CallLemmas
import Verif.Write.DocLemmas

/-
What the stream methods write for the HTML printer, as characters.
-/
namespace Verif.Write.Html
open Verif Verif.Write
open Verif.Write.Spec (Charwise AsciiSuperset Legal Encodable LegalText Raw)

/-- What is written for a string in an attribute value. -/
def escAttr (enc : Codec) (m : HMap) : UStr → UStr
  | [] => []
  | c :: s => (match m.lookup c with
      | some r => replacement (c :: s) r
      | none => orRef enc c) ++ escAttr enc m s

/-- The characters written by a call. -/
def hopText (wide : Bool) (enc : Codec) : HOp → UStr
  | .base op => opText wide enc op
  | .escapeAttr s m => escAttr enc m (sanitize wide s)

def hopsText (wide : Bool) (enc : Codec) (ops : List HOp) : UStr := ops.flatMap (hopText wide enc)

theorem hopsText_append (wide : Bool) (enc : Codec) (a b : List HOp) :
    hopsText wide enc (a ++ b) = hopsText wide enc a ++ hopsText wide enc b := by
  simp [hopsText]

theorem hopsText_cons (wide : Bool) (enc : Codec) (a : HOp) (b : List HOp) :
    hopsText wide enc (a :: b) = hopText wide enc a ++ hopsText wide enc b := by
  simp [hopsText]

@[simp] theorem hopsText_nil (wide : Bool) (enc : Codec) : hopsText wide enc [] = [] := rfl

theorem hopsText_bases (wide : Bool) (enc : Codec) (ops : List Op) :
    hopsText wide enc (bases ops) = opsText wide enc ops := by
  induction ops with
  | nil => rfl
  | cons op ops ih =>
    rw [opsText_cons, ← ih]
    exact hopsText_cons wide enc (.base op) (bases ops)

/-- Replacement texts are ASCII. -/
def AsciiHMap (m : HMap) : Prop := ∀ c r, m.lookup c = some (.str r) → Ascii r

def HOpOk : HOp → Prop
  | .base op => OpOk op
  | .escapeAttr _ m => AsciiHMap m

theorem replacement_ascii {m : HMap} (hm : AsciiHMap m) {c : Nat} {s : UStr} {r : Repl} (h : m.lookup c = some r) :
    Ascii (replacement (c :: s) r) := by
  cases r with
  | str r => exact hm c r h
  | amp =>
    show Ascii (ampEscape (c :: s))
    unfold ampEscape
    split <;> (intro x hx; simp at hx; omega)

theorem escapeLoop_adds {m : HMap} (hm : AsciiHMap m) (s : UStr) : ∀ (chunk : UStr) {st : Stream}, Sound st →
    ∃ st', escapeLoop st m chunk s = .ok st' ∧
      Adds st st' (chunk.flatMap (orRef st.enc) ++ escAttr st.enc m s) := by
  induction s with
  | nil =>
    intro chunk st hs
    exact ⟨_, rfl, by simpa [escAttr] using writeChunk_adds chunk hs⟩
  | cons c s ih =>
    intro chunk st hs
    unfold escapeLoop
    cases hl : m.lookup c with
    | none =>
      obtain ⟨st', h1, h2⟩ := ih (chunk ++ [c]) hs
      refine ⟨st', h1, ?_⟩
      simpa [escAttr, hl] using h2
    | some r =>
      have h1 := writeChunk_adds chunk hs
      have hs1 := h1.sound hs
      obtain ⟨st2, h2, h3⟩ := writeAscii_adds hs1 (replacement_ascii hm (s := s) hl)
      dsimp only
      rw [h2]
      have h13 := h1.trans hs.1 h3
      have hs2 := h13.sound hs
      obtain ⟨st', h4, h5⟩ := ih [] hs2
      refine ⟨st', h4, ?_⟩
      have he : st2.enc = st.enc := by obtain ⟨_, _, _, he, _⟩ := h13; exact he
      have h6 := h13.trans hs.1 h5
      rw [he] at h6
      simpa [escAttr, hl] using h6

/-- The strings that are written without escaping can be encoded. -/
def HOpEncodable (enc : Codec) : HOp → Prop
  | .base op => OpEncodable enc op
  | _ => True

theorem hrun_adds (wide : Bool) {st : Stream} (hs : Sound st) {op : HOp} (ho : HOpOk op) :
    (HOpEncodable st.enc op → ∃ st', op.run wide st = .ok st') ∧
    ∀ st', op.run wide st = .ok st' → Adds st.flushBom st' (hopText wide st.enc op) := by
  cases op with
  | base op => exact run_adds wide hs ho
  | escapeAttr s m =>
    have hf := flushBom_sound hs
    obtain ⟨st', h1, h2⟩ := escapeLoop_adds ho (sanitize wide s) [] hf
    refine ⟨fun _ => ⟨st', h1⟩, fun st'' h => ?_⟩
    rw [HOp.run, h1] at h; cases h
    rw [flushBom_enc] at h2
    simpa [hopText] using h2

/-- All calls: what is on the stream afterwards encodes the text of the calls. -/
theorem runHOps_adds (wide : Bool) : ∀ (ops : List HOp) {st : Stream}, Sound st → st.bom = none →
    (∀ op ∈ ops, HOpOk op) →
    ((∀ op ∈ ops, HOpEncodable st.enc op) → ∃ st', runHOps wide st ops = .ok st') ∧
    ∀ st', runHOps wide st ops = .ok st' → Adds st st' (hopsText wide st.enc ops) := by
  intro ops
  induction ops with
  | nil =>
    intro st hs _ _
    refine ⟨fun _ => ⟨st, rfl⟩, fun st' h => ?_⟩
    cases h; exact .refl hs.1
  | cons op ops ih =>
    intro st hs hb ho
    have hr := hrun_adds wide hs (ho op (by simp))
    rw [flushBom_none hb] at hr
    unfold runHOps
    constructor
    · intro he
      obtain ⟨st1, h1⟩ := hr.1 (he op (by simp))
      have ha := hr.2 _ h1
      rw [h1]
      have hs1 := ha.sound hs
      obtain ⟨_, _, _, e1, _, b1⟩ := ha
      exact (ih hs1 (b1.trans hb) (fun o h => ho o (by simp [h]))).1
        (fun o h => by rw [e1]; exact he o (by simp [h]))
    · intro st' h
      cases h1 : op.run wide st with
      | error e => rw [h1] at h; cases h
      | ok st1 =>
        rw [h1] at h
        have ha := hr.2 _ h1
        have hs1 := ha.sound hs
        have h2 : st1.enc = st.enc ∧ st1.bom = none := by
          obtain ⟨_, _, _, e1, _, b1⟩ := ha
          exact ⟨e1, b1.trans hb⟩
        have h3 := (ih hs1 h2.2 (fun o h => ho o (by simp [h]))).2 st' h
        rw [h2.1] at h3
        rw [hopsText_cons]
        exact ha.trans hs.1 h3

/-- The byte order mark is written before the first operation. -/
theorem runHOps_flush (wide : Bool) (st : Stream) (op : HOp) (ops : List HOp) :
    runHOps wide st (op :: ops) = runHOps wide st.flushBom (op :: ops) := by
  have h : st.flushBom.flushBom = st.flushBom := flushBom_none (flushBom_bom st)
  cases op with
  | base op =>
    cases op <;> simp only [runHOps, HOp.run, Op.run, Stream.writeAscii, Stream.writeEncode, Stream.writeEscape, h]
  | escapeAttr s m => simp only [runHOps, HOp.run, h]

/-- Operations on a new stream. -/
theorem runHOps_new (wide : Bool) {st : Stream} (hs : Sound st) {ops : List HOp} (hne : ops ≠ [])
    (hok : ∀ op ∈ ops, HOpOk op) :
    ((∀ op ∈ ops, HOpEncodable st.enc op) → ∃ st', runHOps wide st ops = .ok st') ∧
    ∀ st', runHOps wide st ops = .ok st' →
      ∃ b, st.enc (hopsText wide st.enc ops) = some b ∧ st'.out = st.out ++ bomBytes st ++ b := by
  have key : runHOps wide st ops = runHOps wide st.flushBom ops := by
    cases ops with
    | nil => exact absurd rfl hne
    | cons op ops => exact runHOps_flush wide st op ops
  obtain ⟨h1, h2⟩ := runHOps_adds wide ops (flushBom_sound hs) (flushBom_bom st) hok
  rw [flushBom_enc] at h1 h2
  rw [key]
  refine ⟨h1, fun st' h => ?_⟩
  obtain ⟨b, hb, ho, _⟩ := h2 st' h
  rw [flushBom_enc] at hb
  rw [flushBom_out] at ho
  exact ⟨b, hb, ho⟩

end Verif.Write.Html
