import Verif.Write.Spec

/-
What the stream methods write, as characters: the bytes on the stream are the encoding of these.
-/
namespace Verif.Write
open Verif Verif.Write.Spec

/-- What is written for a character. -/
def escChar (enc : Codec) (m : EntityMap) (c : Nat) : UStr :=
  match m.lookup c with
  | some r => r
  | none => if enc [c] = none then charref c else [c]

/-- The characters written by a call. -/
def opText (wide : Bool) (enc : Codec) : Op → UStr
  | .ascii s | .encode s => s
  | .escape s m => (sanitize wide s).flatMap (escChar enc m)
  | .fail _ => []

def opsText (wide : Bool) (enc : Codec) (ops : List Op) : UStr := ops.flatMap (opText wide enc)

theorem opsText_append (wide : Bool) (enc : Codec) (a b : List Op) :
    opsText wide enc (a ++ b) = opsText wide enc a ++ opsText wide enc b := by
  simp [opsText]

theorem opsText_cons (wide : Bool) (enc : Codec) (a : Op) (b : List Op) :
    opsText wide enc (a :: b) = opText wide enc a ++ opsText wide enc b := by
  simp [opsText]

@[simp] theorem opsText_nil (wide : Bool) (enc : Codec) : opsText wide enc [] = [] := rfl

def Ascii (s : UStr) : Prop := ∀ c ∈ s, c < 128

/-- Replacement texts are ASCII. -/
def AsciiMap (m : EntityMap) : Prop := ∀ p ∈ m, Ascii p.2

def OpOk : Op → Prop
  | .ascii s => Ascii s
  | .encode _ => True
  | .escape _ m => AsciiMap m
  | .fail _ => False

/-- A stream on which markup and references are written correctly. -/
def Sound (st : Stream) : Prop :=
  Charwise st.enc ∧ (if st.asciiSafe then AsciiSuperset st.enc else ∀ c, st.enc [c] ≠ none)

theorem charwise_append {enc : Codec} (h : Charwise enc) : ∀ {s t : UStr} {a b : Bytes},
    enc s = some a → enc t = some b → enc (s ++ t) = some (a ++ b) := by
  intro s
  induction s with
  | nil =>
    intro t a b ha hb
    rw [h.nil] at ha; cases ha; simpa using hb
  | cons c s ih =>
    intro t a b ha hb
    rw [h.cons] at ha
    rw [List.cons_append, h.cons]
    cases h1 : enc [c] with
    | none => rw [h1] at ha; cases ha
    | some x =>
      rw [h1] at ha
      cases h2 : enc s with
      | none => rw [h2] at ha; cases ha
      | some y =>
        rw [h2] at ha; simp at ha; subst ha
        rw [ih h2 hb]; simp

theorem charwise_some {enc : Codec} (h : Charwise enc) : ∀ {s : UStr}, (∃ b, enc s = some b) ↔ Encodable enc s := by
  intro s
  induction s with
  | nil => simp [h.nil, Encodable]
  | cons c s ih =>
    rw [h.cons]
    cases h1 : enc [c] with
    | none => simp [Encodable, h1]
    | some x =>
      cases h2 : enc s with
      | none =>
        have : ¬ Encodable enc s := fun he => by have := ih.2 he; rw [h2] at this; simp at this
        simp only [Encodable, List.mem_cons, forall_eq_or_imp, h1]
        simp only [reduceCtorEq, exists_false, false_iff]
        exact fun ⟨_, hh⟩ => this hh
      | some y =>
        have : Encodable enc s := ih.1 ⟨y, h2⟩
        simp [Encodable, h1] ; exact fun c hc => this c hc

theorem charwise_ascii {enc : Codec} (h : Charwise enc) (ha : AsciiSuperset enc) :
    ∀ {s : UStr}, Ascii s → enc s = some s := by
  intro s
  induction s with
  | nil => intro _; exact h.nil
  | cons c s ih =>
    intro hs
    rw [h.cons, ha c (hs c (by simp)), ih (fun x hx => hs x (by simp [hx]))]
    rfl

theorem decimal_digits (n : Nat) : ∀ c ∈ decimal n, 48 ≤ c ∧ c ≤ 57 := by
  induction n using Nat.strongRecOn with
  | _ n ih =>
    intro c hc
    unfold decimal at hc
    split at hc
    · simp at hc; omega
    · rcases List.mem_append.1 hc with hc | hc
      · exact ih (n / 10) (by omega) c hc
      · simp at hc; omega

theorem charref_ascii (c : Nat) : Ascii (charref c) := by
  intro x hx
  simp only [charref, List.mem_append, List.mem_cons, List.not_mem_nil, or_false] at hx
  rcases hx with (hx | hx) | hx
  · omega
  · have := decimal_digits c x hx; omega
  · omega

/-- `b` encodes `t` and is what has been added to the output. -/
def Adds (st st' : Stream) (t : UStr) : Prop :=
  ∃ b, st.enc t = some b ∧ st'.out = st.out ++ b ∧ st'.enc = st.enc ∧ st'.asciiSafe = st.asciiSafe ∧
    st'.bom = st.bom

theorem Adds.refl {st : Stream} (h : Charwise st.enc) : Adds st st [] :=
  ⟨[], h.nil, by simp, rfl, rfl, rfl⟩

theorem Adds.trans {a b c : Stream} {s t : UStr} (h : Charwise a.enc) (h1 : Adds a b s) (h2 : Adds b c t) :
    Adds a c (s ++ t) := by
  obtain ⟨x, hx, ho, he, hs, hb⟩ := h1
  obtain ⟨y, hy, ho', he', hs', hb'⟩ := h2
  refine ⟨x ++ y, charwise_append h hx (he ▸ hy), ?_, he'.trans he, hs'.trans hs, hb'.trans hb⟩
  rw [ho', ho, List.append_assoc]

theorem adds_put {st : Stream} {t : UStr} {b : Bytes} (h : st.enc t = some b) : Adds st (st.put b) t :=
  ⟨b, h, rfl, rfl, rfl, rfl⟩

theorem Adds.sound {a b : Stream} {t : UStr} (h : Adds a b t) (hs : Sound a) : Sound b := by
  obtain ⟨x, hx, ho, he, hs', hb⟩ := h
  unfold Sound at *
  rw [he, hs']; exact hs

theorem writeEncode_adds {st : Stream} {s : UStr} (hs : Sound st) :
    (Encodable st.enc s → ∃ st', writeEncode st s = .ok st') ∧
    ∀ st', writeEncode st s = .ok st' → Adds st st' s := by
  unfold writeEncode
  constructor
  · intro h
    obtain ⟨b, hb⟩ := (charwise_some hs.1).2 h
    exact ⟨st.put b, by rw [hb]⟩
  · intro st' h
    cases hb : st.enc s with
    | none => rw [hb] at h; cases h
    | some b => rw [hb] at h; cases h; exact adds_put hb

theorem writeAscii_adds {st : Stream} {s : UStr} (hs : Sound st) (ha : Ascii s) :
    ∃ st', writeAscii st s = .ok st' ∧ Adds st st' s := by
  unfold writeAscii
  have h2 := hs.2
  split at h2
  · rename_i h
    rw [if_pos h]
    exact ⟨_, rfl, adds_put (charwise_ascii hs.1 h2 ha)⟩
  · rename_i h
    rw [if_neg h]
    obtain ⟨st', h⟩ := (writeEncode_adds (s := s) hs).1 (fun c _ => h2 c)
    exact ⟨st', h, (writeEncode_adds hs).2 st' h⟩

/-- The character, or a reference to it. -/
def orRef (enc : Codec) (c : Nat) : UStr := if enc [c] = none then charref c else [c]

theorem writeChars_adds (s : UStr) : ∀ {st : Stream}, Sound st →
    Adds st (writeChars st s) (s.flatMap (orRef st.enc)) := by
  induction s with
  | nil => intro st hs; exact .refl hs.1
  | cons c s ih =>
    intro st hs
    unfold writeChars
    cases hc : st.enc [c] with
    | none =>
      have h1 : Adds st (st.put (charref c)) (charref c) := by
        have h2 := hs.2
        split at h2
        · exact adds_put (charwise_ascii hs.1 h2 (charref_ascii c))
        · exact absurd hc (h2 c)
      have h2 := ih (h1.sound hs)
      have := h1.trans hs.1 h2
      simpa [orRef, hc, Stream.put] using this
    | some b =>
      have h1 := adds_put hc
      have h2 := ih (h1.sound hs)
      have := h1.trans hs.1 h2
      simpa [orRef, hc, Stream.put] using this

theorem writeEscaped_adds {st : Stream} (s : UStr) (hs : Sound st) :
    Adds st (writeEscaped st s) (s.flatMap (orRef st.enc)) := by
  unfold writeEscaped
  cases hb : st.enc s with
  | none => exact writeChars_adds s hs
  | some b =>
    have he : Encodable st.enc s := (charwise_some hs.1).1 ⟨b, hb⟩
    have : s.flatMap (orRef st.enc) = s := by
      clear hb
      induction s with
      | nil => rfl
      | cons c s ih =>
        rw [List.flatMap_cons, ih (fun x hx => he x (by simp [hx]))]
        simp [orRef, he c (by simp)]
    rw [this]
    exact adds_put hb

theorem writeChunk_adds {st : Stream} (s : UStr) (hs : Sound st) :
    Adds st (writeChunk st s) (s.flatMap (orRef st.enc)) := by
  unfold writeChunk
  split
  · exact writeEscaped_adds s hs
  · rename_i h
    have : s = [] := by cases s with
      | nil => rfl
      | cons a t => simp at h
    subst this
    exact .refl hs.1

theorem lookup_mem {m : EntityMap} {c : Nat} {r : UStr} (h : m.lookup c = some r) : (c, r) ∈ m := by
  induction m with
  | nil => cases h
  | cons p m ih =>
    obtain ⟨k, v⟩ := p
    rw [List.lookup_cons] at h
    cases hk : c == k with
    | true =>
      rw [hk] at h; cases h
      simp at hk; subst hk; simp
    | false =>
      rw [hk] at h
      exact List.mem_cons_of_mem _ (ih h)

theorem escapeLoop_adds {m : EntityMap} (hm : AsciiMap m) (s : UStr) : ∀ (chunk : UStr) {st : Stream}, Sound st →
    ∃ st', escapeLoop st m chunk s = .ok st' ∧
      Adds st st' (chunk.flatMap (orRef st.enc) ++ s.flatMap (escChar st.enc m)) := by
  induction s with
  | nil =>
    intro chunk st hs
    exact ⟨_, rfl, by simpa using writeChunk_adds chunk hs⟩
  | cons c s ih =>
    intro chunk st hs
    unfold escapeLoop
    cases hl : m.lookup c with
    | none =>
      obtain ⟨st', h1, h2⟩ := ih (chunk ++ [c]) hs
      refine ⟨st', h1, ?_⟩
      have : escChar st.enc m c = orRef st.enc c := by simp [escChar, hl, orRef]
      simpa [this] using h2
    | some r =>
      have h1 := writeChunk_adds chunk hs
      have hs1 := h1.sound hs
      obtain ⟨st2, h2, h3⟩ := writeAscii_adds hs1 (hm _ (lookup_mem hl))
      dsimp only
      rw [h2]
      have h13 := h1.trans hs.1 h3
      have hs2 := h13.sound hs
      obtain ⟨st', h4, h5⟩ := ih [] hs2
      refine ⟨st', h4, ?_⟩
      have he : st2.enc = st.enc := by obtain ⟨_, _, _, he, _⟩ := h13; exact he
      have h6 := h13.trans hs.1 h5
      have : escChar st.enc m c = r := by simp [escChar, hl]
      rw [he] at h6
      simpa [this] using h6

theorem flushBom_sound {st : Stream} (hs : Sound st) : Sound st.flushBom := by
  unfold Stream.flushBom
  split <;> exact hs

theorem flushBom_enc (st : Stream) : st.flushBom.enc = st.enc := by
  unfold Stream.flushBom; split <;> rfl

theorem flushBom_bom (st : Stream) : st.flushBom.bom = none := by
  unfold Stream.flushBom
  split
  · assumption
  · rfl

theorem flushBom_none {st : Stream} (h : st.bom = none) : st.flushBom = st := by
  unfold Stream.flushBom; rw [h]

/-- The strings that are written without escaping can be encoded. -/
def OpEncodable (enc : Codec) : Op → Prop
  | .encode s => Encodable enc s
  | .fail _ => False
  | _ => True

theorem run_adds (wide : Bool) {st : Stream} (hs : Sound st) {op : Op} (ho : OpOk op) :
    (OpEncodable st.enc op → ∃ st', op.run wide st = .ok st') ∧
    ∀ st', op.run wide st = .ok st' → Adds st.flushBom st' (opText wide st.enc op) := by
  have hf := flushBom_sound hs
  cases op with
  | ascii s =>
    obtain ⟨st', h1, h2⟩ := writeAscii_adds hf ho
    refine ⟨fun _ => ⟨st', h1⟩, fun st'' h => ?_⟩
    rw [Op.run, Stream.writeAscii, h1] at h; cases h; exact h2
  | encode s =>
    have := writeEncode_adds (s := s) hf
    refine ⟨fun h => this.1 (by rw [flushBom_enc]; exact h), this.2⟩
  | escape s m =>
    obtain ⟨st', h1, h2⟩ := escapeLoop_adds ho (sanitize wide s) [] hf
    refine ⟨fun _ => ⟨st', h1⟩, fun st'' h => ?_⟩
    rw [Op.run, Stream.writeEscape, h1] at h; cases h
    rw [flushBom_enc] at h2
    simpa [opText] using h2
  | fail e => exact ho.elim

/-- All calls: what is on the stream afterwards encodes the text of the calls. -/
theorem runOps_adds (wide : Bool) : ∀ (ops : List Op) {st : Stream}, Sound st → st.bom = none →
    (∀ op ∈ ops, OpOk op) →
    ((∀ op ∈ ops, OpEncodable st.enc op) → ∃ st', runOps wide st ops = .ok st') ∧
    ∀ st', runOps wide st ops = .ok st' → Adds st st' (opsText wide st.enc ops) := by
  intro ops
  induction ops with
  | nil =>
    intro st hs _ _
    refine ⟨fun _ => ⟨st, rfl⟩, fun st' h => ?_⟩
    cases h; exact .refl hs.1
  | cons op ops ih =>
    intro st hs hb ho
    have hr := run_adds wide hs (ho op (by simp))
    rw [flushBom_none hb] at hr
    unfold runOps
    constructor
    · intro he
      obtain ⟨st1, h1⟩ := hr.1 (he op (by simp))
      have ha := hr.2 _ h1
      rw [h1]
      have hs1 := ha.sound hs
      obtain ⟨_, _, _, e1, _, b1⟩ := ha
      exact (ih hs1 (b1.trans hb) (fun o h => ho o (by simp [h]))).1
        (fun o h => by rw [e1]; exact he o (by simp [h]))
    · intro st' h
      cases h1 : op.run wide st with
      | error e => rw [h1] at h; cases h
      | ok st1 =>
        rw [h1] at h
        have ha := hr.2 _ h1
        have hs1 := ha.sound hs
        have h2 : st1.enc = st.enc ∧ st1.bom = none := by
          obtain ⟨_, _, _, e1, _, b1⟩ := ha
          exact ⟨e1, b1.trans hb⟩
        have h3 := (ih hs1 h2.2 (fun o h => ho o (by simp [h]))).2 st' h
        rw [h2.1] at h3
        rw [opsText_cons]
        exact ha.trans hs.1 h3

end Verif.Write
