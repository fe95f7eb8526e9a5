import Verif.Util.TemplateLemmas
/-
C97: filling in templates.
-/
namespace Verif.Util.Template
open Verif Verif.Util.Template.Spec

/-- **C97**, every string is a template: it can be read as pieces. -/
theorem C97_reads (t : Str) : ∃ ps, Fine ps ∧ write ps = t := by
  match t with
  | [] => exact ⟨[], trivial, rfl⟩
  | c :: s =>
    by_cases hc : c = '$'
    · subst hc
      have hf := hit_found s
      have hl := hit_len s
      rcases e : hit s with ⟨x, r⟩
      rw [e] at hf hl
      have : r.length < s.length + 1 := by simp at hl; omega
      obtain ⟨ps, h1, h2⟩ := C97_reads r
      cases x with
      | escaped => exact ⟨.dollar :: ps, ⟨trivial, h1⟩, by rw [show s = _ from hf, ← h2]; rfl⟩
      | named n => exact ⟨.plain n :: ps, ⟨⟨hf.1, h2 ▸ hf.2.2⟩, h1⟩, by rw [hf.2.1, ← h2]; simp [write, Piece.write]⟩
      | braced n => exact ⟨.braced n :: ps, ⟨hf.1, h1⟩, by rw [hf.2, ← h2]; simp [write, Piece.write]⟩
      | invalid =>
        have hs := stray_of_hit e
        exact ⟨.stray :: ps, ⟨by rw [h2, ← hs.1]; exact hs.2, h1⟩, by rw [hs.1, ← h2]; rfl⟩
    · obtain ⟨ps, h1, h2⟩ := C97_reads s
      exact ⟨.text [c] :: ps, ⟨fun h => hc (List.mem_singleton.1 h).symm, h1⟩, by rw [← h2]; rfl⟩
termination_by t.length

/-- Names whose value is text. -/
theorem fill_text {m : Str → Option Val} {n : Str} {v : Str} (h : (m n).bind textOf = some v) : fill m n = .ok v := by
  unfold fill
  rcases e : m n with _ | (s | ⟨u, a⟩ | s)
  · simp [e] at h
  · simp [e, textOf] at h; rw [h]
  · simp [e, textOf] at h; rw [h]
  · simp [e, textOf] at h

/-- The text for a name: that of the keyword, and otherwise that of the mapping. -/
def textFor (kws args : Str → Option Val) (n : Str) : Option Str := ((kws n).or (args n)).bind textOf

theorem fetch_eq (kws args : Str → Option Val) (n : Str) : fetch kws args n = (kws n).or (args n) := by
  unfold fetch
  cases kws n <;> rfl

theorem made_ok {t : Str} {kws args : Str → Option Val} {p : Piece} (hs : p ≠ .stray)
    (hn : ∀ n, p.name = some n → (textFor kws args n).isSome) (j : Nat) :
    made (convert t (fetch kws args)) j p = .ok (p.filled (textFor kws args)) := by
  have key : ∀ n, p.name = some n → ∃ v, textFor kws args n = some v ∧ fill (fetch kws args) n = .ok v := by
    intro n h
    obtain ⟨v, hv⟩ := Option.isSome_iff_exists.1 (hn n h)
    exact ⟨v, hv, fill_text (by rw [fetch_eq]; exact hv)⟩
  cases p with
  | text s => rfl
  | dollar => rfl
  | stray => exact absurd rfl hs
  | plain n => obtain ⟨v, h1, h2⟩ := key n rfl; simp [made, convert, h2, Piece.filled, h1]
  | braced n => obtain ⟨v, h1, h2⟩ := key n rfl; simp [made, convert, h2, Piece.filled, h1]

/-- **C97**, `substitute` fills in every place, once: with the text of the keyword of that name, or else with that of
the mapping; and everything else stays, where `$$` stands for a dollar sign.
Missing: values that are not strings (`C97_refuted_number`). -/
theorem C97_substitute_partial {ps : List Piece} (hf : Fine ps) {kws args : Str → Option Val} (hs : .stray ∉ ps)
    (hn : ∀ p ∈ ps, ∀ n, p.name = some n → (textFor kws args n).isSome) :
    substitute (write ps) kws args = .ok (ps.flatMap (Piece.filled (textFor kws args))) := by
  have := all_made (convert (write ps) (fetch kws args)) (Piece.filled (textFor kws args)) [] ps 0
    (by rw [List.append_nil]; exact hf) (fun p hp j => made_ok (fun e => hs (e ▸ hp)) (hn p hp) j)
  rw [List.append_nil] at this
  show all _ 0 _ = _
  rw [this]
  simp [write, all, sub, join]

/-- **C97**, the first name without a value is reported. -/
theorem C97_missing {a b : List Piece} {p : Piece} (hf : Fine (a ++ p :: b)) {kws args : Str → Option Val}
    (hs : .stray ∉ a) (hn : ∀ q ∈ a, ∀ n, q.name = some n → (textFor kws args n).isSome) {n : Str}
    (hp : p.name = some n) (hk : kws n = none) (ha : args n = none) :
    substitute (write (a ++ p :: b)) kws args = .error (.key n) := by
  show all _ 0 _ = _
  rw [all_made (convert (write (a ++ p :: b)) (fetch kws args)) (Piece.filled (textFor kws args)) (p :: b) a 0 hf
    (fun p hp j => made_ok (fun e => hs (e ▸ hp)) (hn p hp) j)]
  rw [show write (p :: b) = p.write ++ write b by simp [write], all_piece _ _ (fine_tail hf).1]
  cases p <;> cases hp <;> simp [made, convert, fill, fetch, hk, ha, join]

/-- **C97**, the first dollar sign that begins nothing is reported, with its line and column. -/
theorem C97_invalid {a b : List Piece} (hf : Fine (a ++ .stray :: b)) {kws args : Str → Option Val} (hs : .stray ∉ a)
    (hn : ∀ q ∈ a, ∀ n, q.name = some n → (textFor kws args n).isSome) :
    substitute (write (a ++ .stray :: b)) kws args = .error (.value (place 1 1 (write a)).1 (place 1 1 (write a)).2) := by
  show all _ 0 _ = _
  rw [all_made (convert (write (a ++ .stray :: b)) (fetch kws args)) (Piece.filled (textFor kws args)) (.stray :: b) a 0 hf
    (fun p hp j => made_ok (fun e => hs (e ▸ hp)) (hn p hp) j)]
  rw [show write (.stray :: b) = Piece.write .stray ++ write b by simp [write], all_piece _ _ (fine_tail hf).1]
  simp only [made, convert, Nat.zero_add, join]
  rw [show write (a ++ .stray :: b) = write a ++ '$' :: write b by simp [write, Piece.write], invalid_place]

/-- **C97**, `safe_substitute` fills in what it can, leaves everything else as it is, and never fails.  Missing: byte
strings that are not ASCII (`C97_refuted_bytes`). -/
theorem C97_safe_partial {ps : List Piece} (hf : Fine ps) {kws args : Str → Option Val}
    (hn : ∀ p ∈ ps, ∀ n, p.name = some n → ∀ v, (kws n).or (args n) = some v → ∃ s, v = .uni s) :
    safeSubstitute (write ps) kws args = .ok (ps.flatMap (Piece.filled (textFor kws args))) := by
  have key : ∀ p ∈ ps, ∀ j, made (convertSafe (fetch kws args)) j p = .ok (p.filled (textFor kws args)) := by
    intro p hp j
    have hv := hn p hp
    have step : ∀ n kept, p.name = some n → fillSafe (fetch kws args) n kept = .ok ((textFor kws args n).getD kept) := by
      intro n kept h
      unfold fillSafe textFor
      rw [fetch_eq]
      cases e : (kws n).or (args n) with
      | none => rfl
      | some v => obtain ⟨s, rfl⟩ := hv n h v e; rfl
    cases p with
    | plain n => exact step n _ rfl
    | braced n => exact step n _ rfl
    | _ => rfl
  have := all_made (convertSafe (fetch kws args)) (Piece.filled (textFor kws args)) [] ps 0
    (by rw [List.append_nil]; exact hf) key
  rw [List.append_nil] at this
  show all _ 0 _ = _
  rw [this]
  simp [write, all, sub, join]

/-- **C97**, the pieces of a string: whatever two readings there are, they say the same for every mapping. -/
theorem C97_one_reading {ps qs : List Piece} (hp : Fine ps) (hq : Fine qs) (h : write ps = write qs)
    (m : Str → Option Str) : ps.flatMap (Piece.filled m) = qs.flatMap (Piece.filled m) := by
  have e : ∀ n, textFor (fun n => (m n).map Val.uni) (fun _ => none) n = m n := by
    intro n; simp only [textFor, Option.or_none]; cases m n <;> rfl
  have e' : textFor (fun n => (m n).map Val.uni) (fun _ => none) = m := funext e
  have ok : ∀ rs : List Piece, ∀ p ∈ rs, ∀ n, p.name = some n → ∀ v,
      ((fun n => (m n).map Val.uni) n).or ((fun _ => none : Str → Option Val) n) = some v → ∃ s, v = .uni s := by
    intro rs p _ n _ v hv
    simp only [Option.or_none] at hv
    cases hm : m n with
    | none => rw [hm] at hv; cases hv
    | some s => rw [hm] at hv; cases hv; exact ⟨s, rfl⟩
  have h1 := C97_safe_partial hp (ok ps)
  have h2 := C97_safe_partial hq (ok qs)
  rw [h, h2, e'] at h1
  injection h1 with h1
  exact h1.symm

/-- `Dear $who, ${n}th of $$5.` -/
def sample : List Piece :=
  [.text (s!! "Dear "), .plain (s!! "who"), .text (s!! ", "), .braced (s!! "n"), .text (s!! "th of "), .dollar, .text (s!! "5.")]

theorem name_of (n : Str) (c : Char) (r : Str) (e : n = c :: r) (h1 : idStart c = true) (h2 : r.all idChar = true) : Name n :=
  e ▸ ids_name h1 (by simpa using h2)

theorem sample_fine : Fine sample := by
  refine ⟨by show _ ∉ _; decide, ⟨name_of _ 'w' (s!! "ho") rfl rfl rfl, fun c r' e => ?_⟩, by show _ ∉ _; decide,
    name_of _ 'n' [] rfl rfl rfl, by show _ ∉ _; decide, trivial, by show _ ∉ _; decide, trivial⟩
  cases e
  rw [← idChar_iff]; decide

example : write sample = s!! "Dear $who, ${n}th of $$5." := by decide +kernel

def given (n : Str) : Option Val := if n = s!! "who" then some (.uni (s!! "$x")) else if n = s!! "n" then some (.uni (s!! "4")) else none

example : substitute (write sample) given (fun _ => none) = .ok (s!! "Dear $x, 4th of $5.") := by decide +kernel
example : ∀ p ∈ sample, ∀ n, p.name = some n → (textFor given (fun _ => none) n).isSome := by
  intro p hp n h
  simp [sample] at hp
  rcases hp with rfl | rfl | rfl | rfl | rfl | rfl | rfl <;> cases h <;> decide +kernel
example : substitute (s!! "a\n b$ c") given given = .error (.value 2 3) := by decide +kernel
example : substitute (s!! "a ${y}") given given = .error (.key (s!! "y")) := by decide +kernel
example : safeSubstitute (s!! "$ ${y} $who ${") given given = .ok (s!! "$ ${y} $x ${") := by decide +kernel

/-- **C97**, refuted for other values: numbers and other objects are not filled in by `substitute`, as in the class
that it replaces, although `safe_substitute` does. -/
theorem C97_refuted_number :
    substitute (s!! "$n") (fun _ => some (.other (s!! "4"))) (fun _ => none) = .error .type ∧
    safeSubstitute (s!! "$n") (fun _ => some (.other (s!! "4"))) (fun _ => none) = .ok (s!! "4") := by
  constructor <;> decide +kernel

/-- **C97**, refuted for byte strings: `safe_substitute` fails for UTF-8 that `substitute` fills in. -/
theorem C97_refuted_bytes :
    safeSubstitute (s!! "$n") (fun _ => some (.bytes (some (s!! "é")) none)) (fun _ => none) = .error .decode ∧
    substitute (s!! "$n") (fun _ => some (.bytes (some (s!! "é")) none)) (fun _ => none) = .ok (s!! "é") := by
  constructor <;> decide +kernel

end Verif.Util.Template
