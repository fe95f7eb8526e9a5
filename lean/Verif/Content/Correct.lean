import Verif.Content.Subset
/-
The compiled content model reads the language of the content model.
-/
namespace Verif.Content
open Spec
variable {A : Type} [DecidableEq A]

/-! ### every edge ends in an existing state -/

theorem bounded_add {m : Nfa A} {l : Label A} {p q : Nat} (h : Bounded m) (hp : p < m.length) (hq : q < m.length) :
    Bounded (addTransition m l p q) := by
  intro a k b hs
  rw [length_add]
  rcases (step_add hp a k b).1 hs with hs | ⟨-, -, rfl⟩
  · exact h _ _ _ hs
  · exact hq

theorem bounded_append {m : Nfa A} (n : Nat) (h : Bounded m) : Bounded (m ++ List.replicate n []) := by
  intro a k b hs
  have := h _ _ _ ((step_append_empty m n a k b).1 hs)
  simp; omega

def Keeps (body : Nat → Nat → Nfa A → Nfa A) : Prop :=
  ∀ i f m, Bounded m → i < m.length → f < m.length → Bounded (body i f m) ∧ m.length ≤ (body i f m).length

theorem keeps_quant {body : Nat → Nat → Nfa A → Nfa A} (hb : Keeps body) (q : Quant) : Keeps (withQuant q body) := by
  have hp : ∀ (i f : Nat) (m : Nfa A), Bounded m → i < m.length → f < m.length →
      Bounded (addTransition (addTransition (body m.length (m.length + 1)
      (addTransition (m ++ [[], []]) none i m.length)) none (m.length + 1) m.length) none (m.length + 1) f) ∧
      m.length ≤ (addTransition (addTransition (body m.length (m.length + 1)
      (addTransition (m ++ [[], []]) none i m.length)) none (m.length + 1) m.length) none (m.length + 1) f).length := by
    intro i f m h hi hf
    have h2 : Bounded (m ++ [[], []]) := bounded_append 2 h
    have h3 : Bounded (addTransition (m ++ [[], []]) none i m.length) := bounded_add h2 (by simp; omega) (by simp)
    obtain ⟨h4, h5⟩ := hb m.length (m.length + 1) _ h3 (by rw [length_add]; simp) (by rw [length_add]; simp)
    rw [length_add] at h5
    simp only [List.length_append, List.length_cons, List.length_nil] at h5
    refine ⟨bounded_add (bounded_add h4 (by omega) (by omega)) (by rw [length_add]; omega) (by rw [length_add]; omega), ?_⟩
    rw [length_add, length_add]; omega
  intro i f m h hi hf
  have he := bounded_add (l := none) h hi hf
  have hl := length_add m none i f
  cases q with
  | none => exact hb i f m h hi hf
  | opt =>
    obtain ⟨a, b⟩ := hb i f _ he (by omega) (by omega)
    exact ⟨a, by simp only [withQuant]; omega⟩
  | rep =>
    obtain ⟨a, b⟩ := hp i f _ he (by omega) (by omega)
    exact ⟨a, by simp only [withQuant]; omega⟩
  | plus => exact hp i f m h hi hf

mutual
theorem keeps_content : ∀ c : Content A, Keeps (compileContent c)
  | .name e q => by
    have : compileContent (.name e q) = withQuant q (fun i f m => addTransition m (some e) i f) := by
      funext i f m; rw [compileContent]
    rw [this]
    exact keeps_quant (fun i f m h hi hf => ⟨bounded_add h hi hf, by rw [length_add]; omega⟩) q
  | .seq l q => by
    have : compileContent (.seq l q) = withQuant q (compileSeq l) := by funext i f m; rw [compileContent]
    rw [this]; exact keeps_quant (keeps_seq l) q
  | .alt l q => by
    have : compileContent (.alt l q) = withQuant q (compileAlt l) := by funext i f m; rw [compileContent]
    rw [this]; exact keeps_quant (keeps_alt l) q
theorem keeps_seq : ∀ l : List (Content A), Keeps (compileSeq l)
  | [] => fun i f m h _ _ => by rw [compileSeq]; exact ⟨h, Nat.le_refl _⟩
  | [c] => fun i f m h hi hf => by rw [compileSeq]; exact keeps_content c i f m h hi hf
  | c :: d :: cs => fun i f m h hi hf => by
    rw [compileSeq]
    obtain ⟨a, b⟩ := keeps_content c i m.length (m ++ [[]]) (bounded_append 1 h) (by simp; omega) (by simp)
    simp only [List.length_append, List.length_cons, List.length_nil] at b
    obtain ⟨a', b'⟩ := keeps_seq (d :: cs) m.length f _ a (by omega) (by omega)
    exact ⟨a', by omega⟩
theorem keeps_alt : ∀ l : List (Content A), Keeps (compileAlt l)
  | [] => fun i f m h _ _ => by rw [compileAlt]; exact ⟨h, Nat.le_refl _⟩
  | c :: cs => fun i f m h hi hf => by
    rw [compileAlt]
    obtain ⟨a, b⟩ := keeps_content c i f m h hi hf
    obtain ⟨a', b'⟩ := keeps_alt cs i f _ a (by omega) (by omega)
    exact ⟨a', by omega⟩
end

theorem not_step_new (p : Nat) (l : Label A) (q : Nat) : ¬ step (newModel : Nfa A) p l q := by
  unfold step targets newModel
  rcases p with _ | _ | p <;> simp [lookup]

omit [DecidableEq A] in
theorem good_new : Good (newModel : Nfa A) := by
  intro d hd
  have : d = [] := by
    simp only [newModel, List.mem_cons, List.not_mem_nil, or_false, or_self] at hd
    exact hd
  subst this
  exact ⟨by simp, by simp⟩

/-- The compiled automaton can read exactly the words that the NFA with the final edge can read. -/
theorem compile_run (fin : A) (c : Content A) : ∃ dfa, compile fin c = some dfa ∧
    ∀ w, (runDfa dfa 0 w).isSome ↔ ∃ x, Path (Rel.or (step (compileContent c 0 1 newModel))
      (edge 1 (some fin) (compileContent c 0 1 newModel).length)) 0 w x := by
  obtain ⟨m, hm⟩ : ∃ m, m = compileContent c 0 1 newModel := ⟨_, rfl⟩
  obtain ⟨b1, b2⟩ := keeps_content c 0 1 (newModel : Nfa A) (fun p l q h => absurd h (not_step_new p l q))
    (by simp [newModel]) (by simp [newModel])
  rw [← hm] at b1 b2
  have hl : 2 ≤ m.length := by simpa [newModel] using b2
  have hb : Bounded (addTransition (m ++ [[]]) (some fin) 1 m.length) :=
    bounded_add (bounded_append 1 b1) (by simp; omega) (by simp)
  have hg : Good (addTransition (m ++ [[]]) (some fin) 1 m.length) :=
    good_add (good_append (n := 1) (by rw [hm]; exact good_content c 0 1 _ good_new))
  obtain ⟨t, h1, h2⟩ := subset_spec hb hg (by rw [length_add]; simp)
  refine ⟨t.trans, ?_, fun w => ?_⟩
  · unfold compile compileNfa
    rw [← hm]
    simp only
    rw [h1]; rfl
  · rw [h2 w, ← hm]
    have : step (addTransition (m ++ [[]]) (some fin) 1 m.length) = Rel.or (step m) (edge 1 (some fin) m.length) := by
      funext a k b
      apply propext
      rw [step_add (by simp; omega), show ([[]] : Nfa A) = List.replicate 1 [] from rfl, step_append_empty]
      rfl
    rw [this]

omit [DecidableEq A] in
theorem Path.prefix {R : Rel A} : ∀ {p x : Nat} {u v : List A}, Path R p (u ++ v) x → ∃ y, Path R p u y ∧ Path R y v x := by
  have key : ∀ {p x : Nat} {w : List A}, Path R p w x → ∀ u v, w = u ++ v → ∃ y, Path R p u y ∧ Path R y v x := by
    intro p x w h
    induction h with
    | nil p =>
      intro u v e
      have : u = [] ∧ v = [] := by simpa using e.symm
      rw [this.1, this.2]
      exact ⟨p, .nil _, .nil _⟩
    | eps h1 _ ih =>
      intro u v e
      obtain ⟨y, a, b⟩ := ih u v e
      exact ⟨y, .eps h1 a, b⟩
    | @ev p r q e w h1 h2 ih =>
      intro u v e'
      cases u with
      | nil =>
        rw [List.nil_append] at e'
        subst e'
        exact ⟨p, .nil _, .ev h1 h2⟩
      | cons z u =>
        rw [List.cons_append, List.cons.injEq] at e'
        obtain ⟨rfl, e'⟩ := e'
        obtain ⟨y, a, b⟩ := ih u v e'
        exact ⟨y, .ev h1 a, b⟩
  intro p x u v h
  exact key h u v rfl

omit [DecidableEq A] in
theorem Path.head {R : Rel A} {p x : Nat} {w : List A} (h : Path R p w x) : ∀ e v, w = e :: v →
    ∃ y r, Path R p [] y ∧ R y (some e) r ∧ Path R r v x := by
  induction h with
  | nil => intro e v h; cases h
  | eps h1 _ ih =>
    intro e v hw
    obtain ⟨y, r, a, b⟩ := ih e v hw
    exact ⟨y, r, .eps h1 a, b⟩
  | ev h1 h2 _ =>
    intro e v hw
    cases hw
    exact ⟨_, _, .nil _, h1, h2⟩

omit [DecidableEq A] in
/-- A path that does not read `fin` does not use the final edge. -/
theorem Path.drop_edge {R : Rel A} {fin : A} {i f : Nat} {p x : Nat} {w : List A}
    (h : Path (Rel.or R (edge i (some fin) f)) p w x) (hw : fin ∉ w) : Path R p w x := by
  induction h with
  | nil => exact .nil _
  | eps h1 _ ih =>
    rcases h1 with h1 | ⟨-, h1, -⟩
    · exact .eps h1 (ih hw)
    · cases h1
  | ev h1 _ ih =>
    simp only [List.mem_cons, not_or] at hw
    rcases h1 with h1 | ⟨-, h1, -⟩
    · exact .ev h1 (ih hw.2)
    · simp only [Option.some.injEq] at h1
      exact absurd h1.symm hw.1

theorem compile_correct {fin : A} {c : Content A} (hs : NoEmptySeq c) (hf : fin ∉ Names c) :
    ∃ dfa, compile fin c = some dfa ∧ (∀ w, fin ∉ w → (accepts fin dfa w = true ↔ lang c w)) ∧
      (NoEmptyAlt c → ∀ w, fin ∉ w → ((runDfa dfa 0 w).isSome = true ↔ ∃ v, lang c (w ++ v))) := by
  obtain ⟨dfa, h1, h2⟩ := compile_run fin c
  obtain ⟨R, a1, a2, a3, a4, a5, a6⟩ := frag_content c hs (newModel : Nfa A) 0 1 (by simp [newModel]) (by simp [newModel])
    (by omega)
  have hR : step (compileContent c 0 1 newModel) = R := by
    funext p l q
    apply propext
    rw [a1]
    simp [not_step_new]
  rw [hR] at h2
  refine ⟨dfa, h1, ?_, ?_⟩
  · intro w hw
    unfold accepts
    rw [h2, ← a5]
    constructor
    · rintro ⟨x, hx⟩
      obtain ⟨y, p1, p2⟩ := hx.prefix
      obtain ⟨z, r, p3, p4, p5⟩ := p2.head fin [] rfl
      have hz : z = 1 := by
        rcases p4 with p4 | ⟨h, -, -⟩
        · exact absurd (a4 _ _ _ p4) hf
        · exact h
      subst hz
      have := p1.trans p3
      rw [List.append_nil] at this
      exact this.drop_edge hw
    · intro hp
      exact ⟨_, (hp.mono (fun _ _ _ => Or.inl)).trans (.ev (Or.inr ⟨rfl, rfl, rfl⟩) (.nil _))⟩
  · intro ha w hw
    rw [h2]
    constructor
    · rintro ⟨x, hx⟩
      have hx := hx.drop_edge hw
      have key : ∀ {p x : Nat} {w : List A}, Path R p w x → (∃ v, Path R p v 1) → ∃ v, Path R x v 1 := by
        intro p x w h
        induction h with
        | nil => exact id
        | eps h1 _ ih => intro _; exact ih (a6 ha _ _ _ h1)
        | ev h1 _ ih => intro _; exact ih (a6 ha _ _ _ h1)
      obtain ⟨v0, hv0⟩ := lang_ne c ha
      obtain ⟨v, hv⟩ := key hx ⟨v0, (a5 v0).2 hv0⟩
      exact ⟨v, (a5 _).1 (hx.trans hv)⟩
    · rintro ⟨v, hv⟩
      obtain ⟨y, p1, -⟩ := ((a5 _).2 hv).prefix
      exact ⟨y, p1.mono (fun _ _ _ => Or.inl)⟩

end Verif.Content
