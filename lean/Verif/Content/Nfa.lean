import Verif.Content.Spec
/-
Correctness of the NFA construction.
-/
set_option linter.unusedSectionVars false
namespace Verif.Content
open Spec
variable {A : Type}

abbrev Rel (A : Type) := Nat → Label A → Nat → Prop

/-- A path reading the word `w`. -/
inductive Path (R : Rel A) : Nat → List A → Nat → Prop
  | nil (p : Nat) : Path R p [] p
  | eps {p r q : Nat} {w : List A} : R p none r → Path R r w q → Path R p w q
  | ev {p r q : Nat} {e : A} {w : List A} : R p (some e) r → Path R r w q → Path R p (e :: w) q

theorem Path.trans {R : Rel A} {p q r : Nat} {u v : List A} (h1 : Path R p u q) (h2 : Path R q v r) :
    Path R p (u ++ v) r := by
  induction h1 with
  | nil => exact h2
  | eps hs _ ih => exact .eps hs (ih h2)
  | ev hs _ ih => exact .ev hs (ih h2)

theorem Path.mono {R R' : Rel A} (h : ∀ p l q, R p l q → R' p l q) {p q : Nat} {w : List A}
    (hp : Path R p w q) : Path R' p w q := by
  induction hp with
  | nil => exact .nil _
  | eps hs _ ih => exact .eps (h _ _ _ hs) ih
  | ev hs _ ih => exact .ev (h _ _ _ hs) ih

/-- A path that starts in a set closed under `R`, inside which `R` agrees with `R'`. -/
theorem Path.restrict {R R' : Rel A} {S : Nat → Prop} (h : ∀ p l q, S p → R p l q → S q ∧ R' p l q)
    {p q : Nat} {w : List A} (hp : Path R p w q) (hs : S p) : Path R' p w q := by
  induction hp with
  | nil => exact .nil _
  | eps h1 _ ih => obtain ⟨a, b⟩ := h _ _ _ hs h1; exact .eps b (ih a)
  | ev h1 _ ih => obtain ⟨a, b⟩ := h _ _ _ hs h1; exact .ev b (ih a)

/-- `R` connects `i` to `f` through states in `[lo, hi)` only, and never enters `i` nor leaves `f`. -/
structure Region (R : Rel A) (i f lo hi : Nat) : Prop where
  src : ∀ p l q, R p l q → p = i ∨ (lo ≤ p ∧ p < hi)
  dst : ∀ p l q, R p l q → q = f ∨ (lo ≤ q ∧ q < hi)

def Rel.or (R S : Rel A) : Rel A := fun p l q => R p l q ∨ S p l q

/-- The single edge `i --l--> f`. -/
def edge (i : Nat) (l : Label A) (f : Nat) : Rel A := fun p k q => p = i ∧ k = l ∧ q = f

/-- Two fragments between the same states: alternatives. -/
theorem path_alt {R1 R2 : Rel A} {i f a b c d : Nat} (h1 : Region R1 i f a b) (h2 : Region R2 i f c d)
    (hif : i ≠ f) (hbc : b ≤ c) (hi : i < a) (hf : f < a) (hab : a ≤ b) (w : List A) :
    Path (R1.or R2) i w f ↔ Path R1 i w f ∨ Path R2 i w f := by
  constructor
  · intro h
    -- after the first step the path stays in one of the two fragments
    have k1 : ∀ p l q, (p = f ∨ (a ≤ p ∧ p < b)) → (R1.or R2) p l q → (q = f ∨ (a ≤ q ∧ q < b)) ∧ R1 p l q := by
      intro p l q hp hr
      rcases hr with hr | hr
      · exact ⟨h1.dst _ _ _ hr, hr⟩
      · rcases h2.src _ _ _ hr with h | h <;> omega
    have k2 : ∀ p l q, (p = f ∨ (c ≤ p ∧ p < d)) → (R1.or R2) p l q → (q = f ∨ (c ≤ q ∧ q < d)) ∧ R2 p l q := by
      intro p l q hp hr
      rcases hr with hr | hr
      · rcases h1.src _ _ _ hr with h | h <;> omega
      · exact ⟨h2.dst _ _ _ hr, hr⟩
    cases h with
    | nil => exact absurd rfl hif
    | eps hs hp =>
      rcases hs with hs | hs
      · exact Or.inl (.eps hs (hp.restrict k1 (h1.dst _ _ _ hs)))
      · exact Or.inr (.eps hs (hp.restrict k2 (h2.dst _ _ _ hs)))
    | ev hs hp =>
      rcases hs with hs | hs
      · exact Or.inl (.ev hs (hp.restrict k1 (h1.dst _ _ _ hs)))
      · exact Or.inr (.ev hs (hp.restrict k2 (h2.dst _ _ _ hs)))
  · rintro (h | h)
    · exact h.mono (fun _ _ _ => Or.inl)
    · exact h.mono (fun _ _ _ => Or.inr)

/-- Two fragments one after the other. -/
theorem path_seq {R1 R2 : Rel A} {i m f a b c d : Nat} (h1 : Region R1 i m a b) (h2 : Region R2 m f c d)
    (hif : i ≠ f) (him : i ≠ m) (hmf : m ≠ f) (hbc : b ≤ c) (hi : i < a) (hm : m < a) (hf : f < a) (hab : a ≤ b)
    (w : List A) : Path (R1.or R2) i w f ↔ ∃ u v, w = u ++ v ∧ Path R1 i u m ∧ Path R2 m v f := by
  constructor
  · have k2 : ∀ p l q, (p = m ∨ p = f ∨ (c ≤ p ∧ p < d)) → (R1.or R2) p l q →
        (q = m ∨ q = f ∨ (c ≤ q ∧ q < d)) ∧ R2 p l q := by
      intro p l q hp hr
      rcases hr with hr | hr
      · rcases h1.src _ _ _ hr with h | h <;> omega
      · exact ⟨Or.inr (h2.dst _ _ _ hr), hr⟩
    have key : ∀ {p q : Nat} {w : List A}, Path (R1.or R2) p w q → q = f → (p = i ∨ (a ≤ p ∧ p < b)) →
        ∃ u v, w = u ++ v ∧ Path R1 p u m ∧ Path R2 m v f := by
      intro p q w h
      induction h with
      | nil => intro hq hp; omega
      | eps hs hp ih =>
        intro hq hpp
        subst hq
        rcases hs with hs | hs
        · rcases h1.dst _ _ _ hs with rfl | hr
          · exact ⟨[], _, rfl, .eps hs (.nil _), hp.restrict k2 (Or.inl rfl)⟩
          · obtain ⟨u, v, e, p1, p2⟩ := ih rfl (Or.inr hr)
            exact ⟨u, v, e, .eps hs p1, p2⟩
        · rcases h2.src _ _ _ hs with h | h <;> omega
      | @ev _ _ _ x _ hs hp ih =>
        intro hq hpp
        subst hq
        rcases hs with hs | hs
        · rcases h1.dst _ _ _ hs with rfl | hr
          · exact ⟨[x], _, rfl, .ev hs (.nil _), hp.restrict k2 (Or.inl rfl)⟩
          · obtain ⟨u, v, e, p1, p2⟩ := ih rfl (Or.inr hr)
            exact ⟨x :: u, v, by rw [e]; rfl, .ev hs p1, p2⟩
        · rcases h2.src _ _ _ hs with h | h <;> omega
    intro h
    exact key h rfl (Or.inl rfl)
  · rintro ⟨u, v, rfl, p1, p2⟩
    exact (p1.mono (fun _ _ _ => Or.inl)).trans (p2.mono (fun _ _ _ => Or.inr))

/-- The relation built for a repeated content. -/
def plusRel (R : Rel A) (i f s1 s2 : Nat) : Rel A := fun p l q =>
  ((edge i none s1 p l q ∨ R p l q) ∨ edge s2 none s1 p l q) ∨ edge s2 none f p l q

theorem path_plus {R : Rel A} {i f s1 s2 a b : Nat} (h : Region R s1 s2 a b)
    (hi : i < s1) (hf : f < s1) (h12 : s2 = s1 + 1) (ha : s2 < a) (hif : i ≠ f)
    (w : List A) : Path (plusRel R i f s1 s2) i w f ↔ plus (fun w => Path R s1 w s2) w := by
  have hR : ∀ p l q, R p l q → plusRel R i f s1 s2 p l q := fun _ _ _ hr => Or.inl (Or.inl (Or.inr hr))
  have e1 : plusRel R i f s1 s2 i none s1 := Or.inl (Or.inl (Or.inl ⟨rfl, rfl, rfl⟩))
  have e2 : plusRel R i f s1 s2 s2 none s1 := Or.inl (Or.inr ⟨rfl, rfl, rfl⟩)
  have e3 : plusRel R i f s1 s2 s2 none f := Or.inr ⟨rfl, rfl, rfl⟩
  constructor
  · have key : ∀ {p q : Nat} {w : List A}, Path (plusRel R i f s1 s2) p w q → q = f →
        ((p = s1 ∨ (a ≤ p ∧ p < b)) → ∃ u v, w = u ++ v ∧ Path R p u s2 ∧ Star (fun w => Path R s1 w s2) v) ∧
        (p = s2 → Star (fun w => Path R s1 w s2) w) ∧ (p = f → w = []) ∧
        (p = i → plus (fun w => Path R s1 w s2) w) := by
      intro p q w h'
      induction h' with
      | nil p => intro hq; subst hq; exact ⟨by omega, by omega, fun _ => rfl, by omega⟩
      | @eps p r q w hs hp ih =>
        intro hq
        obtain ⟨g1, g2, g3, g4⟩ := ih hq
        refine ⟨?_, ?_, ?_, ?_⟩
        · intro hpp
          rcases hs with ((⟨rfl, -, -⟩ | hs) | ⟨rfl, -, -⟩) | ⟨rfl, -, -⟩
          · omega
          · rcases h.dst _ _ _ hs with rfl | hr
            · exact ⟨[], w, rfl, .eps hs (.nil _), g2 rfl⟩
            · obtain ⟨u, v, e, p1, p2⟩ := g1 (Or.inr hr)
              exact ⟨u, v, e, .eps hs p1, p2⟩
          · omega
          · omega
        · rintro rfl
          rcases hs with ((⟨rfl, -, -⟩ | hs) | ⟨-, -, rfl⟩) | ⟨-, -, rfl⟩
          · omega
          · rcases h.src _ _ _ hs with h | h <;> omega
          · obtain ⟨u, v, rfl, p1, p2⟩ := g1 (Or.inl rfl)
            exact .cons p1 p2
          · rw [g3 rfl]; exact .nil
        · rintro rfl
          rcases hs with ((⟨rfl, -, -⟩ | hs) | ⟨rfl, -, -⟩) | ⟨rfl, -, -⟩
          · omega
          · rcases h.src _ _ _ hs with h | h <;> omega
          · omega
          · omega
        · rintro rfl
          rcases hs with ((⟨-, -, rfl⟩ | hs) | ⟨rfl, -, -⟩) | ⟨rfl, -, -⟩
          · obtain ⟨u, v, e, p1, p2⟩ := g1 (Or.inl rfl)
            exact ⟨u, v, e, p1, p2⟩
          · rcases h.src _ _ _ hs with h | h <;> omega
          · omega
          · omega
      | @ev p r q x w hs hp ih =>
        intro hq
        obtain ⟨g1, g2, g3, g4⟩ := ih hq
        have hs' : R p (some x) r := by
          rcases hs with ((⟨-, h, -⟩ | hs) | ⟨-, h, -⟩) | ⟨-, h, -⟩
          · cases h
          · exact hs
          · cases h
          · cases h
        clear hs
        have hsrc := h.src _ _ _ hs'
        refine ⟨?_, ?_, ?_, ?_⟩
        · intro hpp
          rcases h.dst _ _ _ hs' with hr | hr
          · subst hr; exact ⟨[x], w, rfl, .ev hs' (.nil _), g2 rfl⟩
          · obtain ⟨u, v, e, p1, p2⟩ := g1 (Or.inr hr)
            exact ⟨x :: u, v, by rw [e]; rfl, .ev hs' p1, p2⟩
        · omega
        · omega
        · omega
    intro h'
    exact (key h' rfl).2.2.2 rfl
  · rintro ⟨u, v, rfl, p1, p2⟩
    refine .eps e1 ((p1.mono hR).trans ?_)
    induction p2 with
    | nil => exact .eps e3 (.nil _)
    | cons q1 _ ih => exact .eps e2 ((q1.mono hR).trans ih)

/-! ### the step relation of an NFA -/

variable [DecidableEq A]

def step (m : Nfa A) : Rel A := fun p l q => q ∈ targets m p l

theorem lookup_addToState (l k : Label A) (q : Nat) (d : NState A) :
    (lookup k (addToState l q d)).getD [] = (lookup k d).getD [] ++ (if k = l then [q] else []) := by
  induction d with
  | nil =>
    by_cases h : k = l
    · subst h; simp [addToState, lookup]
    · simp [addToState, lookup, h, Ne.symm h]
  | cons x d ih =>
    obtain ⟨k', ts⟩ := x
    unfold addToState
    by_cases h1 : k' = l
    · subst h1
      rw [if_pos rfl]
      by_cases h2 : k' = k
      · subst h2; simp [lookup]
      · simp [lookup, h2, Ne.symm h2]
    · rw [if_neg h1]
      by_cases h2 : k' = k
      · subst h2; simp [lookup, h1]
      · simp only [lookup, if_neg h2]; exact ih

theorem step_add {m : Nfa A} {l : Label A} {p q : Nat} (hp : p < m.length) (a : Nat) (k : Label A) (b : Nat) :
    step (addTransition m l p q) a k b ↔ step m a k b ∨ edge p l q a k b := by
  unfold step targets addTransition edge
  rw [List.getElem?_modify]
  cases hm : m[a]? with
  | none =>
    have : m.length ≤ a := List.getElem?_eq_none_iff.1 hm
    have : a ≠ p := by omega
    simp [this]
  | some d =>
    by_cases h : p = a
    · subst h
      simp only [if_pos, Option.map_eq_map, Option.map_some]
      rw [lookup_addToState]
      by_cases h2 : k = l
      · subst h2; simp
      · simp [h2]
    · simp [h, Ne.symm h]

theorem step_append_empty (m : Nfa A) (n : Nat) (a : Nat) (k : Label A) (b : Nat) :
    step (m ++ List.replicate n []) a k b ↔ step m a k b := by
  unfold step targets
  rw [List.getElem?_append]
  by_cases h : a < m.length
  · rw [if_pos h]
  · rw [if_neg h, List.getElem?_eq_none (by omega : m.length ≤ a), List.getElem?_replicate]
    by_cases h2 : a - m.length < n
    · simp [h2, lookup]
    · simp [h2]

theorem length_add (m : Nfa A) (l : Label A) (p q : Nat) : (addTransition m l p q).length = m.length := by
  simp [addTransition]

/-- What compiling a content with language `L` between `i` and `f` does to the machine: the edges `R` are added; if
`lv`, every new edge leads to a state from which `f` can be reached. -/
def Frag (m m' : Nfa A) (i f : Nat) (L : Lang A) (names : List A) (lv : Prop) : Prop :=
  ∃ R : Rel A, (∀ p l q, step m' p l q ↔ step m p l q ∨ R p l q) ∧ m.length ≤ m'.length ∧
    Region R i f m.length m'.length ∧ (∀ p e q, R p (some e) q → e ∈ names) ∧ (∀ w, Path R i w f ↔ L w) ∧
    (lv → ∀ p l q, R p l q → ∃ w, Path R q w f)

theorem frag_edge {m : Nfa A} {i f : Nat} (hi : i < m.length) (hif : i ≠ f) (e : A) :
    Frag m (addTransition m (some e) i f) i f (fun w => w = [e]) [e] True := by
  refine ⟨edge i (some e) f, fun p l q => step_add hi p l q, by rw [length_add]; omega, ?_, ?_, ?_, ?_⟩
  · exact ⟨fun p l q h => Or.inl h.1, fun p l q h => Or.inl h.2.2⟩
  · rintro p e' q ⟨-, h, -⟩; simp at h; simp [h]
  · intro w
    constructor
    · intro h
      cases h with
      | nil => exact absurd rfl hif
      | eps hs _ => cases hs.2.1
      | ev hs hp =>
        obtain ⟨-, h1, h2⟩ := hs
        simp only [Option.some.injEq] at h1
        subst h1 h2
        cases hp with
        | nil => rfl
        | eps hs _ => exact absurd hs.1 (Ne.symm hif)
        | ev hs _ => exact absurd hs.1 (Ne.symm hif)
    · rintro rfl
      exact .ev ⟨rfl, rfl, rfl⟩ (.nil _)
  · rintro - p l q ⟨-, -, rfl⟩
    exact ⟨[], .nil _⟩

omit [DecidableEq A] in
theorem path_edge_eps {i f : Nat} (hif : i ≠ f) (w : List A) : Path (edge i none f) i w f ↔ w = [] := by
  constructor
  · intro h
    cases h with
    | nil => exact absurd rfl hif
    | ev hs _ => cases hs.2.1
    | eps hs hp =>
      obtain ⟨-, -, rfl⟩ := hs
      cases hp with
      | nil => rfl
      | eps hs _ => exact absurd hs.1 (Ne.symm hif)
      | ev hs _ => exact absurd hs.1 (Ne.symm hif)
  · rintro rfl
    exact .eps ⟨rfl, rfl, rfl⟩ (.nil _)

theorem Frag.congr {m m' : Nfa A} {i f : Nat} {L L' : Lang A} {n : List A} {lv : Prop} (h : Frag m m' i f L n lv)
    (hL : ∀ w, L w ↔ L' w) : Frag m m' i f L' n lv := by
  obtain ⟨R, h1, h2, h3, h4, h5, h6⟩ := h
  exact ⟨R, h1, h2, h3, h4, fun w => (h5 w).trans (hL w), h6⟩

theorem Frag.weaken {m m' : Nfa A} {i f : Nat} {L : Lang A} {n n' : List A} {lv lv' : Prop} (h : Frag m m' i f L n lv)
    (hn : ∀ e ∈ n, e ∈ n') (hl : lv' → lv) : Frag m m' i f L n' lv' := by
  obtain ⟨R, h1, h2, h3, h4, h5, h6⟩ := h
  exact ⟨R, h1, h2, h3, fun p e q hr => hn e (h4 p e q hr), h5, fun h => h6 (hl h)⟩

/-- Alternatives. -/
theorem Frag.alt {m m1 m2 : Nfa A} {i f : Nat} {L1 L2 : Lang A} {n1 n2 : List A} {lv1 lv2 : Prop} (hi : i < m.length)
    (hf : f < m.length) (hif : i ≠ f) (h1 : Frag m m1 i f L1 n1 lv1) (h2 : Frag m1 m2 i f L2 n2 lv2) :
    Frag m m2 i f (fun w => L1 w ∨ L2 w) (n1 ++ n2) (lv1 ∧ lv2) := by
  obtain ⟨R1, a1, a2, a3, a4, a5, a6⟩ := h1
  obtain ⟨R2, b1, b2, b3, b4, b5, b6⟩ := h2
  refine ⟨R1.or R2, ?_, by omega, ⟨?_, ?_⟩, ?_, ?_, ?_⟩
  · intro p l q; rw [b1, a1]; simp only [Rel.or]; exact or_assoc
  · intro p l q hr
    rcases hr with hr | hr
    · rcases a3.src _ _ _ hr with h | h <;> omega
    · rcases b3.src _ _ _ hr with h | h <;> omega
  · intro p l q hr
    rcases hr with hr | hr
    · rcases a3.dst _ _ _ hr with h | h <;> omega
    · rcases b3.dst _ _ _ hr with h | h <;> omega
  · intro p e q hr
    rcases hr with hr | hr
    · exact List.mem_append.2 (Or.inl (a4 _ _ _ hr))
    · exact List.mem_append.2 (Or.inr (b4 _ _ _ hr))
  · intro w
    rw [path_alt a3 b3 hif (Nat.le_refl _) hi hf a2, a5, b5]
  · rintro ⟨l1, l2⟩ p l q (hr | hr)
    · obtain ⟨w, hw⟩ := a6 l1 _ _ _ hr
      exact ⟨w, hw.mono (fun _ _ _ => Or.inl)⟩
    · obtain ⟨w, hw⟩ := b6 l2 _ _ _ hr
      exact ⟨w, hw.mono (fun _ _ _ => Or.inr)⟩

/-- An empty move from `i` to `f`, followed by a fragment. -/
theorem Frag.withEps {m m' : Nfa A} {i f : Nat} {L : Lang A} {n : List A} {lv : Prop} (hi : i < m.length) (hf : f < m.length)
    (hif : i ≠ f) (h : Frag (addTransition m none i f) m' i f L n lv) : Frag m m' i f (opt L) n lv := by
  have h0 : Frag m (addTransition m none i f) i f (fun w => w = []) [] True := by
    refine ⟨edge i none f, fun p l q => step_add hi p l q, by rw [length_add]; omega, ?_, ?_, path_edge_eps hif, ?_⟩
    · exact ⟨fun p l q h => Or.inl h.1, fun p l q h => Or.inl h.2.2⟩
    · rintro p e' q ⟨-, h, -⟩; cases h
    · rintro - p l q ⟨-, -, rfl⟩
      exact ⟨[], .nil _⟩
  exact (Frag.alt hi hf hif h0 h).weaken (fun _ h => h) (fun h => ⟨trivial, h⟩)

omit [DecidableEq A] in
theorem star_eq_opt_plus (L : Lang A) (w : List A) : opt (plus L) w ↔ Star L w := by
  constructor
  · rintro (rfl | ⟨u, v, rfl, h1, h2⟩)
    · exact .nil
    · exact .cons h1 h2
  · intro h
    cases h with
    | nil => exact Or.inl rfl
    | cons h1 h2 => exact Or.inr ⟨_, _, rfl, h1, h2⟩

/-- The loop built for `+`. -/
theorem Frag.plus {m : Nfa A} {i f : Nat} {L : Lang A} {n : List A} {lv : Prop} {body : Nat → Nat → Nfa A → Nfa A}
    (hi : i < m.length) (hf : f < m.length) (hif : i ≠ f)
    (hb : ∀ (m : Nfa A) (i f : Nat), i < m.length → f < m.length → i ≠ f → Frag m (body i f m) i f L n lv)
    (hne : lv → ∃ w, L w) :
    Frag m (addTransition (addTransition (body m.length (m.length + 1)
      (addTransition (m ++ [[], []]) none i m.length)) none (m.length + 1) m.length) none (m.length + 1) f)
      i f (plus L) n lv := by
  have hl : (addTransition (m ++ [[], []]) none i m.length).length = m.length + 2 := by rw [length_add]; simp
  obtain ⟨R, a1, a2, a3, a4, a5, a6⟩ := hb (addTransition (m ++ [[], []]) none i m.length) m.length (m.length + 1)
    (by rw [hl]; omega) (by rw [hl]; omega) (by omega)
  rw [hl] at a2 a3
  refine ⟨plusRel R i f m.length (m.length + 1), ?_, by rw [length_add, length_add]; omega, ⟨?_, ?_⟩, ?_, ?_, ?_⟩
  · intro p l q
    rw [step_add (by rw [length_add]; omega), step_add (by omega), a1, step_add (by simp; omega)]
    rw [show ([[], []] : Nfa A) = List.replicate 2 [] from rfl, step_append_empty]
    unfold plusRel
    constructor
    · rintro ((((h | h) | h) | h) | h)
      · exact Or.inl h
      · exact Or.inr (Or.inl (Or.inl (Or.inl h)))
      · exact Or.inr (Or.inl (Or.inl (Or.inr h)))
      · exact Or.inr (Or.inl (Or.inr h))
      · exact Or.inr (Or.inr h)
    · rintro (h | ((h | h) | h) | h)
      · exact Or.inl (Or.inl (Or.inl (Or.inl h)))
      · exact Or.inl (Or.inl (Or.inl (Or.inr h)))
      · exact Or.inl (Or.inl (Or.inr h))
      · exact Or.inl (Or.inr h)
      · exact Or.inr h
  · rw [length_add, length_add]
    rintro p l q (((⟨rfl, -, -⟩ | h) | ⟨rfl, -, -⟩) | ⟨rfl, -, -⟩)
    · exact Or.inl rfl
    · rcases a3.src _ _ _ h with h | h <;> omega
    · omega
    · omega
  · rw [length_add, length_add]
    rintro p l q (((⟨-, -, rfl⟩ | h) | ⟨-, -, rfl⟩) | ⟨-, -, rfl⟩)
    · omega
    · rcases a3.dst _ _ _ h with h | h <;> omega
    · omega
    · exact Or.inl rfl
  · rintro p e q (((⟨-, h, -⟩ | h) | ⟨-, h, -⟩) | ⟨-, h, -⟩)
    · cases h
    · exact a4 _ _ _ h
    · cases h
    · cases h
  · intro w
    rw [path_plus a3 hi hf rfl (by omega) hif]
    unfold Spec.plus
    constructor
    · rintro ⟨u, v, e, h1, h2⟩
      refine ⟨u, v, e, (a5 u).1 h1, ?_⟩
      clear e
      induction h2 with
      | nil => exact .nil
      | cons q1 _ ih => exact .cons ((a5 _).1 q1) ih
    · rintro ⟨u, v, e, h1, h2⟩
      refine ⟨u, v, e, (a5 u).2 h1, ?_⟩
      clear e
      induction h2 with
      | nil => exact .nil
      | cons q1 _ ih => exact .cons ((a5 _).2 q1) ih
  · intro hl
    have hR : ∀ p l q, R p l q → plusRel R i f m.length (m.length + 1) p l q := fun _ _ _ hr => Or.inl (Or.inl (Or.inr hr))
    have e3 : plusRel R i f m.length (m.length + 1) (m.length + 1) (none : Label A) f := Or.inr ⟨rfl, rfl, rfl⟩
    obtain ⟨w0, hw0⟩ := hne hl
    have h1 : ∃ w, Path (plusRel R i f m.length (m.length + 1)) m.length w f :=
      ⟨_, (((a5 w0).2 hw0).mono hR).trans (.eps e3 (.nil _))⟩
    rintro p l q (((⟨-, -, rfl⟩ | h) | ⟨-, -, rfl⟩) | ⟨-, -, rfl⟩)
    · exact h1
    · obtain ⟨w, hw⟩ := a6 hl _ _ _ h
      exact ⟨_, (hw.mono hR).trans (.eps e3 (.nil _))⟩
    · exact h1
    · exact ⟨[], .nil _⟩

theorem frag_quant {L : Lang A} {n : List A} {lv : Prop} {body : Nat → Nat → Nfa A → Nfa A} (q : Quant)
    (hb : ∀ (m : Nfa A) (i f : Nat), i < m.length → f < m.length → i ≠ f → Frag m (body i f m) i f L n lv)
    (hne : lv → ∃ w, L w)
    {m : Nfa A} {i f : Nat} (hi : i < m.length) (hf : f < m.length) (hif : i ≠ f) :
    Frag m (withQuant q body i f m) i f (quantify q L) n lv := by
  cases q with
  | none => exact hb m i f hi hf hif
  | opt =>
    exact Frag.withEps hi hf hif (hb _ i f (by rw [length_add]; exact hi) (by rw [length_add]; exact hf) hif)
  | plus => exact Frag.plus hi hf hif hb hne
  | rep =>
    refine Frag.congr (Frag.withEps hi hf hif ?_) (star_eq_opt_plus L)
    exact Frag.plus (by rw [length_add]; exact hi) (by rw [length_add]; exact hf) hif hb hne

/-- One content after another, through a new state. -/
theorem Frag.seq {m m1 m2 : Nfa A} {i f : Nat} {L1 L2 : Lang A} {n1 n2 : List A} {lv1 lv2 : Prop} (hi : i < m.length)
    (hf : f < m.length) (hif : i ≠ f) (h1 : Frag (m ++ [[]]) m1 i m.length L1 n1 lv1)
    (h2 : Frag m1 m2 m.length f L2 n2 lv2) (hne : lv2 → ∃ w, L2 w) :
    Frag m m2 i f (fun w => ∃ u v, w = u ++ v ∧ L1 u ∧ L2 v) (n1 ++ n2) (lv1 ∧ lv2) := by
  obtain ⟨R1, a1, a2, a3, a4, a5, a6⟩ := h1
  obtain ⟨R2, b1, b2, b3, b4, b5, b6⟩ := h2
  have hl : (m ++ [[]]).length = m.length + 1 := by simp
  rw [hl] at a2 a3
  refine ⟨R1.or R2, ?_, by omega, ⟨?_, ?_⟩, ?_, ?_, ?_⟩
  · intro p l q
    rw [b1, a1, show ([[]] : Nfa A) = List.replicate 1 [] from rfl, step_append_empty]
    simp only [Rel.or]; exact or_assoc
  · intro p l q hr
    rcases hr with hr | hr
    · rcases a3.src _ _ _ hr with h | h <;> omega
    · rcases b3.src _ _ _ hr with h | h <;> omega
  · intro p l q hr
    rcases hr with hr | hr
    · rcases a3.dst _ _ _ hr with h | h <;> omega
    · rcases b3.dst _ _ _ hr with h | h <;> omega
  · intro p e q hr
    rcases hr with hr | hr
    · exact List.mem_append.2 (Or.inl (a4 _ _ _ hr))
    · exact List.mem_append.2 (Or.inr (b4 _ _ _ hr))
  · intro w
    rw [path_seq a3 b3 hif (by omega) (by omega) (Nat.le_refl _) (by omega) (by omega) (by omega) a2]
    simp only [a5, b5]
  · rintro ⟨l1, l2⟩ p l q (hr | hr)
    · obtain ⟨w, hw⟩ := a6 l1 _ _ _ hr
      obtain ⟨v, hv⟩ := hne l2
      exact ⟨w ++ v, (hw.mono (fun _ _ _ => Or.inl)).trans (((b5 v).2 hv).mono (fun _ _ _ => Or.inr))⟩
    · obtain ⟨w, hw⟩ := b6 l2 _ _ _ hr
      exact ⟨w, hw.mono (fun _ _ _ => Or.inr)⟩

omit [DecidableEq A] in
theorem quantify_ne {q : Quant} {L : Lang A} (h : ∃ w, L w) : ∃ w, quantify q L w := by
  obtain ⟨w, h⟩ := h
  cases q with
  | none => exact ⟨w, h⟩
  | opt => exact ⟨w, Or.inr h⟩
  | rep => exact ⟨[], .nil⟩
  | plus => exact ⟨w, w, [], by simp, h, .nil⟩

mutual
theorem lang_ne : ∀ c : Content A, NoEmptyAlt c → ∃ w, lang c w
  | .name e q, _ => by rw [lang]; exact quantify_ne ⟨_, rfl⟩
  | .seq l q, h => by rw [lang]; rw [NoEmptyAlt] at h; exact quantify_ne (langSeq_ne l h)
  | .alt l q, h => by rw [lang]; rw [NoEmptyAlt] at h; exact quantify_ne (langAlt_ne l h.1 h.2)
theorem langSeq_ne : ∀ l : List (Content A), NoEmptyAlts l → ∃ w, langSeq l w
  | [], _ => by rw [langSeq]; exact ⟨[], rfl⟩
  | c :: cs, h => by
    rw [langSeq]; rw [NoEmptyAlts] at h
    obtain ⟨u, hu⟩ := lang_ne c h.1
    obtain ⟨v, hv⟩ := langSeq_ne cs h.2
    exact ⟨u ++ v, u, v, rfl, hu, hv⟩
theorem langAlt_ne : ∀ l : List (Content A), l ≠ [] → NoEmptyAlts l → ∃ w, langAlt l w
  | [], h, _ => absurd rfl h
  | c :: cs, _, h => by
    rw [langAlt]; rw [NoEmptyAlts] at h
    obtain ⟨u, hu⟩ := lang_ne c h.1
    exact ⟨u, Or.inl hu⟩
end

mutual
theorem frag_content : ∀ (c : Content A), NoEmptySeq c → ∀ (m : Nfa A) (i f : Nat), i < m.length → f < m.length →
    i ≠ f → Frag m (compileContent c i f m) i f (lang c) (Names c) (NoEmptyAlt c)
  | .name e q, _, m, i, f, hi, hf, hif => by
    rw [compileContent, lang, Names, NoEmptyAlt]
    exact frag_quant q (fun m i f hi _ hif => frag_edge hi hif e) (fun _ => ⟨_, rfl⟩) hi hf hif
  | .seq l q, h, m, i, f, hi, hf, hif => by
    rw [compileContent, lang, Names, NoEmptyAlt]
    rw [NoEmptySeq] at h
    exact frag_quant q (frag_seq l h.1 h.2) (langSeq_ne l) hi hf hif
  | .alt l q, h, m, i, f, hi, hf, hif => by
    rw [compileContent, lang, Names, NoEmptyAlt]
    rw [NoEmptySeq] at h
    exact frag_quant q (fun m i f hi hf hif => (frag_alts l h m i f hi hf hif).weaken (fun _ h => h) (fun h => h.2))
      (fun h => langAlt_ne l h.1 h.2) hi hf hif
theorem frag_seq : ∀ (l : List (Content A)), l ≠ [] → NoEmptySeqs l → ∀ (m : Nfa A) (i f : Nat), i < m.length →
    f < m.length → i ≠ f → Frag m (compileSeq l i f m) i f (langSeq l) (NamesL l) (NoEmptyAlts l)
  | [], h, _, _, _, _, _, _, _ => absurd rfl h
  | [c], _, hc, m, i, f, hi, hf, hif => by
    rw [compileSeq]
    rw [NoEmptySeqs] at hc
    refine Frag.weaken (Frag.congr (frag_content c hc.1 m i f hi hf hif) ?_) ?_ ?_
    · intro w
      simp [langSeq]
    · intro e he; simp [NamesL, he]
    · intro h; rw [NoEmptyAlts] at h; exact h.1
  | c :: d :: cs, _, hc, m, i, f, hi, hf, hif => by
    rw [compileSeq, langSeq, NamesL, NoEmptyAlts]
    rw [NoEmptySeqs] at hc
    have h1 := frag_content c hc.1 (m ++ [[]]) i m.length (by simp; omega) (by simp) (by omega)
    refine Frag.seq hi hf hif h1 (frag_seq (d :: cs) (by simp) hc.2 _ _ _ ?_ ?_ (by omega)) (langSeq_ne _)
    all_goals
      obtain ⟨_, _, hl, _⟩ := h1
      simp at hl; omega
theorem frag_alts : ∀ (l : List (Content A)), NoEmptySeqs l → ∀ (m : Nfa A) (i f : Nat), i < m.length →
    f < m.length → i ≠ f → Frag m (compileAlt l i f m) i f (langAlt l) (NamesL l) (NoEmptyAlts l)
  | [], _, m, i, f, hi, hf, hif => by
    rw [compileAlt, langAlt, NamesL]
    refine ⟨fun _ _ _ => False, by simp, Nat.le_refl _, ⟨by simp, by simp⟩, by simp, ?_, by simp⟩
    intro w
    constructor
    · intro h
      cases h with
      | nil => exact absurd rfl hif
      | eps h _ => exact h
      | ev h _ => exact h
    · exact False.elim
  | c :: cs, hc, m, i, f, hi, hf, hif => by
    rw [compileAlt, langAlt, NamesL, NoEmptyAlts]
    rw [NoEmptySeqs] at hc
    have h1 := frag_content c hc.1 m i f hi hf hif
    refine Frag.alt hi hf hif h1 (frag_alts cs hc.2 _ _ _ ?_ ?_ hif)
    all_goals
      obtain ⟨_, _, hl, _⟩ := h1
      omega
end

end Verif.Content
