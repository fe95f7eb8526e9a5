import Verif.Xslt.SpaceSpec
import Verif.Xslt.SortProps

/-
Lemmas about whitespace rules.
-/
namespace Verif.Xslt
open Verif Spec

/-! The order of the rules -/

theorem strCmp_swap : ∀ a b : Str, strCmp a b = (strCmp b a).swap
  | [], [] => rfl
  | [], _ :: _ => rfl
  | _ :: _, [] => rfl
  | a :: s, b :: t => by
    simp only [strCmp]
    by_cases h1 : a.toNat < b.toNat
    · have : ¬ b.toNat < a.toNat := by omega
      simp [h1, this]
    · by_cases h2 : b.toNat < a.toNat
      · simp [h1, h2]
      · simp [h1, h2, strCmp_swap s t]

theorem strCmp_eq : ∀ {a b : Str}, strCmp a b = .eq → a = b
  | [], [], _ => rfl
  | [], _ :: _, h => nomatch h
  | _ :: _, [], h => nomatch h
  | a :: s, b :: t, h => by
    simp only [strCmp] at h
    split at h
    · exact nomatch h
    · split at h
      · exact nomatch h
      · rename_i h1 h2
        have : a.toNat = b.toNat := by omega
        rw [Char.toNat_inj.1 this, strCmp_eq h]

theorem strCmp_refl : ∀ a : Str, strCmp a a = .eq
  | [] => rfl
  | a :: s => by simp [strCmp, strCmp_refl s]

theorem strCmp_trans : ∀ {a b c : Str}, strCmp a b = .lt → strCmp b c = .lt → strCmp a c = .lt
  | [], [], _, h, _ => nomatch h
  | [], _ :: _, [], _, h => nomatch h
  | [], _ :: _, _ :: _, _, _ => rfl
  | _ :: _, [], _, h, _ => nomatch h
  | _ :: _, _ :: _, [], _, h => nomatch h
  | a :: s, b :: t, c :: u, h1, h2 => by
    simp only [strCmp] at h1 h2 ⊢
    by_cases hab : a.toNat < b.toNat
    · by_cases hbc : c.toNat < b.toNat
      · have : ¬ b.toNat < c.toNat := by omega
        simp [hbc, this] at h2
      · rw [if_pos (by omega)]
    · rw [if_neg hab] at h1
      by_cases hba : b.toNat < a.toNat
      · simp [hba] at h1
      · rw [if_neg hba] at h1
        have e : a.toNat = b.toNat := by omega
        rw [e]
        by_cases hbc : b.toNat < c.toNat
        · rw [if_pos hbc]
        · rw [if_neg hbc] at h2 ⊢
          by_cases hcb : c.toNat < b.toNat
          · simp [hcb] at h2
          · rw [if_neg hcb] at h2 ⊢
            exact strCmp_trans h1 h2

/-- A total order. -/
structure Linear {α : Type} (cmp : α → α → Ordering) : Prop where
  swap : ∀ a b, cmp a b = (cmp b a).swap
  eq : ∀ {a b}, cmp a b = .eq → a = b
  refl : ∀ a, cmp a a = .eq
  trans : ∀ {a b c}, cmp a b = .lt → cmp b c = .lt → cmp a c = .lt

theorem Linear.consistent {α : Type} {cmp : α → α → Ordering} (h : Linear cmp) : Consistent cmp fun _ => True := by
  refine ⟨fun a b _ _ => ?_, fun a b c _ _ _ h1 h2 => ?_⟩
  · rw [h.swap a b]
    cases cmp b a <;> simp
  · cases e1 : cmp a b with
    | gt => exact absurd e1 h1
    | eq => rw [h.eq e1]; exact h2
    | lt => cases e2 : cmp b c with
      | gt => exact absurd e2 h2
      | eq => rw [← h.eq e2, e1]; nofun
      | lt => rw [h.trans e1 e2]; nofun

/-- Lexicographic order. -/
def lexCmp {α β : Type} (f : α → α → Ordering) (g : β → β → Ordering) (a b : α × β) : Ordering :=
  match f a.1 b.1 with
  | .eq => g a.2 b.2
  | o => o

theorem Linear.lex {α β : Type} {f : α → α → Ordering} {g : β → β → Ordering} (hf : Linear f) (hg : Linear g) :
    Linear (lexCmp f g) := by
  refine ⟨fun a b => ?_, fun {a b} h => ?_, fun a => ?_, fun {a b c} h1 h2 => ?_⟩
  · simp only [lexCmp]
    rw [hf.swap a.1 b.1]
    cases f b.1 a.1 <;> simp [hg.swap a.2 b.2]
  · simp only [lexCmp] at h
    cases e : f a.1 b.1 with
    | eq => rw [e] at h; exact Prod.ext (hf.eq e) (hg.eq h)
    | lt => rw [e] at h; exact nomatch h
    | gt => rw [e] at h; exact nomatch h
  · simp [lexCmp, hf.refl, hg.refl]
  · simp only [lexCmp] at h1 h2 ⊢
    cases e1 : f a.1 b.1 with
    | gt => rw [e1] at h1; exact nomatch h1
    | eq =>
      rw [e1] at h1
      rw [hf.eq e1]
      cases e2 : f b.1 c.1 with
      | gt => rw [e2] at h2; exact nomatch h2
      | eq => rw [e2] at h2; exact hg.trans h1 h2
      | lt => rfl
    | lt =>
      cases e2 : f b.1 c.1 with
      | gt => rw [e2] at h2; exact nomatch h2
      | eq => rw [← hf.eq e2, e1]
      | lt => rw [hf.trans e1 e2]

theorem strCmp_linear : Linear strCmp := ⟨strCmp_swap, strCmp_eq, strCmp_refl, strCmp_trans⟩

theorem nsCmp_linear : Linear nsCmp := by
  refine ⟨fun a b => ?_, fun {a b} h => ?_, fun a => ?_, fun {a b c} h1 h2 => ?_⟩
  · cases a <;> cases b <;> simp [nsCmp, ← strCmp_swap]
  · cases a <;> cases b <;> simp [nsCmp] at h ⊢
    exact strCmp_eq h
  · cases a <;> simp [nsCmp, strCmp_refl]
  · cases a <;> cases b <;> cases c <;> simp [nsCmp] at h1 h2 ⊢
    exact strCmp_trans h1 h2

theorem boolCmp_linear : Linear boolCmp := by
  refine ⟨?_, ?_, ?_, ?_⟩
  · decide
  · intro a b; revert a b; decide
  · decide
  · intro a b c; revert a b c; decide

theorem ruleCmp_lex (a b : Token × Bool) : ruleCmp a b = lexCmp (lexCmp nsCmp strCmp) boolCmp a b := by
  simp only [ruleCmp, lexCmp]
  cases nsCmp a.1.1 b.1.1
  · rfl
  · cases strCmp a.1.2 b.1.2 <;> rfl
  · rfl

theorem ruleCmp_linear : Linear ruleCmp := by
  have : ruleCmp = lexCmp (lexCmp nsCmp strCmp) boolCmp := funext fun a => funext fun b => ruleCmp_lex a b
  rw [this]
  exact (nsCmp_linear.lex strCmp_linear).lex boolCmp_linear

/-! The dictionary -/

theorem mem_putRule : ∀ {d : List (Token × Bool)} {t f}, (d.map (·.1)).Nodup →
    ((putRule d t f).map (·.1)).Nodup ∧
    ∀ u g, (u, g) ∈ putRule d t f ↔ (u = t ∧ g = f) ∨ (u ≠ t ∧ (u, g) ∈ d)
  | [], t, f, _ => by simp [putRule]
  | (u, g) :: d, t, f, h => by
    simp only [List.map_cons, List.nodup_cons] at h
    obtain ⟨ih1, ih2⟩ := mem_putRule (t := t) (f := f) h.2
    simp only [putRule]
    split
    · rename_i e
      subst e
      refine ⟨by simpa using h, fun v k => ?_⟩
      simp only [List.mem_cons, Prod.mk.injEq]
      constructor
      · rintro (⟨rfl, rfl⟩ | hm)
        · exact .inl ⟨rfl, rfl⟩
        · refine .inr ⟨fun e => ?_, .inr hm⟩
          subst e
          exact h.1 (List.mem_map.2 ⟨_, hm, rfl⟩)
      · rintro (⟨rfl, rfl⟩ | ⟨h1, ⟨rfl, rfl⟩ | h2⟩)
        · exact .inl ⟨rfl, rfl⟩
        · exact absurd rfl h1
        · exact .inr h2
    · rename_i e
      refine ⟨?_, fun v k => ?_⟩
      · simp only [List.map_cons, List.nodup_cons]
        refine ⟨fun hin => ?_, ih1⟩
        obtain ⟨⟨u', g'⟩, hm, rfl⟩ := List.mem_map.1 hin
        rcases (ih2 _ _).1 hm with ⟨e', _⟩ | ⟨_, hm⟩
        · exact e e'
        · exact h.1 (List.mem_map.2 ⟨_, hm, rfl⟩)
      · simp only [List.mem_cons, ih2, Prod.mk.injEq]
        constructor
        · rintro (⟨rfl, rfl⟩ | ⟨rfl, rfl⟩ | ⟨h1, h2⟩)
          · exact .inr ⟨e, .inl ⟨rfl, rfl⟩⟩
          · exact .inl ⟨rfl, rfl⟩
          · exact .inr ⟨h1, .inr h2⟩
        · rintro (⟨rfl, rfl⟩ | ⟨h1, ⟨rfl, rfl⟩ | h2⟩)
          · exact .inr (.inl ⟨rfl, rfl⟩)
          · exact .inl ⟨rfl, rfl⟩
          · exact .inr (.inr ⟨h1, h2⟩)

/-- The last declaration with the token. -/
def LastDecl (l : List SpaceDecl) (t : Token) (f : Bool) : Prop :=
  ∃ a e b, l = a ++ e :: b ∧ e.token = t ∧ e.strip = f ∧ ∀ x ∈ b, x.token ≠ t

theorem mem_spaceDict : ∀ {l : List SpaceDecl} {d : List (Token × Bool)}, (d.map (·.1)).Nodup →
    ((spaceDict l d).map (·.1)).Nodup ∧
    ∀ t f, (t, f) ∈ spaceDict l d ↔ LastDecl l t f ∨ ((t, f) ∈ d ∧ ∀ x ∈ l, x.token ≠ t)
  | [], d, h => ⟨h, fun t f => by simp [spaceDict, LastDecl]⟩
  | e :: es, d, h => by
    obtain ⟨p1, p2⟩ := mem_putRule (t := e.token) (f := e.strip) h
    obtain ⟨q1, q2⟩ := mem_spaceDict (l := es) p1
    refine ⟨q1, fun t f => ?_⟩
    simp only [spaceDict]
    rw [q2 t f, p2 t f]
    constructor
    · rintro (⟨a, x, b, rfl, h1, h2, h3⟩ | ⟨⟨rfl, rfl⟩ | ⟨h1, h2⟩, h3⟩)
      · exact .inl ⟨e :: a, x, b, rfl, h1, h2, h3⟩
      · exact .inl ⟨[], e, es, rfl, rfl, rfl, h3⟩
      · refine .inr ⟨h2, fun x hx => ?_⟩
        rcases List.mem_cons.1 hx with rfl | hx
        · exact fun e => h1 e.symm
        · exact h3 x hx
    · rintro (⟨a, x, b, h0, h1, h2, h3⟩ | ⟨h1, h2⟩)
      · cases a with
        | nil => cases h0; exact .inr ⟨.inl ⟨h1.symm, h2.symm⟩, h3⟩
        | cons y a => cases h0; exact .inl ⟨a, x, b, rfl, h1, h2, h3⟩
      · exact .inr ⟨.inr ⟨fun e' => h2 e (by simp) e'.symm, h1⟩, fun x hx => h2 x (by simp [hx])⟩

theorem mem_spaceRules {l : List SpaceDecl} {t f} : (t, f) ∈ spaceRules l ↔ LastDecl l t f := by
  unfold spaceRules
  rw [(listSort_perm _).mem_iff, (mem_spaceDict (d := []) (by simp)).2]
  simp

theorem lastDecl_exists : ∀ {l : List SpaceDecl} {x : SpaceDecl}, x ∈ l → ∃ f, LastDecl l x.token f
  | y :: l, x, hx => by
    by_cases h : ∃ z ∈ l, z.token = x.token
    · obtain ⟨z, hz, e⟩ := h
      obtain ⟨f, a, e', b, rfl, h1, h2, h3⟩ := lastDecl_exists hz
      rw [e] at h1 h3
      exact ⟨f, y :: a, e', b, rfl, h1, h2, h3⟩
    · rcases List.mem_cons.1 hx with rfl | hx
      · exact ⟨x.strip, [], x, l, rfl, rfl, rfl, fun z hz e => h ⟨z, hz, e⟩⟩
      · exact absurd ⟨x, hx, rfl⟩ h

/-! Matching -/

theorem ruleTest_iff {t : Token} {n : EName} : ruleTest t n = true ↔ TokenMatches t n := by
  obtain ⟨ns, l⟩ := t
  unfold ruleTest TokenMatches
  by_cases h : l = s!! "*"
  · subst h
    cases ns with
    | none => simp
    | some ns =>
      simp only [if_true, decide_eq_true_eq]
      constructor
      · intro e; exact .inr (.inl ⟨ns, rfl, e⟩)
      · rintro (e | ⟨ns', e, e'⟩ | ⟨e, _⟩)
        · simp at e
        · cases e; exact e'
        · exact absurd rfl e
  · simp only [h, if_false, Bool.and_eq_true, decide_eq_true_eq]
    constructor
    · rintro ⟨rfl, rfl⟩; exact .inr (.inr ⟨h, rfl⟩)
    · rintro (e | ⟨ns', e, e'⟩ | ⟨_, e⟩)
      · cases e; exact absurd rfl h
      · cases e; exact absurd rfl h
      · cases e; exact ⟨rfl, rfl⟩

/-- A local name that is possible: its first character comes after `*`. -/
def Named (n : EName) : Prop := ∃ c s, n.2 = c :: s ∧ '*'.toNat < c.toNat

theorem star_lt {n : EName} (h : Named n) : strCmp (s!! "*") n.2 = .lt := by
  obtain ⟨c, s, e, hc⟩ := h
  rw [e]
  show strCmp ('*' :: []) (c :: s) = .lt
  simp only [strCmp]
  rw [if_pos hc]

/-- Of two rules for an element, the one with the higher priority is greater. -/
theorem cmp_of_priority {n : EName} (hn : Named n) {t u : Token} {f g : Bool} (ht : TokenMatches t n)
    (hu : TokenMatches u n) : (tokenPriority t < tokenPriority u → ruleCmp (t, f) (u, g) = .lt) ∧
      (tokenPriority t = tokenPriority u → t = u) := by
  obtain ⟨nns, nl⟩ := n
  have hs := star_lt hn
  simp only at hs
  have hne : nl ≠ s!! "*" := by
    intro e
    rw [e, strCmp_refl] at hs
    exact nomatch hs
  rcases ht with rfl | ⟨ns, rfl, e⟩ | ⟨h1, rfl⟩ <;> rcases hu with rfl | ⟨ns', rfl, e'⟩ | ⟨h2, rfl⟩
  · simp [tokenPriority]
  · simp [tokenPriority, ruleCmp, nsCmp]
  · cases nns with
    | none => simp [tokenPriority, ruleCmp, nsCmp, hs, hne]
    | some ns => simp [tokenPriority, ruleCmp, nsCmp, hne]
  · simp [tokenPriority]
  · rw [e] at e'
    cases e'
    simp [tokenPriority]
  · simp only at e hne
    subst e
    simp [tokenPriority, ruleCmp, nsCmp, strCmp_refl, hs, hne]
  · simp [tokenPriority, hne]
  · simp [tokenPriority, hne]
  · simp

theorem isPreserving_none {rules : List (Token × Bool)} {n : EName} (h : ∀ r ∈ rules, ¬ TokenMatches r.1 n) :
    isPreserving rules n = true := by
  induction rules with
  | nil => rfl
  | cons r rs ih =>
    obtain ⟨t, f⟩ := r
    have : ruleTest t n = false := by
      cases e : ruleTest t n with
      | false => rfl
      | true => exact absurd (ruleTest_iff.1 e) (h (t, f) (by simp))
    simp only [isPreserving, this]
    exact ih fun r hr => h r (by simp [hr])

theorem isPreserving_first {R : (Token × Bool) → (Token × Bool) → Prop} {rules : List (Token × Bool)} {n : EName}
    (hp : rules.Pairwise R) (h : ∃ r ∈ rules, TokenMatches r.1 n) :
    ∃ t f, (t, f) ∈ rules ∧ TokenMatches t n ∧ isPreserving rules n = !f ∧
      ∀ r ∈ rules, TokenMatches r.1 n → r = (t, f) ∨ R (t, f) r := by
  induction rules with
  | nil => obtain ⟨_, h, _⟩ := h; exact nomatch h
  | cons r rs ih =>
    obtain ⟨t, f⟩ := r
    obtain ⟨hp1, hp2⟩ := List.pairwise_cons.1 hp
    simp only [isPreserving]
    cases e : ruleTest t n with
    | true =>
      refine ⟨t, f, by simp, ruleTest_iff.1 e, by simp, fun r hr _ => ?_⟩
      rcases List.mem_cons.1 hr with rfl | hr
      · exact .inl rfl
      · exact .inr (hp1 r hr)
    | false =>
      have hne : ¬ TokenMatches t n := fun h => by rw [ruleTest_iff.2 h] at e; exact nomatch e
      obtain ⟨r, hr, hm⟩ := h
      have : ∃ r ∈ rs, TokenMatches r.1 n := by
        rcases List.mem_cons.1 hr with rfl | hr
        · exact absurd hm hne
        · exact ⟨r, hr, hm⟩
      obtain ⟨t', f', h1, h2, h3, h4⟩ := ih hp2 this
      refine ⟨t', f', by simp [h1], h2, by simpa using h3, fun r hr hm => ?_⟩
      rcases List.mem_cons.1 hr with rfl | hr
      · exact absurd hm hne
      · exact h4 r hr hm

theorem spaceRules_sorted (l : List SpaceDecl) : (spaceRules l).Pairwise fun a b => ruleCmp b a ≠ .gt := by
  have := listSort_sorted ruleCmp_linear.consistent (rev := true) (R := fun _ _ => True) (l := spaceDict l [])
    (by simp) (List.pairwise_of_forall fun _ _ => trivial)
  exact this.imp fun h => h.le

/-! Reading -/

theorem isXmlWs_iff {c : Char} : isXmlWs c = true ↔ c = ' ' ∨ c = '\t' ∨ c = '\r' ∨ c = '\n' := by
  have key : ∀ d : Char, c = d ↔ c.toNat = d.toNat := fun d => ⟨fun h => by rw [h], fun h => Char.toNat_inj.1 h⟩
  simp only [isXmlWs, Bool.or_eq_true, decide_eq_true_eq, key]
  have e1 : ' '.toNat = 0x20 := rfl
  have e2 : '\t'.toNat = 9 := rfl
  have e3 : '\r'.toNat = 13 := rfl
  have e4 : '\n'.toNat = 10 := rfl
  rw [e1, e2, e3, e4]
  omega

theorem blank_iff {s : Str} : s.all isXmlWs = false ↔ NonBlank s := by
  simp only [List.all_eq_false, NonBlank, isXmlWs_iff, not_or]

/-- What `flush` writes. -/
def pending (k : Bool) (s : Str) : List XEv :=
  if s = [] then [] else if s.all isXmlWs then (if k then [.data s] else []) else [.data s]

theorem flush_eq {st : RSt} {k ks} (h : st.keep = k :: ks) :
    flush st = { st with buf := [], out := st.out ++ pending k st.buf } := by
  unfold flush pending
  by_cases h1 : st.buf = []
  · cases st; simp_all
  · simp only [h1, if_false, h, List.head?_cons, Option.some.injEq]
    by_cases h2 : st.buf.all isXmlWs = true
    · cases k <;> simp [h2]
    · simp [h2]

theorem readAll_pieces (rules) : ∀ (ps : List Str) (st : RSt),
    readAll rules st (ps.map .data) = { st with buf := st.buf ++ ps.flatten }
  | [], st => by simp [readAll]
  | p :: ps, st => by
    have : readAll rules st ((p :: ps).map .data) = readAll rules { st with buf := st.buf ++ p } (ps.map .data) := rfl
    rw [this, readAll_pieces rules ps]
    simp

theorem readAll_append (rules) (st : RSt) (a b : List XEv) :
    readAll rules st (a ++ b) = readAll rules (readAll rules st a) b := by
  simp [readAll]

/-- The tops of the stacks for the ancestors. -/
structure Tops (P : EName → Prop) (anc : List (EName × Option Str)) (s k : Bool) : Prop where
  space : s = true ↔ SpacePreserved anc
  keep : k = true ↔ anc = [] ∨ (∃ p rest, anc = p :: rest ∧ P p.1) ∨ SpacePreserved anc

theorem kept_iff {P anc s k} (h : Tops P anc s k) {t : Str} : Kept P anc t ↔ NonBlank t ∨ k = true := by
  rw [h.keep, Kept]
  constructor
  · rintro (h | h | h | h)
    · exact .inr (.inl h)
    · exact .inr (.inr (.inl h))
    · exact .inl h
    · exact .inr (.inr (.inr h))
  · rintro (h | h | h | h)
    · exact .inr (.inr (.inl h))
    · exact .inl h
    · exact .inr (.inl h)
    · exact .inr (.inr (.inr h))

theorem space_cons {n sp anc} : SpacePreserved ((n, sp) :: anc) ↔
    sp = some (s!! "preserve") ∨ (sp ≠ some (s!! "default") ∧ SpacePreserved anc) := by
  constructor
  · rintro ⟨a, x, b, h1, h2, h3⟩
    cases a with
    | nil => cases h1; exact .inl h2
    | cons y a => cases h1; exact .inr ⟨h3 (n, sp) (by simp), a, x, b, rfl, h2, fun z hz => h3 z (by simp [hz])⟩
  · rintro (h | ⟨h0, a, x, b, rfl, h2, h3⟩)
    · exact ⟨[], (n, sp), anc, rfl, h, by simp⟩
    · refine ⟨(n, sp) :: a, x, b, rfl, h2, fun z hz => ?_⟩
      rcases List.mem_cons.1 hz with rfl | hz
      · exact h0
      · exact h3 z hz

theorem spaceFlag_iff {s sp} {anc : List (EName × Option Str)} {n} (h : s = true ↔ SpacePreserved anc) :
    spaceFlag s sp = true ↔ SpacePreserved ((n, sp) :: anc) := by
  rw [space_cons]
  unfold spaceFlag
  cases sp with
  | none => simp [h]
  | some v =>
    simp only [Option.some.injEq]
    by_cases h1 : v = s!! "preserve"
    · simp [h1]
    · by_cases h2 : v = s!! "default"
      · rw [if_neg h1, if_pos h2]
        simp [h2]
      · rw [if_neg h1, if_neg h2, h]
        simp [h1, h2]

theorem tops_cons {rules s k n sp anc} (h : Tops (fun n => isPreserving rules n = true) anc s k) :
    Tops (fun n => isPreserving rules n = true) ((n, sp) :: anc) (spaceFlag s sp)
      (isPreserving rules n || spaceFlag s sp) := by
  refine ⟨spaceFlag_iff h.space, ?_⟩
  rw [Bool.or_eq_true, spaceFlag_iff (n := n) h.space]
  constructor
  · rintro (h | h)
    · exact .inr (.inl ⟨_, _, rfl, h⟩)
    · exact .inr (.inr h)
  · rintro (h | ⟨p, rest, e, h⟩ | h)
    · exact nomatch h
    · cases e; exact .inl h
    · exact .inr h

/-- Reading children: between two nodes a text may be pending. -/
theorem readAll_tree (rules : List (Token × Bool)) : ∀ (t : XTree) (anc : List (EName × Option Str)) (s k : Bool)
    (ss ks : List Bool) (b : Str) (o : List XEv), t.Normal → Tops (fun n => isPreserving rules n = true) anc s k →
    (b ≠ [] → ¬ t.startsText) →
    ∃ o', Reads (fun n => isPreserving rules n = true) anc t o' ∧
      flush (readAll rules ⟨s :: ss, k :: ks, b, o⟩ t.events) = ⟨s :: ss, k :: ks, [], o ++ pending k b ++ o'⟩
  | .nil, anc, s, k, ss, ks, b, o, _, _, _ => by
    refine ⟨[], .nil, ?_⟩
    have : readAll rules ⟨s :: ss, k :: ks, b, o⟩ XTree.nil.events = ⟨s :: ss, k :: ks, b, o⟩ := rfl
    rw [this, flush_eq (k := k) (ks := ks) rfl]
    simp
  | .other i rest, anc, s, k, ss, ks, b, o, hn, ht, _ => by
    obtain ⟨o', h1, h2⟩ := readAll_tree rules rest anc s k ss ks [] (o ++ pending k b ++ [.other i]) hn ht (by simp)
    refine ⟨.other i :: o', .other h1, ?_⟩
    have : readAll rules ⟨s :: ss, k :: ks, b, o⟩ (XTree.other i rest).events =
        readAll rules (readStep rules ⟨s :: ss, k :: ks, b, o⟩ (.other i)) rest.events := rfl
    rw [this]
    have : readStep rules ⟨s :: ss, k :: ks, b, o⟩ (.other i) =
        ⟨s :: ss, k :: ks, [], o ++ pending k b ++ [.other i]⟩ := by
      simp only [readStep]
      rw [flush_eq (k := k) (ks := ks) rfl]
    rw [this, h2]
    simp [pending]
  | .text ps rest, anc, s, k, ss, ks, b, o, hn, ht, hb => by
    have hb0 : b = [] := by
      by_cases h : b = []
      · exact h
      · exact absurd trivial (hb h)
    subst hb0
    obtain ⟨o', h1, h2⟩ := readAll_tree rules rest anc s k ss ks ps.flatten o hn.2 ht (fun _ => hn.1)
    have he : readAll rules ⟨s :: ss, k :: ks, [], o⟩ (XTree.text ps rest).events =
        readAll rules ⟨s :: ss, k :: ks, ps.flatten, o⟩ rest.events := by
      simp only [XTree.events]
      rw [readAll_append, readAll_pieces]
      simp
    rw [he, h2]
    have hp : pending k [] = [] := by simp [pending]
    by_cases h0 : ps.flatten = []
    · exact ⟨o', .empty h0 h1, by simp [h0, pending]⟩
    · by_cases hk : Kept (fun n => isPreserving rules n = true) anc ps.flatten
      · refine ⟨.data ps.flatten :: o', .kept h0 hk h1, ?_⟩
        have : pending k ps.flatten = [.data ps.flatten] := by
          unfold pending
          rw [if_neg h0]
          rcases (kept_iff ht).1 hk with h | h
          · rw [if_neg (by rw [blank_iff.2 h]; nofun)]
          · rw [h]; simp
        rw [this, hp]
        simp
      · refine ⟨o', .stripped hk h1, ?_⟩
        have : pending k ps.flatten = [] := by
          unfold pending
          rw [if_neg h0]
          rw [kept_iff ht, not_or] at hk
          rw [if_pos (by
            cases e : ps.flatten.all isXmlWs with
            | true => rfl
            | false => exact absurd (blank_iff.1 e) hk.1), if_neg hk.2]
        rw [this, hp]
  | .elem n sp kids rest, anc, s, k, ss, ks, b, o, hn, ht, _ => by
    obtain ⟨o1, g1, g2⟩ := readAll_tree rules kids ((n, sp) :: anc) (spaceFlag s sp)
      (isPreserving rules n || spaceFlag s sp) (s :: ss) (k :: ks) [] (o ++ pending k b ++ [.start n sp]) hn.1
      (tops_cons ht) (by simp)
    obtain ⟨o2, h1, h2⟩ := readAll_tree rules rest anc s k ss ks []
      (o ++ pending k b ++ [.start n sp] ++ o1 ++ [.stop]) hn.2 ht (by simp)
    refine ⟨.start n sp :: (o1 ++ .stop :: o2), .elem g1 h1, ?_⟩
    have e1 : readAll rules ⟨s :: ss, k :: ks, b, o⟩ (XTree.elem n sp kids rest).events =
        readAll rules (readStep rules (readAll rules (readStep rules ⟨s :: ss, k :: ks, b, o⟩ (.start n sp))
          kids.events) .stop) rest.events := by
      have : readAll rules ⟨s :: ss, k :: ks, b, o⟩ (XTree.elem n sp kids rest).events =
        readAll rules (readStep rules ⟨s :: ss, k :: ks, b, o⟩ (.start n sp)) (kids.events ++ .stop :: rest.events) := rfl
      rw [this, readAll_append]
      rfl
    have e2 : readStep rules ⟨s :: ss, k :: ks, b, o⟩ (.start n sp) =
        ⟨spaceFlag s sp :: s :: ss, (isPreserving rules n || spaceFlag s sp) :: k :: ks, [],
          o ++ pending k b ++ [.start n sp]⟩ := by
      simp only [readStep]
      rw [flush_eq (k := k) (ks := ks) rfl]
      simp
    have hp : ∀ k, pending k [] = [] := fun k => by simp [pending]
    rw [hp, List.append_nil] at g2
    have e3 : ∀ st, readStep rules st .stop =
        ⟨(flush st).space.tail, (flush st).keep.tail, (flush st).buf, (flush st).out ++ [.stop]⟩ := fun st => rfl
    rw [e1, e2, e3, g2]
    simp only [List.tail_cons]
    rw [h2, hp]
    simp

theorem reads_unique {P : EName → Prop} : ∀ {t anc o o'}, Reads P anc t o → Reads P anc t o' → o = o'
  | _, _, _, _, .nil, .nil => rfl
  | _, _, _, _, .elem h1 h2, .elem g1 g2 => by rw [reads_unique h1 g1, reads_unique h2 g2]
  | _, _, _, _, .other h, .other g => by rw [reads_unique h g]
  | _, _, _, _, .kept _ _ h, .kept _ _ g => by rw [reads_unique h g]
  | _, _, _, _, .kept h0 _ _, .empty g0 _ => absurd g0 h0
  | _, _, _, _, .kept _ h0 _, .stripped g0 _ => absurd h0 g0
  | _, _, _, _, .empty h0 _, .kept g0 _ _ => absurd h0 g0
  | _, _, _, _, .empty _ h, .empty _ g => reads_unique h g
  | _, _, _, _, .empty _ h, .stripped _ g => reads_unique h g
  | _, _, _, _, .stripped h0 _, .kept _ g0 _ => absurd g0 h0
  | _, _, _, _, .stripped _ h, .empty _ g => reads_unique h g
  | _, _, _, _, .stripped _ h, .stripped _ g => reads_unique h g

end Verif.Xslt
