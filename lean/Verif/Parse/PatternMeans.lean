import Verif.Parse.PatternParse
/-
What the parser makes of the tokens of a pattern and what the recommendation does.
-/
namespace Verif.Parse
open Spec

/-! ### Patterns that differ in the forms of their predicates only -/

inductive AlikePStep : PStep → PStep → Prop where
  | mk (a t) {ps' ps} : Alikes ps' ps → AlikePStep ⟨a, t, ps'⟩ ⟨a, t, ps⟩

inductive AlikePRel : PRel → PRel → Prop where
  | one {s' s} : AlikePStep s' s → AlikePRel (.one s') (.one s)
  | slash {r' r s' s} : AlikePRel r' r → AlikePStep s' s → AlikePRel (.slash r' s') (.slash r s)
  | slashes {r' r s' s} : AlikePRel r' r → AlikePStep s' s → AlikePRel (.slashes r' s') (.slashes r s)

inductive AlikePPath : PPath → PPath → Prop where
  | root : AlikePPath .root .root
  | abs {r' r} : AlikePRel r' r → AlikePPath (.abs r') (.abs r)
  | any {r' r} : AlikePRel r' r → AlikePPath (.any r') (.any r)
  | rel {r' r} : AlikePRel r' r → AlikePPath (.rel r') (.rel r)
  | call (f) : AlikePPath (.call f) (.call f)
  | callSlash (f) {r' r} : AlikePRel r' r → AlikePPath (.callSlash f r') (.callSlash f r)
  | callSlashes (f) {r' r} : AlikePRel r' r → AlikePPath (.callSlashes f r') (.callSlashes f r)

inductive AlikePPaths : List PPath → List PPath → Prop where
  | nil : AlikePPaths [] []
  | cons {p' p l' l} : AlikePPath p' p → AlikePPaths l' l → AlikePPaths (p' :: l') (p :: l)

theorem AlikePPaths.append {a' a : List PPath} (h : AlikePPaths a' a) {p' p : PPath}
    (hp : AlikePPath p' p) : AlikePPaths (a' ++ [p']) (a ++ [p]) := by
  induction h with
  | nil => exact .cons hp .nil
  | cons h1 _ ih => exact .cons h1 ih

/-! ### What the recommendation calls a pattern is read -/

theorem step_found {w : List Tok} {s : PStep}
    (h : StepOf (fun w t => Says .nodeTest w (.test t)) (fun w ps => Says .predicates w (.list ps)) w s) :
    ∃ s', BStep w s' ∧ AlikePStep s' s := by
  cases h with
  | @mk u v w a t ps ha ht hp =>
  have ht : HasV 35 v (.test t) := foundV ht
  obtain ⟨ps0, e, hp⟩ := foundV hp
  cases e
  rcases hp with ⟨rfl, rfl⟩ | ⟨ps', hp, hl⟩
  · exact ⟨_, .mk ha ht (.inl ⟨rfl, rfl⟩), .mk a t .nil⟩
  · obtain ⟨l, e, hne⟩ := hasV_preds hp
    cases e
    exact ⟨_, .mk ha ht (.inr ⟨hp, hne⟩), .mk a t hl⟩

theorem rel_found {w : List Tok} {r : PRel}
    (h : RelOf (fun w t => Says .nodeTest w (.test t)) (fun w ps => Says .predicates w (.list ps)) w r) :
    ∃ r', BRel w r' ∧ AlikePRel r' r := by
  induction h with
  | one h =>
    obtain ⟨s', h1, h2⟩ := step_found h
    exact ⟨_, .one h1, .one h2⟩
  | slash _ ht hs ih =>
    obtain ⟨r', g1, g2⟩ := ih
    obtain ⟨s', h1, h2⟩ := step_found hs
    exact ⟨_, .slash g1 ht h1, .slash g2 h2⟩
  | slashes _ ht hs ih =>
    obtain ⟨r', g1, g2⟩ := ih
    obtain ⟨s', h1, h2⟩ := step_found hs
    exact ⟨_, .slashes g1 ht h1, .slashes g2 h2⟩

theorem may_id : MayCall "id".toList 1 :=
  .inl ⟨"id", 1, some 1, by decide, rfl, by decide, by intro m h; cases h; decide⟩

theorem may_key : MayCall "key".toList 2 :=
  .inl ⟨"key", 2, some 2, by decide, rfl, by decide, by intro m h; cases h; decide⟩

theorem call_found {w : List Tok} {f : Ast} (h : CallOf w f) : BuiltCall w f := by
  cases h with
  | id h1 h2 h3 h4 h5 h6 =>
    refine .id h1 h3 h4 h5 ?_
    rw [h2, stringLiteral_says h6]
    exact call_says may_id
  | key h1 h2 h3 h4 h5 h6 h7 h8 h9 =>
    refine .key h1 h3 h4 h5 h6 h7 ?_
    rw [h2, stringLiteral_says h8, stringLiteral_says h9]
    exact call_says may_key

theorem path_found {w : List Tok} {p : PPath}
    (h : PathOf (fun w t => Says .nodeTest w (.test t)) (fun w ps => Says .predicates w (.list ps)) CallOf w p) :
    ∃ p', BPath w p' ∧ AlikePPath p' p := by
  cases h with
  | root h => exact ⟨_, .root h, .root⟩
  | abs h hr => obtain ⟨r', g1, g2⟩ := rel_found hr; exact ⟨_, .abs h g1, .abs g2⟩
  | any h hr => obtain ⟨r', g1, g2⟩ := rel_found hr; exact ⟨_, .any h g1, .any g2⟩
  | rel hr => obtain ⟨r', g1, g2⟩ := rel_found hr; exact ⟨_, .rel g1, .rel g2⟩
  | call h => exact ⟨_, .call (call_found h), .call _⟩
  | callSlash h ht hr =>
    obtain ⟨r', g1, g2⟩ := rel_found hr; exact ⟨_, .callSlash (call_found h) ht g1, .callSlash _ g2⟩
  | callSlashes h ht hr =>
    obtain ⟨r', g1, g2⟩ := rel_found hr; exact ⟨_, .callSlashes (call_found h) ht g1, .callSlashes _ g2⟩

theorem pattern_found {w : List Tok} {P : List PPath} (h : PatternSays w P) :
    ∃ P', Built w P' ∧ AlikePPaths P' P := by
  induction h with
  | one h =>
    obtain ⟨p', h1, h2⟩ := path_found h
    exact ⟨_, .one h1, .cons h2 .nil⟩
  | more _ ht hp ih =>
    obtain ⟨P', g1, g2⟩ := ih
    obtain ⟨p', h1, h2⟩ := path_found hp
    exact ⟨_, .more g1 ht h1, g2.append h2⟩

/-! ### And nothing else -/

/-- The token looks like one of its kind. -/
def PTokOk (t : Tok) : Prop :=
  (∀ k : Term, t.kind = patSym k.num → TextOk k t.text) ∧
  (t.kind = 5 → t.text = "id".toList) ∧ (t.kind = 6 → t.text = "key".toList)

/-- Only `processing-instruction` is followed by a parenthesis and a literal. -/
def PPiOnly (w : List Tok) : Prop :=
  ∀ a t l x b, w = a ++ t :: l :: x :: b → PIs (.x .nodeType) t → PIs (.x .literal) x → t.text = piName

theorem PPiOnly.left {u v : List Tok} (h : PPiOnly (u ++ v)) : PPiOnly u :=
  fun a t l x b e => h a t l x (b ++ v) (by simp [e])
theorem PPiOnly.right {u v : List Tok} (h : PPiOnly (u ++ v)) : PPiOnly v :=
  fun a t l x b e => h (u ++ a) t l x b (by simp [e])
theorem PPiOnly.tail {t : Tok} {v : List Tok} (h : PPiOnly (t :: v)) : PPiOnly v :=
  PPiOnly.right (u := [t]) h

theorem unmap_ok {u : List Tok} (h : ∀ t ∈ inPattern u, PTokOk t) : ∀ t ∈ u, TokOk t := by
  intro t ht k hk
  have := (h (mapTok patSym t) (List.mem_map_of_mem ht)).1 k (by rw [mapTok]; dsimp only; rw [hk])
  exact this

theorem unmap_pi {u : List Tok} (h : PPiOnly (inPattern u)) : PiOnly u := by
  intro a t l x b e h1 h2
  subst e
  have h1 : t.kind = Term.nodeType.num := h1
  have h2 : x.kind = Term.literal.num := h2
  exact h (inPattern a) (mapTok patSym t) (mapTok patSym l) (mapTok patSym x) (inPattern b)
    (by simp [inPattern]) (by rw [PIs, mapTok]; dsimp only; rw [h1]; rfl)
    (by rw [PIs, mapTok]; dsimp only; rw [h2]; rfl)

theorem hasV_says {x : Nat} {w : List Tok} {v : Val} (h : HasV x w v) (ho : ∀ t ∈ w, TokOk t)
    (hp : PiOnly w) : Said x w v := by
  obtain ⟨t, h1, rfl, rfl, h4⟩ := h
  exact build_said t h1 ho hp v h4

theorem step_said {w : List Tok} {s' : PStep} (h : BStep w s') (ho : ∀ t ∈ w, PTokOk t)
    (hp : PPiOnly w) : ∃ s, StepOf (fun w t => Says .nodeTest w (.test t))
      (fun w ps => Says .predicates w (.list ps)) w s ∧ AlikePStep s' s := by
  cases h with
  | @mk u v w a t ps ha ht hq =>
  obtain ⟨t0, e, ht⟩ := hasV_says ht
    (unmap_ok fun t h => ho t (by simp [h])) (unmap_pi hp.left.right)
  cases e
  rcases hq with ⟨rfl, rfl⟩ | ⟨hq, hne⟩
  · exact ⟨_, .mk ha ht .none, .mk a t .nil⟩
  · obtain ⟨ps', ps, e, hs, hl, _⟩ := hasV_says hq
      (unmap_ok fun t h => ho t (by simp [h])) (unmap_pi hp.right)
    cases e
    exact ⟨_, .mk ha ht hs, .mk a t hl⟩

theorem rel_said {w : List Tok} {r' : PRel} (h : BRel w r') (ho : ∀ t ∈ w, PTokOk t)
    (hp : PPiOnly w) : ∃ r, RelOf (fun w t => Says .nodeTest w (.test t))
      (fun w ps => Says .predicates w (.list ps)) w r ∧ AlikePRel r' r := by
  induction h with
  | one h =>
    obtain ⟨s, h1, h2⟩ := step_said h ho hp
    exact ⟨_, .one h1, .one h2⟩
  | slash _ ht hs ih =>
    obtain ⟨r, g1, g2⟩ := ih (fun t h => ho t (by simp [h])) hp.left
    obtain ⟨s, h1, h2⟩ := step_said hs (fun t h => ho t (by simp [h])) hp.right.tail
    exact ⟨_, .slash g1 ht h1, .slash g2 h2⟩
  | slashes _ ht hs ih =>
    obtain ⟨r, g1, g2⟩ := ih (fun t h => ho t (by simp [h])) hp.left
    obtain ⟨s, h1, h2⟩ := step_said hs (fun t h => ho t (by simp [h])) hp.right.tail
    exact ⟨_, .slashes g1 ht h1, .slashes g2 h2⟩

theorem call_said {w : List Tok} {f : Ast} (h : BuiltCall w f) (ho : ∀ t ∈ w, PTokOk t) :
    CallOf w f := by
  cases h with
  | @id t l x r f h1 h2 h3 h4 h5 =>
    have e := (ho t (by simp)).2.1 h1
    obtain ⟨s, hs⟩ : ∃ s, LiteralSays x.text s := (ho x (by simp)).1 .literal h3
    rw [e, stringLiteral_says hs, call_says may_id] at h5
    cases h5
    exact .id h1 e h2 h3 h4 hs
  | @key t l x c y r f h1 h2 h3 h4 h5 h6 h7 =>
    have e := (ho t (by simp)).2.2 h1
    obtain ⟨s, hs⟩ : ∃ s, LiteralSays x.text s := (ho x (by simp)).1 .literal h3
    obtain ⟨s', hs'⟩ : ∃ s, LiteralSays y.text s := (ho y (by simp)).1 .literal h5
    rw [e, stringLiteral_says hs, stringLiteral_says hs', call_says may_key] at h7
    cases h7
    exact .key h1 e h2 h3 h4 h5 h6 hs hs'

theorem path_said {w : List Tok} {p' : PPath} (h : BPath w p') (ho : ∀ t ∈ w, PTokOk t)
    (hp : PPiOnly w) : ∃ p, PathOf (fun w t => Says .nodeTest w (.test t))
      (fun w ps => Says .predicates w (.list ps)) CallOf w p ∧ AlikePPath p' p := by
  cases h with
  | root h => exact ⟨_, .root h, .root⟩
  | abs h hr =>
    obtain ⟨r, g1, g2⟩ := rel_said hr (fun t h => ho t (by simp [h])) hp.tail
    exact ⟨_, .abs h g1, .abs g2⟩
  | any h hr =>
    obtain ⟨r, g1, g2⟩ := rel_said hr (fun t h => ho t (by simp [h])) hp.tail
    exact ⟨_, .any h g1, .any g2⟩
  | rel hr => obtain ⟨r, g1, g2⟩ := rel_said hr ho hp; exact ⟨_, .rel g1, .rel g2⟩
  | call h => exact ⟨_, .call (call_said h ho), .call _⟩
  | callSlash h ht hr =>
    obtain ⟨r, g1, g2⟩ := rel_said hr (fun t h => ho t (by simp [h])) hp.right.tail
    exact ⟨_, .callSlash (call_said h (fun t h => ho t (by simp [h]))) ht g1, .callSlash _ g2⟩
  | callSlashes h ht hr =>
    obtain ⟨r, g1, g2⟩ := rel_said hr (fun t h => ho t (by simp [h])) hp.right.tail
    exact ⟨_, .callSlashes (call_said h (fun t h => ho t (by simp [h]))) ht g1, .callSlashes _ g2⟩

theorem pattern_said {w : List Tok} {P' : List PPath} (h : Built w P') (ho : ∀ t ∈ w, PTokOk t)
    (hp : PPiOnly w) : ∃ P, PatternSays w P ∧ AlikePPaths P' P := by
  induction h with
  | one h =>
    obtain ⟨p, h1, h2⟩ := path_said h ho hp
    exact ⟨_, .one h1, .cons h2 .nil⟩
  | more _ ht hq ih =>
    obtain ⟨P, g1, g2⟩ := ih (fun t h => ho t (by simp [h])) hp.left
    obtain ⟨p, h1, h2⟩ := path_said hq (fun t h => ho t (by simp [h])) hp.right.tail
    exact ⟨_, .more g1 ht h1, g2.append h2⟩

/-! ### The parser -/

theorem parsed_built {ts : List Tok} (hk : Tokens 69 ts) {l : List (List Entry)}
    (h : parsePatToks ts = .ok l) : ∃ P, Built ts P ∧ l = P.map PPath.codeChain := by
  rw [parsePatToks] at h
  split at h
  · rename_i t ht
    obtain ⟨h1, h2, h3, _⟩ := (exact_ok pattern_complete pattern_sound hk t).mp ht
    split at h
    · rename_i l' hb
      injection h with h
      subst h
      obtain ⟨P, hP, e⟩ := has_start ⟨t, h1, h2, h3, hb⟩
      cases e
      exact ⟨P, hP, rfl⟩
    all_goals exact (nomatch h)
  all_goals exact (nomatch h)

def patternBounds : Bounds where
  least := [1, 1, 1, 1, 1, 1, 1, 1, 1, 1, 1, 1, 1, 1, 1, 1, 1, 1, 1, 1, 1, 1, 1, 1,
    1, 1, 1, 1, 1, 1, 1, 1, 1, 1, 1, 1, 4, 1, 1, 0, 1, 1, 1, 1, 3, 0, 1, 3,
    1, 2, 3, 1, 0, 1, 1, 3, 1, 1, 1, 1, 1, 1, 1, 1, 1, 1, 1, 1]
  over := [1, 1, 1, 1, 1, 1, 1, 1, 1, 1, 1, 1, 1, 1, 1, 1, 1, 1, 1, 1, 1, 1, 1, 1,
    1, 1, 1, 1, 1, 1, 1, 1, 1, 2, 2, 2, 0, 2, 2, 3, 2, 1, 2, 2, 0, 3, 1, 0,
    2, 1, 0, 1, 3, 2, 1, 0, 2, 2, 2, 2, 1, 2, 2, 2, 2, 2, 2, 2]

theorem pattern_room : checkRoom patternTables patternBounds = true := by decide +kernel

theorem built_parsed {ts : List Tok} (hk : Tokens 69 ts) (hn : ts.length < 500) {P : List PPath}
    (h : Built ts P) : parsePatToks ts = .ok (P.map PPath.codeChain) := by
  obtain ⟨t, h1, h2, h3, h4⟩ := start_has h
  have hr := room_le pattern_room h1
  rw [h2, h3] at hr
  have h33 : patternBounds.over.getD 33 0 = 2 := rfl
  have hd : depth = 1000 := rfl
  have hp := (exact_ok pattern_complete pattern_sound hk t).mpr ⟨h1, h2, h3, by omega⟩
  rw [parsePatToks, hp]
  dsimp only
  rw [h4]

theorem parsed_total {ts : List Tok} (hk : Tokens 69 ts) : parsePatToks ts ≠ .stuck := by
  rw [parsePatToks]
  have hx := exact_total pattern_complete pattern_sound hk
  split
  · rename_i t ht
    obtain ⟨h1, h2, h3, _⟩ := (exact_ok pattern_complete pattern_sound hk t).mp ht
    have hf := buildPat_fine t h1
    rw [h2] at hf
    generalize buildPat t = o at hf ⊢
    match o, hf with
    | .ok v, ⟨P, _, e⟩ => subst e; exact nofun
    | .error e, hf => cases e <;> first | exact absurd rfl hf | exact (fun h => nomatch h)
  · exact nofun
  · exact nofun
  · rename_i h; rw [h] at hx; simp at hx
  · rename_i h; rw [h] at hx; simp at hx

end Verif.Parse
