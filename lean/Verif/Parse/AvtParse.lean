import Verif.Parse.Avt
import Verif.Parse.AvtBack
import Verif.Parse.AstProps
/-
The derivations of attribute value templates.
-/
namespace Verif.Parse
open Spec

theorem avt_embed : checkEmbed xpathTables avtTables avtSym avtUnsym 7 57 = true := by
  decide +kernel

abbrev GA := grammar avtTables

/-- A part of a template: text, a doubled brace, the tree of an expression. -/
inductive Part where
  | lit (w : Str)
  | esc (w : Str)
  | expr (l r : Str) (t : Tree)

def Part.toks : Part → List Tok
  | .lit w => [⟨18, w⟩]
  | .esc w => [⟨19, w⟩]
  | .expr l r t => ⟨20, l⟩ :: ((yield t).map (mapTok avtSym) ++ [⟨21, r⟩])

def Part.tree : Part → Tree
  | .lit w => .node 5 (.cons (.leaf ⟨18, w⟩) .nil)
  | .esc w => .node 6 (.cons (.leaf ⟨19, w⟩) .nil)
  | .expr l r t => .node 7 (.cons (.leaf ⟨20, l⟩) (.cons (mapTree avtSym 7 t)
      (.cons (.leaf ⟨21, r⟩) .nil)))

def Part.rule : Part → Nat
  | .lit _ => 3
  | .esc _ => 3
  | .expr _ _ _ => 4

/-- The tree is one of an expression. -/
def Part.Ok : Part → Prop
  | .expr _ _ t => Derives (grammar xpathTables) t ∧ root (grammar xpathTables).lhs t = 42
  | _ => True

/-- The tree of the parts, the last one first. -/
def avtTree : List Part → Tree
  | [] => .node 2 .nil
  | p :: ps => .node p.rule (.cons (avtTree ps) (.cons p.tree .nil))

def partsToks : List Part → List Tok
  | [] => []
  | p :: ps => p.toks ++ partsToks ps

theorem partsToks_append : ∀ a b : List Part, partsToks (a ++ b) = partsToks a ++ partsToks b
  | [], _ => rfl
  | p :: a, b => by rw [List.cons_append, partsToks, partsToks, partsToks_append a b, List.append_assoc]

theorem part_yield (p : Part) : yield p.tree = p.toks := by
  cases p with
  | lit w => rfl
  | esc w => rfl
  | expr l r t =>
    rw [Part.tree, yield, yields, yields, yields, yields, yield, yield, map_yield, Part.toks]
    rfl

theorem avtTree_yield : ∀ ps : List Part, yield (avtTree ps) = partsToks ps.reverse
  | [] => rfl
  | p :: ps => by
    rw [avtTree, yield, yields, yields, yields, avtTree_yield ps, part_yield, List.reverse_cons,
      partsToks_append, partsToks, partsToks]

theorem rule_isRule {r : Nat} (h0 : 0 < r) (h : r < 68) : GA.isRule r :=
  ⟨h0, Nat.lt_of_lt_of_eq h (by decide +kernel)⟩

theorem avt_rhs : avtTables.rhs.take 8 = [[], [34], [], [34, 35], [34, 36], [18], [19], [20, 50, 21]] ∧
    avtTables.derives.take 8 = [0, 33, 34, 34, 34, 35, 35, 36] := by decide +kernel

theorem getD_take {α : Type} {l m : List α} {n i : Nat} (d : α) (h : l.take n = m) (hi : i < n) :
    l.getD i d = m.getD i d := by
  rw [← h, List.getD_eq_getElem?_getD, List.getD_eq_getElem?_getD, List.getElem?_take_of_lt hi]

theorem avt_lhs {r : Nat} (h : r < 8) : GA.lhs r = [0, 33, 34, 34, 34, 35, 35, 36].getD r 0 :=
  getD_take 0 avt_rhs.2 h

theorem avt_rhs_at {r : Nat} (h : r < 8) :
    GA.rhs r = [[], [34], [], [34, 35], [34, 36], [18], [19], [20, 50, 21]].getD r [] :=
  getD_take [] avt_rhs.1 h

theorem isTerm_of {k : Nat} (h0 : 0 < k) (h : k < 33) : GA.isTerm k := ⟨h0, h⟩

theorem part_derives {p : Part} (h : p.Ok) : Derives GA p.tree ∧
    root GA.lhs p.tree = (GA.rhs p.rule).getD 1 0 := by
  cases p with
  | lit w =>
    refine ⟨.node 5 _ (rule_isRule (by decide) (by decide)) ?_ (.cons _ _ (.leaf _ (isTerm_of (k := 18) (by decide) (by decide))) .nil), ?_⟩
    · rw [avt_rhs_at (by decide)]; rfl
    · rw [Part.rule, avt_rhs_at (by decide)]
      exact avt_lhs (r := 5) (by decide)
  | esc w =>
    refine ⟨.node 6 _ (rule_isRule (by decide) (by decide)) ?_ (.cons _ _ (.leaf _ (isTerm_of (k := 19) (by decide) (by decide))) .nil), ?_⟩
    · rw [avt_rhs_at (by decide)]; rfl
    · rw [Part.rule, avt_rhs_at (by decide)]
      exact avt_lhs (r := 6) (by decide)
  | expr l r t =>
    have hm := map_derives avt_embed (by decide) h.1
    rw [h.2] at hm
    refine ⟨.node 7 _ (rule_isRule (by decide) (by decide)) ?_
      (.cons _ _ (.leaf _ (isTerm_of (k := 20) (by decide) (by decide)))
        (.cons _ _ hm.1 (.cons _ _ (.leaf _ (isTerm_of (k := 21) (by decide) (by decide))) .nil))), ?_⟩
    · rw [avt_rhs_at (by decide), roots, roots, roots, roots, hm.2.1]
      rfl
    · rw [Part.rule, avt_rhs_at (by decide)]
      exact avt_lhs (r := 7) (by decide)

theorem avtTree_derives : ∀ ps : List Part, (∀ p ∈ ps, p.Ok) →
    Derives GA (avtTree ps) ∧ root GA.lhs (avtTree ps) = 34
  | [], _ => by
    refine ⟨.node 2 _ (rule_isRule (by decide) (by decide)) ?_ .nil, avt_lhs (r := 2) (by decide)⟩
    rw [avt_rhs_at (by decide)]; rfl
  | p :: ps, h => by
    have h1 := part_derives (h p List.mem_cons_self)
    have h2 := avtTree_derives ps fun q hq => h q (List.mem_cons_of_mem _ hq)
    have hr : p.rule = 3 ∨ p.rule = 4 := by cases p <;> simp [Part.rule]
    refine ⟨.node _ _ (rule_isRule (by omega) (by omega)) ?_ (.cons _ _ h2.1 (.cons _ _ h1.1 .nil)), ?_⟩
    · rw [roots, roots, roots, h2.2, h1.2]
      rcases hr with hr | hr <;> rw [hr, avt_rhs_at (by decide)] <;> rfl
    · show GA.lhs p.rule = 34
      rcases hr with hr | hr <;> rw [hr, avt_lhs (by decide)] <;> rfl

theorem avt_others : ∀ r ∈ List.range 68, 8 ≤ r → 37 ≤ avtTables.derives.getD r 0 := by
  decide +kernel

theorem avt_rule_of {r : Nat} (hr : GA.isRule r) (hl : GA.lhs r < 37) : 0 < r ∧ r < 8 := by
  refine ⟨hr.1, ?_⟩
  have h68 : r < 68 := Nat.lt_of_lt_of_eq hr.2 (by decide +kernel)
  rcases Nat.lt_or_ge r 8 with h | h
  · exact h
  · have := avt_others r (List.mem_range.mpr h68) h
    exact absurd hl (Nat.not_lt.mpr this)

theorem leaf_of {t : Tree} (h : Derives GA t) {k : Nat} (hr : root GA.lhs t = k) (hk : k < 33) :
    ∃ w, t = .leaf ⟨k, w⟩ := by
  cases h with
  | leaf t _ => cases t with | mk k' w => exact ⟨w, by rw [← hr]; rfl⟩
  | node r ks hr' _ _ =>
    have hr : GA.lhs r = k := hr
    obtain ⟨h1, h2⟩ := avt_rule_of hr' (by omega)
    have := avt_lhs h2
    rw [hr] at this
    have : ∀ r, r < 8 → 0 < r → 33 ≤ [0, 33, 34, 34, 34, 35, 35, 36].getD r 0 := by decide
    have := this r h2 h1
    omega

theorem no_leaf {t : Tok} (h : Derives GA (.leaf t)) : t.kind < 33 := by
  cases h with
  | leaf _ h => exact h.2

theorem part_of {t : Tree} (h : Derives GA t) {k : Nat} (hr : root GA.lhs t = k)
    (hk : k = 35 ∨ k = 36) :
    ∃ p : Part, p.Ok ∧ t = p.tree ∧ (p.rule = 3 ↔ k = 35) ∧ (p.rule = 4 ↔ k = 36) := by
  cases t with
  | leaf t =>
    have := no_leaf h
    have hr : t.kind = k := hr
    omega
  | node r ks =>
    cases h with
    | node _ _ hr' he hd =>
    have hr : GA.lhs r = k := hr
    obtain ⟨h1, h2⟩ := avt_rule_of hr' (by omega)
    rw [avt_lhs h2] at hr
    rw [avt_rhs_at h2] at he
    have hr7 : r = 5 ∧ k = 35 ∨ r = 6 ∧ k = 35 ∨ r = 7 ∧ k = 36 := by
      have : ∀ r, r < 8 → 0 < r → ([0, 33, 34, 34, 34, 35, 35, 36].getD r 0 = 35 → r = 5 ∨ r = 6) ∧
        ([0, 33, 34, 34, 34, 35, 35, 36].getD r 0 = 36 → r = 7) := by decide
      have := this r h2 h1
      rw [hr] at this
      rcases hk with rfl | rfl
      · rcases this.1 rfl with h | h
        · exact .inl ⟨h, rfl⟩
        · exact .inr (.inl ⟨h, rfl⟩)
      · exact .inr (.inr ⟨this.2 rfl, rfl⟩)
    rcases hr7 with ⟨rfl, rfl⟩ | ⟨rfl, rfl⟩ | ⟨rfl, rfl⟩
    · cases hd with
      | nil => exact (nomatch he)
      | cons t ts ht hts =>
        rw [roots] at he
        injection he with h1 h2
        obtain ⟨w, rfl⟩ := leaf_of ht h1 (by decide)
        cases hts with
        | nil => exact ⟨.lit w, trivial, rfl, by simp [Part.rule], by simp [Part.rule]⟩
        | cons _ _ _ _ => exact (nomatch h2)
    · cases hd with
      | nil => exact (nomatch he)
      | cons t ts ht hts =>
        rw [roots] at he
        injection he with h1 h2
        obtain ⟨w, rfl⟩ := leaf_of ht h1 (by decide)
        cases hts with
        | nil => exact ⟨.esc w, trivial, rfl, by simp [Part.rule], by simp [Part.rule]⟩
        | cons _ _ _ _ => exact (nomatch h2)
    · cases hd with
      | nil => exact (nomatch he)
      | cons t ts ht hts =>
        rw [roots] at he
        injection he with h1 h2
        obtain ⟨l, rfl⟩ := leaf_of ht h1 (by decide)
        cases hts with
        | nil => exact (nomatch h2)
        | cons t' ts' ht' hts' =>
          rw [roots] at h2
          injection h2 with h2 h3
          cases hts' with
          | nil => exact (nomatch h3)
          | cons t'' ts'' ht'' hts'' =>
            rw [roots] at h3
            injection h3 with h3 h4
            obtain ⟨r, rfl⟩ := leaf_of ht'' h3 (by decide)
            cases hts'' with
            | cons _ _ _ _ => exact (nomatch h4)
            | nil =>
              have hu := unmap_derives avt_embed (by decide) ht' 42 (by decide) h2
              refine ⟨.expr l r (unmapTree avtUnsym 7 t'), ⟨hu.1, hu.2.1⟩, ?_, by simp [Part.rule], by simp [Part.rule]⟩
              rw [Part.tree, hu.2.2]

theorem avt_of : ∀ {t : Tree}, Derives GA t → root GA.lhs t = 34 →
    ∃ ps : List Part, (∀ p ∈ ps, p.Ok) ∧ t = avtTree ps
  | .leaf t, h, hr => by
    have := no_leaf h
    have hr : t.kind = 34 := hr
    omega
  | .node r ks, h, hr => by
    have hr : GA.lhs r = 34 := hr
    cases h with
    | node _ _ hr' he hd =>
    obtain ⟨h1, h2⟩ := avt_rule_of hr' (by omega)
    rw [avt_lhs h2] at hr
    rw [avt_rhs_at h2] at he
    have hr4 : r = 2 ∨ r = 3 ∨ r = 4 := by
      have : ∀ r, r < 8 → 0 < r → [0, 33, 34, 34, 34, 35, 35, 36].getD r 0 = 34 →
        r = 2 ∨ r = 3 ∨ r = 4 := by decide
      exact this r h2 h1 hr
    rcases hr4 with rfl | hr4
    · cases hd with
      | nil => exact ⟨[], nofun, rfl⟩
      | cons _ _ _ _ => exact (nomatch he)
    · have hk : ∃ k, (k = 35 ∨ k = 36) ∧ roots GA.lhs ks = [34, k] ∧ (r = 3 ↔ k = 35) ∧ (r = 4 ↔ k = 36) := by
        rcases hr4 with rfl | rfl
        · exact ⟨35, .inl rfl, he, by decide, by decide⟩
        · exact ⟨36, .inr rfl, he, by decide, by decide⟩
      obtain ⟨k, hk, he, e1, e2⟩ := hk
      cases hd with
      | nil => exact (nomatch he)
      | cons t ts ht hts =>
        rw [roots] at he
        injection he with h1 h2
        obtain ⟨ps, hps, rfl⟩ := avt_of ht h1
        cases hts with
        | nil => exact (nomatch h2)
        | cons t' ts' ht' hts' =>
          rw [roots] at h2
          injection h2 with h2 h3
          obtain ⟨p, hp, rfl, g1, g2⟩ := part_of ht' h2 hk
          cases hts' with
          | cons _ _ _ _ => exact (nomatch h3)
          | nil =>
            refine ⟨p :: ps, List.forall_mem_cons.mpr ⟨hp, hps⟩, ?_⟩
            rw [avtTree]
            congr 1
            rcases hr4 with rfl | rfl
            · exact (g1.mpr (e1.mp rfl)).symm
            · exact (g2.mpr (e2.mp rfl)).symm

theorem start_of {t : Tree} (h : Derives GA t) (hr : root GA.lhs t = 33) :
    ∃ ps : List Part, (∀ p ∈ ps, p.Ok) ∧ t = .node 1 (.cons (avtTree ps) .nil) := by
  cases t with
  | leaf t =>
    have := no_leaf h
    have hr : t.kind = 33 := hr
    omega
  | node r ks =>
    have hr : GA.lhs r = 33 := hr
    cases h with
    | node _ _ hr' he hd =>
    obtain ⟨h1, h2⟩ := avt_rule_of hr' (by omega)
    rw [avt_lhs h2] at hr
    rw [avt_rhs_at h2] at he
    have hr1 : r = 1 := by
      have : ∀ r, r < 8 → 0 < r → [0, 33, 34, 34, 34, 35, 35, 36].getD r 0 = 33 → r = 1 := by decide
      exact this r h2 h1 hr
    subst hr1
    cases hd with
    | nil => exact (nomatch he)
    | cons t ts ht hts =>
      rw [roots] at he
      injection he with h1 h2
      obtain ⟨ps, hps, rfl⟩ := avt_of ht h1
      cases hts with
      | nil => exact ⟨ps, hps, rfl⟩
      | cons _ _ _ _ => exact (nomatch h2)

theorem start_derives {ps : List Part} (h : ∀ p ∈ ps, p.Ok) :
    Derives GA (.node 1 (.cons (avtTree ps) .nil)) ∧
      root GA.lhs (.node 1 (.cons (avtTree ps) .nil)) = 33 := by
  have h1 := avtTree_derives ps h
  refine ⟨.node 1 _ (rule_isRule (by decide) (by decide)) ?_ (.cons _ _ h1.1 .nil),
    avt_lhs (r := 1) (by decide)⟩
  rw [roots, roots, h1.2, avt_rhs_at (by decide)]
  rfl

/-! ### Room on the stack -/

theorem room_part {p : Part} {n : Nat} (hn : 4 ≤ n) :
    1 + room p.tree ≤ n ↔ ∀ l r t, p = .expr l r t → room t + 2 ≤ n := by
  cases p with
  | lit w =>
    refine ⟨fun _ => nofun, fun _ => ?_⟩
    show 1 + 1 ≤ n
    omega
  | esc w =>
    refine ⟨fun _ => nofun, fun _ => ?_⟩
    show 1 + 1 ≤ n
    omega
  | expr l r t =>
    have e : room (Part.expr l r t).tree = max 1 (max 1 (1 + max (room t) 2)) := by
      rw [Part.tree, room, roomAll, roomAll, roomAll, roomAll, map_room, room, room]
      rfl
    rw [e]
    constructor
    · intro h l' r' t' e
      injection e with _ _ e
      subst e
      omega
    · intro h
      have := h l r t rfl
      omega

theorem room_avt {n : Nat} (hn : 4 ≤ n) : ∀ ps : List Part,
    room (avtTree ps) ≤ n ↔ ∀ l r t, Part.expr l r t ∈ ps → room t + 2 ≤ n
  | [] => by
    refine ⟨fun _ => nofun, fun _ => ?_⟩
    show 1 ≤ n
    omega
  | p :: ps => by
    have ih := room_avt hn ps
    have hp := room_part (p := p) hn
    have e : room (avtTree (p :: ps)) = max 1 (max (room (avtTree ps)) (1 + max (room p.tree) 1)) := by
      rw [avtTree, room, roomAll, roomAll, roomAll]
    rw [e]
    constructor
    · intro h l r t hm
      rcases List.mem_cons.mp hm with rfl | hm
      · exact hp.mp (by omega) l r t rfl
      · exact ih.mp (by omega) l r t hm
    · intro h
      have h1 := ih.mpr fun l r t hm => h l r t (List.mem_cons_of_mem _ hm)
      have h2 := hp.mpr fun l r t e => h l r t (by rw [e]; exact List.mem_cons_self)
      omega

theorem room_start {ps : List Part} :
    room (.node 1 (.cons (avtTree ps) .nil)) < depth ↔
      ∀ l r t, Part.expr l r t ∈ ps → room t + 2 < depth := by
  have hd : depth = 1000 := rfl
  have e : room (.node 1 (.cons (avtTree ps) .nil)) = max 1 (max (room (avtTree ps)) 1) := by
    rw [room, roomAll, roomAll]
  have := room_avt (n := 999) (by decide) ps
  rw [e, hd]
  constructor
  · intro h l r t hm
    have := this.mp (by omega) l r t hm
    omega
  · intro h
    have := this.mpr fun l r t hm => by have := h l r t hm; omega
    omega

/-! ### Values -/

theorem unX_map : ∀ l : List Val, unX (l.map .x) = some l
  | [] => rfl
  | v :: l => by rw [List.map_cons, unX, unX_map l]

mutual
theorem build_map : ∀ {t : Tree}, Derives (grammar xpathTables) t →
    buildAvt (mapTree avtSym 7 t) = wrapX (build t)
  | .leaf t, _ => rfl
  | .node r ks, .node _ _ hr _ hd => by
    rw [mapTree, buildAvt, build, builds_map hd]
    cases builds ks with
    | error e => rfl
    | ok vs =>
      obtain ⟨k, rfl⟩ : ∃ k, r = k + 1 := ⟨r - 1, by have := hr.1; omega⟩
      show actAvt (k + 8) (vs.map .x) = wrapX (act (k + 1) vs)
      rw [actAvt, unX_map]
theorem builds_map : ∀ {ts : Trees}, DerivesAll (grammar xpathTables) ts →
    buildsAvt (mapTrees avtSym 7 ts) = match builds ts with
      | .ok vs => .ok (vs.map .x)
      | .error e => .error e
  | .nil, _ => rfl
  | .cons t ts, .cons _ _ h1 h2 => by
    rw [mapTrees, buildsAvt, builds, build_map h1, builds_map h2]
    cases build t with
    | error e => rfl
    | ok v =>
      cases builds ts with
      | error e => rfl
      | ok vs => rfl
end

/-- The value of a part. -/
def Part.value : Part → Except AErr AvtPart
  | .lit w => .ok (.text w)
  | .esc w => .ok (.text (w.take 1))
  | .expr _ _ t =>
    match build t with
    | .ok (.expr e) => .ok (.expr e)
    | .ok _ => .error .stuck
    | .error e => .error e

def valueIn (p : Part) : Except AErr AVal :=
  match p.value with
  | .ok v => .ok (.part v)
  | .error e => .error e

theorem build_part {p : Part} (h : p.Ok) : buildAvt p.tree = valueIn p := by
  cases p with
  | lit w => rfl
  | esc w => rfl
  | expr l r t =>
    have hf : Fine 42 (build t) := by
      have := build_fine t h.1
      rw [h.2] at this
      exact this
    rw [Part.tree, buildAvt, buildsAvt, buildsAvt, buildsAvt, buildsAvt, build_map h.1, buildAvt,
      buildAvt, valueIn, Part.value]
    generalize build t = o at hf
    match o, hf with
    | .ok v, ⟨e, he⟩ => subst he; rfl
    | .error e, hf => rfl

/-- The values of the parts, the first failure counting (the last part comes
first). -/
def valuesOf : List Part → Except AErr (List AvtPart)
  | [] => .ok []
  | p :: ps =>
    match valuesOf ps, p.value with
    | .error e, _ => .error e
    | .ok _, .error e => .error e
    | .ok l, .ok v => .ok (l ++ [v])

theorem build_avt : ∀ {ps : List Part}, (∀ p ∈ ps, p.Ok) →
    buildAvt (avtTree ps) = match valuesOf ps with
      | .ok l => .ok (.list l)
      | .error e => .error e
  | [], _ => rfl
  | p :: ps, h => by
    rw [avtTree, buildAvt, buildsAvt, buildsAvt, buildsAvt,
      build_avt fun q hq => h q (List.mem_cons_of_mem _ hq), build_part (h p List.mem_cons_self),
      valuesOf]
    cases valuesOf ps with
    | error e => rfl
    | ok l =>
      rw [valueIn]
      cases p.value with
      | error e => rfl
      | ok v =>
        show actAvt p.rule [.list l, .part v] = _
        cases p <;> rfl

theorem build_start {ps : List Part} (h : ∀ p ∈ ps, p.Ok) :
    buildAvt (.node 1 (.cons (avtTree ps) .nil)) = match valuesOf ps with
      | .ok l => .ok (.list l)
      | .error e => .error e := by
  rw [buildAvt, buildsAvt, buildsAvt, build_avt h]
  cases valuesOf ps <;> rfl

end Verif.Parse
