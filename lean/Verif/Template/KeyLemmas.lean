import Verif.Template.KeySpec
import Verif.Template.SelectProps

/-
Lemmas for Verif.Template.KeyProps.
-/
namespace Verif.Template
open Verif Verif.XPath Verif.Dom Verif.Dom.Spec Verif.Eval Verif.Eval.Spec
open Verif.Template.Spec (last CallOk PatOk NoBacktracking Selects lastStep OtherKind RuleOk Gives HasKey Keyed KeysOk
  OrdOk)

variable {d : Doc} {root : Nat}

/-! The table -/

theorem keyTable_right {i : Nat} {ks : List KeyDecl} {tb tb' : Table} (h : keyTable d i ks tb = .ok tb') :
    (∀ k j, j ∈ (tb' k).getD [] ↔ j ∈ (tb k).getD [] ∨ ∃ x decl, ks[x]? = some decl ∧
      FromAlts d ⟨0, none, none, decl.alts⟩ 0 (i + x) decl.alts k j) ∧
    (∀ decl ∈ ks, ∀ p ∈ decl.alts, ∃ steps, compilePat d p = .ok steps) ∧ (WildOk tb → WildOk tb') := by
  induction ks generalizing i tb with
  | nil => cases h; exact ⟨by simp, nofun, id⟩
  | cons k ks ih =>
    simp only [keyTable] at h
    split at h
    · cases h
    rename_i tb1 h1
    obtain ⟨a1, a2, a3⟩ := addAlts_right h1
    obtain ⟨b1, b2, b3⟩ := ih h
    refine ⟨fun key j => ?_, ?_, fun hw => b3 (a3 hw)⟩
    · rw [b1, a1, or_assoc]
      refine or_congr_right ⟨?_, ?_⟩
      · rintro (g | ⟨x, decl, g1, g2⟩)
        · exact ⟨0, k, rfl, g⟩
        · refine ⟨x + 1, decl, by simpa using g1, ?_⟩
          rw [show i + (x + 1) = i + 1 + x by omega]; exact g2
      · rintro ⟨x, decl, g1, g2⟩
        cases x with
        | zero => cases g1; exact .inl g2
        | succ x =>
          refine .inr ⟨x, decl, by simpa using g1, ?_⟩
          rw [show i + 1 + x = i + (x + 1) by omega]; exact g2
    · intro decl hd
      rcases List.mem_cons.1 hd with rfl | hd
      · exact a2
      · exact b2 decl hd

/-- The entry `i` stands for the alternative `p` of the element `k`. -/
structure KeyRule (d : Doc) (ks : List KeyDecl) (i : Info) (k : KeyDecl) (p : Pat) : Prop where
  idx : ks[i.tmpl]? = some k
  alt : p ∈ k.alts
  steps : compilePat d p = .ok i.steps

theorem keyLookup_right {ks : List KeyDecl} {tb : Table} (h : keyTable d 0 ks Table.empty = .ok tb) {ord : List FKey}
    (hk : ∀ k, k ∈ ord ↔ (k = .any ∨ tb k ≠ none)) (n : Nat) :
    (∀ i ∈ lookup d (expand id ord tb) n, ∃ k p, KeyRule d ks i k p ∧ Covers d n (patKey i.steps)) ∧
    (∀ k ∈ ks, ∀ p ∈ k.alts, ∃ steps, compilePat d p = .ok steps ∧
      (Covers d n (patKey steps) → ∃ i ∈ lookup d (expand id ord tb) n, KeyRule d ks i k p)) ∧
    (∀ k ∈ ks, ∀ p ∈ k.alts, ∀ steps, compilePat d p = .ok steps → patKey steps = .kind .attr →
      matchesAttr (expand id ord tb) = true) := by
  obtain ⟨h1, h2, h3⟩ := keyTable_right h
  have hw : WildOk tb := h3 fun n hn => by simp [Table.empty] at hn
  have hl := (lookup_right (d := d) (R := fun _ _ => True) (sort := id) (fun _ _ => .rfl) (fun l => by
    induction l with
    | nil => exact .nil
    | cons a l ih => exact .cons (fun _ _ => trivial) ih) hw hk n).1
  have he := (expand_right (R := fun _ _ => True) (sort := id) (fun _ _ => .rfl) (fun l => by
    induction l with
    | nil => exact .nil
    | cons a l ih => exact .cons (fun _ _ => trivial) ih) hk).1
  have made : ∀ k ∈ ks, ∀ p ∈ k.alts, ∀ steps, compilePat d p = .ok steps →
      ∃ i, i ∈ (tb (patKey steps)).getD [] ∧ KeyRule d ks i k p := by
    intro k hkm p hp steps hs
    obtain ⟨x, hx⟩ := List.getElem?_of_mem hkm
    refine ⟨entryOf ⟨0, none, none, k.alts⟩ 0 x steps, (h1 _ _).2 (.inr ⟨x, k, hx, p, hp, steps, hs, rfl, ?_⟩), hx, hp,
      hs⟩
    rw [Nat.zero_add]
  refine ⟨?_, ?_, ?_⟩
  · intro i hi
    obtain ⟨key, hc, hm⟩ := (hl i).1 hi
    rcases (h1 _ _).1 hm with h | ⟨x, k, g1, p, g2, steps, g3, rfl, rfl⟩
    · simp [Table.empty] at h
    · rw [Nat.zero_add]
      exact ⟨k, p, ⟨g1, g2, g3⟩, hc⟩
  · intro k hkm p hp
    obtain ⟨steps, hs⟩ := h2 k hkm p hp
    refine ⟨steps, hs, fun hc => ?_⟩
    obtain ⟨i, hi, hr⟩ := made k hkm p hp steps hs
    exact ⟨i, (hl i).2 ⟨_, hc, hi⟩, hr⟩
  · intro k hkm p hp steps hs hkey
    obtain ⟨i, hi, _⟩ := made k hkm p hp steps hs
    rw [hkey] at hi
    unfold matchesAttr
    cases hx : (expand id ord tb) (.kind .attr) with
    | some l => rfl
    | none =>
      have := ((he _).1 hx).2
      rw [this] at hi; cases hi

/-! The values for one node -/

theorem keyStrings_right {v : EVal} {l : List Str} (h : keyStrings d v = .ok l) (s : Str) : s ∈ l ↔ Gives d v s := by
  unfold keyStrings at h
  split at h
  · cases h
    simp only [List.mem_map, Gives]
    constructor
    · rintro ⟨y, h1, rfl⟩; exact ⟨y, h1, rfl⟩
    · rintro ⟨y, h1, rfl⟩; exact ⟨y, h1, rfl⟩
  · split at h
    · cases h
    rename_i v' _ s' hs
    cases h
    show s ∈ [s'] ↔ toStr d (.sc v') = .ok s
    rw [hs]
    simp [eq_comm]

theorem bind_ok {α β : Type} {o : Out α} {f : α → Ctx → Out β} {b : β} {c : Ctx} (h : o.bind f = .ok b c) :
    ∃ a c', o = .ok a c' ∧ f a c' = .ok b c := by
  cases o with
  | stuck => cases h
  | raise e => cases h
  | ok a c' => exact ⟨a, c', rfl, h⟩

theorem useStrings_right (w : DocWF d root) {fuel i n : Nat} {ks : List KeyDecl} {c c' : Ctx} {l : List Str}
    (hn : InDoc d root n) {k : KeyDecl} (hk : ks[i]? = some k) (hg : Good d root .any k.use)
    (h : useStrings d fuel ks i n c = .ok l c') :
    Same c c' ∧ ∀ s, s ∈ l ↔ ∃ v, Means d k.use n 1 1 v ∧ Gives d v s := by
  unfold useStrings at h
  rw [hk] at h
  obtain ⟨v, c1, h1, h2⟩ := bind_ok h
  obtain ⟨⟨v', m1, m2⟩, _, _⟩ := (sound w fuel).eval _ _ _ _ _ h1 hg hn
  cases m2
  split at h2
  · cases h2
  rename_i l' hl
  cases h2
  refine ⟨⟨rfl, rfl, rfl⟩, fun s => ?_⟩
  rw [keyStrings_right hl]
  constructor
  · intro h; exact ⟨v, m1, h⟩
  · rintro ⟨v2, h1, h2⟩
    rw [means_det w k.use m1 h1]; exact h2

theorem matchEntries_right (w : DocWF d root) {fuel n : Nat} {ks : List KeyDecl} {D : Info → Prop} {l : List Info}
    (hn : InDoc d root n) (hl : ∀ i ∈ l, ∃ k, ks[i.tmpl]? = some k ∧ Good d root .any k.use)
    (hD : ∀ i ∈ l, ∀ c b c', InDoc d root c.node → matchPat d fuel i.steps n c = .ok b c' →
      (b = true ↔ D i) ∧ Same c c') {c c' : Ctx} (hc : InDoc d root c.node) {a : List (Str × Nat)}
    (h : matchEntries d fuel ks n l c = .ok a c') :
    ∀ q : Str × Nat, q ∈ a ↔ q.2 = n ∧ ∃ i ∈ l, D i ∧ ∃ k, ks[i.tmpl]? = some k ∧ ∃ v, Means d k.use n 1 1 v ∧
      Gives d v q.1 := by
  induction l generalizing c a with
  | nil => cases h; simp
  | cons i l ih =>
    simp only [matchEntries] at h
    obtain ⟨b, c1, h1, h⟩ := bind_ok h
    obtain ⟨ss, c2, h2, h⟩ := bind_ok h
    obtain ⟨rest, c3, h3, h⟩ := bind_ok h
    cases h
    obtain ⟨d1, s1⟩ := hD i (by simp) _ _ _ hc h1
    obtain ⟨k, k1, k2⟩ := hl i (by simp)
    have hc1 : InDoc d root c1.node := by rw [s1.1]; exact hc
    have strs : Same c1 c2 ∧ ∀ s, s ∈ ss ↔ b = true ∧ ∃ v, Means d k.use n 1 1 v ∧ Gives d v s := by
      cases b with
      | false => cases h2; exact ⟨.refl, by simp⟩
      | true =>
        obtain ⟨g1, g2⟩ := useStrings_right w hn k1 k2 h2
        exact ⟨g1, by simpa using g2⟩
    have hc2 : InDoc d root c2.node := by rw [strs.1.1]; exact hc1
    have := ih (fun i hi => hl i (by simp [hi])) (fun i hi => hD i (by simp [hi])) hc2 h3
    rintro ⟨s, x⟩
    rw [List.mem_append, this]
    constructor
    · rintro (g | ⟨rfl, i', g1, g2⟩)
      · obtain ⟨s', g1, g2⟩ := List.mem_map.1 g
        cases g2
        obtain ⟨g3, g4⟩ := (strs.2 s).1 g1
        exact ⟨rfl, i, by simp, d1.1 g3, k, k1, g4⟩
      · exact ⟨rfl, i', by simp [g1], g2⟩
    · rintro ⟨rfl, i', g1, g2, k', g3, g4⟩
      rcases List.mem_cons.1 g1 with rfl | g1
      · rw [k1] at g3; cases g3
        exact .inl (List.mem_map.2 ⟨s, (strs.2 s).2 ⟨d1.2 g2, g4⟩, rfl⟩)
      · exact .inr ⟨rfl, i', g1, g2, k', g3, g4⟩

/-! The traversal -/

/-- The nodes that are visited from a node. -/
inductive Visited (d : Doc) (attrs : Bool) : Nat → Nat → Prop
  | self (n : Nat) : Visited d attrs n n
  | kid {n m x : Nat} : isContainer (d.h.kind n) = true → m ∈ d.h.kids n → Visited d attrs m x → Visited d attrs n x
  | attr {n m x : Nat} : attrs = true → d.h.kind n = .element → m ∈ d.attrs n → Visited d attrs m x →
      Visited d attrs n x

theorem visitAll_right {α : Type} {f : Nat → Nat → Ctx → Out (List α)} {P : Nat → α → Prop} {l : List Nat}
    (hf : ∀ n ∈ l, ∀ pos c a c', f n pos c = .ok a c' → ∀ q, q ∈ a ↔ P n q) {pos : Nat} {c c' : Ctx} {a : List α}
    (h : visitAll f pos l c = .ok a c') (q : α) : q ∈ a ↔ ∃ n ∈ l, P n q := by
  induction l generalizing pos c a with
  | nil => cases h; simp
  | cons n l ih =>
    simp only [visitAll] at h
    obtain ⟨a1, c1, h1, h⟩ := bind_ok h
    obtain ⟨a2, c2, h2, h⟩ := bind_ok h
    cases h
    rw [List.mem_append, hf n (by simp) _ _ _ _ h1, ih (fun n hn => hf n (by simp [hn])) h2]
    simp

theorem visitList_right {α : Type} {f : Nat → Nat → Ctx → Out (List α)} {P : Nat → α → Prop} {l : List Nat}
    (hf : ∀ n ∈ l, ∀ pos c a c', f n pos c = .ok a c' → ∀ q, q ∈ a ↔ P n q) {c c' : Ctx} {a : List α}
    (h : visitList f l c = .ok a c') (q : α) : q ∈ a ↔ ∃ n ∈ l, P n q := by
  unfold visitList at h
  obtain ⟨a1, c1, h1, h⟩ := bind_ok h
  cases h
  exact visitAll_right hf h1 q

theorem kid_inDoc (w : DocWF d root) {n m : Nat} (hn : InDoc d root n) (hm : m ∈ d.h.kids n) : InDoc d root m := by
  refine ⟨⟨hn.1.1.trans (.inr (.parent (w.wf.kids_parent _ _ hm))), hn.1.2⟩, .inl ?_⟩
  have := w.wf.child_kind _ _ hm
  constructor <;> intro h <;> rw [h] at this <;> cases this

theorem attr_inDoc (w : DocWF d root) {n m : Nat} (hn : InDoc d root n) (hm : m ∈ d.attrs n) : InDoc d root m :=
  ⟨⟨hn.1.1.trans (.inr (.parent (w.attr _ _ hm).2)), hn.1.2⟩, .inr ⟨n, .inl hm⟩⟩

theorem visitNode_right (w : DocWF d root) {fuel : Nat} {ks : List KeyDecl} {tb : Table} {E : Nat → Str → Prop}
    (hE : ∀ n, InDoc d root n → ∀ c a c', c.node = n → matchEntries d fuel ks n (lookup d tb n) c = .ok a c' →
      ∀ q : Str × Nat, q ∈ a ↔ q.2 = n ∧ E n q.1) {k n pos : Nat} {c c' : Ctx} {a : List (Str × Nat)}
    (hn : InDoc d root n) (h : visitNode d fuel ks tb k n pos c = .ok a c') (q : Str × Nat) :
    q ∈ a ↔ Visited d (matchesAttr tb) n q.2 ∧ E q.2 q.1 := by
  induction k generalizing n pos c a c' q with
  | zero => cases h
  | succ k ih =>
    simp only [visitNode] at h
    obtain ⟨a1, c1, h1, h⟩ := bind_ok h
    obtain ⟨a2, c2, h2, h⟩ := bind_ok h
    cases h
    rw [List.mem_append, hE n hn _ _ _ rfl h1]
    have list : ∀ {l : List Nat} {c c' a}, (∀ m ∈ l, InDoc d root m) →
        visitList (visitNode d fuel ks tb k) l c = .ok a c' →
        (q ∈ a ↔ ∃ m ∈ l, Visited d (matchesAttr tb) m q.2 ∧ E q.2 q.1) := fun hl h =>
      visitList_right (P := fun m q => Visited d (matchesAttr tb) m q.2 ∧ E q.2 q.1)
        (fun m hm pos c a c' h q => ih (hl m hm) h q) h q
    have kids : ∀ m ∈ d.h.kids n, InDoc d root m := fun m hm => kid_inDoc w hn hm
    have attrs : ∀ m ∈ d.attrs n, InDoc d root m := fun m hm => attr_inDoc w hn hm
    have low : q ∈ a2 ↔ (∃ m, isContainer (d.h.kind n) = true ∧ m ∈ d.h.kids n ∧ Visited d (matchesAttr tb) m q.2 ∧
          E q.2 q.1) ∨
        (∃ m, matchesAttr tb = true ∧ d.h.kind n = .element ∧ m ∈ d.attrs n ∧ Visited d (matchesAttr tb) m q.2 ∧
          E q.2 q.1) := by
      unfold below at h2
      split at h2
      · rename_i hk
        obtain ⟨b1, c3, h3, h2⟩ := bind_ok h2
        have e1 := list kids h3
        simp only [hk, isContainer, true_and]
        split at h2
        · rename_i hb
          obtain ⟨b2, c4, h4, h2⟩ := bind_ok h2
          cases h2
          rw [List.mem_append, e1, list attrs h4]
          simp only [Bool.and_eq_true] at hb
          simp [hb.1]
        · rename_i hb
          cases h2
          rw [e1]
          constructor
          · exact .inl
          · rintro (g | ⟨m, g1, g2, _⟩)
            · exact g
            · rw [g1] at hb
              cases hx : d.attrs n with
              | nil => rw [hx] at g2; cases g2
              | cons x l => rw [hx] at hb; simp at hb
      · rename_i hk
        rw [list kids h2]
        simp [hk, isContainer]
      · rename_i h3 h4
        cases h2
        constructor
        · nofun
        · rintro (⟨m, g, _⟩ | ⟨m, _, g, _⟩)
          · cases hk : d.h.kind n <;> rw [hk] at g <;> first | exact absurd hk h3 | exact absurd hk h4 | cases g
          · exact absurd g h3
    rw [low]
    constructor
    · rintro (⟨h1, h2⟩ | ⟨m, h1, h2, h3, h4⟩ | ⟨m, h0, h1, h2, h3, h4⟩)
      · rw [h1]; exact ⟨.self n, h2⟩
      · exact ⟨.kid h1 h2 h3, h4⟩
      · exact ⟨.attr h0 h1 h2 h3, h4⟩
    · rintro ⟨hv, he⟩
      cases hv with
      | self => exact .inl ⟨rfl, he⟩
      | kid h1 h2 h3 => exact .inr (.inl ⟨_, h1, h2, h3, he⟩)
      | attr h0 h1 h2 h3 => exact .inr (.inr ⟨_, h0, h1, h2, h3, he⟩)

theorem visited_inDoc (w : DocWF d root) {b : Bool} {n x : Nat} (h : Visited d b n x) (hn : InDoc d root n) :
    InDoc d root x := by
  induction h with
  | self => exact hn
  | kid _ hm _ ih => exact ih (kid_inDoc w hn hm)
  | attr _ _ hm _ ih => exact ih (attr_inDoc w hn hm)

theorem visited_trans {b : Bool} {n m x : Nat} (h : Visited d b n m) (h' : Visited d b m x) : Visited d b n x := by
  induction h with
  | self => exact h'
  | kid h1 h2 _ ih => exact .kid h1 h2 (ih h')
  | attr h0 h1 h2 _ ih => exact .attr h0 h1 h2 (ih h')

theorem tree_visited (w : DocWF d root) {b : Bool} {x : Nat} (h : Anc d.h root x) (ht : TreeNode d.h x) :
    Visited d b root x := by
  have kind : ∀ {p x}, d.h.parent x = some p → TreeNode d.h x → x ∈ d.h.kids p := by
    intro p x hp ht
    refine w.wf.parent_kids _ _ hp ?_
    have := w.wf.entity_root x
    cases hk : d.h.kind x <;> first | rfl | exact absurd hk ht.1 | exact absurd hk ht.2 | skip
    rw [this hk] at hp; cases hp
  induction h with
  | parent hp => exact .kid (w.wf.parent_kind _ _ hp) (kind hp ht) (.self _)
  | step ha hp ih =>
    have hc := w.wf.parent_kind _ _ hp
    refine visited_trans (ih ?_) (.kid hc (kind hp ht) (.self _))
    constructor <;> intro h <;> rw [h] at hc <;> cases hc

theorem visited_of (w : DocWF d root) (hae : AttrsOnElements d) {b : Bool} {x : Nat} (h : InDoc d root x)
    (hx : TreeNode d.h x ∨ (d.h.kind x = .attr ∧ b = true)) : Visited d b root x := by
  have tree : ∀ {x}, AncS d.h root x → TreeNode d.h x → Visited d b root x := by
    rintro x (rfl | ha) ht
    · exact .self _
    · exact tree_visited w ha ht
  rcases hx with hx | ⟨hx, hb⟩
  · exact tree h.1.1 hx
  · rcases h.2 with ht | ⟨e, he | he⟩
    · exact absurd hx ht.1
    · obtain ⟨_, hp⟩ := w.attr _ _ he
      have hk := hae _ _ he
      have ha : AncS d.h root e := by
        rcases h.1.1 with rfl | ha
        · rw [w.root] at hx; cases hx
        · cases ha with
          | parent h => rw [hp] at h; cases h; exact .inl rfl
          | step h1 h2 => rw [hp] at h2; cases h2; exact .inr h1
      refine visited_trans (tree ha ?_) (.attr hb hk he (.self _))
      constructor <;> rw [hk] <;> decide
    · rw [(w.ns _ _ he).1] at hx; cases hx

/-- Which nodes can match a pattern at all. -/
theorem matches_visited (w : DocWF d root) (hae : AttrsOnElements d) {p : Pat} {steps : List CPat} {x : Nat}
    (hx : InDoc d root x) (ho : RuleOk d root p x) (hc : compilePat d p = .ok steps) (hm : Spec.Matches d p x) :
    TreeNode d.h x ∨ (d.h.kind x = .attr ∧ patKey steps = .kind .attr) := by
  cases hs : lastStep p with
  | some s =>
    have ht := (holds_test w hae hx (matches_last w hx hm hs)).1
    cases ha : s.axis with
    | child => rw [ha] at ht; exact .inl ht
    | attr =>
      rw [ha] at ht
      refine .inr ⟨ht, ?_⟩
      have : stepKey s = .kind .attr := by unfold stepKey; rw [ha]
      rcases patKey_last hc hs with h | h <;> rw [h, this] <;> rfl
  | none =>
    cases p with
    | root =>
      obtain ⟨y, hy, hz⟩ := hm
      have : x = root := root_of hx w hy hz
      subst this
      left
      constructor <;> rw [w.root] <;> decide
    | idKey fn =>
      rcases ho with ⟨h, _⟩ | ⟨s, h, _⟩
      · obtain ⟨_, f, args, rfl, _, ht⟩ := h
        obtain ⟨y, _, l, hl, hxl⟩ := hm
        rw [Means] at hl
        obtain ⟨vs, _, hf⟩ := hl
        exact .inl (ht _ _ hf x hxl)
      · rw [hs] at h; cases h
    | abs r => cases hs
    | dabs r => cases hs
    | rel r => cases hs
    | idKeySlash fn r => cases hs
    | idKeyDslash fn r => cases hs

/-- The values found for one node are those that it has. -/
theorem entries_right (w : DocWF d root) (hae : AttrsOnElements d) {fuel : Nat} {ks : List KeyDecl} {name : Name}
    (hks : ∀ k ∈ ks, k.name = name) (ho : KeysOk d root ks name) {tb : Table}
    (h : keyTable d 0 ks Table.empty = .ok tb) {ord : List FKey} (hk : ∀ k, k ∈ ord ↔ (k = .any ∨ tb k ≠ none)) {n : Nat}
    (hn : InDoc d root n) {c c' : Ctx} (hc : c.node = n) {a : List (Str × Nat)}
    (hm : matchEntries d fuel ks n (lookup d (expand id ord tb) n) c = .ok a c') (q : Str × Nat) :
    q ∈ a ↔ q.2 = n ∧ HasKey d ks name n q.1 := by
  obtain ⟨h1, h2, _⟩ := keyLookup_right h hk n
  have good : ∀ {i k p}, KeyRule d ks i k p → k ∈ ks ∧ Good d root .any k.use ∧ RuleOk d root p n := by
    intro i k p hr
    have hmem := List.mem_of_getElem? hr.idx
    have := ho k hmem (hks k hmem)
    exact ⟨hmem, this.1, this.2 p hr.alt n hn⟩
  have ok : ∀ {i k p}, i ∈ lookup d (expand id ord tb) n → KeyRule d ks i k p → PatOk d root p n ∧ NoBacktracking p := by
    intro i k p hi hrule
    rcases (good hrule).2.2 with h | h
    · exact h
    · obtain ⟨_, _, _, hcov⟩ := h1 i hi
      exact absurd hcov (other_not_covers hrule.steps h)
  rw [matchEntries_right (fuel := fuel) w hn (D := fun i => ∃ k p, KeyRule d ks i k p ∧ Spec.Matches d p n) (by
      intro i hi
      obtain ⟨k, p, hr, _⟩ := h1 i hi
      exact ⟨k, hr.idx, (good hr).2.1⟩) (by
      intro i hi c b c' hc hm
      obtain ⟨k, p, hrule, _⟩ := h1 i hi
      have run : ∀ {p}, compilePat d p = .ok i.steps → p.match d fuel n c = .ok b c' := by
        intro p hp; unfold Pat.match; rw [hp]; exact hm
      obtain ⟨g0, g1, _⟩ := pat_right w hae hn hc (ok hi hrule).1 (run hrule.steps)
      refine ⟨⟨fun hb => ⟨k, p, hrule, g1 hb⟩, ?_⟩, g0⟩
      rintro ⟨k', p', hr', hm'⟩
      obtain ⟨_, _, g2⟩ := pat_right w hae hn hc (ok hi hr').1 (run hr'.steps)
      exact g2 (ok hi hr').2 hm') (by rw [hc]; exact hn) hm]
  refine and_congr_right fun _ => ⟨?_, ?_⟩
  · rintro ⟨i, hi, ⟨k, p, hr, hm⟩, k', g1, g2⟩
    rw [hr.idx] at g1; cases g1
    have hmem := (good hr).1
    exact ⟨k, hmem, hks k hmem, ⟨p, hr.alt, hm⟩, g2⟩
  · rintro ⟨k, hmem, _, ⟨p, hp, hm⟩, g⟩
    obtain ⟨steps, hs, hcov⟩ := h2 k hmem p hp
    have hro := (ho k hmem (hks k hmem)).2 p hp n hn
    obtain ⟨i, hi, hr⟩ := hcov (matches_covers w hae hn hs hro hm)
    exact ⟨i, hi, ⟨k, p, hr, hm⟩, k, hr.idx, g⟩

/-- The pairs found are the nodes of the document with their values. -/
theorem keyPairs_right (w : DocWF d root) (hae : AttrsOnElements d) {fuel : Nat} {ks : List KeyDecl} {name : Name}
    (hks : ∀ k ∈ ks, k.name = name) (ho : KeysOk d root ks name) {ord : List FKey}
    (hord : ∀ tb, keyTable d 0 ks Table.empty = .ok tb → ∀ k, k ∈ ord ↔ (k = .any ∨ tb k ≠ none))
    {ps : List (Str × Nat)} {c : Ctx} (h : keyPairs d fuel ord ks root = .ok ps c) (q : Str × Nat) :
    q ∈ ps ↔ InDoc d root q.2 ∧ HasKey d ks name q.2 q.1 := by
  unfold keyPairs at h
  split at h
  · cases h
  rename_i tb htb
  have hk := hord tb htb
  have hroot : InDoc d root root := ⟨⟨.inl rfl, w.wf.entity_root _ w.root⟩, .inl (by
    constructor <;> rw [w.root] <;> decide)⟩
  rw [visitList_right (P := fun n q => Visited d (matchesAttr (expand id ord tb)) n q.2 ∧ HasKey d ks name q.2 q.1)
    (fun n hn pos c a c' h' q => by
      rw [List.mem_singleton] at hn
      subst hn
      exact visitNode_right w (E := HasKey d ks name) (fun n hn c a c' hc hm q =>
        entries_right w hae hks ho htb hk hn hc hm q) hroot h' q) h q]
  constructor
  · rintro ⟨n, hn, hv, he⟩
    rw [List.mem_singleton] at hn
    subst hn
    exact ⟨visited_inDoc w hv hroot, he⟩
  · rintro ⟨hx, he⟩
    refine ⟨root, by simp, ?_, he⟩
    obtain ⟨k, hmem, _, ⟨p, hp, hm⟩, _⟩ := he
    obtain ⟨_, h2, h3⟩ := keyLookup_right htb hk q.2
    obtain ⟨steps, hs, _⟩ := h2 k hmem p hp
    refine visited_of w hae hx ?_
    rcases matches_visited w hae hx ((ho k hmem (hks k hmem)).2 p hp _ hx) hs hm with h | ⟨h, h'⟩
    · exact .inl h
    · exact .inr ⟨h, h3 k hmem p hp steps hs h'⟩

theorem keyNodes_mem {ps : List (Str × Nat)} {s : Str} {x : Nat} : x ∈ keyNodes d ps s ↔ (s, x) ∈ ps := by
  unfold keyNodes
  rw [sortNodes_mem, dictKeys_mem, List.mem_map]
  constructor
  · rintro ⟨⟨s', x'⟩, h, rfl⟩
    obtain ⟨h1, h2⟩ := List.mem_filter.1 h
    simp only [decide_eq_true_eq] at h2
    subst h2; exact h1
  · intro h
    exact ⟨(s, x), List.mem_filter.2 ⟨h, by simp⟩, rfl⟩

theorem keyResult_mem {ps : List (Str × Nat)} {arg : EVal} {l : List Nat} (h : keyResult d ps arg = .ok l) (x : Nat) :
    x ∈ l ↔ ∃ s, Gives d arg s ∧ (s, x) ∈ ps := by
  unfold keyResult at h
  split at h
  · cases h
    rw [sortNodes_mem, List.mem_flatMap]
    simp only [keyNodes_mem, Gives]
    constructor
    · rintro ⟨y, h1, h2⟩; exact ⟨_, ⟨y, h1, rfl⟩, h2⟩
    · rintro ⟨_, ⟨y, h1, rfl⟩, h2⟩; exact ⟨y, h1, h2⟩
  · split at h
    · cases h
    rename_i v _ s hs
    cases h
    rw [sortNodes_mem, keyNodes_mem]
    constructor
    · intro h; exact ⟨s, hs, h⟩
    · rintro ⟨s', h1, h2⟩
      have h1 : toStr d (.sc v) = .ok s' := h1
      rw [hs] at h1; cases h1; exact h2

end Verif.Template
