import Verif.Push.Paths

/-
What is read on the way from one node of the document to another.
-/
namespace Verif.Push
open Verif.Push.Spec

theorem elemAt_single (es : List Elem) (i : Nat) : elemAt es [i] = es[i]? := by
  rw [elemAt]
  cases es[i]? <;> simp

theorem elemAt_snoc (i : Nat) : ∀ (p : Pos) (es : List Elem), p ≠ [] →
    elemAt es (p ++ [i]) = (elemAt es p).bind fun e => (children e)[i]?
  | [], _ => fun h => absurd rfl h
  | j :: p, es => fun _ => by
    rw [List.cons_append, elemAt, elemAt]
    cases es[j]? with
    | none => rfl
    | some e =>
      simp only
      rw [if_neg (by simp)]
      by_cases hp : p = []
      · subst hp; simp [elemAt_single]
      · rw [if_neg hp, elemAt_snoc i p _ hp]

inductive Names (doc : List Elem) (p : Pos) : Pos → List QN → Prop
  | nil : Names doc p [] []
  | snoc {q : Pos} {ns : List QN} {i : Nat} {e : Elem} (h : Names doc p q ns) (he : elemAt doc (p ++ (q ++ [i])) = some e) :
      Names doc p (q ++ [i]) (ns ++ [name e])

theorem names_length {doc : List Elem} {p q : Pos} {ns : List QN} (h : Names doc p q ns) : q.length = ns.length := by
  induction h with
  | nil => rfl
  | snoc h he ih => simp [ih]

theorem names_fun {doc : List Elem} {p q : Pos} {ns ms : List QN} (h : Names doc p q ns) (h' : Names doc p q ms) : ns = ms := by
  induction h generalizing ms with
  | nil =>
    have := names_length h'
    exact (List.length_eq_zero_iff.1 this.symm).symm
  | @snoc q ns i e h he ih =>
    generalize hq : q ++ [i] = q' at h'
    cases h' with
    | nil => simp at hq
    | @snoc q2 ns2 i2 e2 h2 he2 =>
      obtain ⟨e1, e3⟩ := List.append_inj' hq rfl
      injection e3 with e3 _
      subst e1 e3
      rw [ih h2]
      rw [he] at he2
      injection he2 with he2
      rw [he2]

theorem names_append {doc : List Elem} {p q1 q2 : Pos} {ms ns : List QN} (h1 : Names doc p q1 ms)
    (h2 : Names doc (p ++ q1) q2 ns) : Names doc p (q1 ++ q2) (ms ++ ns) := by
  induction h2 with
  | nil => simpa using h1
  | snoc h he ih =>
    rw [← List.append_assoc, ← List.append_assoc]
    exact .snoc ih (by simpa using he)

theorem names_split {doc : List Elem} {p q : Pos} {l : List QN} (h : Names doc p q l) :
    ∀ {ms ns : List QN}, l = ms ++ ns → ∃ q1 q2, q = q1 ++ q2 ∧ Names doc p q1 ms ∧ Names doc (p ++ q1) q2 ns := by
  induction h with
  | nil =>
    intro ms ns hl
    obtain ⟨rfl, rfl⟩ := List.append_eq_nil_iff.1 hl.symm
    exact ⟨[], [], rfl, .nil, .nil⟩
  | @snoc q l i e h he ih =>
    intro ms ns hl
    rcases List.eq_nil_or_concat ns with rfl | ⟨ns', x, rfl⟩
    · rw [List.append_nil] at hl
      subst hl
      exact ⟨q ++ [i], [], by simp, .snoc h he, .nil⟩
    · rw [List.concat_eq_append, ← List.append_assoc] at hl
      obtain ⟨e1, e2⟩ := List.append_inj' hl rfl
      injection e2 with e2 _
      obtain ⟨q1, q2, rfl, h1, h2⟩ := ih e1
      refine ⟨q1, q2 ++ [i], by simp, h1, ?_⟩
      rw [List.concat_eq_append, ← e2]
      exact .snoc h2 (by simpa using he)

/-- A node that exists is reached from each of its ancestors. -/
theorem names_from {doc : List Elem} (p : Pos) : ∀ (q : Pos) (e : Elem), q ≠ [] → elemAt doc (p ++ q) = some e →
    ∃ ns, Names doc p q (ns ++ [name e]) := by
  intro q
  induction q using snocInd with
  | nil => intro e h; exact absurd rfl h
  | snoc q i ih =>
    intro e _ he
    by_cases hq : q = []
    · subst hq
      exact ⟨[], .snoc .nil he⟩
    · have hpq : p ++ q ≠ [] := by simp [hq]
      have he' := he
      rw [← List.append_assoc, elemAt_snoc i _ doc hpq] at he'
      cases hpe : elemAt doc (p ++ q) with
      | none => rw [hpe] at he'; cases he'
      | some e' =>
        obtain ⟨ns, hns⟩ := ih e' hq hpe
        exact ⟨_, .snoc hns he⟩

/-- An ancestor of a node that exists is reached from the document. -/
theorem names_anc {doc : List Elem} {p q : Pos} {e : Elem} (h : elemAt doc (p ++ q) = some e) : ∃ ns, Names doc [] p ns := by
  by_cases hp : p = []
  · subst hp; exact ⟨[], .nil⟩
  · have hne : p ++ q ≠ [] := by simp [hp]
    obtain ⟨ns, hns⟩ := names_from [] (p ++ q) e hne h
    obtain ⟨q1, q2, hq, h1, _⟩ := names_split hns (ms := (ns ++ [name e]).take p.length) (ns := (ns ++ [name e]).drop p.length)
      (List.take_append_drop _ _).symm
    have hl := names_length hns
    have hl1 := names_length h1
    have : q1.length = p.length := by
      rw [hl1, List.length_take, ← hl, List.length_append]; omega
    obtain ⟨rfl, _⟩ := List.append_inj hq this.symm
    exact ⟨_, h1⟩

inductive Between (doc : List Elem) : Node → Node → List Sym → Prop
  | elem {p q : Pos} {ns : List QN} (h : Names doc p q ns) : Between doc (.tree p) (.tree (p ++ q)) (ns.map .elem)
  | attr {p q : Pos} {ns : List QN} {a : QN} {e : Elem} (h : Names doc p q ns) (he : elemAt doc (p ++ q) = some e)
      (ha : a ∈ attrs e) : Between doc (.tree p) (.attr (p ++ q) a) (ns.map .elem ++ [.attr a])

theorem map_elem_elems (ns : List QN) : ∀ x ∈ ns.map Sym.elem, x.isElem := by
  intro x hx
  obtain ⟨n, _, rfl⟩ := List.mem_map.1 hx
  trivial

theorem between_fun {doc : List Elem} {x y : Node} {w w' : List Sym} (h : Between doc x y w) (h' : Between doc x y w') : w = w' := by
  cases h with
  | @elem p q ns h =>
    generalize hy : Node.tree (p ++ q) = y at h'
    generalize hx : Node.tree p = x at h'
    cases h' with
    | @elem p' q' ns' h2 =>
      injection hx with hx
      injection hy with hy
      subst hx
      have := List.append_cancel_left hy
      subst this
      rw [names_fun h h2]
    | @attr => cases hy
  | @attr p q ns a e h he ha =>
    generalize hy : Node.attr (p ++ q) a = y at h'
    generalize hx : Node.tree p = x at h'
    cases h' with
    | @elem => cases hy
    | @attr p' q' ns' a' e' h2 he2 ha2 =>
      injection hx with hx
      injection hy with hy hy2
      subst hx
      have := List.append_cancel_left hy
      subst this hy2
      rw [names_fun h h2]

/-- A word of elements leads to an element. -/
theorem between_trans {doc : List Elem} {x z y : Node} {u v : List Sym} (h1 : Between doc x z u) (h2 : Between doc z y v) :
    Between doc x y (u ++ v) ∧ ∀ s ∈ u, s.isElem := by
  cases h2 with
  | @elem p q ns h =>
    generalize hz : Node.tree p = z at h1
    cases h1 with
    | @elem p' q' ns' h' =>
      injection hz with hz
      subst hz
      refine ⟨?_, map_elem_elems _⟩
      rw [← List.map_append, List.append_assoc]
      exact .elem (names_append h' h)
    | attr => cases hz
  | @attr p q ns a e h he ha =>
    generalize hz : Node.tree p = z at h1
    cases h1 with
    | @elem p' q' ns' h' =>
      injection hz with hz
      subst hz
      refine ⟨?_, map_elem_elems _⟩
      rw [← List.append_assoc, ← List.map_append, List.append_assoc]
      exact .attr (names_append h' h) (by simpa using he) ha
    | attr => cases hz

theorem between_split {doc : List Elem} {x y : Node} {w : List Sym} (h : Between doc x y w) {u v : List Sym} (hw : w = u ++ v)
    (hu : ∀ s ∈ u, s.isElem) : ∃ z, Between doc x z u ∧ Between doc z y v := by
  cases h with
  | @elem p q ns h =>
    obtain ⟨ms, ks, rfl, rfl, rfl⟩ := List.map_eq_append_iff.1 hw
    obtain ⟨q1, q2, rfl, h1, h2⟩ := names_split h rfl
    refine ⟨.tree (p ++ q1), .elem h1, ?_⟩
    rw [← List.append_assoc]
    exact .elem h2
  | @attr p q ns a e h he ha =>
    rcases List.eq_nil_or_concat v with rfl | ⟨v', s, rfl⟩
    · rw [List.append_nil] at hw
      have := hu (.attr a) (by rw [← hw]; simp)
      exact this.elim
    · rw [List.concat_eq_append, ← List.append_assoc] at hw
      obtain ⟨e1, e2⟩ := List.append_inj' hw rfl
      injection e2 with e2 _
      subst e2
      obtain ⟨ms, ks, rfl, rfl, rfl⟩ := List.map_eq_append_iff.1 e1
      obtain ⟨q1, q2, rfl, h1, h2⟩ := names_split h rfl
      refine ⟨.tree (p ++ q1), .elem h1, ?_⟩
      rw [← List.append_assoc] at he ⊢
      rw [List.concat_eq_append]
      exact .attr h2 he ha

/-! Names in the document -/

theorem mem_elemNamesAll {n : QN} {e : Elem} : ∀ {es : List Elem}, e ∈ es → n ∈ elemNames e → n ∈ elemNamesAll es
  | [], h, _ => by cases h
  | c :: cs, h, hn => by
    rw [elemNamesAll]
    rcases List.mem_cons.1 h with rfl | h
    · exact List.mem_append.2 (Or.inl hn)
    · exact List.mem_append.2 (Or.inr (mem_elemNamesAll h hn))

theorem mem_attrNamesAll {n : QN} {e : Elem} : ∀ {es : List Elem}, e ∈ es → n ∈ attrNames e → n ∈ attrNamesAll es
  | [], h, _ => by cases h
  | c :: cs, h, hn => by
    rw [attrNamesAll]
    rcases List.mem_cons.1 h with rfl | h
    · exact List.mem_append.2 (Or.inl hn)
    · exact List.mem_append.2 (Or.inr (mem_attrNamesAll h hn))

theorem name_mem : ∀ (p : Pos) (es : List Elem) (e : Elem), elemAt es p = some e →
    name e ∈ elemNamesAll es ∧ ∀ a ∈ attrs e, a ∈ attrNamesAll es
  | [], es, e => fun h => by simp [elemAt] at h
  | i :: p, es, e => fun h => by
    rw [elemAt] at h
    cases hi : es[i]? with
    | none => rw [hi] at h; cases h
    | some c =>
      rw [hi] at h
      simp only at h
      have hc := List.mem_of_getElem? hi
      by_cases hp : p = []
      · rw [if_pos hp] at h
        injection h with h
        subst h
        refine ⟨mem_elemNamesAll hc ?_, fun a ha => mem_attrNamesAll hc ?_⟩
        · obtain ⟨n, as, cs⟩ := c; simp [name, elemNames]
        · obtain ⟨n, as, cs⟩ := c; simp only [attrs] at ha; simp [attrNames, ha]
      · rw [if_neg hp] at h
        obtain ⟨h1, h2⟩ := name_mem p (children c) e h
        refine ⟨mem_elemNamesAll hc ?_, fun a ha => mem_attrNamesAll hc ?_⟩
        · obtain ⟨n, as, cs⟩ := c; simp only [children] at h1; simp [elemNames, h1]
        · obtain ⟨n, as, cs⟩ := c; simp only [children] at h2; simp [attrNames, h2 a ha]

/-! Steps -/

/-- The names without a prefix in the pattern do not occur in a namespace. -/
def PlainFor (doc : Elem) (s : SrcStep) : Prop :=
  ∀ n ∈ namesFor doc s.axis, ∀ ln, s.test = .name ln → n.2 = ln → n.1 = none

theorem ok_iff {doc : Elem} {s : SrcStep} (hp : PlainFor doc s) {n : QN} (hn : n ∈ namesFor doc s.axis) :
    (toNameTest s.test).ok n = true ↔ Matches s.test n := by
  obtain ⟨a, t⟩ := s
  obtain ⟨ns, ln⟩ := n
  cases t with
  | name l =>
    simp only [toNameTest, NameTest.ok, Matches]
    constructor
    · intro h
      have h : l = ln := by simpa using h
      have := hp _ hn l rfl h.symm
      simp only at this
      rw [this, h]
    · intro h
      injection h with h1 h2
      simp [h2]
  | qname s l =>
    simp only [toNameTest, NameTest.ok, Matches]
    simp only [Bool.and_eq_true, Bool.or_eq_true, beq_iff_eq, Prod.mk.injEq]
    constructor
    · rintro ⟨h1, h2⟩
      simp at h1 h2
      exact ⟨h1.symm, h2.symm⟩
    · rintro ⟨h1, h2⟩
      simp [h1, h2]
  | nsAny s =>
    simp only [toNameTest, NameTest.ok, Matches]
    simp only [Bool.and_eq_true, Bool.or_eq_true, beq_iff_eq]
    constructor
    · rintro ⟨h1, _⟩
      simp at h1
      exact h1.symm
    · intro h1
      simp [h1]
  | any => simp [toNameTest, NameTest.ok, Matches]

theorem elem_mem {doc : Elem} {p : Pos} {e : Elem} (h : elemAt [doc] p = some e) : name e ∈ elemNames doc := by
  have := (name_mem p [doc] e h).1
  simpa [elemNamesAll] using this

theorem attr_mem {doc : Elem} {p : Pos} {e : Elem} (h : elemAt [doc] p = some e) {a : QN} (ha : a ∈ attrs e) : a ∈ attrNames doc := by
  have := (name_mem p [doc] e h).2 a ha
  simpa [attrNamesAll] using this

theorem step_iff {doc : Elem} {s : SrcStep} (hp : PlainFor doc s) (x y : Node) :
    StepSel [doc] s x y ↔ ∃ w, Between [doc] x y w ∧ StepM (.mk s.axis s.test) w := by
  obtain ⟨a, t⟩ := s
  cases a with
  | child =>
    constructor
    · rintro ⟨hax, n, hn, hm⟩
      cases hax with
      | @child p i =>
        obtain ⟨e, he, rfl⟩ := hn
        exact ⟨_, .elem (.snoc .nil he), name e, rfl, (ok_iff hp (elem_mem he)).2 hm⟩
    · rintro ⟨w, hb, n, rfl, hok⟩
      generalize hw : [Sym.elem n] = w at hb
      cases hb with
      | @elem p q ns h =>
        have hlen := names_length h
        cases h with
        | nil => cases hw
        | @snoc q ns i e h he =>
          have : ns = [] := by
            have := congrArg List.length hw
            simp at this
            exact this
          subst this
          have hq : q = [] := List.length_eq_zero_iff.1 (names_length h)
          subst hq
          simp at hw
          rw [List.nil_append] at he ⊢
          exact ⟨.child, n, ⟨e, he, hw.symm⟩, (ok_iff hp (show n ∈ elemNames doc by rw [hw]; exact elem_mem he)).1 hok⟩
      | @attr p q ns a e h he ha =>
        have := congrArg List.getLast? hw
        simp at this
  | descendant =>
    constructor
    · rintro ⟨hax, n, hn, hm⟩
      cases hax with
      | @descendant p q hq =>
        obtain ⟨e, he, rfl⟩ := hn
        obtain ⟨ns, hns⟩ := names_from p q e hq he
        refine ⟨_, .elem hns, ns.map .elem, name e, by simp, map_elem_elems _, (ok_iff hp (elem_mem he)).2 hm⟩
    · rintro ⟨w, hb, u, n, rfl, hu, hok⟩
      generalize hw : u ++ [Sym.elem n] = w at hb
      cases hb with
      | @elem p q ns h =>
        cases h with
        | nil => simp at hw
        | @snoc q ns i e h he =>
          rw [List.map_append] at hw
          obtain ⟨_, e2⟩ := List.append_inj' hw rfl
          simp at e2
          exact ⟨.descendant (by simp), n, ⟨e, he, e2.symm⟩, (ok_iff hp (show n ∈ elemNames doc by rw [e2]; exact elem_mem he)).1 hok⟩
      | @attr p q ns a e h he ha =>
        have := congrArg List.getLast? hw
        simp at this
  | «attribute» =>
    constructor
    · rintro ⟨hax, n, hn, hm⟩
      cases hax with
      | @«attribute» p a =>
        obtain ⟨e, he, ha, rfl⟩ := hn
        have hb : Between [doc] (.tree p) (.attr (p ++ []) a) (([] : List QN).map .elem ++ [.attr a]) :=
          .attr .nil (by simpa using he) ha
        rw [List.append_nil] at hb
        exact ⟨_, hb, a, rfl, (ok_iff hp (attr_mem he ha)).2 hm⟩
    · rintro ⟨w, hb, n, rfl, hok⟩
      generalize hw : [Sym.attr n] = w at hb
      cases hb with
      | @elem p q ns h =>
        have : Sym.attr n ∈ ns.map Sym.elem := by rw [← hw]; simp
        simp at this
      | @attr p q ns a e h he ha =>
        have : ns = [] := by
          have := congrArg List.length hw
          simp at this
          exact this
        subst this
        have hq : q = [] := List.length_eq_zero_iff.1 (names_length h)
        subst hq
        simp at hw
        subst hw
        rw [List.append_nil] at he ⊢
        exact ⟨.attribute, n, ⟨e, he, ha, rfl⟩, (ok_iff hp (attr_mem he ha)).1 hok⟩

/-- `//` before a step of the axis `child`. -/
theorem dslash_iff {doc : Elem} {t : SrcTest} (z y : Node) :
    (∃ w, DescendantOrSelf [doc] z w ∧ StepSel [doc] ⟨.child, t⟩ w y) ↔ StepSel [doc] ⟨.descendant, t⟩ z y := by
  constructor
  · rintro ⟨w, hd, hax, hn⟩
    refine ⟨?_, hn⟩
    cases hax with
    | @child p i =>
      rcases hd with hd | hd
      · subst hd
        exact .descendant (by simp)
      · generalize hw : Node.tree p = w at hd
        cases hd with
        | @descendant p' q h =>
          injection hw with hw
          subst hw
          rw [List.append_assoc]
          exact .descendant (by simp)
  · rintro ⟨hax, hn⟩
    cases hax with
    | @descendant p q h =>
      rcases List.eq_nil_or_concat q with rfl | ⟨q', i, rfl⟩
      · exact absurd rfl h
      · rw [List.concat_eq_append, ← List.append_assoc] at hn ⊢
        refine ⟨.tree (p ++ q'), ?_, .child, hn⟩
        by_cases hq : q' = []
        · subst hq; exact Or.inl (by simp)
        · exact Or.inr (.descendant hq)

/-- `//` stands only before steps of the axis `child`. -/
def Fine : Rel → Prop
  | .one _ => True
  | .slash r _ => Fine r
  | .dslash r s => Fine r ∧ s.axis = .child

theorem fine_simple : ∀ r, Simple r → Fine r
  | .one _ => fun _ => trivial
  | .slash r _ => fun h => fine_simple r h.1
  | .dslash _ _ => fun h => h.elim

theorem fine_downward : ∀ r, Downward r → Fine r
  | .one _ => fun _ => trivial
  | .slash r _ => fun h => fine_downward r h.1
  | .dslash r _ => fun h => ⟨fine_downward r h.1, h.2⟩

theorem snoc_iff {doc : Elem} {R : Node → Node → Prop} {pre : List PStep} {s : PStep} {S : Node → Node → Prop}
    (hR : ∀ x z, R x z ↔ ∃ w, Between [doc] x z w ∧ PathM pre w)
    (hS : ∀ z y, S z y ↔ ∃ w, Between [doc] z y w ∧ StepM s w) (x y : Node) :
    (∃ z, R x z ∧ S z y) ↔ ∃ w, Between [doc] x y w ∧ PathM (pre ++ [s]) w := by
  constructor
  · rintro ⟨z, h1, h2⟩
    obtain ⟨u, hu, hpu⟩ := (hR x z).1 h1
    obtain ⟨v, hv, hsv⟩ := (hS z y).1 h2
    obtain ⟨hb, he⟩ := between_trans hu hv
    exact ⟨u ++ v, hb, (PathM_snoc _ _ _).2 ⟨u, v, rfl, hpu, he, hsv⟩⟩
  · rintro ⟨w, hb, hw⟩
    obtain ⟨u, v, rfl, hpu, he, hsv⟩ := (PathM_snoc _ _ _).1 hw
    obtain ⟨z, hz1, hz2⟩ := between_split hb rfl he
    exact ⟨z, (hR x z).2 ⟨u, hz1, hpu⟩, (hS z y).2 ⟨v, hz2, hsv⟩⟩

theorem rel_iff {doc : Elem} : ∀ (r : Rel), Fine r → (∀ s ∈ relSteps r, PlainFor doc s) → ∀ x y,
    RelSel [doc] r x y ↔ ∃ w, Between [doc] x y w ∧ PathM (parseRel r).2 w
  | .one s => fun _ hp x y => by
    rw [RelSel, step_iff (hp s (by simp [relSteps]))]
    constructor
    · rintro ⟨w, h1, h2⟩
      exact ⟨w, h1, w, [], by simp, h2, Or.inr rfl, rfl⟩
    · rintro ⟨w, h1, u, v, rfl, h2, _, rfl⟩
      exact ⟨_, h1, by simpa using h2⟩
  | .slash r s => fun hf hp x y => by
    rw [RelSel, parseRel]
    exact snoc_iff (rel_iff r hf fun s hs => hp s (by simp [relSteps, hs]))
      (step_iff (hp s (by simp [relSteps]))) x y
  | .dslash r s => fun hf hp x y => by
    obtain ⟨a, t⟩ := s
    obtain ⟨hf, ha⟩ := hf
    have ha : a = .child := ha
    subst ha
    rw [RelSel, parseRel]
    have hpl : PlainFor doc ⟨.descendant, t⟩ := hp ⟨.child, t⟩ (by simp [relSteps])
    have := snoc_iff (rel_iff r hf fun s hs => hp s (by simp [relSteps, hs])) (step_iff hpl) x y
    simp only [if_true]
    rw [← this]
    constructor
    · rintro ⟨z, w, h1, h2, h3⟩
      exact ⟨z, h1, (dslash_iff z y).1 ⟨w, h2, h3⟩⟩
    · rintro ⟨z, h1, h2⟩
      obtain ⟨w, h3, h4⟩ := (dslash_iff z y).2 h2
      exact ⟨z, w, h1, h3, h4⟩

/-- A node that is reached from a place exists, or is that place. -/
theorem between_anc {doc : List Elem} {x y : Node} {w : List Sym} (h : Between doc x y w) (hw : w ≠ []) :
    ∃ u, Between doc (.tree []) x u := by
  cases h with
  | @elem p q ns h =>
    cases h with
    | nil => exact absurd rfl hw
    | @snoc q ns i e h he =>
      obtain ⟨ns, hns⟩ := names_anc he
      have := Between.elem hns
      rw [List.nil_append] at this
      exact ⟨_, this⟩
  | @attr p q ns a e h he ha =>
    obtain ⟨ns, hns⟩ := names_anc he
    have := Between.elem hns
    rw [List.nil_append] at this
    exact ⟨_, this⟩

theorem PathM_ne {ss : List PStep} (h : ss ≠ []) {w : List Sym} (hw : PathM ss w) : w ≠ [] := by
  cases ss with
  | nil => exact absurd rfl h
  | cons s ss =>
    obtain ⟨u, v, rfl, h1, _⟩ := hw
    intro hc
    exact StepM_ne h1 (List.append_eq_nil_iff.1 hc).1

theorem selects_iff {doc : Elem} {p : Loc} (hs : Supported p) (hp : ∀ s ∈ steps p, PlainFor doc s) {y : Node} {w : List Sym}
    (hy : Between [doc] (.tree []) y w) (hw : w ≠ []) : Selects [doc] p y ↔ LocM p w := by
  have rel : ∀ r, Fine r → (∀ s ∈ relSteps r, PlainFor doc s) →
      ((∃ x, RelSel [doc] r x y) ↔ ∃ u v, w = u ++ v ∧ (∀ x ∈ u, x.isElem) ∧ PathM (parseRel r).2 v) := by
    intro r hf hp
    constructor
    · rintro ⟨x, h⟩
      obtain ⟨v, h1, h2⟩ := (rel_iff r hf hp x y).1 h
      obtain ⟨u, hu⟩ := between_anc h1 (PathM_ne (rel_ne r) h2)
      obtain ⟨h3, h4⟩ := between_trans hu h1
      exact ⟨u, v, between_fun hy h3, h4, h2⟩
    · rintro ⟨u, v, rfl, hu, hv⟩
      obtain ⟨z, _, hz⟩ := between_split hy rfl hu
      exact ⟨z, (rel_iff r hf hp z y).2 ⟨v, hz, hv⟩⟩
  cases p with
  | root =>
    simp only [Selects, LocM, iff_false]
    rintro rfl
    have : Between [doc] (.tree []) (.tree ([] ++ [])) (([] : List QN).map .elem) := .elem .nil
    exact hw (between_fun hy this)
  | abs r =>
    rw [Selects, LocM, rel_iff r (fine_downward r hs) hp]
    constructor
    · rintro ⟨w', h1, h2⟩
      rw [between_fun hy h1]; exact h2
    · intro h; exact ⟨w, hy, h⟩
  | rel r => exact rel r (fine_simple r hs) hp
  | dabs r =>
    refine Iff.trans ?_ (rel r (fine_simple r hs) hp)
    constructor
    · rintro ⟨x, _, h⟩; exact ⟨x, h⟩
    · rintro ⟨x, h⟩
      refine ⟨x, ?_, h⟩
      obtain ⟨v, h1, _⟩ := (rel_iff r (fine_simple r hs) hp x y).1 h
      have : ∃ p, x = .tree p := by
        cases h1 with
        | elem h => exact ⟨_, rfl⟩
        | attr h he ha => exact ⟨_, rfl⟩
      obtain ⟨p, rfl⟩ := this
      by_cases hp : p = []
      · subst hp; exact Or.inl rfl
      · right
        have := OnAxis.descendant (doc := [doc]) (p := []) hp
        rw [List.nil_append] at this
        exact this

end Verif.Push
