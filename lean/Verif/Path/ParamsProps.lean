import Verif.Path.Params
/-
C107: `paramvalue` and `parameterize`.
-/
namespace Verif.Path.Params
variable {N X F : Type}

/-! ### Specification -/

/-- What becomes of a Python object. -/
inductive Converts (utf8 : List Nat → Option Str) : Obj N X F → Val N X F → Prop where
  | xpath (x : X) : Converts utf8 (.xpath x) (.given x)
  | uni (s : Str) : Converts utf8 (.uni s) (.string s)
  | bytes (b : List Nat) (s : Str) : utf8 b = some s → Converts utf8 (.bytes b) (.string s)
  | bool (b : Bool) : Converts utf8 (.bool b) (.boolean b)
  | num (f : F) : Converts utf8 (.num f) (.number f)
  | node (n : N) : Converts utf8 (.node n) (.node n)
  /-- A list of strings: as many text nodes, in the same order. -/
  | texts (items : List (Obj N X F)) (data : List Str) (hl : items.length = data.length)
      (h : ∀ p ∈ items.zip data, p.1 = .uni p.2 ∨ ∃ b, p.1 = .bytes b ∧ utf8 b = some p.2) :
      Converts utf8 (.seq items) (.texts data)
  /-- A list of nodes. -/
  | nodes (ns : List N) : ns ≠ [] → Converts utf8 (.seq (ns.map .node)) (.nodes ns)

/-- The expanded name for a key. -/
inductive Names (utf8 : List Nat → Option Str) (ns : Option Str) : Key → Option Str × Str → Prop where
  | uni (s : Str) : Names utf8 ns (.uni s) (ns, s)
  | bytes (b : List Nat) (s : Str) : utf8 b = some s → Names utf8 ns (.bytes b) (ns, s)
  | tuple (n : Option Str) (s : Str) : Names utf8 ns (.tuple n s) (n, s)

/-! ### Lemmas -/

theorem collect_texts (utf8 : List Nat → Option Str) : ∀ (items : List (Obj N X F)) (data : List Str),
    collect (textOf utf8) items = some data ↔ items.length = data.length ∧
      ∀ p ∈ items.zip data, p.1 = .uni p.2 ∨ ∃ b, p.1 = .bytes b ∧ utf8 b = some p.2 := by
  intro items
  induction items with
  | nil => intro data; cases data <;> simp [collect]
  | cons o r ih =>
    intro data
    have ho : ∀ s, textOf utf8 o = some s ↔ (o = .uni s ∨ ∃ b, o = .bytes b ∧ utf8 b = some s) := by
      intro s; cases o <;> simp [textOf]
    cases data with
    | nil =>
      rw [collect]
      cases textOf utf8 o with
      | none => simp
      | some b => cases collect (textOf utf8) r <;> simp
    | cons s data =>
      have := ih data
      rw [collect]
      constructor
      · intro h
        cases h1 : textOf utf8 o with
        | none => rw [h1] at h; cases h
        | some b =>
          cases h2 : collect (textOf utf8) r with
          | none => rw [h1, h2] at h; cases h
          | some l =>
            rw [h1, h2] at h
            simp at h
            obtain ⟨rfl, rfl⟩ := h
            obtain ⟨e1, e2⟩ := this.1 h2
            refine ⟨by simp [e1], ?_⟩
            intro p hp
            rcases List.mem_cons.1 (by simpa using hp) with rfl | hp
            · exact (ho b).1 h1
            · exact e2 p hp
      · rintro ⟨e1, e2⟩
        have h1 := (ho s).2 (e2 (o, s) (by simp))
        have h2 := this.2 ⟨by simpa using e1, fun p hp => e2 p (by simp [hp])⟩
        rw [h1, h2]; rfl

theorem collect_nodes : ∀ (items : List (Obj N X F)) (ns : List N),
    collect nodeOf items = some ns ↔ items = ns.map .node := by
  intro items
  induction items with
  | nil => intro ns; cases ns <;> simp [collect]
  | cons o r ih =>
    intro ns
    rw [collect]
    cases o with
    | node n =>
      cases h2 : collect nodeOf r with
      | none =>
        constructor
        · intro h; simp [nodeOf] at h
        · intro h
          cases ns with
          | nil => simp at h
          | cons m ns =>
            simp at h
            rw [(ih ns).2 h.2] at h2; cases h2
      | some l =>
        have := (ih l).1 h2
        subst this
        cases ns with
        | nil => simp [nodeOf]
        | cons m ns =>
          simp only [nodeOf, Option.bind_some, Option.map_some, Option.some.injEq, List.cons.injEq, List.map_cons,
            Obj.node.injEq]
          constructor
          · rintro ⟨rfl, rfl⟩; exact ⟨rfl, rfl⟩
          · rintro ⟨rfl, h⟩
            refine ⟨rfl, ?_⟩
            have := (ih ns).2 h
            rw [h2] at this
            simpa using this
    | _ => cases ns <;> simp [nodeOf]

theorem all_string {utf8 : List Nat → Option Str} : ∀ {items : List (Obj N X F)} {data : List Str},
    collect (textOf utf8) items = some data → items.all isString = true := by
  intro items
  induction items with
  | nil => intro _ _; rfl
  | cons o r ih =>
    intro data h
    rw [collect] at h
    cases h1 : textOf utf8 o with
    | none => rw [h1] at h; cases h
    | some b =>
      cases h2 : collect (textOf utf8) r with
      | none => rw [h1, h2] at h; cases h
      | some l =>
        have := ih h2
        rw [List.all_cons, this]
        cases o <;> simp [textOf] at h1 <;> rfl

theorem getItem_set {K V : Type} [DecidableEq K] (d : List (K × V)) (k k' : K) (v : V) :
    getItem (setItem d k v) k' = if k' = k then some v else getItem d k' := by
  unfold getItem setItem
  split
  · rename_i h
    induction d with
    | nil => simp at h
    | cons e d ih =>
      by_cases he : e.1 = k
      · by_cases hk : k' = k
        · subst hk; simp [he]
        · have hk2 : ¬ k = k' := fun x => hk x.symm
          have h1 : ¬ e.1 = k' := by rw [he]; exact hk2
          simp only [List.map_cons, he, if_true, hk, if_false]
          rw [List.find?_cons_of_neg (by simpa using hk2), List.find?_cons_of_neg (by simpa using h1)]
          by_cases ha : d.any (fun e => e.1 = k) = true
          · simpa [hk] using ih ha
          · have : d.map (fun e => if e.1 = k then (k, v) else e) = d := by
              conv => rhs; rw [← List.map_id d]
              apply List.map_congr_left
              intro x hx
              have : ¬ x.1 = k := by
                intro e; apply ha; rw [List.any_eq_true]; exact ⟨x, hx, by simpa using e⟩
              simp [this]
            rw [this]
      · have ha : d.any (fun e => e.1 = k) = true := by simpa [he] using h
        have := ih ha
        simp only [List.map_cons, he, if_false]
        by_cases h1 : e.1 = k'
        · have hk : ¬ k' = k := fun x => he (h1.trans x)
          rw [List.find?_cons_of_pos (by simpa using h1), List.find?_cons_of_pos (by simpa using h1)]
          simp [hk]
        · rw [List.find?_cons_of_neg (by simpa using h1), List.find?_cons_of_neg (by simpa using h1)]
          exact this
  · rename_i h
    rw [List.find?_append]
    by_cases hk : k' = k
    · subst hk
      have : d.find? (fun e => decide (e.1 = k')) = none := by
        rw [List.find?_eq_none]
        intro x hx e
        apply h; rw [List.any_eq_true]; exact ⟨x, hx, e⟩
      simp [this]
    · have hk2 : ¬ k = k' := fun x => hk x.symm
      simp [hk, hk2]

/-! ### C107 -/

/-- C107. `paramvalue(obj)` is exactly the value that `obj` stands for, and `None` if there is none. -/
theorem C107_paramvalue (utf8 : List Nat → Option Str) (o : Obj N X F) (v : Val N X F) :
    paramvalue utf8 o = some v ↔ Converts utf8 o v := by
  constructor
  · intro h
    cases o with
    | xpath x => simp [paramvalue] at h; subst h; exact .xpath x
    | uni s => simp [paramvalue] at h; subst h; exact .uni s
    | bytes b =>
      simp [paramvalue] at h
      obtain ⟨s, h1, rfl⟩ := h
      exact .bytes b s h1
    | bool b => simp [paramvalue] at h; subst h; exact .bool b
    | num f => simp [paramvalue] at h; subst h; exact .num f
    | node n => simp [paramvalue] at h; subst h; exact .node n
    | other => simp [paramvalue] at h
    | seq items =>
      rw [paramvalue] at h
      split at h
      · simp at h
        obtain ⟨data, h1, rfl⟩ := h
        obtain ⟨e1, e2⟩ := (collect_texts utf8 items data).1 h1
        exact .texts items data e1 e2
      · rename_i hs
        simp at h
        obtain ⟨ns, h1, rfl⟩ := h
        have := (collect_nodes items ns).1 h1
        subst this
        exact .nodes ns (by rintro rfl; exact hs rfl)
  · intro h
    cases h with
    | xpath x => rfl
    | uni s => rfl
    | bytes b s h => simp [paramvalue, h]
    | bool b => rfl
    | num f => rfl
    | node n => rfl
    | texts items data hl h =>
      have := (collect_texts utf8 items data).2 ⟨hl, h⟩
      rw [paramvalue, if_pos (all_string this), this]; rfl
    | nodes ns hne =>
      have := (collect_nodes (X := X) (F := F) _ ns).2 rfl
      rw [paramvalue, if_neg, this]
      · rfl
      · cases ns with
        | nil => exact absurd rfl hne
        | cons n ns => simp [isString]

theorem putKey_get {V : Type} {utf8 : List Nat → Option Str} {ns : Option Str} {d d' : List ((Option Str × Str) × V)}
    {key : Key} {v : V} (h : putKey utf8 ns d key v = some d') (k : Option Str × Str) :
    (Names utf8 ns key k ∧ getItem d' k = some v) ∨ (¬ Names utf8 ns key k ∧ getItem d' k = getItem d k) := by
  have aux : ∀ k0, d' = setItem d k0 v → Names utf8 ns key k0 → (∀ k1, Names utf8 ns key k1 → k1 = k0) →
      (Names utf8 ns key k ∧ getItem d' k = some v) ∨ (¬ Names utf8 ns key k ∧ getItem d' k = getItem d k) := by
    rintro k0 rfl h1 h2
    rw [getItem_set]
    by_cases hk : k = k0
    · subst hk; exact Or.inl ⟨h1, by simp⟩
    · exact Or.inr ⟨fun hn => hk (h2 k hn), by simp [hk]⟩
  cases key with
  | uni s =>
    simp [putKey] at h
    exact aux (ns, s) h.symm (.uni s) (by rintro _ ⟨⟩; rfl)
  | bytes b =>
    simp [putKey] at h
    obtain ⟨s, h1, rfl⟩ := h
    refine aux (ns, s) rfl (.bytes b s h1) ?_
    intro k1 hk
    cases hk with
    | bytes _ s' h' => rw [h1] at h'; simp at h'; rw [h']
  | tuple n s =>
    simp [putKey] at h
    exact aux (n, s) h.symm (.tuple n s) (by rintro _ ⟨⟩; rfl)
  | other =>
    simp [putKey] at h; subst h
    exact Or.inr ⟨by rintro ⟨⟩, rfl⟩

theorem parameterize_get {utf8 : List Nat → Option Str} {ns : Option Str} : ∀ {input : List (Key × Obj N X F)}
    {d r : List ((Option Str × Str) × Val N X F)}, parameterize utf8 ns d input = some r → ∀ k v,
    getItem r k = some v ↔
      (∃ front key o back, input = front ++ (key, o) :: back ∧ Names utf8 ns key k ∧ Converts utf8 o v ∧
        ∀ e ∈ back, Names utf8 ns e.1 k → ∀ w, ¬ Converts utf8 e.2 w) ∨
      (getItem d k = some v ∧ ∀ e ∈ input, Names utf8 ns e.1 k → ∀ w, ¬ Converts utf8 e.2 w) := by
  intro input
  induction input with
  | nil =>
    intro d r h k v
    simp [parameterize] at h; subst h
    simp
  | cons e input ih =>
    obtain ⟨key, o⟩ := e
    intro d r h k v
    rw [parameterize] at h
    have lift : ∀ {d0}, (getItem r k = some v ↔
        (∃ front key o back, input = front ++ (key, o) :: back ∧ Names utf8 ns key k ∧ Converts utf8 o v ∧
          ∀ e ∈ back, Names utf8 ns e.1 k → ∀ w, ¬ Converts utf8 e.2 w) ∨
        (getItem d0 k = some v ∧ ∀ e ∈ input, Names utf8 ns e.1 k → ∀ w, ¬ Converts utf8 e.2 w)) →
        (((∀ e ∈ input, Names utf8 ns e.1 k → ∀ w, ¬ Converts utf8 e.2 w) →
          (getItem d0 k = some v ↔ (Names utf8 ns key k ∧ Converts utf8 o v) ∨
            (getItem d k = some v ∧ (Names utf8 ns key k → ∀ w, ¬ Converts utf8 o w))))) →
        (getItem r k = some v ↔
        (∃ front key' o' back, (key, o) :: input = front ++ (key', o') :: back ∧ Names utf8 ns key' k ∧ Converts utf8 o' v ∧
          ∀ e ∈ back, Names utf8 ns e.1 k → ∀ w, ¬ Converts utf8 e.2 w) ∨
        (getItem d k = some v ∧ ∀ e ∈ (key, o) :: input, Names utf8 ns e.1 k → ∀ w, ¬ Converts utf8 e.2 w)) := by
      intro d0 h1 h2
      rw [h1]
      constructor
      · rintro (⟨front, key', o', back, rfl, hr⟩ | ⟨hd, hn⟩)
        · exact Or.inl ⟨(key, o) :: front, key', o', back, rfl, hr⟩
        · rcases (h2 hn).1 hd with ⟨a, b⟩ | ⟨a, b⟩
          · exact Or.inl ⟨[], key, o, input, rfl, a, b, hn⟩
          · refine Or.inr ⟨a, ?_⟩
            intro e he
            rcases List.mem_cons.1 he with rfl | he
            · exact b
            · exact hn e he
      · rintro (⟨front, key', o', back, e, hr⟩ | ⟨hd, hn⟩)
        · cases front with
          | nil =>
            simp at e
            obtain ⟨⟨rfl, rfl⟩, rfl⟩ := e
            exact Or.inr ⟨(h2 hr.2.2).2 (Or.inl ⟨hr.1, hr.2.1⟩), hr.2.2⟩
          | cons x front =>
            simp at e
            exact Or.inl ⟨front, key', o', back, e.2, hr⟩
        · have hn' : ∀ e ∈ input, Names utf8 ns e.1 k → ∀ w, ¬ Converts utf8 e.2 w :=
            fun e he => hn e (List.mem_cons_of_mem _ he)
          exact Or.inr ⟨(h2 hn').2 (Or.inr ⟨hd, hn (key, o) List.mem_cons_self⟩), hn'⟩
    cases hp : paramvalue utf8 o with
    | none =>
      rw [hp] at h
      have hno : ∀ w, ¬ Converts utf8 o w := fun w hw => by
        rw [(C107_paramvalue utf8 o w).2 hw] at hp; cases hp
      refine lift (ih h k v) (fun _ => ?_)
      constructor
      · exact fun hd => Or.inr ⟨hd, fun _ => hno⟩
      · rintro (⟨_, hc⟩ | ⟨hd, _⟩)
        · exact absurd hc (hno v)
        · exact hd
    | some w =>
      rw [hp] at h
      simp only at h
      have hc := (C107_paramvalue utf8 o w).1 hp
      cases hq : putKey utf8 ns d key w with
      | none => rw [hq] at h; cases h
      | some d' =>
        rw [hq] at h
        refine lift (ih h k v) (fun _ => ?_)
        rcases putKey_get hq k with ⟨h1, h2⟩ | ⟨h1, h2⟩
        · rw [h2]
          constructor
          · intro e; simp at e; subst e; exact Or.inl ⟨h1, hc⟩
          · rintro (⟨_, hv⟩ | ⟨_, hv⟩)
            · have := (C107_paramvalue utf8 o v).2 hv
              rw [hp] at this; exact this
            · exact absurd hc (hv h1 w)
        · rw [h2]
          constructor
          · exact fun hd => Or.inr ⟨hd, fun hn => absurd hn h1⟩
          · rintro (⟨hn, _⟩ | ⟨hd, _⟩)
            · exact absurd hn h1
            · exact hd

/-- C107. In the result of `parameterize`, an expanded name has the value of the last entry with that name whose object can
be converted, and no value if there is no such entry. -/
theorem C107_parameterize (utf8 : List Nat → Option Str) (ns : Option Str) (input : List (Key × Obj N X F))
    (r : List ((Option Str × Str) × Val N X F)) (h : parameterize utf8 ns [] input = some r) (k : Option Str × Str)
    (v : Val N X F) :
    getItem r k = some v ↔
      ∃ front key o back, input = front ++ (key, o) :: back ∧ Names utf8 ns key k ∧ Converts utf8 o v ∧
        ∀ e ∈ back, Names utf8 ns e.1 k → ∀ w, ¬ Converts utf8 e.2 w := by
  rw [parameterize_get h k v]
  simp [getItem]

/-- C107. It raises exactly for a byte string as key that is not UTF-8, if its object can be converted. -/
theorem C107_raises (utf8 : List Nat → Option Str) (ns : Option Str) (input : List (Key × Obj N X F)) :
    parameterize utf8 ns [] input = none ↔
      ∃ e ∈ input, (∃ b, e.1 = .bytes b ∧ utf8 b = none) ∧ ∃ v, Converts utf8 e.2 v := by
  have : ∀ d, parameterize utf8 ns d input = none ↔
      ∃ e ∈ input, (∃ b, e.1 = .bytes b ∧ utf8 b = none) ∧ ∃ v, Converts utf8 e.2 v := by
    induction input with
    | nil => intro d; simp [parameterize]
    | cons e input ih =>
      obtain ⟨key, o⟩ := e
      intro d
      rw [parameterize]
      cases hp : paramvalue utf8 o with
      | none =>
        simp only
        rw [ih d]
        constructor
        · rintro ⟨e, he, h⟩; exact ⟨e, List.mem_cons_of_mem _ he, h⟩
        · rintro ⟨e, he, h⟩
          rcases List.mem_cons.1 he with rfl | he
          · obtain ⟨_, v, hv⟩ := h
            rw [(C107_paramvalue utf8 o v).2 hv] at hp; cases hp
          · exact ⟨e, he, h⟩
      | some w =>
        simp only
        have hc := (C107_paramvalue utf8 o w).1 hp
        cases hq : putKey utf8 ns d key w with
        | none =>
          simp only [true_iff]
          cases key with
          | bytes b =>
            simp [putKey] at hq
            exact ⟨_, List.mem_cons_self, ⟨b, rfl, hq⟩, w, hc⟩
          | _ => simp [putKey] at hq
        | some d' =>
          simp only
          rw [ih d']
          constructor
          · rintro ⟨e, he, h⟩; exact ⟨e, List.mem_cons_of_mem _ he, h⟩
          · rintro ⟨e, he, h⟩
            rcases List.mem_cons.1 he with rfl | he
            · obtain ⟨⟨b, hb, hu⟩, _⟩ := h
              simp only at hb
              subst hb
              simp [putKey, hu] at hq
            · exact ⟨e, he, h⟩
  exact this []

/-- Decoding for the examples: ASCII. -/
def ascii (b : List Nat) : Option Str := if b.all (· < 128) then some (b.map Char.ofNat) else none

/-- C107 refuted, "if inputdict cannot completely be converted, return None": what cannot be converted is left out. -/
theorem C107_refuted_none :
    parameterize (N := Nat) (X := Nat) (F := Nat) ascii none [] [(.uni (s!! "a"), .other), (.uni (s!! "b"), .bool true)] =
      some [((none, s!! "b"), .boolean true)] := by decide +kernel

example : parameterize (N := Nat) (X := Nat) (F := Nat) ascii (some (s!! "u")) []
    [(.bytes [97], .seq [.uni (s!! "x"), .bytes [121]]), (.tuple none (s!! "a"), .seq [.node 1, .node 2]),
      (.uni (s!! "c"), .seq [.node 1, .uni []])] =
    some [((some (s!! "u"), s!! "a"), .texts [s!! "x", s!! "y"]), ((none, s!! "a"), .nodes [1, 2])] := by decide +kernel

end Verif.Path.Params
