import Verif.Template.KeyLemmas

/-
C69: `key()` gives the nodes of the document that have the key, as section 12.2 of XSLT 1.0 says.
-/
namespace Verif.Template
open Verif Verif.XPath Verif.Dom Verif.Dom.Spec Verif.Eval Verif.Eval.Spec
open Verif.Template.Spec (last front CallOk PatOk NoBacktracking Selects lastStep OtherKind RuleOk Gives HasKey Keyed KeysOk
  OrdOk)

variable {d : Doc} {root : Nat}

theorem keysNamed_mem {ks : List KeyDecl} {name : Name} {k : KeyDecl} :
    k ∈ keysNamed ks name ↔ k ∈ ks ∧ k.name = name := by simp [keysNamed]

/-- What is computed before the second argument is looked up. -/
theorem keyCall_cases (w : DocWF d root) (hae : AttrsOnElements d) {fuel : Nat} {ks : List KeyDecl} {name : Name}
    {ord : List FKey} {arg : EVal} {n : Nat} {c c' : Ctx} {l : List Nat} (hn : InDoc d root n)
    (ho : KeysOk d root ks name) (hord : OrdOk d ord ks name)
    (h : keyCall d fuel ord ks name arg n c = .ok l c') :
    c' = c ∧ ((l = [] ∧ ∀ x s, ¬ HasKey d ks name x s) ∨ ∃ ps, keyResult d ps arg = .ok l ∧
      ∀ q, q ∈ ps ↔ InDoc d root q.2 ∧ HasKey d ks name q.2 q.1) := by
  unfold keyCall at h
  split at h
  · rename_i he
    cases h
    refine ⟨rfl, .inl ⟨rfl, ?_⟩⟩
    rintro x s ⟨k, h1, h2, _⟩
    have := keysNamed_mem.2 ⟨h1, h2⟩
    rw [he] at this; cases this
  split at h
  · cases h
  rename_i r hr
  have : r = root := root_of hn w (.inl rfl) (rootOf_root w.wf hr).1
  subst this
  obtain ⟨ps, c1, h1, h⟩ := bind_ok h
  split at h
  · cases h
  rename_i l' hl
  cases h
  refine ⟨rfl, .inr ⟨ps, hl, fun q => ?_⟩⟩
  rw [keyPairs_right w hae (name := name) (fun k hk => (keysNamed_mem.1 hk).2)
    (fun k hk => ho k (keysNamed_mem.1 hk).1) hord h1]
  refine and_congr_right fun _ => ⟨?_, ?_⟩
  · rintro ⟨k, h1, h2⟩; exact ⟨k, (keysNamed_mem.1 h1).1, h2⟩
  · rintro ⟨k, h1, h2, h3⟩; exact ⟨k, keysNamed_mem.2 ⟨h1, h2⟩, h2, h3⟩

/-- C69: the nodes that `key()` returns are exactly those that have the key. -/
theorem C69_partial (w : DocWF d root) (hae : AttrsOnElements d) {fuel : Nat} {ks : List KeyDecl} {name : Name}
    {ord : List FKey} {arg : EVal} {n : Nat} {c c' : Ctx} {l : List Nat} (hn : InDoc d root n)
    (ho : KeysOk d root ks name) (hord : OrdOk d ord ks name)
    (h : keyCall d fuel ord ks name arg n c = .ok l c') : c' = c ∧ ∀ x, x ∈ l ↔ Keyed d root ks name arg x := by
  obtain ⟨h1, ⟨rfl, h2⟩ | ⟨ps, h2, h3⟩⟩ := keyCall_cases w hae hn ho hord h
  · refine ⟨h1, fun x => ⟨nofun, ?_⟩⟩
    rintro ⟨_, s, _, hk⟩
    exact absurd hk (h2 x s)
  · refine ⟨h1, fun x => ?_⟩
    rw [keyResult_mem h2]
    unfold Keyed
    constructor
    · rintro ⟨s, g1, g2⟩
      obtain ⟨g3, g4⟩ := (h3 _).1 g2
      exact ⟨g3, s, g1, g4⟩
    · rintro ⟨g3, s, g1, g4⟩; exact ⟨s, g1, (h3 (s, x)).2 ⟨g3, g4⟩⟩

/-- C69: no node comes after one that it precedes in document order. -/
theorem C69_order (w : DocWF d root) (hae : AttrsOnElements d) {fuel : Nat} {ks : List KeyDecl} {name : Name}
    {ord : List FKey} {arg : EVal} {n : Nat} {c c' : Ctx} {l : List Nat} (hn : InDoc d root n)
    (ho : KeysOk d root ks name) (hord : OrdOk d ord ks name)
    (h : keyCall d fuel ord ks name arg n c = .ok l c') :
    l.Pairwise fun a b => ¬ (Before d.h b a ∨ AttrBefore d.h b a) := by
  have hdoc : ∀ x ∈ l, Root d.h root x := fun x hx => (((C69_partial w hae hn ho hord h).2 x).1 hx).1.1
  obtain ⟨_, ⟨rfl, _⟩ | ⟨ps, h2, _⟩⟩ := keyCall_cases w hae hn ho hord h
  · exact .nil
  · unfold keyResult at h2
    split at h2
    · cases h2
      exact sortNodes_weak w fun y hy => hdoc y ((sortNodes_mem _ _).2 hy)
    · split at h2
      · cases h2
      · cases h2
        exact sortNodes_weak w fun y hy => hdoc y ((sortNodes_mem _ _).2 hy)

/-- C69: for a second argument that is not a node-set every node is returned once; in document order, unless there
are two attributes of one element. -/
theorem C69_once_partial (w : DocWF d root) (hae : AttrsOnElements d) {fuel : Nat} {ks : List KeyDecl} {name : Name}
    {ord : List FKey} {v : Scalar} {n : Nat} {c c' : Ctx} {l : List Nat} (hn : InDoc d root n)
    (ho : KeysOk d root ks name) (hord : OrdOk d ord ks name)
    (h : keyCall d fuel ord ks name (.sc v) n c = .ok l c') :
    l.Nodup ∧ ((∀ x ∈ l, TreeNode d.h x) → Sorted d l) := by
  have hdoc : ∀ x ∈ l, InDoc d root x := fun x hx => (((C69_partial w hae hn ho hord h).2 x).1 hx).1
  obtain ⟨_, ⟨rfl, _⟩ | ⟨ps, h2, _⟩⟩ := keyCall_cases w hae hn ho hord h
  · exact ⟨.nil, fun _ => .nil⟩
  · simp only [keyResult] at h2
    split at h2
    · cases h2
    rename_i s hs
    cases h2
    have nd : (keyNodes d ps s).Nodup := (sortNodes_perm _).nodup_iff.2 (dictKeys_nodup _)
    refine ⟨(sortNodes_perm _).nodup_iff.2 nd, fun ht => ?_⟩
    refine sortNodes_sorted w (fun y hy => (hdoc y ((sortNodes_mem _ _).2 hy)).1) ?_
    refine nd.imp_of_mem fun {a b} ha hb hab => ?_
    refine tieOk_of_not_tied w (hdoc a ((sortNodes_mem _ _).2 ha)).1 (hdoc b ((sortNodes_mem _ _).2 hb)).1 hab ?_
    rintro ⟨e, hp, _, hk, _⟩
    have ht := ht a ((sortNodes_mem _ _).2 ha)
    have hent := w.wf.entity_root a
    cases hka : d.h.kind a <;> rw [hka] at hk <;> first | cases hk | skip
    · rw [hent hka] at hp; cases hp
    · exact ht.1 hka
    · exact ht.2 hka

/-! The computation ends -/

/-- Enough fuel for all contexts of a pattern or expression. -/
theorem useStrings_halts (w : WF d.h) (ks : List KeyDecl) (i n : Nat) (c : Ctx) :
    Halts (fun k => useStrings d k ks i n c) ∧ Mono fun k => useStrings d k ks i n c := by
  unfold useStrings
  cases ks[i]? with
  | none => exact ⟨halts_const (by simp), mono_const⟩
  | some k =>
    have tail : ∀ v c', (match keyStrings d v with
      | .error e => Out.raise e
      | .ok l => .ok l (Ctx.focus c c') : Out (List Str)) ≠ .stuck := by
      intro v c'; split <;> simp
    exact ⟨((term w k.use).1 _ _).bind (eval_mono _ _ _) (fun v c' _ => ⟨halts_const (tail v c'), mono_const⟩),
      (eval_mono _ _ _).bind fun v c' => mono_const⟩

theorem matchEntries_halts (w : WF d.h) (ks : List KeyDecl) (n : Nat) {l : List Info}
    (hl : ∀ i ∈ l, ∃ p, compilePat d p = .ok i.steps) (c : Ctx) :
    Halts (fun k => matchEntries d k ks n l c) ∧ Mono fun k => matchEntries d k ks n l c := by
  induction l generalizing c with
  | nil => exact ⟨halts_const (by simp), mono_const⟩
  | cons i l ih =>
    obtain ⟨p, hp⟩ := hl i (by simp)
    have hm := fun c => matchSteps_halts w hp n c
    have ih' := fun c => ih (fun i h => hl i (by simp [h])) c
    have u : ∀ (b : Bool) c, Halts (fun k => if b then useStrings d k ks i.tmpl n c else .ok [] c) ∧
        Mono fun k => if b then useStrings d k ks i.tmpl n c else .ok [] c := by
      intro b c
      cases b with
      | true => simpa using useStrings_halts w ks i.tmpl n c
      | false => exact ⟨halts_const (by simp), mono_const⟩
    have rest : ∀ (ss : List Str) c, Halts (fun k => (matchEntries d k ks n l c).bind fun rest c =>
          .ok (ss.map (·, n) ++ rest) c) ∧
        Mono fun k => (matchEntries d k ks n l c).bind fun rest c => .ok (ss.map (·, n) ++ rest) c := by
      intro ss c
      exact ⟨(ih' c).1.bind (ih' c).2 (fun a c' _ => ⟨halts_const (by simp), mono_const⟩),
        (ih' c).2.bind fun a c' => mono_const⟩
    have both : ∀ (b : Bool) c, Halts (fun k => (if b then useStrings d k ks i.tmpl n c else .ok [] c).bind fun ss c =>
          (matchEntries d k ks n l c).bind fun rest c => .ok (ss.map (·, n) ++ rest) c) ∧
        Mono fun k => (if b then useStrings d k ks i.tmpl n c else .ok [] c).bind fun ss c =>
          (matchEntries d k ks n l c).bind fun rest c => .ok (ss.map (·, n) ++ rest) c := by
      intro b c
      exact ⟨(u b c).1.bind (u b c).2 (fun a c' _ => rest a c'), (u b c).2.bind fun a c' => (rest a c').2⟩
    simp only [matchEntries]
    exact ⟨(hm c).1.bind (hm c).2 (fun b c' _ => both b c'), (hm c).2.bind fun b c' => (both b c').2⟩

theorem visitAll_le {α : Type} {f g : Nat → Nat → Ctx → Out (List α)} (h : ∀ n pos c, Le (f n pos c) (g n pos c))
    (pos : Nat) (l : List Nat) (c : Ctx) : Le (visitAll f pos l c) (visitAll g pos l c) := by
  induction l generalizing pos c with
  | nil => exact .refl
  | cons n l ih => exact (h n pos c).bind fun a c => (ih (pos + 1) c).bind fun b c => .refl

theorem visitList_le {α : Type} {f g : Nat → Nat → Ctx → Out (List α)} (h : ∀ n pos c, Le (f n pos c) (g n pos c))
    (l : List Nat) (c : Ctx) : Le (visitList f l c) (visitList g l c) :=
  (visitAll_le h 1 l _).bind fun _ _ => .refl

theorem below_le {b : Bool} {n : Nat} {f g : List Nat → Ctx → Out (List (Str × Nat))}
    (h : ∀ l c, Le (f l c) (g l c)) (c : Ctx) : Le (below d b n f c) (below d b n g c) := by
  unfold below
  split
  · refine (h _ c).bind fun a c => ?_
    split
    · exact (h _ c).bind fun _ _ => .refl
    · exact .refl
  · exact h _ c
  · exact .refl

theorem visitNode_le (w : WF d.h) {ks : List KeyDecl} {tb : Table}
    (hl : ∀ n, ∀ i ∈ lookup d tb n, ∃ p, compilePat d p = .ok i.steps) (fuel k n pos : Nat) (c : Ctx) :
    Le (visitNode d fuel ks tb k n pos c) (visitNode d (fuel + 1) ks tb (k + 1) n pos c) := by
  induction k generalizing n pos c with
  | zero => exact .stuck
  | succ k ih =>
    rw [visitNode, visitNode]
    refine ((matchEntries_halts w ks n (hl n) _).2 fuel).bind fun a c => ?_
    exact (below_le (fun l c => visitList_le (fun n pos c => ih n pos c) l c) c).bind fun _ _ => .refl

theorem visitAll_halts {α : Type} {f : Nat → Nat → Nat → Ctx → Out (List α)} {l : List Nat}
    (h : ∀ n ∈ l, ∀ pos c, Halts (fun k => f k n pos c)) (hm : ∀ n pos c, Mono fun k => f k n pos c) (pos : Nat)
    (c : Ctx) : Halts (fun k => visitAll (f k) pos l c) ∧ Mono fun k => visitAll (f k) pos l c := by
  refine ⟨?_, fun k => visitAll_le (fun n pos c => hm n pos c k) pos l c⟩
  induction l generalizing pos c with
  | nil => exact halts_const (by simp)
  | cons n l ih =>
    refine (h n (by simp) pos c).bind (hm n pos c) fun a c' _ => ⟨?_, ?_⟩
    · exact (ih (fun n hn => h n (by simp [hn])) (pos + 1) c').bind (fun k => visitAll_le (fun n pos c => hm n pos c k) _ _ _)
        (fun b c _ => ⟨halts_const (by simp), mono_const⟩)
    · exact Mono.bind (fun k => visitAll_le (fun n pos c => hm n pos c k) _ _ _) fun b c => mono_const

theorem visitList_halts {α : Type} {f : Nat → Nat → Nat → Ctx → Out (List α)} {l : List Nat}
    (h : ∀ n ∈ l, ∀ pos c, Halts (fun k => f k n pos c)) (hm : ∀ n pos c, Mono fun k => f k n pos c)
    (c : Ctx) : Halts (fun k => visitList (f k) l c) ∧ Mono fun k => visitList (f k) l c := by
  unfold visitList
  have := fun c => visitAll_halts h hm 1 c
  exact ⟨(this _).1.bind (this _).2 (fun a c _ => ⟨halts_const (by simp), mono_const⟩),
    (this _).2.bind fun a c => mono_const⟩

theorem visitNode_halts (w : DocWF d root) {ks : List KeyDecl} {tb : Table}
    (hl : ∀ n, ∀ i ∈ lookup d tb n, ∃ p, compilePat d p = .ok i.steps) {depth : Nat → Nat}
    (hd : ∀ c p, d.h.parent c = some p → depth c = depth p + 1) (hs : ∀ c, depth c ≤ d.h.size) :
    ∀ (j n : Nat), d.h.size - depth n = j → ∀ (e pos : Nat) (c : Ctx),
      Halts fun k => visitNode d (k + e) ks tb k n pos c := by
  intro j
  induction j using Nat.strongRecOn with
  | ind j ih =>
    intro n hj e pos c
    refine Halts.succ ?_
    simp only [visitNode]
    have mono : ∀ n pos c, Mono fun k => visitNode d (k + 1 + e) ks tb k n pos c := by
      intro n pos c k
      have := visitNode_le w.wf hl (ks := ks) (k + 1 + e) k n pos c
      dsimp only
      rw [show k + 1 + 1 + e = k + 1 + e + 1 by omega]; exact this
    have sub : ∀ l : List Nat, (∀ m ∈ l, d.h.parent m = some n) → ∀ c,
        Halts (fun k => visitList (visitNode d (k + 1 + e) ks tb k) l c) ∧
        Mono fun k => visitList (visitNode d (k + 1 + e) ks tb k) l c := by
      intro l hp c
      refine visitList_halts (f := fun k => visitNode d (k + 1 + e) ks tb k) ?_ mono c
      intro m hm pos c
      have h1 := hd _ _ (hp m hm)
      have h2 := hs m
      have := ih (d.h.size - depth m) (by omega) m rfl (1 + e) pos c
      simpa only [Nat.add_assoc] using this
    have low : ∀ c, Halts (fun k => below d (matchesAttr tb) n (visitList (visitNode d (k + 1 + e) ks tb k)) c) ∧
        Mono fun k => below d (matchesAttr tb) n (visitList (visitNode d (k + 1 + e) ks tb k)) c := by
      intro c
      refine ⟨?_, fun k => below_le (fun l c => visitList_le (fun n pos c => mono n pos c k) l c) c⟩
      have kids := sub (d.h.kids n) (fun m hm => w.wf.kids_parent _ _ hm)
      have attrs := sub (d.attrs n) (fun m hm => (w.attr _ _ hm).2)
      unfold below
      split
      · refine (kids c).1.bind (kids c).2 fun a c' _ => ?_
        cases hb : (matchesAttr tb && !(d.attrs n).isEmpty) with
        | true =>
          simp only [if_true]
          exact ⟨(attrs c').1.bind (attrs c').2 (fun a c _ => ⟨halts_const (by simp), mono_const⟩),
            (attrs c').2.bind fun a c => mono_const⟩
        | false =>
          simp only [Bool.false_eq_true, if_false]
          exact ⟨halts_const (by simp), mono_const⟩
      · exact (kids c).1
      · exact halts_const (by simp)
    have ent := matchEntries_halts w.wf ks n (hl n) { c with node := n, current := n, position := pos }
    have ent' : Halts (fun k => matchEntries d (k + 1 + e) ks n (lookup d tb n)
          { c with node := n, current := n, position := pos }) ∧
        Mono fun k => matchEntries d (k + 1 + e) ks n (lookup d tb n)
          { c with node := n, current := n, position := pos } := by
      constructor
      · obtain ⟨k, hk⟩ := ent.1
        refine ⟨k, ?_⟩
        have := ent.2.more (show k ≤ k + 1 + e by omega) hk
        dsimp only; rw [this]; exact hk
      · intro k
        have := ent.2 (k + 1 + e)
        dsimp only
        rw [show k + 1 + 1 + e = k + 1 + e + 1 by omega]; exact this
    refine ent'.1.bind ent'.2 fun a c' _ => ⟨?_, ?_⟩
    · exact (low c').1.bind (low c').2 (fun b c _ => ⟨halts_const (by simp), mono_const⟩)
    · exact (low c').2.bind fun b c => mono_const

theorem rootOf_mono {h : Heap} {fuel n y : Nat} (he : rootOf h fuel n = some y) : rootOf h (fuel + 1) n = some y := by
  induction fuel generalizing n with
  | zero => cases he
  | succ fuel ih =>
    rw [rootOf] at he ⊢
    split
    · rename_i hk; rw [if_pos hk] at he; exact he
    · rename_i hk
      rw [if_neg hk] at he
      split at he
      · cases he
      · exact ih he

theorem rootOf_ends (w : DocWF d root) {n : Nat} (h : AncS d.h root n) : ∃ fuel, rootOf d.h fuel n = some root := by
  rcases h with rfl | h
  · exact ⟨1, by simp [rootOf, w.root]⟩
  · have up : ∀ {p x}, d.h.parent x = some p → (∃ fuel, rootOf d.h fuel p = some root) →
        ∃ fuel, rootOf d.h fuel x = some root := by
      rintro p x hp ⟨k, hk⟩
      refine ⟨k + 1, ?_⟩
      have : d.h.kind x ≠ .entity := fun h => by rw [w.wf.entity_root x h] at hp; cases hp
      simp only [rootOf, this, if_false, hp]
      exact hk
    induction h with
    | parent hp => exact up hp ⟨1, by simp [rootOf, w.root]⟩
    | step _ hp ih => exact up hp ih

/-- C69: a call of `key()` ends. -/
theorem C69_ends (w : DocWF d root) {ks : List KeyDecl} {name : Name} {ord : List FKey} (hord : OrdOk d ord ks name)
    (arg : EVal) {n : Nat} (hn : InDoc d root n) (c : Ctx) : ∃ fuel, keyCall d fuel ord ks name arg n c ≠ .stuck := by
  by_cases he : keysNamed ks name = []
  · exact ⟨0, by simp [keyCall, he]⟩
  obtain ⟨k0, hk0⟩ := rootOf_ends w hn.1.1
  obtain ⟨k1, hk1⟩ : ∃ k1, ∀ k ≥ k1, keyPairs d k ord (keysNamed ks name) root ≠ .stuck := by
    cases htb : keyTable d 0 (keysNamed ks name) Table.empty with
    | error e => exact ⟨0, fun k _ => by simp [keyPairs, htb]⟩
    | ok tb =>
      have hl : ∀ n, ∀ i ∈ lookup d (expand id ord tb) n, ∃ p, compilePat d p = .ok i.steps := by
        intro n i hi
        obtain ⟨k, p, hr, _⟩ := (keyLookup_right htb (hord tb htb) n).1 i hi
        exact ⟨p, hr.steps⟩
      obtain ⟨depth, hd, _, hs⟩ := exists_depth w.wf
      have mono : ∀ n pos c, Mono fun k => visitNode d k (keysNamed ks name) (expand id ord tb) k n pos c :=
        fun n pos c k => visitNode_le w.wf hl k k n pos c
      obtain ⟨⟨k, hk⟩, hm⟩ := visitList_halts (f := fun k => visitNode d k (keysNamed ks name) (expand id ord tb) k)
        (l := [root]) (fun n _ pos c => visitNode_halts w hl hd hs _ n rfl 0 pos c) mono ⟨root, 1, 1, root⟩
      refine ⟨k, fun k' hk' => ?_⟩
      have := hm.more hk' hk
      unfold keyPairs
      simp only [htb]
      rw [this]; exact hk
  have more : ∀ j, rootOf d.h (k0 + j) n = some root := by
    intro j
    induction j with
    | zero => exact hk0
    | succ j ih => exact rootOf_mono ih
  refine ⟨k0 + k1, ?_⟩
  unfold keyCall
  rw [if_neg he, more]
  have := hk1 (k0 + k1) (by omega)
  dsimp only
  cases hp : keyPairs d (k0 + k1) ord (keysNamed ks name) root with
  | stuck => exact absurd hp this
  | raise e => simp [Out.bind]
  | ok ps c' =>
    simp only [Out.bind]
    split <;> simp

end Verif.Template
