import Verif.Parse.InternTable

/-
C79: strings and names of a document.
-/
namespace Verif.Parse.Intern

/-! ## Splitting the names that expat reports -/

theorem scan_eq (l : UStr) (i : Nat) : scan l i = i + (l.takeWhile (fun c => decide (c ≠ sep))).length := by
  induction l generalizing i with
  | nil => rfl
  | cons c l ih =>
    rw [scan]
    by_cases h : c = sep
    · rw [if_pos h]; simp [h]
    · rw [if_neg h, ih]; simp [h]; omega

theorem takeWhile_sep (a : UStr) (h : sep ∉ a) (b : UStr) :
    (a ++ sep :: b).takeWhile (fun c => decide (c ≠ sep)) = a := by
  induction a with
  | nil => simp
  | cons c a ih =>
    have hc : c ≠ sep := fun e => h (by simp [e])
    simp only [List.cons_append, List.takeWhile_cons, hc, ne_eq, not_false_eq_true, decide_true, if_true]
    rw [show List.takeWhile (fun c => decide (c ≠ sep)) (a ++ sep :: b) = a from ih (fun m => h (by simp [m]))]

theorem takeWhile_all (a : UStr) (h : sep ∉ a) : a.takeWhile (fun c => decide (c ≠ sep)) = a := by
  induction a with
  | nil => simp
  | cons c a ih =>
    have hc : c ≠ sep := fun e => h (by simp [e])
    simp only [List.takeWhile_cons, hc, ne_eq, not_false_eq_true, decide_true, if_true]
    rw [show List.takeWhile (fun c => decide (c ≠ sep)) a = a from ih (fun m => h (by simp [m]))]

theorem scan_all (a : UStr) (h : sep ∉ a) (i : Nat) : scan a i = i + a.length := by
  rw [scan_eq, takeWhile_all a h]

theorem scan_sep (a : UStr) (h : sep ∉ a) (b : UStr) (i : Nat) : scan (a ++ sep :: b) i = i + a.length := by
  rw [scan_eq, takeWhile_sep a h]

/-! ## The state of the tables of a reader -/

/-- Every string is stored under itself. -/
def TextsOk (t : Table Obj) : Prop := ∀ e : Entry Obj, t.Has e → e.value.text = e.key

/-- What a name must be for what expat reports. -/
def NameOk (triplet : UStr) (n : Name) : Prop := ∀ x : Spec.XName, x.Legal → triplet = x.reported →
      n.namespaceURI.map (fun o => o.text) = x.namespace ∧ n.localName.text = x.localName ∧
      n.qualifiedName.text = x.written

theorem lookupUnicode_spec (s : Strings) (hg : Good s.table) (ht : TextsOk s.table) (hs : s.table.used + 1 < 2 ^ 29)
    (str : UStr) (after : Nat) :
    ∃ o s', lookupUnicode s str after = some (some o, s') ∧ Good s'.table ∧ TextsOk s'.table ∧
      s'.table.used ≤ s.table.used + 1 ∧ o.text = str ∧ (∀ e, s.table.Has e → s'.table.Has e) ∧
      s'.table.Has ⟨hashOf str after, str, o⟩ := by
  obtain ⟨v, t', n', h1, h2, h3, h4, h5⟩ := lookup_spec s.table hg hs str after (decode str) s.next ⟨_, rfl⟩
  rw [lookupUnicode, h1]
  rcases h5 with ⟨e, he, hk, hh, hv, ht', hn'⟩ | ⟨hmiss, ⟨hb, -, -⟩ | ⟨value, hb, hv, hm⟩⟩
  · subst ht' hn' hv
    refine ⟨e.value, _, rfl, h2, ht, h3, ?_, h4, ?_⟩
    · rw [ht e he, hk]
    · rw [← hk] at hh ⊢
      rw [← hh]; exact he
  · exact nomatch hb
  · cases hb
    subst hv
    refine ⟨_, _, rfl, h2, ?_, h3, rfl, h4, (hm _).mpr (Or.inl rfl)⟩
    intro e he
    rcases (hm e).mp he with h | h
    · subst h; rfl
    · exact ht e h

theorem getElem_append_sep (a b : UStr) : (a ++ sep :: b).take a.length = a ∧ (a ++ sep :: b).drop (a.length + 1) = b := by
  constructor
  · simp
  · rw [List.drop_append]; simp

theorem splitTriplet_spec (triplet : UStr) (s : Strings) (hg : Good s.table) (ht : TextsOk s.table)
    (hs : s.table.used + 2 < 2 ^ 29) :
    ∃ n s', splitTriplet triplet s = some (some n, s') ∧ Good s'.table ∧ TextsOk s'.table ∧
      s'.table.used ≤ s.table.used + 2 ∧ NameOk triplet n ∧ (∀ e, s.table.Has e → s'.table.Has e) := by
  rw [splitTriplet]
  dsimp only
  split
  · rename_i hi
    obtain ⟨o, s', h1, h2, h3, h4, h5, h6, -⟩ := lookupUnicode_spec { s with next := s.next + 1 } hg ht
      (by show s.table.used + 1 < _; omega) triplet 0
    rw [h1]
    refine ⟨_, _, rfl, h2, h3, Nat.le_trans h4 (Nat.le_succ _), ?_, h6⟩
    intro x hx hr
    cases x with
    | plain loc => exact ⟨rfl, by rw [h5, hr]; rfl, by rw [h5, hr]; rfl⟩
    | default uri loc =>
      exfalso
      rw [hr] at hi
      simp only [Spec.XName.reported, List.append_assoc, List.cons_append, List.nil_append] at hi
      rw [show Spec.formFeed = sep from rfl, scan_sep uri hx.1] at hi
      simp at hi
    | prefixed uri loc pfx =>
      exfalso
      rw [hr] at hi
      simp only [Spec.XName.reported, List.append_assoc, List.cons_append, List.nil_append] at hi
      rw [show Spec.formFeed = sep from rfl, scan_sep uri hx.1] at hi
      simp at hi
  · rename_i hi
    obtain ⟨o, s1, h1, h2, h3, h4, h5, h6, -⟩ := lookupUnicode_spec { s with next := s.next + 1 } hg ht
      (by show s.table.used + 1 < _; omega) (triplet.take (scan triplet 0)) (triplet.getD (scan triplet 0) 0)
    rw [h1]
    dsimp only at h4 h6 ⊢
    obtain ⟨l, s2, k1, k2, k3, k4, k5, k6, -⟩ := lookupUnicode_spec s1 h2 h3 (by omega)
      ((triplet.drop (scan triplet 0 + 1)).take
        (scan (triplet.drop (scan triplet 0 + 1)) (scan triplet 0 + 1) - (scan triplet 0 + 1)))
      (triplet.getD (scan (triplet.drop (scan triplet 0 + 1)) (scan triplet 0 + 1)) 0)
    rw [k1]
    dsimp only
    split
    · rename_i hj
      refine ⟨_, _, rfl, k2, k3, by show s2.table.used ≤ _; omega, ?_, fun e he => k6 e (h6 e he)⟩
      intro x hx hr
      cases x with
      | plain loc =>
        exfalso
        rw [hr] at hi
        simp only [Spec.XName.reported] at hi
        rw [scan_all loc hx] at hi
        simp at hi
      | default uri loc =>
        exfalso
        rw [hr] at hj
        simp only [Spec.XName.reported, List.append_assoc, List.cons_append, List.nil_append] at hj
        rw [show Spec.formFeed = sep from rfl, scan_sep uri hx.1, Nat.zero_add, (getElem_append_sep uri loc).2,
          scan_all loc hx.2] at hj
        simp only [List.length_append, List.length_cons] at hj
        omega
      | prefixed uri loc pfx =>
        rw [hr] at h5 k5
        simp only [Spec.XName.reported, List.append_assoc, List.cons_append, List.nil_append] at h5 k5
        rw [show Spec.formFeed = sep from rfl, scan_sep uri hx.1, Nat.zero_add] at h5 k5
        rw [(getElem_append_sep uri _).1] at h5
        rw [(getElem_append_sep uri _).2, scan_sep loc hx.2.1,
          show uri.length + 1 + loc.length - (uri.length + 1) = loc.length from by omega,
          (getElem_append_sep loc _).1] at k5
        refine ⟨by simp only [Option.map_some, h5]; rfl, k5, ?_⟩
        dsimp only
        rw [k5, hr]
        simp only [Spec.XName.reported, List.append_assoc, List.cons_append, List.nil_append]
        rw [show Spec.formFeed = sep from rfl, scan_sep uri hx.1, Nat.zero_add, (getElem_append_sep uri _).2,
          scan_sep loc hx.2.1,
          show uri ++ sep :: (loc ++ sep :: pfx) = (uri ++ sep :: loc) ++ sep :: pfx from by simp,
          show uri.length + 1 + loc.length + 1 = (uri ++ sep :: loc).length + 1 from by simp; omega,
          (getElem_append_sep _ _).2]
        simp [Spec.XName.written]
    · rename_i hj
      refine ⟨_, _, rfl, k2, k3, by omega, ?_, fun e he => k6 e (h6 e he)⟩
      intro x hx hr
      cases x with
      | plain loc =>
        exfalso
        rw [hr] at hi
        simp only [Spec.XName.reported] at hi
        rw [scan_all loc hx] at hi
        simp at hi
      | default uri loc =>
        rw [hr] at h5 k5
        simp only [Spec.XName.reported, List.append_assoc, List.cons_append, List.nil_append] at h5 k5
        rw [show Spec.formFeed = sep from rfl, scan_sep uri hx.1, Nat.zero_add] at h5 k5
        rw [(getElem_append_sep uri _).1] at h5
        rw [(getElem_append_sep uri _).2, scan_all loc hx.2,
          show uri.length + 1 + loc.length - (uri.length + 1) = loc.length from by omega, List.take_length] at k5
        exact ⟨by simp only [Option.map_some, h5]; rfl, k5, k5⟩
      | prefixed uri loc pfx =>
        exfalso
        rw [hr] at hj
        simp only [Spec.XName.reported, List.append_assoc, List.cons_append, List.nil_append] at hj
        rw [show Spec.formFeed = sep from rfl, scan_sep uri hx.1, Nat.zero_add, (getElem_append_sep uri _).2,
          scan_sep loc hx.2.1] at hj
        have : pfx.length ≠ 0 := fun h => hx.2.2 (List.length_eq_zero_iff.mp h)
        simp only [List.length_append, List.length_cons] at hj
        omega

/-- The state of the tables after at most `n` requests. -/
structure ReaderOk (r : Reader) (n : Nat) : Prop where
  names : Good r.names
  strings : Good r.strings.table
  texts : TextsOk r.strings.table
  split : ∀ e : Entry Name, r.names.Has e → NameOk e.key e.value
  nameCount : r.names.used ≤ n
  textCount : r.strings.table.used ≤ 2 * n

/-- A request has been answered, and the answer is kept. -/
def Answered (r : Reader) : Request → Answer → Prop
  | .text str after, .text o => r.strings.table.Has ⟨hashOf str after, str, o⟩
  | .name triplet, .name n => r.names.Has ⟨hashOf triplet 0, triplet, n⟩
  | _, _ => False

def Keeps (r r' : Reader) : Prop :=
  (∀ e, r.names.Has e → r'.names.Has e) ∧ (∀ e, r.strings.table.Has e → r'.strings.table.Has e)

theorem Keeps.answered {r r' : Reader} (h : Keeps r r') {q : Request} {a : Answer} (ha : Answered r q a) :
    Answered r' q a := by
  cases q <;> cases a <;> first | exact ha.elim | exact h.2 _ ha | exact h.1 _ ha

theorem start_ok : ReaderOk start 0 where
  names := good_empty
  strings := good_empty
  texts := fun e he => absurd he (has_empty e)
  split := fun e he => absurd he (has_empty e)
  nameCount := Nat.le_refl _
  textCount := Nat.le_refl _

theorem step_spec (r : Reader) (n : Nat) (h : ReaderOk r n) (hn : n * 2 + 2 < 2 ^ 29) (q : Request) :
    ∃ a r', step r q = some (a, r') ∧ ReaderOk r' (n + 1) ∧ Spec.Right q a ∧ Keeps r r' ∧ Answered r' q a := by
  cases q with
  | text str after =>
    obtain ⟨o, s', h1, h2, h3, h4, h5, h6, h7⟩ := lookupUnicode_spec r.strings h.strings h.texts
      (by have := h.textCount; omega) str after
    refine ⟨.text o, { r with strings := s' }, by rw [step, h1]; rfl, ?_, h5, ⟨fun _ h => h, h6⟩, h7⟩
    have := h.textCount
    have := h.nameCount
    exact ⟨h.names, h2, h3, h.split, by dsimp only; omega, by dsimp only; omega⟩
  | name triplet =>
    obtain ⟨nm, s', h1, h2, h3, h4, h5, h6⟩ := splitTriplet_spec triplet r.strings h.strings h.texts
      (by have := h.textCount; omega)
    obtain ⟨v, t', s'', k1, k2, k3, k4, k5⟩ := lookup_spec r.names h.names (by have := h.nameCount; omega) triplet 0
      (splitTriplet triplet) r.strings ⟨_, h1⟩
    have c1 := h.textCount
    have c2 := h.nameCount
    rcases k5 with ⟨e, he, hk, hh, hv, ht', hs'⟩ | ⟨hmiss, ⟨hb, -, -⟩ | ⟨value, hb, hv, hm⟩⟩
    · subst hv ht' hs'
      refine ⟨.name e.value, _, by rw [step, k1]; rfl, ?_, ?_, ⟨fun _ h => h, fun _ h => h⟩, ?_⟩
      · exact ⟨h.names, h.strings, h.texts, h.split, by omega, by omega⟩
      · have := h.split e he; rw [hk] at this; exact this
      · show r.names.Has ⟨hashOf triplet 0, triplet, e.value⟩
        rw [← hk] at hh ⊢
        rw [← hh]; exact he
    · rw [h1] at hb; exact nomatch hb
    · rw [h1] at hb
      cases hb
      subst hv
      refine ⟨.name nm, ⟨t', s'⟩, by rw [step, k1]; rfl, ?_, h5, ⟨k4, h6⟩, (hm _).mpr (Or.inl rfl)⟩
      refine ⟨k2, h2, h3, ?_, by dsimp only; omega, by dsimp only; omega⟩
      intro e he
      rcases (hm e).mp he with hx | hx
      · subst hx; exact h5
      · exact h.split e hx

theorem run_spec (qs : List Request) : ∀ (r : Reader) (n : Nat), ReaderOk r n → (n + qs.length) * 2 < 2 ^ 29 →
    ∃ as r', run r qs = some (as, r') ∧ ReaderOk r' (n + qs.length) ∧ as.length = qs.length ∧ Keeps r r' ∧
      ∀ (i : Nat) (q : Request) (a : Answer), qs[i]? = some q → as[i]? = some a → Spec.Right q a ∧ Answered r' q a := by
  induction qs with
  | nil => intro r n h _; exact ⟨[], r, rfl, h, rfl, ⟨fun _ h => h, fun _ h => h⟩, by simp⟩
  | cons q qs ih =>
    intro r n h hn
    simp only [List.length_cons] at hn
    obtain ⟨a, r1, h1, h2, h3, h4, h5⟩ := step_spec r n h (by omega) q
    obtain ⟨as, r2, k1, k2, k3, k4, k5⟩ := ih r1 (n + 1) h2 (by omega)
    refine ⟨a :: as, r2, by rw [run, h1]; dsimp only; rw [k1], ?_, by simp [k3], ?_, ?_⟩
    · simp only [List.length_cons]; rw [show n + (qs.length + 1) = n + 1 + qs.length from by omega]; exact k2
    · exact ⟨fun e he => k4.1 e (h4.1 e he), fun e he => k4.2 e (h4.2 e he)⟩
    · intro i q' a' hq ha
      cases i with
      | zero =>
        simp only [List.getElem?_cons_zero, Option.some.injEq] at hq ha
        subst hq ha
        exact ⟨h3, k4.answered h5⟩
      | succ i =>
        simp only [List.getElem?_cons_succ] at hq ha
        exact k5 i q' a' hq ha

/-! ## The properties -/

/-- Whatever strings and names a document has, in whatever order and however they hash: every request is answered, and
with exactly the string, or the namespace, local name and qualified name, that was asked for. -/
theorem C79_delivered (requests : List Request) (small : Spec.Small requests) :
    ∃ answers r, run start requests = some (answers, r) ∧ answers.length = requests.length ∧
      ∀ (i : Nat) (q : Request) (a : Answer), requests[i]? = some q → answers[i]? = some a → Spec.Right q a := by
  obtain ⟨as, r, h1, -, h2, -, h3⟩ := run_spec requests start 0 start_ok (by rw [Nat.zero_add]; exact small)
  exact ⟨as, r, h1, h2, fun i q a hq ha => (h3 i q a hq ha).1⟩

/-- Equal requests get one and the same object. -/
theorem C79_shared (requests : List Request) (small : Spec.Small requests) (answers : List Answer) (r : Reader)
    (hr : run start requests = some (answers, r)) (i j : Nat) (p q : Request) (a b : Answer)
    (hp : requests[i]? = some p) (hq : requests[j]? = some q) (ha : answers[i]? = some a) (hb : answers[j]? = some b)
    (same : Spec.Same p q) : a = b := by
  obtain ⟨as, r', h1, hok, h2, -, h3⟩ := run_spec requests start 0 start_ok (by rw [Nat.zero_add]; exact small)
  rw [h1] at hr
  cases hr
  have e1 := (h3 i p a hp ha).2
  have e2 := (h3 j q b hq hb).2
  cases p with
  | text s x =>
    cases q with
    | name t => exact same.elim
    | text t y =>
      obtain ⟨hst, hxy⟩ := same
      subst hst
      have hh : hashOf s x = hashOf s y := by
        rcases hxy with h | h
        · exact hashOf_after s h x y
        · rw [h]
      cases a with
      | name _ => exact e1.elim
      | failed => exact e1.elim
      | text o =>
        cases b with
        | name _ => exact e2.elim
        | failed => exact e2.elim
        | text o' =>
          have := congrArg Entry.value (hok.strings.unique e1 e2 rfl hh)
          exact congrArg Answer.text this
  | name s =>
    cases q with
    | text t y => exact same.elim
    | name t =>
      have hst : s = t := same
      subst hst
      cases a with
      | text _ => exact e1.elim
      | failed => exact e1.elim
      | name o =>
        cases b with
        | text _ => exact e2.elim
        | failed => exact e2.elim
        | name o' =>
          have := hok.names.unique e1 e2 rfl rfl
          cases this; rfl

/-- When the reader is given up, both tables are released within their bounds and every entry is freed once. -/
theorem C79_released (requests : List Request) (small : Spec.Small requests) (answers : List Answer) (r : Reader)
    (hr : run start requests = some (answers, r)) :
    release r.names.used r.names.slots = some (r.names.slots.filterMap id) ∧
    release r.strings.table.used r.strings.table.slots = some (r.strings.table.slots.filterMap id) := by
  obtain ⟨as, r', h1, hok, -, -, -⟩ := run_spec requests start 0 start_ok (by rw [Nat.zero_add]; exact small)
  rw [h1] at hr
  cases hr
  refine ⟨?_, ?_⟩
  · rw [← hok.names.count]; exact release_spec _
  · rw [← hok.strings.count]; exact release_spec _

/-- The tables are never so full that an int overflows: sizes are at most 2 ^ 30, and so are the products that are
compared. -/
theorem C79_ints (requests : List Request) (small : Spec.Small requests) (answers : List Answer) (r : Reader)
    (hr : run start requests = some (answers, r)) :
    (r.names.mask + 1 ≤ 2 ^ 30 ∧ (r.names.used + 1) * 3 < 2 ^ 31) ∧
    (r.strings.table.mask + 1 ≤ 2 ^ 30 ∧ (r.strings.table.used + 1) * 3 < 2 ^ 31) := by
  obtain ⟨as, r', h1, hok, -, -, -⟩ := run_spec requests start 0 start_ok (by rw [Nat.zero_add]; exact small)
  rw [h1] at hr
  cases hr
  have bound : ∀ m : Nat, m ≤ 15 → 2 ^ (2 * m) ≤ 2 ^ 30 := fun m h =>
    Nat.pow_le_pow_right (by decide) (by omega)
  have small' : requests.length * 2 < 2 ^ 29 := small
  have c1 := hok.nameCount
  have c2 := hok.textCount
  rw [Nat.zero_add] at c1 c2
  obtain ⟨m, -, h2, h3⟩ := hok.names.size
  obtain ⟨m', -, h4, h5⟩ := hok.strings.size
  exact ⟨⟨by rw [h3]; exact bound m h2, by omega⟩, ⟨by rw [h5]; exact bound m' h4, by omega⟩⟩

/-! ## Examples -/

/-- 90 names in a namespace, with a prefix. -/
def exampleNames : List Request := (List.range 90).map (fun n => .name ([117, 12, 97 + n, 12, 112]))

/-- 90 names: both tables have grown, and a name asked for again is the same object. -/
example : ((run start (exampleNames ++ [.name [117, 12, 97 + 3, 12, 112], .text [97 + 3] 0])).map
    (fun x => (x.2.names.mask, x.2.strings.table.mask, x.1[3]? == x.1[90]?, x.1[91]?))) =
    some (255, 255, true, some (.text ⟨11, [100]⟩)) := by decide +kernel

/-- The name of the fourth request: namespace `u`, local name `d`, written `p:d`. -/
example : ((run start exampleNames).bind (fun x => x.1[3]?)) =
    some (.name ⟨10, some ⟨1, [117]⟩, ⟨11, [100]⟩, ⟨12, [112, 58, 100]⟩⟩) := by decide +kernel

example : (Spec.XName.prefixed [117] [100] [112]).Legal := by
  refine ⟨by decide, by decide, by decide⟩
example : (Spec.XName.prefixed [117] [100] [112]).reported = [117, 12, 100, 12, 112] := rfl
example : Spec.Small exampleNames := by show exampleNames.length * 2 < 2 ^ 29; decide +kernel
example : Spec.Same (.text [97] 0) (.text [97] 12) := ⟨rfl, Or.inl (by decide)⟩

end Verif.Parse.Intern
