import Verif.Dom.TableLemmas

/-
C16: the attribute map is a finite map under insertions and replacements.
-/
namespace Verif.Dom.Table

set_option linter.unusedSectionVars false

variable {K V : Type} [DecidableEq K]

namespace Spec

/-- The last value stored under `key`. -/
def lastStored : List (K × V) → K → Option V
  | [], _ => none
  | (k, v) :: rest, key => match lastStored rest key with
    | some x => some x
    | none => if k = key then some v else none

/-- The number of different keys stored. -/
def distinctKeys : List (K × V) → Nat
  | [] => 0
  | (k, _) :: rest => if k ∈ rest.map Prod.fst then distinctKeys rest else distinctKeys rest + 1

end Spec
open Spec

theorem lastStored_append (h : List (K × V)) (k : K) (v : V) (key : K) :
    lastStored (h ++ [(k, v)]) key = if k = key then some v else lastStored h key := by
  induction h with
  | nil => simp [lastStored]
  | cons p h ih =>
    obtain ⟨k', v'⟩ := p
    simp only [List.cons_append, lastStored, ih]
    by_cases hk : k = key
    · simp [hk]
    · simp [hk]

/-- The table holds exactly the last stored values. -/
def Holds (m : Map K V) (h : List (K × V)) : Prop :=
  ∀ key v, (∃ e, some e ∈ m.table ∧ e.key = key ∧ e.val = v) ↔ lastStored h key = some v

theorem sets_append (w limit : Nat) (H : K → Nat) (m : Map K V) (h : List (K × V)) (k : K) (v : V) :
    m.sets w limit H (h ++ [(k, v)]) = match m.sets w limit H h with
      | .ok m' => m'.set w limit H k v
      | .noMemory => .noMemory
      | .loops => .loops := by
  induction h generalizing m with
  | nil =>
    simp only [List.nil_append, Map.sets]
    cases m.set w limit H k v <;> rfl
  | cons p h ih =>
    obtain ⟨k', v'⟩ := p
    simp only [List.cons_append, Map.sets]
    cases m.set w limit H k' v' with
    | ok m' => exact ih m'
    | noMemory => rfl
    | loops => rfl

/-- The induction along the history (taken from its end). -/
theorem sets_spec {w limit : Nat} {H : K → Nat} (hw : 3 ≤ w) (hH : ∀ x, H x < 2 ^ w)
    (hlim : limit ≤ 2 ^ w) (hr : List (K × V)) :
    ((Map.new : Map K V).sets w limit H hr.reverse = .noMemory ∧ limit < 3 * hr.length) ∨
    ∃ m k, (Map.new : Map K V).sets w limit H hr.reverse = .ok m ∧ MInv w k H m ∧
      m.used ≤ hr.length ∧ Holds m hr.reverse := by
  induction hr with
  | nil =>
    refine .inr ⟨Map.new, 3, rfl, minv_new hw H, by simp [Map.new], ?_⟩
    intro key v
    simp [Map.new, lastStored]
  | cons p hr ih =>
    obtain ⟨k, v⟩ := p
    rw [List.reverse_cons, sets_append, List.length_cons]
    rcases ih with ⟨h1, h2⟩ | ⟨m, k0, h1, h2, h3, h4⟩
    · rw [h1]; exact .inl ⟨rfl, by omega⟩
    · rw [h1]
      rcases set_spec hH hlim h2 k v with ⟨a1, a2⟩ | ⟨m', k', a1, a2, a3, a4⟩
      · exact .inl ⟨a1, by omega⟩
      · refine .inr ⟨m', k', a1, a2, by omega, ?_⟩
        intro key x
        rw [lastStored_append]
        by_cases hk : k = key
        · subst hk
          rw [if_pos rfl]
          constructor
          · rintro ⟨e, he, hek, hev⟩
            rcases (a4 e).1 he with rfl | ⟨_, hne⟩
            · rw [← hev]
            · exact absurd hek hne
          · intro he
            simp at he; subst he
            exact ⟨_, (a4 _).2 (.inl rfl), rfl, rfl⟩
        · rw [if_neg hk, ← h4]
          constructor
          · rintro ⟨e, he, hek, hev⟩
            rcases (a4 e).1 he with rfl | ⟨he, _⟩
            · exact absurd hek hk
            · exact ⟨e, he, hek, hev⟩
          · rintro ⟨e, he, hek, hev⟩
            exact ⟨e, (a4 e).2 (.inr ⟨he, by rw [hek]; exact fun e => hk e.symm⟩), hek, hev⟩

theorem sets_ok {w limit : Nat} {H : K → Nat} (hw : 3 ≤ w) (hH : ∀ x, H x < 2 ^ w)
    (hlim : limit ≤ 2 ^ w) {hist : List (K × V)} {m : Map K V}
    (hm : (Map.new : Map K V).sets w limit H hist = .ok m) :
    ∃ k, MInv w k H m ∧ Holds m hist := by
  have := sets_spec hw hH hlim hist.reverse
  rw [List.reverse_reverse] at this
  rcases this with ⟨h1, _⟩ | ⟨m', k, h1, h2, _, h4⟩
  · rw [h1] at hm; simp at hm
  · rw [h1] at hm; simp at hm; subst hm; exact ⟨k, h2, h4⟩

/-- C16.  After any history of insertions and replacements a lookup returns the last value stored under
the key, and `None` for keys never stored; for every word size, every hash function and every pattern of
collisions and resizes.  In particular the probing loop of the lookup ends. -/
theorem C16_lookup {w limit : Nat} {H : K → Nat} (hw : 3 ≤ w) (hH : ∀ x, H x < 2 ^ w)
    (hlim : limit ≤ 2 ^ w) (hist : List (K × V)) (m : Map K V)
    (hm : (Map.new : Map K V).sets w limit H hist = .ok m) (key : K) :
    m.get w H key = .ok (lastStored hist key) := by
  obtain ⟨k, hi, hh⟩ := sets_ok hw hH hlim hm
  obtain ⟨s, n, h1, h2, h3, h4, _⟩ := getEntry_spec hi.tab hi.max hH hi.free key
  simp only [Map.get, h1]
  rcases h4 with ⟨h5, h6⟩ | ⟨e, h5, h6⟩
  · rw [h5]
    cases hl : lastStored hist key with
    | none => rfl
    | some v =>
      obtain ⟨e, he, hek, _⟩ := (hh key v).2 hl
      exact absurd hek (h6 e he)
  · rw [h5, (hh key e.val).1 ⟨e, (mem_iff_slot _ e).2 ⟨s, h5⟩, h6, rfl⟩]

/-- C16.  No insertion runs forever, and none fails for lack of memory while three table slots are
available for each operation: the history ends with a map. -/
theorem C16_insert_total {w limit : Nat} {H : K → Nat} (hw : 3 ≤ w) (hH : ∀ x, H x < 2 ^ w)
    (hlim : limit ≤ 2 ^ w) (hist : List (K × V)) :
    (Map.new : Map K V).sets w limit H hist ≠ .loops ∧
    (3 * hist.length ≤ limit → ∃ m, (Map.new : Map K V).sets w limit H hist = .ok m) := by
  have := sets_spec hw hH hlim hist.reverse
  rw [List.reverse_reverse] at this
  rcases this with ⟨h1, h2⟩ | ⟨m', k, h1, _⟩
  · rw [List.length_reverse] at h2
    exact ⟨by rw [h1]; simp, fun h => by omega⟩
  · exact ⟨by rw [h1]; simp, fun _ => ⟨m', h1⟩⟩

/-- C16.  Iterating over the map yields each stored key exactly once, with its last value. -/
theorem C16_iteration {w limit : Nat} {H : K → Nat} (hw : 3 ≤ w) (hH : ∀ x, H x < 2 ^ w)
    (hlim : limit ≤ 2 ^ w) (hist : List (K × V)) (m : Map K V)
    (hm : (Map.new : Map K V).sets w limit H hist = .ok m) :
    (m.entries.map Entry.key).Nodup ∧
    ∀ key v, (key, v) ∈ m.entries.map (fun e => (e.key, e.val)) ↔ lastStored hist key = some v := by
  obtain ⟨k, hi, hh⟩ := sets_ok hw hH hlim hm
  refine ⟨keys_nodup hi.tab, fun key v => ?_⟩
  rw [← hh key v]
  simp only [List.mem_map, Map.entries, List.mem_filterMap, id]
  constructor
  · rintro ⟨e, ⟨_, he, rfl⟩, h1⟩
    simp at h1; exact ⟨e, he, h1.1, h1.2⟩
  · rintro ⟨e, he, rfl, rfl⟩
    exact ⟨e, ⟨_, he, rfl⟩, rfl⟩

theorem lastStored_isSome (h : List (K × V)) (key : K) :
    (∃ v, lastStored h key = some v) ↔ key ∈ h.map Prod.fst := by
  induction h with
  | nil => simp [lastStored]
  | cons p h ih =>
    obtain ⟨k, v⟩ := p
    simp only [lastStored, List.map_cons, List.mem_cons]
    cases hl : lastStored h key with
    | some x =>
      have := ih.1 ⟨x, hl⟩
      simp [this]
    | none =>
      have hn : key ∉ h.map Prod.fst := fun hm => by
        obtain ⟨v, hv⟩ := ih.2 hm
        rw [hl] at hv; simp at hv
      by_cases hk : k = key
      · simp [hk]
      · simp only [hk, if_false, hn, or_false]
        constructor
        · rintro ⟨v, hv⟩; simp at hv
        · intro e; exact absurd e.symm hk

theorem nodup_length (l : List K) (h : List (K × V)) (hn : l.Nodup)
    (hm : ∀ x, x ∈ l ↔ x ∈ h.map Prod.fst) : l.length = distinctKeys h := by
  induction h generalizing l with
  | nil =>
    cases l with
    | nil => rfl
    | cons a l => have := (hm a).1 (by simp); simp at this
  | cons p h ih =>
    obtain ⟨k, v⟩ := p
    simp only [List.map_cons, List.mem_cons] at hm
    simp only [distinctKeys]
    split
    · rename_i hk
      exact ih l hn (fun x => by
        rw [hm]
        constructor
        · rintro (rfl | h1)
          · exact hk
          · exact h1
        · exact .inr)
    · rename_i hk
      have h1 : k ∈ l := (hm k).2 (.inl rfl)
      have := ih (l.erase k) (hn.erase k) (fun x => by
        rw [hn.mem_erase_iff, hm]
        constructor
        · rintro ⟨h2, h3 | h3⟩
          · exact absurd h3 h2
          · exact h3
        · intro h2
          exact ⟨fun e => hk (e ▸ h2), .inr h2⟩)
      rw [← this, List.length_erase_of_mem h1]
      have := List.length_pos_of_mem h1
      omega

/-- C16.  `len` is the number of different keys stored. -/
theorem C16_len {w limit : Nat} {H : K → Nat} (hw : 3 ≤ w) (hH : ∀ x, H x < 2 ^ w)
    (hlim : limit ≤ 2 ^ w) (hist : List (K × V)) (m : Map K V)
    (hm : (Map.new : Map K V).sets w limit H hist = .ok m) : m.len = distinctKeys hist := by
  obtain ⟨k, hi, hh⟩ := sets_ok hw hH hlim hm
  have hit := C16_iteration hw hH hlim hist m hm
  have := nodup_length (m.entries.map Entry.key) hist hit.1 (fun x => by
    rw [← lastStored_isSome]
    constructor
    · intro hx
      obtain ⟨e, he, rfl⟩ := List.mem_map.1 hx
      exact ⟨e.val, (hit.2 _ _).1 (List.mem_map.2 ⟨e, he, rfl⟩)⟩
    · rintro ⟨v, hv⟩
      obtain ⟨e, he, h1⟩ := List.mem_map.1 ((hit.2 _ _).2 hv)
      simp at h1
      exact List.mem_map.2 ⟨e, he, h1.1⟩)
  rw [← this, List.length_map]
  exact hi.used

/-- Keys whose hashes all collide. -/
def collide : Nat → Nat := fun _ => 5

def sampleHist : List (Nat × Nat) :=
  [(1, 10), (2, 20), (1, 11), (3, 30), (4, 40), (5, 50), (6, 60), (7, 70), (2, 21)]

/-- The hypotheses of C16 hold of a history with nine colliding operations that makes the table grow. -/
example : 3 ≤ 32 ∧ (∀ x, collide x < 2 ^ 32) ∧ 2 ^ 30 ≤ 2 ^ 32 ∧ 3 * sampleHist.length ≤ 2 ^ 30 :=
  ⟨by decide, fun _ => by simp [collide], by decide, by decide⟩

example : ∃ m, (Map.new : Map Nat Nat).sets 32 (2 ^ 30) collide sampleHist = .ok m ∧
    m.table.length = 16 ∧ m.get 32 collide 2 = .ok (some 21) ∧ m.get 32 collide 1 = .ok (some 11) ∧
    m.get 32 collide 9 = .ok none ∧ m.len = 7 :=
  ⟨_, rfl, by decide, by decide, by decide, by decide, by decide⟩

/-- C16, deletion, what does hold: deleting succeeds exactly for stored keys, and then that key is no
longer found and the length is one less.  Missing: the lookups of the other keys are not always
unaffected (`C16_delete_refuted`). -/
theorem C16_delete_partial {w limit : Nat} {H : K → Nat} (hw : 3 ≤ w) (hH : ∀ x, H x < 2 ^ w)
    (hlim : limit ≤ 2 ^ w) (hist : List (K × V)) (m : Map K V)
    (hm : (Map.new : Map K V).sets w limit H hist = .ok m) (key : K) :
    (m.del w H key = none ∧ lastStored hist key = none) ∨
    ∃ m', m.del w H key = some m' ∧ (∃ v, lastStored hist key = some v) ∧
      m'.get w H key = .ok none ∧ m'.len + 1 = m.len := by
  obtain ⟨k, hi, hh⟩ := sets_ok hw hH hlim hm
  obtain ⟨s, n, h1, h2, h3, h4, h7⟩ := getEntry_spec hi.tab hi.max hH hi.free key
  have hs : s < m.table.length := by rw [← h2]; exact slot_lt hi.tab.len _
  rcases h4 with ⟨h5, h6⟩ | ⟨e, h5, h6⟩
  · refine .inl ⟨by simp only [Map.del, h1, h5], ?_⟩
    cases hl : lastStored hist key with
    | none => rfl
    | some v =>
      obtain ⟨e, he, hek, _⟩ := (hh key v).2 hl
      exact absurd hek (h6 e he)
  · refine .inr ⟨⟨m.table.set s none, m.used - 1⟩, by simp only [Map.del, h1, h5],
      ⟨e.val, (hh key e.val).1 ⟨e, (mem_iff_slot _ e).2 ⟨s, h5⟩, h6, rfl⟩⟩, ?_, ?_⟩
    · have hlen : (m.table.set s none).length = m.table.length := List.length_set
      obtain ⟨x, a1, a2, a3, a4⟩ := getLoop_spec (t := m.table.set s none) (w := w) (hash := H key) (key := key)
        (fun i => by rw [hlen]; exact slot_lt hi.tab.len i) (rounds w (m.table.set s none).length)
        (slotOf (m.table.set s none).length (H key), H key)
        ⟨n, by rw [hlen]; exact h7, .inl (by
          rw [hlen]
          show (m.table.set s none)[pos w m.table.length (H key) n]? = _
          rw [h2, List.getElem?_set_self hs])⟩
      simp only [Map.get, getEntry, a2]
      rcases a3 with a3 | ⟨e', a3, _, a5⟩
      · rw [a3]
      · exfalso
        rw [hlen] at a3
        by_cases hx : slotOf m.table.length (probe w (slotOf m.table.length (H key), H key) x).1 = s
        · rw [hx, List.getElem?_set_self hs] at a3; simp at a3
        · rw [List.getElem?_set_ne (Ne.symm hx)] at a3
          exact hx (slot_unique hi.tab a3 h5 (a5.trans h6.symm))
    · show m.used - 1 + 1 = m.used
      have : 0 < m.used := by
        rw [hi.used]
        exact List.length_pos_of_mem (List.mem_filterMap.2 ⟨some e, (mem_iff_slot _ e).2 ⟨s, h5⟩, rfl⟩)
      omega

/-- What C16 leaves out, deletion, breaks the map: after storing two colliding keys and deleting the
first, the second can no longer be found, and storing it again gives the map two entries for it. -/
theorem C16_delete_refuted :
    ∃ m m' m'' : Map Nat Nat, (Map.new : Map Nat Nat).sets 32 (2 ^ 30) collide [(1, 10), (2, 20)] = .ok m ∧
      m.get 32 collide 2 = .ok (some 20) ∧
      m.del 32 collide 1 = some m' ∧ m'.get 32 collide 2 = .ok none ∧
      m'.set 32 (2 ^ 30) collide 2 21 = .ok m'' ∧
      m''.entries.map (fun e => (e.key, e.val)) = [(2, 21), (2, 20)] :=
  ⟨_, _, _, rfl, by decide, rfl, by decide, rfl, by decide⟩

end Verif.Dom.Table
