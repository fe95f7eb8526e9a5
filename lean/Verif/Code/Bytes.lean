import Verif.Code.Layout

/-
Tables, offsets, bytes: the interpreter does with the bytes what running the list means.
-/
namespace Verif.Code

open Verif.Py

variable {V W : Type}

/-- The instructions of a list. -/
def insOf : List (Item V) → List (Ins V)
  | [] => []
  | .label _ :: r => insOf r
  | .ins i :: r => i :: insOf r

theorem insOf_append (a b : List (Item V)) : insOf (a ++ b) = insOf a ++ insOf b := by
  induction a with
  | nil => rfl
  | cons x a ih => cases x <;> simp [insOf, ih]

theorem insOf_map (is : List (Ins V)) : insOf (is.map .ins) = is := by
  induction is with
  | nil => rfl
  | cons x a ih => simpa [insOf] using ih

theorem insOf_items (g : Graph V) (ch : List Nat) : insOf (items g ch) = ch.flatMap fun b => (g.block b).ins := by
  induction ch with
  | nil => rfl
  | cons b r ih =>
    show insOf (.label b :: ((g.block b).ins.map .ins ++ items g r)) = _
    simp [insOf, insOf_append, insOf_map, ih]

/-- The length of an instruction. -/
def Ins.len : Ins V → Nat
  | .op _ => 1
  | _ => 3

/-- The length of a list. -/
def psize (l : List (Item V)) : Nat := ((insOf l).map Ins.len).sum

theorem psize_append (a b : List (Item V)) : psize (a ++ b) = psize a + psize b := by
  simp [psize, insOf_append]

/-- The argument of an instruction is the right one in the tables. -/
def Resolved (T : Tables V) : Ins V → Res → Prop
  | .op o, r => r = .plain o.code
  | .num o n, r => r = .arg o.code n
  | .const v, r => ∃ k, r = .arg 100 k ∧ T.consts[k]? = some v
  | .fast o s, r => ∃ k, r = .arg o.code k ∧ T.locals[k]? = some s
  | .attr o s, r => ∃ k, r = .arg o.code k ∧ T.names[k]? = some s
  | .cmp c, r => r = .arg 106 c.index
  | .jump o t, r => r = .jump o.code t

/-- Tables only grow. -/
structure Tables.Le (t T : Tables V) : Prop where
  consts : t.consts <+: T.consts
  names : t.names <+: T.names
  locals : t.locals <+: T.locals

theorem Tables.Le.refl (t : Tables V) : t.Le t := ⟨List.prefix_rfl, List.prefix_rfl, List.prefix_rfl⟩

theorem Tables.Le.trans {a b c : Tables V} (h1 : a.Le b) (h2 : b.Le c) : a.Le c :=
  ⟨h1.consts.trans h2.consts, h1.names.trans h2.names, h1.locals.trans h2.locals⟩

theorem prefix_getElem {A : Type} {a b : List A} (h : a <+: b) {k : Nat} {x : A} (hk : a[k]? = some x) : b[k]? = some x := by
  obtain ⟨c, rfl⟩ := h
  have : k < a.length := by
    rcases Nat.lt_or_ge k a.length with h | h
    · exact h
    · rw [List.getElem?_eq_none h] at hk; exact nomatch hk
  rw [List.getElem?_append_left this]; exact hk

theorem Resolved.mono {t T : Tables V} {i : Ins V} {r : Res} (hle : t.Le T) (h : Resolved t i r) : Resolved T i r := by
  cases i with
  | const v => obtain ⟨k, h1, h2⟩ := h; exact ⟨k, h1, prefix_getElem hle.consts h2⟩
  | fast o s => obtain ⟨k, h1, h2⟩ := h; exact ⟨k, h1, prefix_getElem hle.locals h2⟩
  | attr o s => obtain ⟨k, h1, h2⟩ := h; exact ⟨k, h1, prefix_getElem hle.names h2⟩
  | _ => exact h

theorem intern_spec {A : Type} {same : A → A → Bool} {a : A} {l : List A} (h : ∀ b ∈ l, same a b = true → a = b) :
    l <+: (intern same a l).2 ∧ (intern same a l).2[(intern same a l).1]? = some a ∧
      (∀ x ∈ (intern same a l).2, x = a ∨ x ∈ l) := by
  unfold intern
  cases hf : l.findIdx? (same a) with
  | some k =>
    obtain ⟨hk, h1, _⟩ := List.findIdx?_eq_some_iff_getElem.1 hf
    refine ⟨List.prefix_rfl, ?_, fun x hx => .inr hx⟩
    show l[k]? = some a
    rw [List.getElem?_eq_getElem hk, h _ (List.getElem_mem hk) h1]
  | none =>
    refine ⟨List.prefix_append _ _, ?_, fun x hx => ?_⟩
    · show (l ++ [a])[l.length]? = some a
      simp
    · rcases List.mem_append.1 hx with hx | hx
      · exact .inr hx
      · exact .inl (List.mem_singleton.1 hx)

theorem intern_nodup {A : Type} [BEq A] [LawfulBEq A] {a : A} {l : List A} (h : l.Nodup) : (intern (· == ·) a l).2.Nodup := by
  unfold intern
  cases hf : l.findIdx? (a == ·) with
  | some k => exact h
  | none =>
    refine List.nodup_append.2 ⟨h, by simp, fun x hx y hy he => ?_⟩
    rw [List.mem_singleton] at hy
    have := List.findIdx?_eq_none_iff.1 hf x hx
    rw [he, hy] at this
    simp at this

variable {same : V → V → Bool} {C : V → Prop}

/-- What holds of tables. -/
structure TOk (C : V → Prop) (t : Tables V) : Prop where
  consts : ∀ v ∈ t.consts, C v
  locals : t.locals.Nodup

/-- Constants are as said, numbers are not too large. -/
def InsC (C : V → Prop) : Ins V → Prop
  | .const v => C v
  | .num _ n => n ≤ 65535
  | _ => True

theorem lookup_spec (hsame : ∀ a b, C a → C b → same a b = true → a = b) {i : Ins V} {t : Tables V} (hi : InsC C i)
    (ht : TOk C t) : t.Le (lookup same i t).2 ∧ Resolved (lookup same i t).2 i (lookup same i t).1 ∧ TOk C (lookup same i t).2 := by
  cases i with
  | op o => exact ⟨.refl _, rfl, ht⟩
  | num o n => exact ⟨.refl _, rfl, ht⟩
  | cmp c => exact ⟨.refl _, rfl, ht⟩
  | jump o l => exact ⟨.refl _, rfl, ht⟩
  | const v =>
    obtain ⟨h1, h2, h3⟩ := intern_spec (same := same) (a := v) (l := t.consts) fun b hb => hsame v b hi (ht.consts b hb)
    refine ⟨⟨h1, List.prefix_rfl, List.prefix_rfl⟩, ⟨_, rfl, h2⟩, ⟨fun x hx => ?_, ht.locals⟩⟩
    rcases h3 x hx with rfl | h
    · exact hi
    · exact ht.consts x h
  | fast o s =>
    obtain ⟨h1, h2, h3⟩ := intern_spec (same := (· == ·)) (a := s) (l := t.locals) fun b _ h => by simpa using h
    exact ⟨⟨List.prefix_rfl, List.prefix_rfl, h1⟩, ⟨_, rfl, h2⟩, ⟨ht.consts, intern_nodup ht.locals⟩⟩
  | attr o s =>
    obtain ⟨h1, h2, h3⟩ := intern_spec (same := (· == ·)) (a := s) (l := t.names) fun b _ h => by simpa using h
    exact ⟨⟨List.prefix_rfl, h1, List.prefix_rfl⟩, ⟨_, rfl, h2⟩, ⟨ht.consts, ht.locals⟩⟩

/-- Instructions and what was looked up for them. -/
inductive Aligned (T : Tables V) : List (Ins V) → List Res → Prop where
  | nil : Aligned T [] []
  | cons {i is r rs} : Resolved T i r → Aligned T is rs → Aligned T (i :: is) (r :: rs)

theorem Aligned.mono {t T : Tables V} (hle : t.Le T) {is : List (Ins V)} {rs : List Res} (h : Aligned t is rs) : Aligned T is rs := by
  induction h with
  | nil => exact .nil
  | cons h _ ih => exact .cons (h.mono hle) ih

theorem Aligned.append {T : Tables V} {a b : List (Ins V)} {x y : List Res} (h1 : Aligned T a x) (h2 : Aligned T b y) :
    Aligned T (a ++ b) (x ++ y) := by
  induction h1 with
  | nil => exact h2
  | cons h _ ih => exact .cons h ih

theorem lookups_spec (hsame : ∀ a b, C a → C b → same a b = true → a = b) {is : List (Ins V)} {t : Tables V}
    (hi : ∀ i ∈ is, InsC C i) (ht : TOk C t) :
    t.Le (lookups same is t).2 ∧ Aligned (lookups same is t).2 is (lookups same is t).1 ∧ TOk C (lookups same is t).2 := by
  induction is generalizing t with
  | nil => exact ⟨.refl _, .nil, ht⟩
  | cons i is ih =>
    obtain ⟨h1, h2, h3⟩ := lookup_spec hsame (hi i (.head _)) ht
    obtain ⟨h4, h5, h6⟩ := ih (fun j hj => hi j (.tail _ hj)) h3
    exact ⟨h1.trans h4, .cons (h2.mono h4) h5, h6⟩

/-- Blocks and what was looked up for them. -/
inductive AlignedB (T : Tables V) : List (Nat × List (Ins V)) → List (Nat × List Res) → Prop where
  | nil : AlignedB T [] []
  | cons {b is bs rs rest} : Aligned T is rs → AlignedB T bs rest → AlignedB T ((b, is) :: bs) ((b, rs) :: rest)

theorem lookupBlocks_spec (hsame : ∀ a b, C a → C b → same a b = true → a = b) {bs : List (Nat × List (Ins V))} {t : Tables V}
    (hi : ∀ p ∈ bs, ∀ i ∈ p.2, InsC C i) (ht : TOk C t) :
    t.Le (lookupBlocks same bs t).2 ∧ AlignedB (lookupBlocks same bs t).2 bs (lookupBlocks same bs t).1 ∧
      TOk C (lookupBlocks same bs t).2 := by
  induction bs generalizing t with
  | nil => exact ⟨.refl _, .nil, ht⟩
  | cons p bs ih =>
    obtain ⟨b, is⟩ := p
    obtain ⟨h1, h2, h3⟩ := lookups_spec hsame (hi (b, is) (.head _)) ht
    obtain ⟨h4, h5, h6⟩ := ih (fun q hq => hi q (.tail _ hq)) h3
    exact ⟨h1.trans h4, .cons (h2.mono h4) h5, h6⟩

theorem AlignedB.flat {T : Tables V} {bs : List (Nat × List (Ins V))} {rs : List (Nat × List Res)} (h : AlignedB T bs rs) :
    Aligned T (bs.flatMap (·.2)) (rs.flatMap (·.2)) := by
  induction h with
  | nil => exact .nil
  | cons h _ ih =>
    simp only [List.flatMap_cons]
    exact h.append ih

/-- The bytes of one instruction. -/
theorem encode_len {T : Tables V} {i : Ins V} {r : Res} (hr : Resolved T i r) {offs : List (Nat × Nat)} {pos : Nat}
    {x : List Nat} (h : encode offs pos r = .ok x) : x.length = i.len ∧ r.size = i.len := by
  have harg : ∀ {c : Nat} {n : Int} {x : List Nat}, encodeArg c n = .ok x → x.length = 3 ∧ n ≤ 65535 ∧ 0 ≤ n := by
    intro c n x h
    unfold encodeArg at h
    split at h
    · exact nomatch h
    · split at h
      · exact nomatch h
      · cases h; exact ⟨rfl, by omega, by omega⟩
  have hsz : ∀ {c n : Nat}, n ≤ 65535 → (Res.arg c n).size = 3 := by
    intro c n h
    show (if n > 65535 then 6 else 3) = 3
    rw [if_neg (by omega)]
  cases i with
  | op o => cases hr; cases h; exact ⟨rfl, rfl⟩
  | num o n => cases hr; obtain ⟨h1, h2, h3⟩ := harg h; exact ⟨h1, hsz (by omega)⟩
  | const v => obtain ⟨k, rfl, _⟩ := hr; obtain ⟨h1, h2, h3⟩ := harg h; exact ⟨h1, hsz (by omega)⟩
  | fast o s => obtain ⟨k, rfl, _⟩ := hr; obtain ⟨h1, h2, h3⟩ := harg h; exact ⟨h1, hsz (by omega)⟩
  | attr o s => obtain ⟨k, rfl, _⟩ := hr; obtain ⟨h1, h2, h3⟩ := harg h; exact ⟨h1, hsz (by omega)⟩
  | cmp c => cases hr; obtain ⟨h1, h2, h3⟩ := harg h; exact ⟨h1, hsz (by omega)⟩
  | jump o t => cases hr; obtain ⟨h1, h2, h3⟩ := harg h; exact ⟨h1, rfl⟩

/-- The bytes at the place of an instruction. -/
theorem encodes_at {T : Tables V} {offs : List (Nat × Nat)} {is : List (Ins V)} {rs : List Res} (ha : Aligned T is rs)
    {pos : Nat} {bytes : List Nat} (h : encodes offs pos rs = .ok bytes) :
    (∀ r ∈ rs, ∃ p x, encode offs p r = .ok x) ∧
    ∀ {a b : List (Ins V)} {i : Ins V}, is = a ++ i :: b → ∃ r x rest, Resolved T i r ∧
      encode offs (pos + (a.map Ins.len).sum) r = .ok x ∧ bytes.drop (a.map Ins.len).sum = x ++ rest := by
  induction ha generalizing pos bytes with
  | nil => exact ⟨(fun _ h => nomatch h), fun {a b i} h => by cases a <;> exact nomatch h⟩
  | cons hr hrest ih =>
    unfold encodes at h
    split at h
    · exact nomatch h
    · next x hx =>
      split at h
      · exact nomatch h
      · next y hy =>
        cases h
        obtain ⟨hl, _⟩ := encode_len hr hx
        obtain ⟨ih1, ih2⟩ := ih hy
        refine ⟨fun r hmem => ?_, fun {a b i} he => ?_⟩
        · cases hmem with
          | head => exact ⟨_, _, hx⟩
          | tail _ hm => exact ih1 r hm
        · cases a with
          | nil =>
            obtain ⟨rfl, rfl⟩ := List.cons.inj he
            exact ⟨_, x, y, hr, by simpa using hx, rfl⟩
          | cons c a =>
            have he1 := (List.cons.inj he).1
            subst he1
            obtain ⟨r, z, rest, h1, h2, h3⟩ := ih2 (List.cons.inj he).2
            refine ⟨r, z, rest, h1, ?_, ?_⟩
            · rw [hl, Nat.add_assoc] at h2
              simpa using h2
            · rw [List.map_cons, List.sum_cons, ← hl]
              rw [List.drop_append, List.drop_eq_nil_of_le (by omega), List.nil_append, Nat.add_sub_cancel_left, h3]

theorem sum_sizes {T : Tables V} {is : List (Ins V)} {rs : List Res} (ha : Aligned T is rs)
    (hs : ∀ i r, Resolved T i r → r ∈ rs → r.size = i.len) : (rs.map Res.size).sum = (is.map Ins.len).sum := by
  induction ha with
  | nil => rfl
  | cons h _ ih =>
    simp only [List.map_cons, List.sum_cons]
    rw [hs _ _ h (.head _), ih fun i r hr hm => hs i r hr (.tail _ hm)]

/-- The offset of a block. -/
theorem offset_spec {T : Tables V} {g : Graph V} {ch : List Nat} {rs : List (Nat × List Res)}
    (ha : AlignedB T (ch.map fun b => (b, (g.block b).ins)) rs)
    (hs : ∀ i r, Resolved T i r → r ∈ rs.flatMap (·.2) → r.size = i.len)
    {p q : List Nat} {t : Nat} (hp : ch = p ++ t :: q) (ht : t ∉ p) (k : Nat) :
    offset (offsets k rs) t = k + psize (items g p) := by
  induction p generalizing ch rs k with
  | nil =>
    subst hp
    cases ha with
    | cons h hr =>
      show (((List.find? _ ((t, k) :: _)).map _).getD 0) = _
      rw [List.find?_cons_of_pos (by simp)]
      rfl
  | cons a p ih =>
    subst hp
    simp only [List.mem_cons, not_or] at ht
    cases ha with
    | @cons _ _ _ rs0 _ h hr =>
      have := ih hr (fun i r h1 h2 => hs i r h1 (by simp only [List.flatMap_cons]; exact List.mem_append_right _ h2)) rfl ht.2
        (k + (rs0.map Res.size).sum)
      unfold offset at this ⊢
      unfold offsets
      rw [List.find?_cons_of_neg (by simpa using Ne.symm ht.1), this, sum_sizes h fun i r h1 h2 => hs i r h1 (by
        simp only [List.flatMap_cons]; exact List.mem_append_left _ h2)]
      show _ = k + psize (items g ([a] ++ p))
      rw [items_append, psize_append]
      have : psize (items g [a]) = ((g.block a).ins.map Ins.len).sum := by
        unfold psize
        rw [insOf_items]; simp
      rw [this]; omega

end Verif.Code
