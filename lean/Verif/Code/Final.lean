import Verif.Code.Keeps

/-
The whole way from an expression to the result of its code.
-/
namespace Verif.Code

open Verif.Py Verif.Code.Spec Gen

variable {V W : Type} {C : V → Prop} {K : Known V} {env : Env V} {same : V → V → Bool}

/-- A sum over different numbers below a bound. -/
theorem sum_nodup (n : Nat) : ∀ (ch : List Nat) (f : Nat → Nat), ch.Nodup → (∀ b ∈ ch, b < n) →
    (ch.map f).sum ≤ ((List.range n).map f).sum := by
  have hupd : ∀ (n a : Nat) (f : Nat → Nat),
      ((List.range n).map fun x => if x = a then 0 else f x).sum + (if a < n then f a else 0) = ((List.range n).map f).sum := by
    intro n a f
    induction n with
    | zero => simp
    | succ n ih =>
      rw [List.range_succ]
      simp only [List.map_append, List.map_cons, List.map_nil, List.sum_append, List.sum_cons, List.sum_nil]
      by_cases h : n = a
      · subst h
        rw [if_neg (Nat.lt_irrefl n)] at ih
        rw [if_pos rfl, if_pos (Nat.lt_succ_self n)]
        omega
      · rw [if_neg h]
        by_cases h' : a < n
        · rw [if_pos h'] at ih
          rw [if_pos (by omega)]
          omega
        · rw [if_neg h'] at ih
          rw [if_neg (by omega)]
          omega
  intro ch
  induction ch with
  | nil => intro f _ _; simp
  | cons a ch ih =>
    intro f hn hb
    have h1 := ih (fun x => if x = a then 0 else f x) (List.nodup_cons.1 hn).2 fun b hm => hb b (.tail _ hm)
    have h2 : (ch.map fun x => if x = a then 0 else f x) = ch.map f := by
      refine List.map_congr_left fun x hx => ?_
      rw [if_neg (show x ≠ a from fun he => (List.nodup_cons.1 hn).1 (he ▸ hx))]
    have h3 := hupd n a f
    rw [if_pos (hb a (.head _))] at h3
    rw [h2] at h1
    simp only [List.map_cons, List.sum_cons]
    omega

theorem length_nodup {n : Nat} {ch : List Nat} (hn : ch.Nodup) (hb : ∀ b ∈ ch, b < n) : ch.length ≤ n := by
  have h := sum_nodup n ch (fun _ => 1) hn hb
  have h1 : ∀ l : List Nat, (l.map fun _ => 1).sum = l.length := by
    intro l
    induction l with
    | nil => rfl
    | cons a l ih => simp only [List.map_cons, List.sum_cons, List.length_cons, ih]; omega
  rw [h1, h1, List.length_range] at h
  exact h

theorem sum_range {A : Type} (d : A) (w : A → Nat) (l : List A) :
    ((List.range l.length).map fun i => w (l.getD i d)).sum = (l.map w).sum := by
  congr 1
  refine List.ext_getElem (by simp) fun i h1 h2 => ?_
  have : i < l.length := by simpa using h1
  simp [List.getElem?_eq_getElem this]

theorem total_chain {g : Graph V} {ch : List Nat} (hn : ch.Nodup) (hb : ∀ b ∈ ch, b < g.blocks.length) :
    (ch.map fun b => (g.block b).ins.length).sum ≤ g.total := by
  have h1 := sum_nodup g.blocks.length ch (fun b => (g.block b).ins.length) hn hb
  have h2 := sum_range (⟨[], none⟩ : Block V) (fun b => b.ins.length) g.blocks
  unfold Graph.total
  unfold Graph.block at h1 ⊢
  omega

theorem length_items (g : Graph V) (ch : List Nat) : (insOf (items g ch)).length = (ch.map fun b => (g.block b).ins.length).sum := by
  rw [insOf_items, List.length_flatMap]

theorem psize_le (l : List (Item V)) : psize l ≤ 3 * (insOf l).length := by
  unfold psize
  induction insOf l with
  | nil => simp
  | cons i is ih =>
    simp only [List.map_cons, List.sum_cons, List.length_cons]
    have : i.len ≤ 3 := by cases i <;> simp [Ins.len]
    omega

/-- The final graph: the chain of its blocks. -/
structure Chain (g : Graph V) (ch : List Nat) : Prop where
  links : Links g ch
  first : ∃ r, ch = 0 :: r
  nodup : ch.Nodup
  bound : ∀ b ∈ ch, b < g.blocks.length
  closed : Closed (items g ch)
  mem : ∀ b ∈ ch, g.block b ∈ g.blocks

theorem chain_of_lay {g : Graph V} {F : List (Item V)} (h : Lay g F) (hc : Closed F) : ∃ ch, Chain g ch ∧ F = items g ch := by
  obtain ⟨init, h⟩ := h
  refine ⟨init ++ [g.current], ⟨h.links, ?_, h.nodup, h.bound, h.eq ▸ hc, fun b hb => ?_⟩, h.eq⟩
  · have := h.first
    cases hh : init ++ [g.current] with
    | nil => simp at hh
    | cons a r => rw [hh] at this; cases this; exact ⟨r, rfl⟩
  · have := h.bound b hb
    unfold Graph.block
    rw [List.getD_eq_getElem?_getD, List.getElem?_eq_getElem this]
    exact List.getElem_mem this

theorem Chain.order {g : Graph V} {ch : List Nat} (h : Chain g ch) : g.order = ch := by
  obtain ⟨r, hr⟩ := h.first
  obtain ⟨sn, h1, _⟩ := order_chain (b := 0) hr h.links (fwd_of_closed h.closed) h.nodup
    (length_nodup h.nodup h.bound) (sn := []) (po := []) fun _ _ => (nofun)
  unfold Graph.order
  rw [h1]; simp

theorem Chain.fits {g : Graph V} {ch : List Nat} (h : Chain g ch) : 0 ≤ g.stackSize ∧ Fits g.stackSize (items g ch) 0 := by
  obtain ⟨r, rfl⟩ := h.first
  have := walk_fits (g := g) g.blocks.length (seen := []) (r := r) (b := 0) h.links (fwd_of_closed h.closed) h.nodup
    (length_nodup h.nodup h.bound) (fun _ _ => (nofun)) 0 0 0
  exact ⟨this.1, .label (this.2 _ (Int.le_refl _))⟩

theorem split_items {g : Graph V} {ch : List Nat} {t : Nat} {a b : List (Item V)} (h : items g ch = a ++ .label t :: b) :
    ∃ p q, ch = p ++ t :: q ∧ a = items g p := by
  induction ch generalizing a with
  | nil => simp [items] at h
  | cons c ch ih =>
    have h : Item.label c :: ((g.block c).ins.map .ins ++ items g ch) = a ++ .label t :: b := h
    cases a with
    | nil => cases h; exact ⟨[], ch, rfl, rfl⟩
    | cons x a =>
      have h2 : (g.block c).ins.map Item.ins ++ items g ch = a ++ .label t :: b := (List.cons.inj h).2
      have h1 := (List.cons.inj h).1
      have key : ∀ (is : List (Ins V)) (a : List (Item V)), is.map Item.ins ++ items g ch = a ++ .label t :: b →
          ∃ a', a = is.map Item.ins ++ a' ∧ items g ch = a' ++ .label t :: b := by
        intro is
        induction is with
        | nil => intro a h; exact ⟨a, rfl, h⟩
        | cons i is ih2 =>
          intro a h
          cases a with
          | nil => exact nomatch (List.cons.inj h).1
          | cons y a =>
            obtain ⟨a', h3, h4⟩ := ih2 a (List.cons.inj h).2
            exact ⟨a', by rw [h3, ← (List.cons.inj h).1]; rfl, h4⟩
      obtain ⟨a', h3, h4⟩ := key _ _ h2
      obtain ⟨p, q, h5, h6⟩ := ih h4
      refine ⟨c :: p, q, by rw [h5]; rfl, ?_⟩
      show _ = Item.label c :: ((g.block c).ins.map .ins ++ items g p)
      rw [h3, ← h1, h6]

theorem nodup_split {p q : List Nat} {t : Nat} (h : (p ++ t :: q).Nodup) : t ∉ p := by
  intro hm
  exact (List.nodup_append.1 h).2.2 t hm t (.head _) rfl

/-- What the assembler makes of a chain. -/
theorem assemble_image (hsame : ∀ a b, C a → C b → same a b = true → a = b) {doc : V} (hdoc : C doc) {g : Graph V} {code : Code V}
    (h : g.assemble same [ctxName] doc = .ok code) {ch : List Nat} (hch : Chain (g.nextNew.emit [.op .returnValue]) ch)
    (hall : GAll C (g.nextNew.emit [.op .returnValue])) :
    code.stackSize = (g.nextNew.emit [.op .returnValue]).stackSize ∧
    ∃ T offs, Image code T offs (items (g.nextNew.emit [.op .returnValue]) ch) ∧ [ctxName] <+: T.locals := by
  unfold Graph.assemble at h
  generalize g.nextNew.emit [.op .returnValue] = g' at h hch hall
  dsimp only at h
  rw [hch.order] at h
  have hbs : ∀ p ∈ ch.map fun b => (b, (g'.block b).ins), ∀ i ∈ p.2, InsC C i := by
    intro p hp i hi
    obtain ⟨b, hb, rfl⟩ := List.mem_map.1 hp
    exact hall _ (hch.mem b hb) i hi
  have hlk := lookupBlocks_spec (same := same) hsame hbs
    (t := ({ consts := [doc], names := [], locals := [ctxName] } : Tables V))
    ⟨by intro v hv; cases List.mem_singleton.1 hv; exact hdoc, by simp⟩
  cases hr : lookupBlocks same (ch.map fun b => (b, (g'.block b).ins))
      ({ consts := [doc], names := [], locals := [ctxName] } : Tables V) with
  | mk bs T =>
    rw [hr] at h hlk
    dsimp only at h hlk
    obtain ⟨hle, hal, hok⟩ := hlk
    split at h
    · exact nomatch h
    · next bytes hby =>
      cases h
      unfold jumpOffsets at hby
      obtain ⟨hen, hat⟩ := encodes_at hal.flat hby
      have hs : ∀ i r, Resolved T i r → r ∈ bs.flatMap (·.2) → r.size = i.len := by
        intro i r hr hm
        obtain ⟨p, x, hx⟩ := hen r hm
        exact (encode_len hr hx).2
      have hflat : insOf (items g' ch) = (ch.map fun b => (b, (g'.block b).ins)).flatMap (·.2) := by
        rw [insOf_items, List.flatMap_map]
      refine ⟨rfl, T, offsets 0 bs, ⟨rfl, rfl, rfl, hok.locals, fun {a b i} he => ?_, fun {a b t} he => ?_⟩, hle.locals⟩
      · rw [hflat] at he
        have := hat he
        rw [Nat.zero_add] at this
        exact this
      · obtain ⟨p, q, h1, h2⟩ := split_items he
        have := offset_spec hal hs h1 (nodup_split (h1 ▸ hch.nodup)) 0
        rw [this, Nat.zero_add, h2]

/-- An argument fits into two bytes. -/
def ResOk : Res → Prop
  | .arg _ n => n ≤ 65535
  | _ => True

theorem resOk_size {T : Tables V} {i : Ins V} {r : Res} (hr : Resolved T i r) (h : ResOk r) : r.size = i.len := by
  have key : ∀ {c n : Nat}, n ≤ 65535 → (Res.arg c n).size = 3 := by
    intro c n h
    show (if n > 65535 then 6 else 3) = 3
    rw [if_neg (by omega)]
  cases i with
  | op o => cases hr; rfl
  | num o n => cases hr; exact key h
  | const v => obtain ⟨k, rfl, _⟩ := hr; exact key h
  | fast o s => obtain ⟨k, rfl, _⟩ := hr; exact key h
  | attr o s => obtain ⟨k, rfl, _⟩ := hr; exact key h
  | cmp c => cases hr; exact key h
  | jump o t => cases hr; rfl

theorem resolved_ok {T : Tables V} (h1 : T.consts.length ≤ 65536) (h2 : T.names.length ≤ 65536) (h3 : T.locals.length ≤ 65536)
    {i : Ins V} {r : Res} (hi : InsC C i) (hr : Resolved T i r) : ResOk r := by
  cases i with
  | op o => cases hr; trivial
  | num o n => cases hr; exact hi
  | const v => obtain ⟨k, rfl, hk⟩ := hr; have := lookup_lt hk; show k ≤ 65535; omega
  | fast o s => obtain ⟨k, rfl, hk⟩ := hr; have := lookup_lt hk; show k ≤ 65535; omega
  | attr o s => obtain ⟨k, rfl, hk⟩ := hr; have := lookup_lt hk; show k ≤ 65535; omega
  | cmp c => cases hr; show c.index ≤ 65535; cases c <;> decide
  | jump o t => cases hr; trivial

theorem aligned_ok {T : Tables V} (h1 : T.consts.length ≤ 65536) (h2 : T.names.length ≤ 65536) (h3 : T.locals.length ≤ 65536)
    {is : List (Ins V)} {rs : List Res} (ha : Aligned T is rs) (hi : ∀ i ∈ is, InsC C i) : ∀ r ∈ rs, ResOk r := by
  induction ha with
  | nil => exact fun _ h => nomatch h
  | cons hr _ ih =>
    intro r hm
    rcases List.mem_cons.1 hm with rfl | hm
    · exact resolved_ok h1 h2 h3 (hi _ (.head _)) hr
    · exact ih (fun i him => hi i (.tail _ him)) r hm

theorem encodes_ok {T : Tables V} {offs : List (Nat × Nat)} {is : List (Ins V)} {rs : List Res} (ha : Aligned T is rs)
    (hok : ∀ r ∈ rs, ResOk r) {pos : Nat} (hj : ∀ a i b, is = a ++ i :: b → ∀ t, i.target = some t →
      pos + (a.map Ins.len).sum + 3 ≤ offset offs t ∧ offset offs t ≤ 65535) : ∃ x, encodes offs pos rs = .ok x := by
  induction ha generalizing pos with
  | nil => exact ⟨[], rfl⟩
  | @cons i is r rs hr _ ih =>
    have harg : ∀ {c n : Nat}, n ≤ 65535 → ∃ x, encodeArg c n = .ok x := by
      intro c n h
      unfold encodeArg
      rw [if_neg (by omega), if_neg (by omega)]
      exact ⟨_, rfl⟩
    have hx : ∃ x, encode offs pos r = .ok x := by
      have hro := hok r (.head _)
      cases r with
      | plain c => exact ⟨_, rfl⟩
      | arg c n => exact harg hro
      | jump c t =>
        have ht : i.target = some t := by
          cases i with
          | jump o u => cases hr; rfl
          | op o => exact nomatch hr
          | num o n => exact nomatch hr
          | cmp c => exact nomatch hr
          | const v => obtain ⟨k, h, _⟩ := hr; exact nomatch h
          | fast o s => obtain ⟨k, h, _⟩ := hr; exact nomatch h
          | attr o s => obtain ⟨k, h, _⟩ := hr; exact nomatch h
        obtain ⟨h1, h2⟩ := hj [] i is rfl t ht
        simp only [List.map_nil, List.sum_nil, Nat.add_zero] at h1
        show ∃ x, encodeArg c ((offset offs t : Int) - (pos + 3 : Nat)) = .ok x
        have : ((offset offs t : Int) - (pos + 3 : Nat)) = ((offset offs t - (pos + 3) : Nat) : Int) := by omega
        rw [this]
        exact harg (by omega)
    obtain ⟨x, hx⟩ := hx
    obtain ⟨hl, _⟩ := encode_len hr hx
    obtain ⟨y, hy⟩ := ih (fun r hm => hok r (.tail _ hm)) (pos := pos + x.length) fun a j b he t ht => by
      have := hj (i :: a) j b (by rw [he]; rfl) t ht
      simp only [List.map_cons, List.sum_cons] at this
      rw [hl]; omega
    refine ⟨x ++ y, ?_⟩
    unfold encodes
    rw [hx]
    dsimp only
    rw [hy]

/-- The tables are not larger than the code. -/
theorem intern_len {A : Type} (same : A → A → Bool) (a : A) (l : List A) : (intern same a l).2.length ≤ l.length + 1 := by
  unfold intern
  split <;> simp

theorem lookups_len (is : List (Ins V)) (t : Tables V) :
    (lookups same is t).2.consts.length ≤ t.consts.length + is.length ∧
    (lookups same is t).2.names.length ≤ t.names.length + is.length ∧
    (lookups same is t).2.locals.length ≤ t.locals.length + is.length := by
  induction is generalizing t with
  | nil => exact ⟨Nat.le_refl _, Nat.le_refl _, Nat.le_refl _⟩
  | cons i is ih =>
    have h := ih (lookup same i t).2
    have h0 : (lookup same i t).2.consts.length ≤ t.consts.length + 1 ∧ (lookup same i t).2.names.length ≤ t.names.length + 1 ∧
        (lookup same i t).2.locals.length ≤ t.locals.length + 1 := by
      cases i with
      | const v => exact ⟨intern_len _ _ _, Nat.le_succ _, Nat.le_succ _⟩
      | fast o s => exact ⟨Nat.le_succ _, Nat.le_succ _, intern_len _ _ _⟩
      | attr o s => exact ⟨Nat.le_succ _, intern_len _ _ _, Nat.le_succ _⟩
      | _ => exact ⟨Nat.le_succ _, Nat.le_succ _, Nat.le_succ _⟩
    simp only [lookups, List.length_cons]
    omega

theorem lookupBlocks_len (bs : List (Nat × List (Ins V))) (t : Tables V) :
    (lookupBlocks same bs t).2.consts.length ≤ t.consts.length + (bs.map fun p => p.2.length).sum ∧
    (lookupBlocks same bs t).2.names.length ≤ t.names.length + (bs.map fun p => p.2.length).sum ∧
    (lookupBlocks same bs t).2.locals.length ≤ t.locals.length + (bs.map fun p => p.2.length).sum := by
  induction bs generalizing t with
  | nil => exact ⟨Nat.le_refl _, Nat.le_refl _, Nat.le_refl _⟩
  | cons p bs ih =>
    obtain ⟨b, is⟩ := p
    have h := ih (lookups same is t).2
    have h0 := lookups_len (same := same) is t
    simp only [lookupBlocks, List.map_cons, List.sum_cons]
    omega

/-- The place of an instruction in a list. -/
theorem split_ins {l : List (Item V)} {a b : List (Ins V)} {i : Ins V} (h : insOf l = a ++ i :: b) :
    ∃ x y, l = x ++ .ins i :: y ∧ insOf x = a := by
  induction l generalizing a with
  | nil => cases a <;> exact nomatch h
  | cons z l ih =>
    cases z with
    | label c =>
      obtain ⟨x, y, h1, h2⟩ := ih h
      exact ⟨.label c :: x, y, by rw [h1]; rfl, h2⟩
    | ins j =>
      cases a with
      | nil => cases h; exact ⟨[], l, rfl, rfl⟩
      | cons k a =>
        obtain ⟨x, y, h1, h2⟩ := ih (List.cons.inj h).2
        have hk : j = k := (List.cons.inj h).1
        exact ⟨.ins j :: x, y, by rw [h1]; rfl, by show j :: insOf x = _; rw [h2, hk]⟩

/-- Not too much code is assembled. -/
theorem assemble_ok (hsame : ∀ a b, C a → C b → same a b = true → a = b) {doc : V} (hdoc : C doc) {g : Graph V}
    {ch : List Nat} (hch : Chain (g.nextNew.emit [.op .returnValue]) ch) (hall : GAll C (g.nextNew.emit [.op .returnValue]))
    (htot : (g.nextNew.emit [.op .returnValue]).total ≤ 21845) : ∃ code, g.assemble same [ctxName] doc = .ok code := by
  unfold Graph.assemble
  generalize g.nextNew.emit [.op .returnValue] = g' at hch hall htot
  dsimp only
  rw [hch.order]
  have hbs : ∀ p ∈ ch.map fun b => (b, (g'.block b).ins), ∀ i ∈ p.2, InsC C i := by
    intro p hp i hi
    obtain ⟨b, hb, rfl⟩ := List.mem_map.1 hp
    exact hall _ (hch.mem b hb) i hi
  have hlk := lookupBlocks_spec (same := same) hsame hbs
    (t := ({ consts := [doc], names := [], locals := [ctxName] } : Tables V))
    ⟨by intro v hv; cases List.mem_singleton.1 hv; exact hdoc, by simp⟩
  have hlen := lookupBlocks_len (same := same) (ch.map fun b => (b, (g'.block b).ins))
    ({ consts := [doc], names := [], locals := [ctxName] } : Tables V)
  have hsum : ((ch.map fun b => (b, (g'.block b).ins)).map fun p => p.2.length).sum ≤ 21845 := by
    rw [List.map_map]
    exact Nat.le_trans (total_chain hch.nodup hch.bound) htot
  cases hr : lookupBlocks same (ch.map fun b => (b, (g'.block b).ins))
      ({ consts := [doc], names := [], locals := [ctxName] } : Tables V) with
  | mk bs T =>
    rw [hr] at hlk hlen
    dsimp only at hlk hlen ⊢
    simp only [List.length_cons, List.length_nil] at hlen
    obtain ⟨hle, hal, hok⟩ := hlk
    have hflat : insOf (items g' ch) = (ch.map fun b => (b, (g'.block b).ins)).flatMap (·.2) := by
      rw [insOf_items, List.flatMap_map]
    have hro := aligned_ok (C := C) (by omega) (by omega) (by omega) hal.flat fun i hi => by
      obtain ⟨p, hp, hi⟩ := List.mem_flatMap.1 hi
      exact hbs p hp i hi
    have hs : ∀ i r, Resolved T i r → r ∈ bs.flatMap (·.2) → r.size = i.len := fun i r h1 h2 => resOk_size h1 (hro r h2)
    have hF : psize (items g' ch) ≤ 65535 := by
      have h1 := psize_le (items g' ch)
      rw [length_items] at h1
      have := total_chain hch.nodup hch.bound
      omega
    obtain ⟨x, hx⟩ := encodes_ok (offs := offsets 0 bs) hal.flat hro (pos := 0) fun a i b he t ht => by
      rw [← hflat] at he
      obtain ⟨u, y, h1, h2⟩ := split_ins he
      have hcl : Closed (.ins i :: y) := by
        have := hch.closed
        rw [h1] at this; exact this.suffix
      obtain ⟨q, hq⟩ := after_of_mem (hcl.1 t ht)
      have hsp : items g' ch = (u ++ .ins i :: q) ++ .label t :: after t y := by
        rw [h1, List.append_assoc]
        show _ = u ++ (.ins i :: (q ++ .label t :: after t y))
        rw [← hq]
      obtain ⟨p, q', h3, h4⟩ := split_items hsp
      have ho := offset_spec hal hs h3 (nodup_split (h3 ▸ hch.nodup)) 0
      rw [ho, ← h4, Nat.zero_add]
      have h5 : psize (u ++ .ins i :: q) + psize (Item.label t :: after t y) = psize (items g' ch) := by
        rw [hsp, psize_append _ (Item.label t :: after t y)]
      have h6 : psize (u ++ .ins i :: q) = psize u + (i.len + psize q) := by
        rw [psize_append]
        simp [psize, insOf]
      have h7 : psize u = (a.map Ins.len).sum := by unfold psize; rw [h2]
      have h8 : i.len = 3 := by cases i <;> first | rfl | exact nomatch ht
      omega
    unfold jumpOffsets
    rw [hx]
    exact ⟨_, rfl⟩

/-- A program that takes its result from the top of the stack. -/
theorem code_runs {H : Host V W} {ctx : V} (hsame : ∀ a b, C a → C b → same a b = true → a = b) {doc : V} (hdoc : C doc)
    {gen : Gen V} {n : Nat} (hk : Keeps C n gen) {a : Act V W V} (hem : Emits gen (SemV H ctx a)) {s : CState V}
    (hs : gen { g := Graph.new, nlocals := 0 } = .ok s) {code : Code V} (hc : s.g.assemble same [ctxName] doc = .ok code) (w : W) :
    ∃ n, ∀ fuel, n ≤ fuel → callCode H code [ctx] fuel w = some (result (a w)) := by
  obtain ⟨seg, hlay, hgr, hsem⟩ := hem _ _ _ Lay.new hs
  have hlay' := (hlay.nextNew).emit [.op .returnValue]
  have hcl : Closed ((([Item.label 0] ++ seg) ++ [.label s.g.blocks.length]) ++ [Ins.op Op.returnValue].map Item.ins) :=
    closed_append (closed_append (closed_append (a := [.label 0]) trivial hgr.closed) (b := [.label s.g.blocks.length]) trivial)
      ⟨(fun t h => nomatch h), trivial⟩
  obtain ⟨ch, hch, hF⟩ := chain_of_lay hlay' hcl
  have hall0 : GAll C s.g := (hk _ _ hs).2 (by
    intro k hk i hi
    cases List.mem_singleton.1 hk; exact nomatch hi)
  have hall : GAll C (s.g.nextNew.emit [.op .returnValue]) := hall0.nextNew.emit (by
    intro i hi; cases List.mem_singleton.1 hi; trivial)
  obtain ⟨hsz, T, offs, him, hloc⟩ := assemble_image hsame hdoc hc hch hall
  have hx : Exec H (items (s.g.nextNew.emit [.op .returnValue]) ch) ⟨[], fun x => if x = ctxName then some ctx else none⟩ w (result (a w)) := by
    rw [← hF]
    simp only [List.append_assoc, List.singleton_append, List.map_cons, List.map_nil]
    refine .label ?_
    refine hsem [] _ _ w _ (by simp [Ctx]) ?_
    cases ha : a w with
    | mk r w' =>
      cases r with
      | error e => rfl
      | ok v => exact fun loc' _ => .label (.out rfl)
  have hfit := hch.fits
  obtain ⟨r, hr⟩ := hloc
  have h0 : T.locals[0]? = some ctxName := by rw [← hr]; rfl
  obtain ⟨fuel, hfu⟩ := exec_image him hch.closed hx [] rfl 0 (by rw [hsz]; exact hfit.2) (by simp)
    ⟨[], fun i => [ctx][i]?⟩ ⟨rfl, fun k x hkx => by
      cases k with
      | zero =>
        rw [h0] at hkx
        cases hkx
        show some ctx = if ctxName = ctxName then some ctx else none
        rw [if_pos rfl]
      | succ k =>
        have hne : x ≠ ctxName := by
          intro he
          subst he
          have := (List.getElem?_inj (lookup_lt h0) him.nodup).1 (h0.trans hkx.symm)
          omega
        show [ctx][k + 1]? = if x = ctxName then some ctx else none
        rw [if_neg hne]
        rfl⟩
  refine ⟨fuel, fun m hm => ?_⟩
  exact exec_more hfu m hm

end Verif.Code
