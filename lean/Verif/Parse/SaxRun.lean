import Verif.Parse.SaxSpec

/-
What the reader does for a handler that always returns, and how it compares with the specification.
-/
namespace Verif.Parse.Sax

open Verif.Py

variable {V : Type}

/-! ## The callbacks without the handler -/

/-- The event that `flush` gives. -/
def flushE (rd : Reader) : List Event :=
  if rd.buf = [] then []
  else if rd.buf.all isSpace && !rd.keeps.headD true then [] else [.characters rd.buf]

/-- The reader after a callback. -/
def nextRd (strip : Str → Bool) (c : Call) (rd : Reader) : Reader :=
  match c with
  | .text s => { rd with buf := rd.buf ++ s }
  | .start n atts => pushElement strip n atts { rd with buf := [] }
  | .stop _ => popElement { rd with buf := [] }
  | .cdata => rd
  | .endCdata => rd
  | _ => { rd with buf := [] }

/-- The events of a callback. -/
def nextE (c : Call) (rd : Reader) : List Event :=
  match c with
  | .text _ => []
  | .start n atts => flushE rd ++ [.startElement n (atts ++ fixups { rd with buf := [] } atts)]
  | .stop n => flushE rd ++ [.endElement n]
  | .pi t d => flushE rd ++ [.pi t d]
  | .comment d => flushE rd ++ [.comment d]
  | .startNs p u => flushE rd ++ [.startNs p u]
  | .endNs p => flushE rd ++ [.endNs p]
  | .cdata => [.startCdata]
  | .endCdata => [.endCdata]
  | .skipped n => flushE rd ++ [.skipped n]

theorem emit_ok {h : Handler V} (hh : ∀ es, h es = .ok) (e : Event) (r : Run V) :
    emit h e r = { r with sent := r.sent ++ [e] } := by
  unfold emit; simp only [hh]

theorem flush_ok {h : Handler V} (hh : ∀ es, h es = .ok) (r : Run V) :
    flush h r = { r with rd := { r.rd with buf := [] }, sent := r.sent ++ flushE r.rd } := by
  unfold flush flushE
  split
  · rename_i h1
    cases r with | mk rd sent y st =>
    cases rd with | mk buf ctxs bases langs spaces keeps =>
    simp_all
  · dsimp only
    split
    · simp
    · rw [emit_ok hh]

theorem call_ok {h : Handler V} (hh : ∀ es, h es = .ok) (strip : Str → Bool) (c : Call) (r : Run V)
    (hs : r.status ≠ .stopped) :
    call h strip c r = { r with rd := nextRd strip c r.rd, sent := r.sent ++ nextE c r.rd } := by
  unfold call
  rw [if_neg hs]
  cases c <;>
    simp [flushed, flush_ok hh, emit_ok hh, nextRd, nextE, hs]

theorem call_status {h : Handler V} (hh : ∀ es, h es = .ok) (strip : Str → Bool) (c : Call) (r : Run V)
    (hs : r.status ≠ .stopped) : (call h strip c r).status = r.status := by
  rw [call_ok hh strip c r hs]

/-- The reader after a group. -/
def groupRd (strip : Str → Bool) : List Call → Reader → Reader
  | [], rd => rd
  | c :: cs, rd => groupRd strip cs (nextRd strip c rd)

/-- The events of a group. -/
def groupE (strip : Str → Bool) : List Call → Reader → List Event
  | [], _ => []
  | c :: cs, rd => nextE c rd ++ groupE strip cs (nextRd strip c rd)

theorem group_ok {h : Handler V} (hh : ∀ es, h es = .ok) (strip : Str → Bool) (cs : List Call) (r : Run V)
    (hs : r.status ≠ .stopped) :
    group h strip cs r = { r with rd := groupRd strip cs r.rd, sent := r.sent ++ groupE strip cs r.rd } := by
  induction cs generalizing r with
  | nil => cases r; simp [group, groupRd, groupE]
  | cons c cs ih =>
    have e : group h strip (c :: cs) r = group h strip cs (call h strip c r) := rfl
    rw [e, ih _ (by rw [call_status hh _ _ _ hs]; exact hs), call_ok hh strip c r hs]
    simp [groupRd, groupE, List.append_assoc]

/-! ## Merging -/

open Spec (merge events event after Each Adds border noBorder content opened keepIn spaceIn White)

theorem merge_text_text (b s : Str) (K : List Call) :
    merge (.text b :: .text s :: K) = merge (.text (b ++ s) :: K) := by
  simp only [merge]
  cases merge K with
  | nil =>
    by_cases hs : s = []
    · subst hs; simp
    · have : b ++ s ≠ [] := by simp [hs]
      simp [hs]
  | cons x xs =>
    cases x with
    | text t => simp [List.append_assoc]
    | _ =>
      by_cases hs : s = []
      · subst hs; simp
      · simp [hs]

theorem merge_ne (K : List Call) : ∀ t r, merge K = .text t :: r → t ≠ [] := by
  induction K with
  | nil => intro t r h; cases h
  | cons c cs ih =>
    intro t r h
    cases c with
    | text s =>
      simp only [merge] at h
      split at h
      · rename_i t' r' h'
        injection h with h1 h2
        injection h1 with h1
        have := ih _ _ h'
        subst h1
        simp [this]
      · rename_i r' h'
        split at h
        · exact absurd h (by intro h; exact h' _ _ (by rw [h]))
        · injection h with h1 h2
          injection h1 with h1
          subst h1; assumption
    | _ => simp only [merge] at h; injection h with h1 _; cases h1

theorem merge_nil (K : List Call) : merge (.text [] :: K) = merge K := by
  simp only [merge]
  split
  · rename_i t r h; simp [h]
  · simp

/-- A call that is not text. -/
def notText : Call → Prop
  | .text _ => False
  | _ => True

theorem merge_text_other (b : Str) {c : Call} (hc : notText c) (K : List Call) :
    merge (.text b :: c :: K) = (if b = [] then [] else [.text b]) ++ c :: merge K := by
  cases c with
  | text s => exact hc.elim
  | _ =>
    simp only [merge]
    by_cases hb : b = [] <;> simp [hb]

/-! ## One callback -/

/-- Equal, or with attributes added, if `ex`. -/
def Rel (ex : Bool) (a b : Event) : Prop := if ex then Adds a b else a = b

theorem Rel.refl (ex : Bool) (a : Event) : Rel ex a a := by
  unfold Rel; split
  · exact .same a
  · rfl

theorem Each.append {R : Event → Event → Prop} {a b c d : List Event} (h : Each R a b) (k : Each R c d) :
    Each R (a ++ c) (b ++ d) := by
  induction h with
  | nil => exact k
  | cons h _ ih => exact .cons h ih

theorem Each.refl (ex : Bool) (a : List Event) : Each (Rel ex) a a := by
  induction a with
  | nil => exact .nil
  | cons x xs ih => exact .cons (Rel.refl ex x) ih

/-- The reader's step with the content `C`, which gives the events `E`, is what the specification says. -/
def Trans (ex : Bool) (strip : Str → Bool) (o : List Spec.Open) (buf : Str) (C : List Call)
    (o' : List Spec.Open) (buf' : Str) (E : List Event) : Prop :=
  E.filter (!noBorder ·) = (C.filter border).flatMap (event []) ∧
  ∃ Es, Each (Rel ex) Es (E.filter noBorder) ∧
    ∀ K, events strip o (merge (.text buf :: (C.filter (!border ·) ++ K))) =
      Es ++ events strip o' (merge (.text buf' :: K))

theorem Trans.nil (ex : Bool) (strip : Str → Bool) (o : List Spec.Open) (buf : Str) :
    Trans ex strip o buf [] o buf [] :=
  ⟨rfl, [], .nil, fun _ => rfl⟩

theorem Trans.append {ex : Bool} {strip : Str → Bool} {o o1 o2 : List Spec.Open} {b b1 b2 : Str} {C D : List Call}
    {E F : List Event} (h : Trans ex strip o b C o1 b1 E) (k : Trans ex strip o1 b1 D o2 b2 F) :
    Trans ex strip o b (C ++ D) o2 b2 (E ++ F) := by
  obtain ⟨h1, Es, h2, h3⟩ := h
  obtain ⟨k1, Fs, k2, k3⟩ := k
  refine ⟨by simp [h1, k1], Es ++ Fs, by simpa using Each.append h2 k2, fun K => ?_⟩
  rw [List.filter_append, List.append_assoc, h3, k3, List.append_assoc]

theorem white_iff (s : Str) : White s ↔ s.all isSpace = true := by
  simp only [White, List.all_eq_true]
  constructor
  · intro h c hc
    have := h c hc
    simp only [List.mem_cons, List.not_mem_nil, or_false] at this
    rcases this with e | e | e | e <;> simp [isSpace, e]
  · intro h c hc
    have := h c hc
    simp only [isSpace, Bool.or_eq_true, decide_eq_true_eq] at this
    simp only [List.mem_cons, List.not_mem_nil, or_false]
    rcases this with ((e | e) | e) | e <;> simp [e]

/-- The entries of the reader's stack that say whether white space is kept. -/
structure Keeps (o : List Spec.Open) (rd : Reader) (K0 : List Bool) : Prop where
  keeps : rd.keeps = o.map (·.keep) ++ K0
  empty : o = [] → rd.buf = []

theorem flushE_spec {o : List Spec.Open} {rd : Reader} {K0 : List Bool} (hk : Keeps o rd K0) (hb : rd.buf ≠ []) :
    flushE rd = event o (.text rd.buf) := by
  unfold flushE event
  rw [if_neg hb]
  cases o with
  | nil => exact absurd (hk.empty rfl) hb
  | cons x xs =>
    have e : rd.keeps.headD true = x.keep := by rw [hk.keeps]; rfl
    rw [e]
    by_cases hw : White rd.buf
    · have := (white_iff _).mp hw
      simp only [this, keepIn, hw]
      cases x.keep <;> simp
    · have : rd.buf.all isSpace = false := by
        cases h : rd.buf.all isSpace
        · rfl
        · exact absurd ((white_iff _).mpr h) hw
      simp [this, hw]

theorem flushE_border (rd : Reader) : (flushE rd).filter (!noBorder ·) = [] := by
  unfold flushE
  split
  · rfl
  · split <;> simp [noBorder]

theorem flushE_noBorder (rd : Reader) : (flushE rd).filter noBorder = flushE rd := by
  unfold flushE
  split
  · rfl
  · split <;> simp [noBorder]

/-- A callback that flushes: what was waiting, and then the event `e` for the specification's event `s`. -/
theorem trans_flush {ex : Bool} {strip : Str → Bool} {o : List Spec.Open} {rd : Reader} {K0 : List Bool}
    (hk : Keeps o rd K0) (c : Call) (hc : notText c) (hb : border c = false) {s e : Event} (hs : event o c = [s])
    (hr : Rel ex s e) (he : noBorder e = true) :
    Trans ex strip o rd.buf [c] (after strip c o) [] (flushE rd ++ [e]) := by
  refine ⟨by simp [flushE_border, hb, he], (if rd.buf = [] then [] else event o (.text rd.buf)) ++ [s], ?_, ?_⟩
  · rw [List.filter_append, flushE_noBorder, List.filter_cons_of_pos he]
    refine Each.append ?_ (.cons hr .nil)
    split
    · rename_i h; simp only [flushE, if_pos h]; exact .nil
    · rename_i h; rw [flushE_spec hk h]; exact Each.refl ex _
  · intro K
    have e1 : [c].filter (!border ·) ++ K = c :: K := by simp [hb]
    rw [e1, merge_text_other _ hc, merge_nil]
    by_cases h : rd.buf = []
    · simp [h, events, hs]
    · simp [h, events, hs, after]

theorem fixups_rel (rd : Reader) (n : Str) (atts : List Att) :
    Adds (.startElement n atts) (.startElement n (atts ++ fixups rd atts)) := by
  refine .added n atts _ ?_
  intro a ha
  unfold fixups at ha
  split at ha
  · cases ha
  · split at ha
    · rw [List.mem_append] at ha
      rcases ha with h | h
      · split at h
        · simp only [List.mem_cons, List.not_mem_nil, or_false] at h; subst h; exact .inl rfl
        · cases h
      · split at h
        · simp only [List.mem_cons, List.not_mem_nil, or_false] at h; subst h; exact .inr rfl
        · cases h
    · cases ha

/-- The entries of the reader's stack for `xml:space`, as far as they matter for the rest `d`. -/
def SpaceInv (strip : Str → Bool) (ents : Prop) (keep : Prop) (o : List Spec.Open) (sp : List Bool) : Prop :=
  (∀ n, strip n = false)
  ∨ (ents ∧ ∃ S0, sp = o.map (·.space) ++ false :: S0)
  ∨ (keep ∧ (∀ x ∈ o, x.space = false) ∧ ∃ m S0, o.length ≤ m ∧ sp = List.replicate m false ++ false :: S0)

theorem newSpace_eq (b : Bool) (atts : List Att) : newSpace b atts = Spec.space b atts := by
  unfold newSpace attr Spec.space xmlSpace
  cases atts.find? (·.name = s!! "xml:space") <;> rfl

/-- Whether the entity that is being parsed still waits for its first element. -/
def headFix : List Ctx → Bool
  | [] => false
  | c :: _ => c.fixup

/-- Contexts, of which the flag of the first may have been cleared. -/
def CtxRel (a b : List Ctx) : Prop := b = a ∨ b = clearFixup a

theorem clearFixup_twice (a : List Ctx) : clearFixup (clearFixup a) = clearFixup a := by cases a <;> rfl

theorem CtxRel.trans {a b c : List Ctx} (h : CtxRel a b) (k : CtxRel b c) : CtxRel a c := by
  rcases h with rfl | rfl
  · exact k
  · rcases k with rfl | rfl
    · exact .inr rfl
    · exact .inr (clearFixup_twice a)

theorem CtxRel.tail {a b : List Ctx} (h : CtxRel a b) : b.tail = a.tail := by
  rcases h with rfl | rfl
  · rfl
  · cases a <;> rfl

theorem CtxRel.length {a b : List Ctx} (h : CtxRel a b) : b.length = a.length := by
  rcases h with rfl | rfl
  · rfl
  · cases a <;> rfl

theorem CtxRel.headFix {a b : List Ctx} (h : CtxRel a b) (k : headFix a = false) : headFix b = false := by
  rcases h with rfl | rfl
  · exact k
  · cases a <;> rfl

theorem fixups_none {rd : Reader} (h : headFix rd.ctxs = false) (atts : List Att) : fixups rd atts = [] := by
  unfold fixups
  cases hc : rd.ctxs with
  | nil => rfl
  | cons c cs => rw [hc] at h; simp only [headFix] at h; simp [h]

/-- What stays the same between `n` and `m` open elements: everything below `floor`. -/
structure Below (floor n m : Nat) (o o' : List Spec.Open) (rd rd' : Reader) : Prop where
  open' : o'.drop (m - floor) = o.drop (n - floor)
  bases : rd'.bases.drop (m - floor) = rd.bases.drop (n - floor)
  langs : rd'.langs.drop (m - floor) = rd.langs.drop (n - floor)
  spaces : rd'.spaces.drop (m - floor) = rd.spaces.drop (n - floor)
  ctxs : CtxRel rd.ctxs rd'.ctxs

theorem Below.refl (floor n : Nat) (o : List Spec.Open) (rd : Reader) : Below floor n n o o rd rd :=
  ⟨rfl, rfl, rfl, rfl, .inl rfl⟩

theorem Below.trans {floor n m k : Nat} {o o1 o2 : List Spec.Open} {rd rd1 rd2 : Reader}
    (h : Below floor n m o o1 rd rd1) (g : Below floor m k o1 o2 rd1 rd2) : Below floor n k o o2 rd rd2 :=
  ⟨g.open'.trans h.open', g.bases.trans h.bases, g.langs.trans h.langs, g.spaces.trans h.spaces, h.ctxs.trans g.ctxs⟩

/-- What holds of the reader and the elements that are open. -/
structure Inv (strip : Str → Bool) (ents keep : Prop) (n : Nat) (K0 : List Bool) (o : List Spec.Open) (rd : Reader) :
    Prop where
  length : o.length = n
  keeps : Keeps o rd K0
  space : SpaceInv strip ents keep o rd.spaces

/-- A callback that changes nothing but what waits. -/
theorem step_plain {strip : Str → Bool} {ents keep : Prop} {n : Nat} {K0 : List Bool} {o : List Spec.Open}
    {rd : Reader} (hi : Inv strip ents keep n K0 o rd) (buf : Str) (hb : o = [] → buf = []) (floor : Nat) :
    Inv strip ents keep n K0 o { rd with buf } ∧ Below floor n n o o rd { rd with buf } :=
  ⟨⟨hi.length, ⟨hi.keeps.keeps, hb⟩, hi.space⟩, ⟨rfl, rfl, rfl, rfl, .inl rfl⟩⟩

theorem space_false {atts : List Att} (h : ∀ a ∈ atts, a.name = s!! "xml:space" → a.value ≠ s!! "preserve") :
    Spec.space false atts = false := by
  unfold Spec.space
  split
  · rename_i a ha
    have hm := List.mem_of_find?_eq_some ha
    have hn := List.find?_some ha
    rw [if_neg (h a hm (by simpa using hn))]
    split <;> rfl
  · rfl

theorem step_start {strip : Str → Bool} {ents keep : Prop} {n : Nat} {K0 : List Bool} {o : List Spec.Open}
    {rd : Reader} (hi : Inv strip ents keep n K0 o rd) (name : Str) (atts : List Att) {floor : Nat} (hf : floor ≤ n)
    (hp : keep → ∀ a ∈ atts, a.name = s!! "xml:space" → a.value ≠ s!! "preserve") :
    Inv strip ents keep (n + 1) K0 (opened strip name atts o) (pushElement strip name atts { rd with buf := [] })
      ∧ Below floor n (n + 1) o (opened strip name atts o) rd (pushElement strip name atts { rd with buf := [] }) := by
  have e : n + 1 - floor = (n - floor) + 1 := by omega
  refine ⟨⟨by simp [opened, hi.length], ⟨?_, fun _ => rfl⟩, ?_⟩,
    ⟨by rw [e]; rfl, by rw [e]; rfl, by rw [e]; rfl, by rw [e]; rfl, .inr rfl⟩⟩
  · show (_ :: rd.keeps) = _
    rw [hi.keeps.keeps]
    simp only [opened, List.map_cons, List.cons_append]
    congr 1
    rcases hi.space with h | ⟨_, S0, h⟩ | ⟨hk, hall, m, S0, _, h⟩
    · simp [h]
    · rw [newSpace_eq]
      congr 2
      rw [h]
      cases o <;> rfl
    · rw [newSpace_eq]
      have e1 : rd.spaces.headD false = false := by
        rw [h]; cases m <;> rfl
      have e2 : spaceIn o = false := by
        cases o with
        | nil => rfl
        | cons x xs => exact hall x (List.mem_cons_self ..)
      rw [e1, e2]
  · show SpaceInv strip ents keep _ (newSpace (rd.spaces.headD false) atts :: rd.spaces)
    rcases hi.space with h | ⟨hn, S0, h⟩ | ⟨hk, hall, m, S0, hm, h⟩
    · exact .inl h
    · refine .inr (.inl ⟨hn, S0, ?_⟩)
      have e1 : rd.spaces.headD false = spaceIn o := by
        rw [h]; cases o <;> rfl
      rw [newSpace_eq, e1, h]
      rfl
    · have e1 : rd.spaces.headD false = false := by
        rw [h]; cases m <;> rfl
      have e2 : spaceIn o = false := by
        cases o with
        | nil => rfl
        | cons x xs => exact hall x (List.mem_cons_self ..)
      refine .inr (.inr ⟨hk, ?_, m + 1, S0, by simp [opened, hm], ?_⟩)
      · intro x hx
        rcases List.mem_cons.mp hx with rfl | hx
        · simp [e2, space_false (hp hk)]
        · exact hall x hx
      · rw [newSpace_eq, e1, space_false (hp hk), h]
        rfl

theorem drop_tail {α : Type} (l : List α) {n : Nat} : l.tail.drop n = l.drop (n + 1) := by
  cases l <;> simp

theorem step_stop {strip : Str → Bool} {ents keep : Prop} {n : Nat} {K0 : List Bool} {o : List Spec.Open}
    {rd : Reader} (hi : Inv strip ents keep n K0 o rd) {floor : Nat} (hf : floor < n) :
    Inv strip ents keep (n - 1) K0 o.tail (popElement { rd with buf := [] })
      ∧ Below floor n (n - 1) o o.tail rd (popElement { rd with buf := [] }) := by
  have e : n - floor = (n - 1 - floor) + 1 := by omega
  have hl := hi.length
  cases o with
  | nil => simp at hl; omega
  | cons x xs =>
    refine ⟨⟨by simp at hl ⊢; omega, ⟨?_, fun _ => rfl⟩, ?_⟩,
      ⟨by rw [e]; exact drop_tail _, by rw [e]; exact drop_tail _, by rw [e]; exact drop_tail _,
        by rw [e]; exact drop_tail _, .inl rfl⟩⟩
    · show rd.keeps.tail = _
      rw [hi.keeps.keeps]; rfl
    · show SpaceInv strip ents keep xs rd.spaces.tail
      rcases hi.space with h | ⟨hn, S0, h⟩ | ⟨hk, hall, m, S0, hm, h⟩
      · exact .inl h
      · exact .inr (.inl ⟨hn, S0, by rw [h]; rfl⟩)
      · cases m with
        | zero => simp at hm
        | succ m =>
          exact .inr (.inr ⟨hk, fun y hy => hall y (List.mem_cons_of_mem _ hy), m, S0, by simpa using hm, by rw [h]; rfl⟩)

/-- One callback: the reader does what the specification says. -/
theorem step {ex : Bool} {strip : Str → Bool} {ents keep : Prop} {n m floor : Nat} {K0 : List Bool}
    {o : List Spec.Open} {rd : Reader} (hi : Inv strip ents keep n K0 o rd) (c : Call) (hf : floor ≤ n)
    (hd : Spec.depth floor n [c] = some m)
    (hp : keep → ∀ name atts, c = .start name atts → ∀ a ∈ atts, a.name = s!! "xml:space" → a.value ≠ s!! "preserve")
    (hx : ex = true ∨ headFix rd.ctxs = false ∨ ∀ name atts, c ≠ .start name atts) :
    ∃ o', floor ≤ m ∧ Inv strip ents keep m K0 o' (nextRd strip c rd)
      ∧ Below floor n m o o' rd (nextRd strip c rd)
      ∧ Trans ex strip o rd.buf [c] o' (nextRd strip c rd).buf (nextE c rd) := by
  cases c with
  | text s =>
    simp only [Spec.depth] at hd
    split at hd
    · rename_i h
      injection hd with hd
      subst hd
      refine ⟨o, hf, ?_⟩
      have hb : o = [] → rd.buf ++ s = [] := by
        intro ho
        have := hi.keeps.empty ho
        have hl := hi.length
        subst ho
        simp at hl
        rcases h with rfl | h
        · simp [this]
        · omega
      have := step_plain hi (rd.buf ++ s) hb floor
      refine ⟨this.1, this.2, rfl, [], .nil, fun K => ?_⟩
      show events strip o (merge (.text rd.buf :: .text s :: K)) = _
      rw [merge_text_text]
      rfl
    · cases hd
  | start name atts =>
    simp only [Spec.depth, Option.some.injEq] at hd
    subst hd
    have := step_start hi name atts hf (fun hk => hp hk name atts rfl)
    refine ⟨opened strip name atts o, by omega, this.1, this.2, ?_⟩
    refine trans_flush hi.keeps (.start name atts) trivial rfl rfl ?_ rfl
    rcases hx with rfl | h | h
    · exact fixups_rel _ _ _
    · rw [fixups_none (rd := { rd with buf := [] }) h, List.append_nil]; exact Rel.refl _ _
    · exact absurd rfl (h name atts)
  | stop name =>
    simp only [Spec.depth] at hd
    split at hd
    · rename_i h
      injection hd with hd
      subst hd
      have := step_stop hi h
      exact ⟨o.tail, by omega, this.1, this.2, trans_flush hi.keeps (.stop name) trivial rfl rfl (Rel.refl _ _) rfl⟩
    · cases hd
  | cdata =>
    simp only [Spec.depth, Option.some.injEq] at hd
    subst hd
    exact ⟨o, hf, hi, Below.refl _ _ _ _, rfl, [], .nil, fun K => rfl⟩
  | endCdata =>
    simp only [Spec.depth, Option.some.injEq] at hd
    subst hd
    exact ⟨o, hf, hi, Below.refl _ _ _ _, rfl, [], .nil, fun K => rfl⟩
  | pi t d =>
    simp only [Spec.depth, Option.some.injEq] at hd
    subst hd
    have := step_plain hi [] (fun _ => rfl) floor
    exact ⟨o, hf, this.1, this.2, trans_flush hi.keeps (.pi t d) trivial rfl rfl (Rel.refl _ _) rfl⟩
  | comment d =>
    simp only [Spec.depth, Option.some.injEq] at hd
    subst hd
    have := step_plain hi [] (fun _ => rfl) floor
    exact ⟨o, hf, this.1, this.2, trans_flush hi.keeps (.comment d) trivial rfl rfl (Rel.refl _ _) rfl⟩
  | startNs p u =>
    simp only [Spec.depth, Option.some.injEq] at hd
    subst hd
    have := step_plain hi [] (fun _ => rfl) floor
    exact ⟨o, hf, this.1, this.2, trans_flush hi.keeps (.startNs p u) trivial rfl rfl (Rel.refl _ _) rfl⟩
  | endNs p =>
    simp only [Spec.depth, Option.some.injEq] at hd
    subst hd
    have := step_plain hi [] (fun _ => rfl) floor
    exact ⟨o, hf, this.1, this.2, trans_flush hi.keeps (.endNs p) trivial rfl rfl (Rel.refl _ _) rfl⟩
  | skipped nm =>
    simp only [Spec.depth, Option.some.injEq] at hd
    subst hd
    have := step_plain hi [] (fun _ => rfl) floor
    exact ⟨o, hf, this.1, this.2, trans_flush hi.keeps (.skipped nm) trivial rfl rfl (Rel.refl _ _) rfl⟩

theorem depth_cons (floor n : Nat) (c : Call) (cs : List Call) {m : Nat}
    (h : Spec.depth floor n (c :: cs) = some m) :
    ∃ k, Spec.depth floor n [c] = some k ∧ Spec.depth floor k cs = some m := by
  cases c <;> simp only [Spec.depth] at h ⊢ <;> try exact ⟨_, rfl, h⟩
  all_goals
    split at h
    · exact ⟨_, by simp_all, h⟩
    · cases h

/-- A group of callbacks. -/
theorem steps {ex : Bool} {strip : Str → Bool} {ents keep : Prop} {floor : Nat} {K0 : List Bool} (cs : List Call)
    {n m : Nat} {o : List Spec.Open} {rd : Reader} (hi : Inv strip ents keep n K0 o rd) (hf : floor ≤ n)
    (hd : Spec.depth floor n cs = some m)
    (hp : keep → ∀ name atts, .start name atts ∈ cs →
      ∀ a ∈ atts, a.name = s!! "xml:space" → a.value ≠ s!! "preserve")
    (hx : ex = true ∨ headFix rd.ctxs = false ∨ ∀ c ∈ cs, ∀ name atts, c ≠ .start name atts) :
    ∃ o', floor ≤ m ∧ Inv strip ents keep m K0 o' (groupRd strip cs rd)
      ∧ Below floor n m o o' rd (groupRd strip cs rd)
      ∧ Trans ex strip o rd.buf cs o' (groupRd strip cs rd).buf (groupE strip cs rd) := by
  induction cs generalizing n o rd with
  | nil =>
    simp only [Spec.depth, Option.some.injEq] at hd
    subst hd
    exact ⟨o, hf, hi, Below.refl _ _ _ _, Trans.nil _ _ _ _⟩
  | cons c cs ih =>
    obtain ⟨k, h1, h2⟩ := depth_cons floor n c cs hd
    obtain ⟨o1, f1, i1, b1, t1⟩ := step (ex := ex) hi c hf h1
      (fun hk name atts e => hp hk name atts (by rw [e]; exact List.mem_cons_self ..))
      (by
        rcases hx with h | h | h
        · exact .inl h
        · exact .inr (.inl h)
        · exact .inr (.inr (h c (List.mem_cons_self ..))))
    obtain ⟨o2, f2, i2, b2, t2⟩ := ih i1 f1 h2
      (fun hk name atts e => hp hk name atts (List.mem_cons_of_mem _ e))
      (by
        rcases hx with h | h | h
        · exact .inl h
        · exact .inr (.inl (b1.ctxs.headFix h))
        · exact .inr (.inr (fun c' hc' => h c' (List.mem_cons_of_mem _ hc'))))
    exact ⟨o2, f2, i2, b1.trans b2, t1.append t2⟩

theorem Inv.mono {strip : Str → Bool} {e e' k k' : Prop} {n : Nat} {K0 : List Bool} {o : List Spec.Open} {rd : Reader}
    (h : Inv strip e k n K0 o rd) (he : e → e') (hk : k → k') : Inv strip e' k' n K0 o rd := by
  refine ⟨h.length, h.keeps, ?_⟩
  rcases h.space with a | ⟨a, b⟩ | ⟨a, b⟩
  · exact .inl a
  · exact .inr (.inl ⟨he a, b⟩)
  · exact .inr (.inr ⟨hk a, b⟩)

/-- An entity: the reader does what the specification says, and the stacks are as they were. -/
theorem run_report {h : Handler V} (hh : ∀ es, h es = .ok) {ex : Bool} {strip : Str → Bool} {K0 : List Bool} (d : Doc)
    {floor n : Nat} {o : List Spec.Open} {r : Run V} (hg : Spec.Good d) (hn : Spec.Nested floor n d) (hf : floor ≤ n)
    (hi : Inv strip (Spec.NoEntities d) (Spec.NoPreserve d) n K0 o r.rd)
    (hx : ex = true ∨ (headFix r.rd.ctxs = false ∧ Spec.FlatEntities d)
      ∨ ∀ c ∈ content d, ∀ name atts, c ≠ .start name atts)
    (hs : r.status = .parsing) :
    ∃ o' rd' E, run h strip d r = ({ r with rd := rd', sent := r.sent ++ E }, .ok)
      ∧ o'.length = floor ∧ Keeps o' rd' K0 ∧ Below floor n floor o o' r.rd rd'
      ∧ Trans ex strip o r.rd.buf (content d) o' rd'.buf E := by
  induction d generalizing floor n o r with
  | done =>
    simp only [Spec.Nested] at hn
    subst hn
    exact ⟨o, r.rd, [], by cases r; simp [run], hi.length, hi.keeps, Below.refl _ _ _ _, Trans.nil _ _ _ _⟩
  | edge d ih => exact ih hg hn hf hi hx hs
  | bad => exact hg.elim
  | unreadable => exact hg.elim
  | calls cs d ih =>
    obtain ⟨m, h1, h2⟩ := hn
    obtain ⟨o1, f1, i1, b1, t1⟩ := steps (ex := ex) cs hi hf h1
      (fun hk name atts e => hk name atts (List.mem_append_left _ e))
      (by
        rcases hx with h | h | h
        · exact .inl h
        · exact .inr (.inl h.1)
        · exact .inr (.inr (fun c hc => h c (List.mem_append_left _ hc))))
    have i2 : Inv strip (Spec.NoEntities d) (Spec.NoPreserve d) m K0 o1 (groupRd strip cs r.rd) :=
      i1.mono (fun h => h) (fun h n atts hm => h n atts (List.mem_append_right _ hm))
    obtain ⟨o2, rd2, E, e2, l2, k2, b2, t2⟩ := ih
      (r := { r with rd := groupRd strip cs r.rd, sent := r.sent ++ groupE strip cs r.rd }) hg h2 f1 i2
      (by
        rcases hx with h | h | h
        · exact .inl h
        · exact .inr (.inl ⟨b1.ctxs.headFix h.1, h.2⟩)
        · exact .inr (.inr (fun c hc => h c (List.mem_append_right _ hc)))) hs
    refine ⟨o2, rd2, groupE strip cs r.rd ++ E, ?_, l2, k2, b1.trans b2, t1.append t2⟩
    have e1 := group_ok hh strip cs r (by rw [hs]; exact (nomatch ·))
    simp only [run]
    rw [e1]
    simp only [hs]
    rw [hs] at e2
    rw [e2]
    simp [List.append_assoc]
  | ext uri inner d ihi ihd =>
    obtain ⟨hn1, hn2⟩ := hn
    obtain ⟨hg1, hg2⟩ := hg
    have hsp : SpaceInv strip (Spec.NoEntities inner) (Spec.NoPreserve inner) o (false :: r.rd.spaces) := by
      rcases hi.space with a | ⟨a, _⟩ | ⟨a, b, m, S0, hm, e⟩
      · exact .inl a
      · exact a.elim
      · exact .inr (.inr ⟨fun n atts hm => a n atts (List.mem_append_left _ hm), b, m + 1, S0, by omega, by rw [e]; rfl⟩)
    obtain ⟨o1, rd1, E1, e1, l1, k1, b1, t1⟩ := ihi (n := n) (floor := n) (o := o)
      (r := { r with rd := beginContext (some uri) r.rd }) hg1 hn1 (Nat.le_refl n)
      ⟨hi.length, ⟨hi.keeps.keeps, hi.keeps.empty⟩, hsp⟩
      (by
        rcases hx with h | ⟨_, h⟩ | h
        · exact .inl h
        · exact .inr (.inr h.1)
        · exact .inr (.inr (fun c hc => h c (List.mem_append_left _ hc)))) hs
    have ho : o1 = o := by simpa using b1.open'
    have hb : rd1.bases = some uri :: r.rd.bases := by simpa [beginContext] using b1.bases
    have hl : rd1.langs = none :: r.rd.langs := by simpa [beginContext] using b1.langs
    have hsq : rd1.spaces = false :: r.rd.spaces := by simpa [beginContext] using b1.spaces
    have hc : rd1.ctxs.tail = r.rd.ctxs := by simpa [beginContext] using b1.ctxs.tail
    have he : endContext rd1 = some
        { rd1 with ctxs := r.rd.ctxs, spaces := r.rd.spaces, langs := r.rd.langs, bases := r.rd.bases } := by
      unfold endContext
      rw [hb, hl, hsq, hc]
      simp
    subst ho
    obtain ⟨o2, rd2, E2, e2, l2, k2, b2, t2⟩ := ihd (floor := floor) (n := n) (o := o1)
      (r := { r with rd := { rd1 with ctxs := r.rd.ctxs, spaces := r.rd.spaces, langs := r.rd.langs, bases := r.rd.bases },
                     sent := r.sent ++ E1 }) hg2 hn2 hf
      ⟨hi.length, ⟨k1.keeps, k1.empty⟩, by
        rcases hi.space with a | ⟨a, _⟩ | ⟨a, b⟩
        · exact .inl a
        · exact a.elim
        · exact .inr (.inr ⟨fun n atts hm => a n atts (List.mem_append_right _ hm), b⟩)⟩
      (by
        rcases hx with h | ⟨h', h⟩ | h
        · exact .inl h
        · exact .inr (.inl ⟨h', h.2.2⟩)
        · exact .inr (.inr (fun c hc => h c (List.mem_append_right _ hc)))) hs
    refine ⟨o2, rd2, E1 ++ E2, ?_, l2, k2, ?_, t1.append t2⟩
    · simp only [run]
      rw [e1]
      dsimp only
      rw [he]
      dsimp only
      dsimp only at e2
      rw [e2]
      simp [List.append_assoc]
    · exact ⟨b2.open', b2.bases, b2.langs, b2.spaces, b2.ctxs⟩

end Verif.Parse.Sax
