import Verif.Xslt.Rd.Walk
/-
The start of an element and its end.
-/
namespace Verif.Xslt.Rd
open Verif.Content
open Verif.Write (UStr)
open Spec (Item Ctx St)

variable {N : Type}

/-- The frame `p` of the reader is an element whose content has the context `c`, where `st` has been read. -/
structure Base (rd : Reader N) (p : Frame N) (c : Ctx) (st : St) : Prop where
  fc : p.fc = c.fc
  cur : p.cur = c.cur
  ext : p.ext = c.ext
  vis : rd.dicts[p.locals]? = some c.vis
  top : c.top = decide (rd.sheet = some p.node)
  globals : rd.globals = st.globals
  cache : Agrees rd.cache st.seen
  pnode : p.node < rd.next
  sheet : ∀ s, rd.sheet = some s → s < rd.next
  root : ∀ s, rd.root = some s → s < rd.next

/-- The frame is on the top of the stack and has a parent `g`; the dictionaries from `L` on are its own. -/
structure Inv (rd : Reader N) (p g : Frame N) (rest : List (Frame N)) (c : Ctx) (st : St) (L : Nat) : Prop extends
    Base rd p c st where
  stack : rd.stack = p :: g :: rest
  inner : rd.root ≠ some p.node
  own : p.locals = g.locals ∨ L ≤ p.locals
  glt : g.locals < L
  len : L ≤ rd.dicts.length

theorem advance_spec (p : Frame N) (i : Item) (hi : i ≠ .chars) :
    Rel (step p.klass p.val i) (advance p (tok i)) (fun v p' => p' = { p with val := v }) := by
  unfold step advance
  cases transit p.val.1 p.val.2 (tok i) with
  | some q => exact .inl ⟨_, _, rfl, rfl, rfl⟩
  | none =>
    dsimp only
    by_cases hk : p.klass = .undefinedExt
    · rw [if_pos ⟨hk, hi⟩, if_pos hk]
      exact .inl ⟨_, _, rfl, rfl, rfl⟩
    · rw [if_neg (fun h => hk h.1), if_neg hk]
      exact .inr ⟨rfl, _, rfl⟩

/-- The state after the start of an element. -/
structure Started (H : Hooks N) (rd rd' : Reader N) (p : Frame N) (rest : List (Frame N)) (c : Ctx) (st : St) (name : Name) (decls : Nss)
    (attrs : List (Name × UStr)) (k : Klass) (v : Val) (f : Frame N) : Prop where
  cls : ∃ cls, ClassOf H k name cls ∧ f.val = start_ cls.model
  stack : rd'.stack = f :: { p with val := v } :: rest
  base : Base rd' f (Spec.inside H c k decls attrs)
    { st with seen := if k = .undefinedXslt then name.2 :: st.seen else st.seen }
  node : f.node = rd.next
  klass : f.klass = k
  name_ : f.name = name
  kids : f.kids = []
  locals : f.locals = p.locals
  version : f.version = Spec.version H k attrs
  cur : f.cur = decls ++ p.cur
  binds : (k = .xsl (u!! "variable") ∨ k = .xsl (u!! "param")) →
    ∃ n, Spec.binds k (Spec.inside H c k decls attrs).cur attrs = some n ∧ lookup (u!! "name") f.attrs = some (.name n)
  dicts : rd'.dicts = rd.dicts
  root : rd'.root = rd.root
  docs : rd'.docs = rd.docs
  next : rd'.next = rd.next + 1
  sheet : rd'.sheet = if Spec.isSheet k then some rd.next else rd.sheet

theorem sheet_klass (k : Klass) : sheetClass k = Spec.isSheet k := by
  cases k <;> rfl

theorem start_spec (H : Hooks N) (hg : Good H) (rd : Reader N) (p : Frame N) (rest : List (Frame N)) (c : Ctx) (st : St)
    (name : Name) (decls : Nss) (attrs : List (Name × UStr)) (hst : rd.stack = p :: rest) (hb : Base rd p c st)
    (hn : (attrs.map Prod.fst).Nodup) (hcol : attrs.all (fun a => ':'.toNat ∉ a.1.2) = true)
    (hsh : ∀ k, Spec.kind H c st.seen name = some k → Spec.isSheet k = true → c.top = false) :
    Rel ((Spec.kind H c st.seen name).bind fun k => (step p.klass p.val (Spec.item k)).bind fun v =>
        if Spec.attrsOk H (Spec.inside H c k decls attrs) c.top k name attrs then some (k, v) else none)
      (startElement H { name, decls, attrs := lift attrs } rd)
      (fun x rd' => ∃ f, Started H rd rd' p rest c st name decls attrs x.1 x.2 f) := by
  unfold startElement
  rw [hst]
  dsimp only
  rw [hb.fc, hb.ext]
  rcases classify_spec H rd.cache c st.seen hb.cache name with ⟨k, ⟨cache, cls⟩, h1, h2, h3, h4, h5, h6⟩ | ⟨h1, e, h2⟩
  rotate_left
  · rw [h1, h2]
    exact .inr ⟨rfl, _, rfl⟩
  rw [h1, h2, Option.bind_some]
  dsimp only at h3 h4 h5 h6 ⊢
  rw [h5]
  have hit : Spec.item k ≠ .chars := by cases k <;> simp [Spec.item]
  rcases advance_spec p (Spec.item k) hit with ⟨v, p', h7, h8, h9⟩ | ⟨h7, e, h8⟩
  rotate_left
  · rw [h7, h8]
    exact .inr ⟨rfl, _, rfl⟩
  subst h9
  rw [h7, h8, Option.bind_some]
  dsimp only
  rw [sheet_klass, h4]
  have htop : decide ((if Spec.isSheet k = true then some rd.next else rd.sheet) = some p.node) = c.top := by
    split
    · rename_i hs
      rw [hsh k h1 hs, decide_eq_false_iff_not]
      intro e
      have := Option.some.inj e
      have := hb.pnode
      omega
    · exact hb.top.symm
  rw [htop]
  have ha := attributes_spec H hg c h3 decls attrs hn hcol c.top
    { p with cur := decls ++ p.cur, val := start_ cls.model, node := rd.next, klass := k, name := name, attrs := [], version := none, kids := [] }
    rfl rfl (by rw [← hb.cur]) hb.fc hb.ext
  rcases ha with ⟨h9, f, h10, hin⟩ | ⟨h9, e, h10⟩
  · left
    rw [hb.fc, hb.ext] at h10
    refine ⟨(k, v), _, by rw [h9]; rfl, by rw [h10], f, ?_⟩
    refine ⟨⟨cls, h3, hin.same.val⟩, rfl, ?_, hin.same.node, hin.same.klass, hin.same.name, hin.same.kids, hin.same.locals,
      hin.version, hin.same.cur, ?_, rfl, rfl, rfl, rfl, rfl⟩
    · refine ⟨hin.fc, ?_, hin.ext, ?_, ?_, hb.globals, h6, ?_, ?_, ?_⟩
      · rw [hin.same.cur]
        show decls ++ p.cur = decls ++ c.cur
        rw [hb.cur]
      · rw [hin.same.locals]; exact hb.vis
      · rw [hin.same.node]
        show Spec.isSheet k = decide ((if Spec.isSheet k = true then some rd.next else rd.sheet) = some rd.next)
        cases hs : Spec.isSheet k with
        | true => simp
        | false =>
          symm
          rw [decide_eq_false_iff_not]
          intro e
          have := hb.sheet _ e
          omega
      · rw [hin.same.node]; exact Nat.lt_succ_self _
      · intro s e
        dsimp only at e ⊢
        split at e
        · cases e; omega
        · have := hb.sheet _ e; omega
      · intro s e
        have := hb.root _ e
        dsimp only
        omega
    · intro hv
      obtain ⟨n, h11, h12⟩ := hin.binds hv
      refine ⟨n, ?_, h12⟩
      show Spec.binds k (decls ++ c.cur) attrs = _
      rw [← hb.cur]; exact h11
  · right
    rw [hb.fc, hb.ext] at h10
    rw [h9, h10]
    exact ⟨rfl, _, rfl⟩

/-- What is bound in a context. -/
def place (c : Ctx) (b : Option Name) (st : St) : Option (Ctx × St × Bool) :=
  match b with
  | none => some (c, st, false)
  | some v => if c.top then (if v ∈ st.globals then none else some (c, { st with globals := v :: st.globals }, false))
    else if v ∈ c.vis then none else some ({ c with vis := v :: c.vis }, st, true)

/-- The state after the end of an element. -/
structure Ended (rd rd' : Reader N) (p p' g : Frame N) (b : Bool) (L : Nat) : Prop where
  frame : p' = { p with locals := p'.locals }
  bound : p'.locals ≠ g.locals ↔ (p.locals ≠ g.locals ∨ b = true)
  dicts : ∀ i < L, rd'.dicts[i]? = rd.dicts[i]?
  root : rd'.root = rd.root
  docs : rd'.docs = rd.docs
  sheet : rd'.sheet = rd.sheet

theorem bind_spec (rd : Reader N) (f p g : Frame N) (rest : List (Frame N)) (c : Ctx) (st : St) (L : Nat) (b : Option Name)
    (hb : Base rd p c st) (hin : rd.root ≠ some p.node) (hown : p.locals = g.locals ∨ L ≤ p.locals) (hglt : g.locals < L)
    (hlen : L ≤ rd.dicts.length)
    (h1 : (f.klass = .xsl (u!! "variable") ∨ f.klass = .xsl (u!! "param")) →
      ∃ n, b = some n ∧ lookup (u!! "name") f.attrs = some (.name n))
    (h2 : ¬ (f.klass = .xsl (u!! "variable") ∨ f.klass = .xsl (u!! "param")) → b = none) :
    Rel (place c b st) (bindVariable f p (g :: rest) rd) (fun x rd' => ∃ p', Inv rd' p' g rest x.1 x.2.1 L ∧
      Ended rd rd' p p' g x.2.2 L) := by
  unfold bindVariable
  by_cases hv : f.klass = .xsl (u!! "variable") ∨ f.klass = .xsl (u!! "param")
  · obtain ⟨n, rfl, hl⟩ := h1 hv
    rw [if_pos hv, hl, place]
    dsimp only
    rw [hb.top]
    by_cases ht : rd.sheet = some p.node
    · rw [if_pos (decide_eq_true ht), if_pos ht, hb.globals]
      by_cases hm : n ∈ st.globals
      · rw [if_pos hm, if_pos hm]
        exact .inr ⟨rfl, _, rfl⟩
      · rw [if_neg hm, if_neg hm]
        refine .inl ⟨_, _, rfl, rfl, p, ⟨⟨hb.fc, hb.cur, hb.ext, hb.vis, hb.top, rfl, hb.cache, hb.pnode, hb.sheet,
          hb.root⟩, rfl, hin, hown, hglt, hlen⟩, ⟨rfl, by simp, fun _ _ => rfl, rfl, rfl, rfl⟩⟩
    · rw [if_neg (by simpa using ht), if_neg ht, hb.vis, Option.getD_some]
      by_cases hm : n ∈ c.vis
      · rw [if_pos hm, if_pos hm]
        exact .inr ⟨rfl, _, rfl⟩
      · rw [if_neg hm, if_neg hm]
        left
        by_cases hl : p.locals = g.locals
        · rw [if_pos hl]
          refine ⟨_, _, rfl, rfl, { p with locals := rd.dicts.length }, ⟨⟨hb.fc, hb.cur, hb.ext, ?_, rfl, hb.globals,
            hb.cache, hb.pnode, hb.sheet, hb.root⟩, rfl, hin, .inr hlen, hglt, ?_⟩, ⟨rfl, ?_, ?_, rfl, rfl, rfl⟩⟩
          · simp
          · simp; omega
          · simp; omega
          · intro i hi
            exact List.getElem?_append_left (by omega)
        · rw [if_neg hl]
          have hL : L ≤ p.locals := hown.resolve_left hl
          refine ⟨_, _, rfl, rfl, p, ⟨⟨hb.fc, hb.cur, hb.ext, ?_, rfl, hb.globals,
            hb.cache, hb.pnode, hb.sheet, hb.root⟩, rfl, hin, hown, hglt, ?_⟩, ⟨rfl, ?_, ?_, rfl, rfl, rfl⟩⟩
          · have : p.locals < rd.dicts.length := (List.getElem?_eq_some_iff.1 hb.vis).1
            simp [this]
          · simpa using hlen
          · simp [hl]
          · intro i hi
            exact List.getElem?_set_ne (by omega)
  · rw [if_neg hv, h2 hv, place]
    refine .inl ⟨_, _, rfl, rfl, p, ⟨⟨hb.fc, hb.cur, hb.ext, hb.vis, hb.top, hb.globals, hb.cache, hb.pnode, hb.sheet,
      hb.root⟩, rfl, hin, hown, hglt, hlen⟩, ⟨rfl, by simp, fun _ _ => rfl, rfl, rfl, rfl⟩⟩

end Verif.Xslt.Rd
