import Verif.Xslt.Rd.Steps
/-
The content of an element.
-/
namespace Verif.Xslt.Rd
open Verif.Content
open Verif.Write (UStr)
open Spec (Item Ctx St)

variable {N : Type}

/-- The state after some of the content of the frame `f`. -/
structure Post (rd rd' : Reader N) (f f' g : Frame N) (v : Val) (ts : List Tree) (b : Bool) (L : Nat) : Prop where
  frame : f' = { f with val := v, kids := f.kids ++ ts, locals := f'.locals }
  bound : f'.locals ≠ g.locals ↔ (f.locals ≠ g.locals ∨ b = true)
  dicts : ∀ i < L, rd'.dicts[i]? = rd.dicts[i]?
  root : rd'.root = rd.root
  docs : rd'.docs = rd.docs
  sheet : rd'.sheet = rd.sheet

/-- What a node becomes in the content of an element of the class `k`. -/
def nodeIn (H : Hooks N) (c : Ctx) (k : Klass) (v : Val) (d : Doc) (st : St) : Option (Spec.Node × Val × Ctx × St × Bool) :=
  (Spec.node H c d st).bind fun n => (step k v n.item).bind fun v => (place c n.binds n.st).map fun x => (n, v, x)

def contentIn (H : Hooks N) (c : Ctx) (k : Klass) (v : Val) (ds : List Doc) (st : St) : Option (Spec.Content × Val) :=
  (Spec.content H c ds st).bind fun r => (walk k v r.items).map fun v => (r, v)

theorem content_cons (H : Hooks N) (c : Ctx) (d : Doc) (ds : List Doc) (st : St) :
    Spec.content H c (d :: ds) st = (Spec.node H c d st).bind fun n => (place c n.binds n.st).bind fun x =>
      (Spec.content H x.1 ds x.2.1).map fun r =>
        { r with items := n.item :: r.items, trees := n.tree :: r.trees, bound := r.bound || x.2.2 } := by
  rw [Spec.content]
  cases Spec.node H c d st with
  | none => rfl
  | some n =>
    rw [Option.bind_some]
    dsimp only
    unfold place
    cases n.binds with
    | none =>
      dsimp only
      rw [Option.bind_some]
      cases Spec.content H c ds n.st <;> simp
    | some v =>
      dsimp only
      split
      · split
        · rfl
        · rw [Option.bind_some]
          cases Spec.content H c ds _ <;> simp
      · split
        · rfl
        · rw [Option.bind_some]
          cases Spec.content H _ ds n.st <;> simp

theorem contentIn_cons (H : Hooks N) (c : Ctx) (k : Klass) (v : Val) (d : Doc) (ds : List Doc) (st : St) :
    contentIn H c k v (d :: ds) st = (nodeIn H c k v d st).bind fun x => (contentIn H x.2.2.1 k x.2.1 ds x.2.2.2.1).map fun y =>
      ({ y.1 with items := x.1.item :: y.1.items, trees := x.1.tree :: y.1.trees, bound := y.1.bound || x.2.2.2.2 }, y.2) := by
  unfold contentIn nodeIn
  rw [content_cons]
  cases Spec.node H c d st with
  | none => rfl
  | some n =>
    simp only [Option.bind_some]
    cases hp : place c n.binds n.st with
    | none =>
      simp only [Option.bind_none, Option.map_none]
      cases step k v n.item <;> rfl
    | some x =>
      obtain ⟨c2, st2, b⟩ := x
      simp only [Option.bind_some, Option.map_some]
      cases hr : Spec.content H c2 ds st2 with
      | none =>
        simp only [Option.map_none, Option.bind_none]
        cases step k v n.item with
        | none => rfl
        | some v' => simp [hr]
      | some r =>
        simp only [Option.map_some, Option.bind_some, walk]
        cases step k v n.item with
        | none => rfl
        | some v' =>
          simp only [Option.bind_some, hr]
          cases walk k v' r.items <;> rfl

theorem Post.trans {rd1 rd2 rd3 : Reader N} {f1 f2 f3 g : Frame N} {v2 v3 : Val} {t2 t3 : List Tree} {b2 b3 : Bool} {L : Nat}
    (h : Post rd1 rd2 f1 f2 g v2 t2 b2 L) (h' : Post rd2 rd3 f2 f3 g v3 t3 b3 L) :
    Post rd1 rd3 f1 f3 g v3 (t2 ++ t3) (b3 || b2) L := by
  refine ⟨?_, ?_, fun i hi => (h'.dicts i hi).trans (h.dicts i hi), h'.root.trans h.root, h'.docs.trans h.docs, h'.sheet.trans h.sheet⟩
  · have e1 := h.frame
    have e2 := h'.frame
    rw [e2, e1]
    simp
  · rw [h'.bound, h.bound]
    cases b2 <;> cases b3 <;> simp

/-- What is above the element is as XSLT says, but the element is not in its place. -/
theorem nodeIn_none (H : Hooks N) (c : Ctx) (k0 : Klass) (v0 : Val) (name : Name) (decls : Nss) (attrs : List (Name × UStr))
    (kids : List Doc) (st : St)
    (h : ((Spec.kind H c st.seen name).bind fun k => (step k0 v0 (Spec.item k)).bind fun v =>
        if Spec.attrsOk H (Spec.inside H c k decls attrs) c.top k name attrs then some (k, v) else none) = none) :
    nodeIn H c k0 v0 (.elem name decls attrs kids) st = none := by
  unfold nodeIn
  rw [Spec.node]
  cases hk : Spec.kind H c st.seen name with
  | none => rfl
  | some k =>
    rw [hk, Option.bind_some] at h
    dsimp only
    cases ha : Spec.attrsOk H (Spec.inside H c k decls attrs) c.top k name attrs with
    | false => rfl
    | true =>
      rw [ha] at h
      simp only [if_true] at h ⊢
      cases hs : step k0 v0 (Spec.item k) with
      | some v => rw [hs] at h; cases h
      | none =>
        cases Spec.content H (Spec.inside H c k decls attrs) kids
            { st with seen := if k = .undefinedXslt then name.2 :: st.seen else st.seen } with
        | none => rfl
        | some r =>
          dsimp only
          split
          · simp [hs]
          · rfl

mutual
theorem node_run (H : Hooks N) (hg : Good H) : ∀ (d : Doc) (rd : Reader N) (p g : Frame N) (rest : List (Frame N)) (c : Ctx) (st : St)
    (L : Nat), Inv rd p g rest c st L → Spec.wf true d = true →
    Rel (nodeIn H c p.klass p.val d st) (run H d rd) (fun x rd' => ∃ p', Inv rd' p' g rest x.2.2.1 x.2.2.2.1 L ∧
      Post rd rd' p p' g x.2.1 [x.1.tree] x.2.2.2.2 L)
  | .text s, rd, p, g, rest, c, st, L, hi, _ => by
    rw [run, characters, hi.stack]
    unfold nodeIn
    rw [Spec.node, Option.bind_some]
    dsimp only [step, tok, place, Option.map]
    cases transit p.val.1 p.val.2 .text with
    | none => exact .inr ⟨by simp, _, rfl⟩
    | some q =>
      refine .inl ⟨_, _, rfl, rfl, { p with val := (p.val.1, q), kids := p.kids ++ [.text s] },
        ⟨⟨hi.fc, hi.cur, hi.ext, hi.vis, hi.top, hi.globals, hi.cache, hi.pnode, hi.sheet, hi.root⟩, rfl, hi.inner, hi.own,
          hi.glt, hi.len⟩, ⟨rfl, by simp, fun _ _ => rfl, rfl, rfl, rfl⟩⟩
  | .elem name decls attrs kids, rd, p, g, rest, c, st, L, hi, hw => by
    rw [Spec.wf] at hw
    simp only [Bool.and_eq_true, decide_eq_true_eq] at hw
    obtain ⟨⟨⟨hw1, hw2⟩, hw3⟩, hw4⟩ := hw
    have hns : ∀ k, Spec.kind H c st.seen name = some k → Spec.isSheet k = false := by
      intro k hk
      unfold Spec.kind at hk
      split at hk
      · split at hk
        · cases hk
          rename_i hx _
          rw [hx] at hw1
          simpa [Spec.isSheet] using hw1
        · split at hk <;> cases hk
          rfl
      · split at hk
        · split at hk <;> (cases hk; rfl)
        · cases hk; rfl
    rw [run]
    rcases start_spec H hg rd p (g :: rest) c st name decls attrs hi.stack hi.toBase hw2 hw3
        (fun k hk hs => by rw [hns k hk] at hs; cases hs) with ⟨⟨k, v⟩, rd2, h1, h2, f, h3⟩ | ⟨h1, e, h2⟩
    rotate_left
    · right
      rw [show List.map (fun a => (a.1, AVal.str a.2)) attrs = lift (N := N) attrs from rfl, h2]
      exact ⟨nodeIn_none H c _ _ name decls attrs kids st h1, _, rfl⟩
    rw [show List.map (fun a => (a.1, AVal.str a.2)) attrs = lift (N := N) attrs from rfl, h2]
    dsimp only at h3 ⊢
    have hk : Spec.kind H c st.seen name = some k := by
      cases hk : Spec.kind H c st.seen name with
      | none => rw [hk] at h1; cases h1
      | some k' =>
        rw [hk, Option.bind_some] at h1
        cases hs : step p.klass p.val (Spec.item k') with
        | none => rw [hs] at h1; cases h1
        | some v' =>
          rw [hs, Option.bind_some] at h1
          split at h1 <;> cases h1
          rfl
    rw [hk, Option.bind_some] at h1
    have hs : step p.klass p.val (Spec.item k) = some v := by
      cases hs : step p.klass p.val (Spec.item k) with
      | none => rw [hs] at h1; cases h1
      | some v' =>
        rw [hs, Option.bind_some] at h1
        split at h1 <;> cases h1
        rfl
    rw [hs, Option.bind_some] at h1
    have ha : Spec.attrsOk H (Spec.inside H c k decls attrs) c.top k name attrs = true := by
      split at h1
      · rename_i h; exact h
      · cases h1
    obtain ⟨cls, hcls, hval⟩ := h3.cls
    have hplt : p.locals < rd.dicts.length := (List.getElem?_eq_some_iff.1 hi.vis).1
    have hi2 : Inv rd2 f { p with val := v } (g :: rest) (Spec.inside H c k decls attrs)
        { st with seen := if k = .undefinedXslt then name.2 :: st.seen else st.seen } rd.dicts.length :=
      ⟨h3.base, h3.stack, fun e => by
        rw [h3.root, h3.node] at e
        have := hi.root _ e
        omega, .inl h3.locals, hplt, by rw [h3.dicts]; exact Nat.le_refl _⟩
    have hns' := hns k hk
    -- the specification
    have hspec : nodeIn H c p.klass p.val (.elem name decls attrs kids) st =
        (contentIn H (Spec.inside H c k decls attrs) k f.val kids
          { st with seen := if k = .undefinedXslt then name.2 :: st.seen else st.seen }).bind fun x =>
        if closes x.2 then (place c (Spec.binds k (Spec.inside H c k decls attrs).cur attrs) x.1.st).map fun y =>
          ({ item := Spec.item k, tree := .elem k name (if x.1.bound then .push :: x.1.trees ++ [.pop] else x.1.trees),
             binds := Spec.binds k (Spec.inside H c k decls attrs).cur attrs, st := x.1.st }, v, y)
        else none := by
      unfold nodeIn contentIn
      rw [Spec.node, hk]
      dsimp only
      rw [if_pos ha]
      cases Spec.content H (Spec.inside H c k decls attrs) kids
          { st with seen := if k = .undefinedXslt then name.2 :: st.seen else st.seen } with
      | none => rfl
      | some r =>
        dsimp only
        rw [← walk_ok hcls, ← hval, Option.bind_some]
        cases hwk : walk k f.val r.items with
        | none => rfl
        | some v' =>
          simp only [Option.any_some, Option.map_some, Option.bind_some]
          by_cases hcl : closes v' = true
          · simp [hcl, hs]
          · simp [hcl]
    rw [hspec]
    have ih := contents_run H hg kids rd2 f { p with val := v } (g :: rest) _ _ rd.dicts.length hi2 hw4
    rw [h3.klass] at ih
    rcases ih with ⟨⟨r, v3⟩, rd3, h4, h5, f3, c3, hi3, hp3⟩ | ⟨h4, e, h5⟩
    rotate_left
    · rw [h4, h5]
      exact .inr ⟨rfl, _, rfl⟩
    rw [h4, h5, Option.bind_some]
    dsimp only at hi3 hp3 ⊢
    have hroot : ¬ (rd3.sheet.isNone = true ∧ rd3.root = some ({ p with val := v } : Frame N).node) := by
      rintro ⟨-, e⟩
      rw [hp3.root, h3.root] at e
      exact hi.inner e
    rw [endElement, hi3.stack]
    dsimp only
    rw [if_neg hroot, endPlain, hi3.stack]
    dsimp only
    have hf3v : f3.val = v3 := by rw [hp3.frame]
    have hf3n : f3.node = rd.next := by rw [hp3.frame]; exact h3.node
    rw [hf3v]
    cases htr : transit v3.1 v3.2 .fin with
    | none =>
      right
      rw [if_neg (by simp [closes, htr])]
      exact ⟨rfl, _, rfl⟩
    | some q =>
      rw [if_pos (by simp [closes, htr])]
      dsimp only
      have hf3k : f3.klass = k := by rw [hp3.frame]; exact h3.klass
      have hf3a : f3.attrs = f.attrs := by rw [hp3.frame]
      have hb3 := bind_spec rd3 f3
        { p with val := v, kids := p.kids ++ [f3.element { p with val := v }] } g rest c r.st L
        (Spec.binds k (Spec.inside H c k decls attrs).cur attrs)
        ⟨hi.fc, hi.cur, hi.ext, by
            show rd3.dicts[p.locals]? = _
            rw [hp3.dicts _ hplt, h3.dicts]; exact hi.vis,
          by
            show c.top = decide (rd3.sheet = some p.node)
            rw [hp3.sheet, h3.sheet, hns']; exact hi.top,
          hi3.globals, hi3.cache, by
            show p.node < rd3.next
            have h6 := hi.pnode
            have h7 := hi3.pnode
            rw [hf3n] at h7
            omega, hi3.sheet, hi3.root⟩
        (by
          show rd3.root ≠ some p.node
          rw [hp3.root, h3.root]; exact hi.inner) hi.own hi.glt
        (by
          have h8 := hi3.len
          have h9 := hi.len
          omega)
        (fun hv => by
          rw [hf3k] at hv
          obtain ⟨n, hn1, hn2⟩ := h3.binds hv
          exact ⟨n, hn1, by rw [hf3a]; exact hn2⟩)
        (fun hv => by
          rw [hf3k] at hv
          exact binds_none hv _ _)
      rcases hb3 with ⟨x, rd4, h10, h11, p4, hi4, he4⟩ | ⟨h10, e, h11⟩
      rotate_left
      · rw [h10, h11]
        exact .inr ⟨rfl, _, rfl⟩
      rw [h10, h11]
      refine .inl ⟨_, _, rfl, rfl, p4, hi4, ?_, he4.bound, ?_, ?_, ?_, ?_⟩
      · have htree : f3.element { p with val := v } = .elem k name (if r.bound then .push :: r.trees ++ [.pop] else r.trees) := by
          have hkids : f3.kids = r.trees := by rw [hp3.frame]; show f.kids ++ r.trees = _; rw [h3.kids]; rfl
          have hname : f3.name = name := by rw [hp3.frame]; exact h3.name_
          have hbd := hp3.bound
          rw [h3.locals] at hbd
          simp only [ne_eq, not_true_eq_false, false_or] at hbd
          rw [Frame.element, hf3k, hname, hkids]
          cases hrb : r.bound with
          | true =>
            rw [hrb] at hbd
            rw [if_neg (hbd.2 rfl)]; rfl
          | false =>
            rw [hrb] at hbd
            have : f3.locals = p.locals := Classical.byContradiction fun h => by
              have := hbd.1 h; cases this
            rw [if_pos this]; rfl
        have e4 := he4.frame
        rw [htree] at e4
        exact e4
      · intro i hL
        rw [he4.dicts i hL, hp3.dicts i (by have := hi.len; omega), h3.dicts]
      · rw [he4.root, hp3.root, h3.root]
      · rw [he4.docs, hp3.docs, h3.docs]
      · rw [he4.sheet, hp3.sheet, h3.sheet, hns']; rfl
theorem contents_run (H : Hooks N) (hg : Good H) : ∀ (ds : List Doc) (rd : Reader N) (f g : Frame N) (rest : List (Frame N)) (c : Ctx)
    (st : St) (L : Nat), Inv rd f g rest c st L → Spec.wfs ds = true →
    Rel (contentIn H c f.klass f.val ds st) (runs H ds rd) (fun x rd' => ∃ f' c', Inv rd' f' g rest c' x.1.st L ∧
      Post rd rd' f f' g x.2 x.1.trees x.1.bound L)
  | [], rd, f, g, rest, c, st, L, hi, _ => by
    rw [runs]
    unfold contentIn
    rw [Spec.content]
    exact .inl ⟨_, _, rfl, rfl, f, c, hi, ⟨by simp, by simp, fun _ _ => rfl, rfl, rfl, rfl⟩⟩
  | d :: ds, rd, f, g, rest, c, st, L, hi, hw => by
    rw [Spec.wfs, Bool.and_eq_true] at hw
    rw [runs, contentIn_cons]
    rcases node_run H hg d rd f g rest c st L hi hw.1 with ⟨⟨n, v, c2, st2, b⟩, rd2, h1, h2, f2, hi2, hp2⟩ | ⟨h1, e, h2⟩
    · rw [h1, h2, Option.bind_some]
      dsimp only at hi2 hp2 ⊢
      have ih := contents_run H hg ds rd2 f2 g rest c2 st2 L hi2 hw.2
      rw [show f2.klass = f.klass by rw [hp2.frame], show f2.val = v by rw [hp2.frame]] at ih
      rcases ih with ⟨⟨r, v3⟩, rd3, h3, h4, f3, c3, hi3, hp3⟩ | ⟨h3, e, h4⟩
      · rw [h3, h4]
        exact .inl ⟨_, _, rfl, rfl, f3, c3, hi3, hp2.trans hp3⟩
      · rw [h3, h4]
        exact .inr ⟨rfl, _, rfl⟩
    · rw [h1, h2]
      exact .inr ⟨rfl, _, rfl⟩
end

end Verif.Xslt.Rd
