import Verif.Xslt.OutputSpec

/-
C77: the output method.
-/
namespace Verif.Xslt.Output
open Verif Spec

/-! ## When the output method is known -/

theorem isSpace_iff (s : Str) : isSpace s = true ↔ Blank s := by
  unfold isSpace Blank
  rw [List.all_eq_true]
  constructor
  · intro h c hc
    have := h c hc
    simp only [XPath.isWs, Bool.or_eq_true, decide_eq_true_eq] at this
    rcases this with ((h | h) | h) | h <;> simp [h]
  · intro h c hc
    simp only [XPath.isWs, Bool.or_eq_true, decide_eq_true_eq]
    rcases h c hc with h | h | h | h <;> simp [h]

theorem toLower_eq (c d : Char) (hd : d ∈ ['h', 't', 'm', 'l']) : c.toLower = d ↔ c = d ∨ c = d.toUpper := by
  have key : ∀ n, n < 128 → ∀ d ∈ ['h', 't', 'm', 'l'],
      ((Char.ofNat n).toLower = d ↔ Char.ofNat n = d ∨ Char.ofNat n = d.toUpper) := by decide +kernel
  by_cases hc : c.toNat < 128
  · have := key c.toNat hc d hd
    rwa [Char.ofNat_toNat] at this
  · have h1 : c.toLower = c := by
      unfold Char.toLower
      rw [dif_neg]
      rintro ⟨h1, h2⟩
      apply hc
      have : c.val.toNat ≤ 90 := by simpa using UInt32.le_iff_toNat_le.mp h2
      show c.val.toNat < 128
      omega
    rw [h1]
    have hd' : d.toUpper.toNat < 128 := by
      simp only [List.mem_cons, List.not_mem_nil, or_false] at hd
      rcases hd with rfl | rfl | rfl | rfl <;> decide
    constructor
    · exact Or.inl
    · rintro (h | h)
      · exact h
      · rw [h] at hc; exact absurd hd' hc

theorem lower_html (s : Str) : lower s = s!! "html" ↔ IsHtml s := by
  unfold lower IsHtml
  constructor
  · intro h
    match s, h with
    | [a, b, c, d], h =>
      simp only [List.map_cons, List.map_nil, List.cons.injEq, and_true] at h
      obtain ⟨h1, h2, h3, h4⟩ := h
      exact ⟨a, b, c, d, rfl, (toLower_eq a 'h' (by simp)).mp h1, (toLower_eq b 't' (by simp)).mp h2,
        (toLower_eq c 'm' (by simp)).mp h3, (toLower_eq d 'l' (by simp)).mp h4⟩
    | [], h => simp at h
    | [_], h => simp at h
    | [_, _], h => simp at h
    | [_, _, _], h => simp at h
    | _ :: _ :: _ :: _ :: _ :: _, h => simp at h
  · rintro ⟨a, b, c, d, rfl, h1, h2, h3, h4⟩
    simp only [List.map_cons, List.map_nil]
    rw [(toLower_eq a 'h' (by simp)).mpr h1, (toLower_eq b 't' (by simp)).mpr h2,
      (toLower_eq c 'm' (by simp)).mpr h3, (toLower_eq d 'l' (by simp)).mpr h4]

theorem decides_none (k : Call) : decides k = none ↔ Idle k := by
  obtain ⟨m, a⟩ := k
  unfold decides Idle
  cases m <;> simp [← isSpace_iff]
  split <;> simp

theorem decides_html (k : Call) : decides k = some htmlMethod ↔
    k.meth = .startElement ∧ k.args.second = none ∧ IsHtml k.args.first := by
  obtain ⟨m, a⟩ := k
  have hne : xmlMethod ≠ htmlMethod := by decide
  unfold decides
  cases m <;> simp [hne, ← lower_html]

theorem decides_cases (k : Call) : decides k = none ∨ decides k = some htmlMethod ∨ decides k = some xmlMethod := by
  unfold decides
  cases k.meth
  case startElement =>
    by_cases h : k.args.second = none ∧ lower k.args.first = s!! "html"
    · right; left; exact if_pos h
    · right; right; exact if_neg h
  case text => cases isSpace k.args.first <;> simp
  all_goals simp

/-! ## The invariant -/

/-- The state of a writer after the calls `ks`. -/
structure Fine (params : List Params) (x : Obj) (ks : List Call) : Prop where
  real : x.cls ≠ .proxy → x.stack = none ∧ x.log = ks.map fun k => (x.cls, k)
  undecided : x.cls = .proxy → x.stack = some ks ∧ x.log = [] ∧ ∀ k ∈ ks, Idle k
  known : ∃ p : Params, params[x.params]? = some p ∧ (x.cls = .proxy → p.method = none ∨ p.method = some htmlMethod ∨ p.method = some xmlMethod)

/-- A method that was got is what it should be. -/
def Right (w : World) (o : Nat) (m : Meth) : Handle → Prop
  | .bound o' c m' => o' = o ∧ m' = m ∧ ∃ x, w.objs[o]? = some x ∧ x.cls = c ∧ c ≠ .proxy
  | .proxy i => ∃ p x, w.refs[i]? = some p ∧ p.self = o ∧ p.meth = m ∧ w.objs[o]? = some x ∧ p.target = x.cls

/-- The invariant: `got` are the methods that were got, `ks` are the calls for each writer. -/
structure Inv (w : World) (got : List (Nat × Meth)) (ks : Nat → List Call) : Prop where
  objs : ∀ (o : Nat) (x : Obj), w.objs[o]? = some x → Fine w.params x (ks o)
  others : ∀ o : Nat, w.objs.length ≤ o → ks o = []
  len : w.handles.length = got.length
  handles : ∀ (i : Nat) (h : Handle), w.handles[i]? = some h → ∃ (o : Nat) (m : Meth), got[i]? = some (o, m) ∧ Right w o m h
  refs : ∀ p ∈ w.refs, ∃ x : Obj, w.objs[p.self]? = some x

/-- Output parameters are only changed by setting the method. -/
structure Grown (a b : List Params) : Prop where
  len : a.length = b.length
  keeps : ∀ (i : Nat) (p : Params), a[i]? = some p → ∃ q : Params, b[i]? = some q ∧ q.cdata = p.cdata ∧
    (q.method = p.method ∨ (p.method = none ∧ (q.method = some htmlMethod ∨ q.method = some xmlMethod)))

theorem Grown.refl (a : List Params) : Grown a a := ⟨rfl, fun _ p h => ⟨p, h, rfl, Or.inl rfl⟩⟩

theorem Grown.trans {a b c : List Params} (h : Grown a b) (h' : Grown b c) : Grown a c := by
  refine ⟨h.len.trans h'.len, fun i p hp => ?_⟩
  obtain ⟨q, hq, hc, hm⟩ := h.keeps i p hp
  obtain ⟨r, hr, hc', hm'⟩ := h'.keeps i q hq
  refine ⟨r, hr, hc'.trans hc, ?_⟩
  rcases hm with hm | ⟨hm, hm2⟩
  · rw [hm] at hm'; exact hm'
  · rcases hm' with hm' | ⟨hm', -⟩
    · exact Or.inr ⟨hm, by rw [hm']; exact hm2⟩
    · rcases hm2 with h | h <;> rw [h] at hm' <;> cases hm'

theorem Fine.grown {a b : List Params} {x : Obj} {ks : List Call} (h : Fine a x ks) (g : Grown a b) : Fine b x ks := by
  refine ⟨h.real, h.undecided, ?_⟩
  obtain ⟨p, hp, hk⟩ := h.known
  obtain ⟨q, hq, -, hm⟩ := g.keeps _ p hp
  refine ⟨q, hq, fun hx => ?_⟩
  rcases hm with hm | ⟨-, hm⟩
  · rw [hm]; exact hk hx
  · exact Or.inr hm

theorem lookup_default (p : Params) (h : p.method = some htmlMethod ∨ p.method = some xmlMethod) :
    ∃ c, lookup p = .ok c ∧ c ≠ .proxy := by
  obtain ⟨m, cd⟩ := p
  simp only at h
  rcases h with rfl | rfl
  · exact ⟨.html, by cases cd <;> decide, by decide⟩
  · cases cd
    · exact ⟨.xml, by decide, by decide⟩
    · exact ⟨.cdata, by decide, by decide⟩

theorem lookup_proper {p : Params} {c : Cls} (h : lookup p = .ok c) : c ≠ .proxy ∧ ∃ m, p.method = some m ∧ IsFor p.cdata m c := by
  unfold lookup at h
  cases hm : p.method with
  | none => rw [hm] at h; simp at h
  | some m =>
    rw [hm] at h
    simp only at h
    split at h
    · rename_i e
      cases h; exact ⟨by decide, m, rfl, Or.inl ⟨e, rfl⟩⟩
    · split at h
      · rename_i e
        cases h; exact ⟨by decide, m, rfl, Or.inr (Or.inl ⟨e, rfl⟩)⟩
      · split at h
        · rename_i e
          split at h
          · rename_i e'
            cases h; exact ⟨by decide, m, rfl, Or.inr (Or.inr ⟨e, by rw [if_pos e']⟩)⟩
          · rename_i e'
            cases h; exact ⟨by decide, m, rfl, Or.inr (Or.inr ⟨e, by rw [if_neg e']⟩)⟩
        · simp at h

/-- Something is written for one of the writers. -/
def bump (ks : Nat → List Call) (o : Nat) (k : Call) : Nat → List Call :=
  fun i => if i = o then ks i ++ [k] else ks i

theorem Right.mono {w w' : World} {o : Nat} {m : Meth} {h : Handle} (hr : Right w o m h)
    (ho : ∀ (i : Nat) (x : Obj), w.objs[i]? = some x → ∃ x' : Obj, w'.objs[i]? = some x' ∧
      (x.cls ≠ .proxy → x'.cls = x.cls) ∧
      ∀ (j : Nat) (p : Proxy), w.refs[j]? = some p → p.self = i → p.target = x.cls →
        ∃ p' : Proxy, w'.refs[j]? = some p' ∧ p'.self = p.self ∧ p'.meth = p.meth ∧ p'.target = x'.cls) :
    Right w' o m h := by
  cases h with
  | bound o' c m' =>
    obtain ⟨h1, h2, x, h3, h4, h5⟩ := hr
    obtain ⟨x', hx', hc, -⟩ := ho o x h3
    exact ⟨h1, h2, x', hx', by rw [hc (by rw [h4]; exact h5), h4], h5⟩
  | proxy i =>
    obtain ⟨p, x, h1, h2, h3, h4, h5⟩ := hr
    obtain ⟨x', hx', -, hp⟩ := ho o x h4
    obtain ⟨p', h6, h7, h8, h9⟩ := hp i p h1 h2 h5
    exact ⟨p', x', h6, by rw [h7, h2], by rw [h8, h3], hx', h9⟩

/-- What a call does: the calls for the writer are one more. -/
theorem exec_inv {w : World} {got : List (Nat × Meth)} {ks : Nat → List Call} (h : Inv w got ks) {o : Nat} {x : Obj}
    (hx : w.objs[o]? = some x) (k : Call) :
    ∃ w', w.exec x.cls o k = .ok w' ∧ Inv w' got (bump ks o k) ∧ Grown w.params w'.params ∧
      w'.objs.length = w.objs.length ∧ w'.handles = w.handles ∧
      (∀ i : Nat, i ≠ o → w'.objs[i]? = w.objs[i]?) ∧
      (∀ i : Nat, i ≠ x.params → w'.params[i]? = w.params[i]?) ∧
      ∃ x' : Obj, w'.objs[o]? = some x' ∧ x'.params = x.params ∧
        ((x.cls ≠ .proxy ∧ x'.cls = x.cls ∧ w'.params = w.params) ∨
         (x.cls = .proxy ∧ decides k = none ∧ x'.cls = .proxy ∧ w'.params = w.params) ∨
         (x.cls = .proxy ∧ ∃ (m : Method) (p : Params), decides k = some m ∧ w.params[x.params]? = some p ∧
            w'.params[x.params]? = some (setdefault p m) ∧ lookup (setdefault p m) = .ok x'.cls)) := by
  have hol : o < w.objs.length := (List.getElem?_eq_some_iff.mp hx).1
  have hf := h.objs o x hx
  -- a general way to see that the invariant holds again
  have build : ∀ (w' : World) (x' : Obj), w'.objs = w.objs.set o x' → w'.handles = w.handles → Grown w.params w'.params →
      Fine w'.params x' (ks o ++ [k]) → (x.cls ≠ .proxy → x'.cls = x.cls) →
      (w'.refs = updateRefs o x'.cls w.refs ∨ (w'.refs = w.refs ∧ x'.cls = x.cls)) → Inv w' got (bump ks o k) := by
    intro w' x' ho hh hg hfx hcls hrefs
    have hob : ∀ i, w'.objs[i]? = if i = o then some x' else w.objs[i]? := by
      intro i
      rw [ho]
      by_cases hi : i = o
      · subst hi; rw [if_pos rfl, List.getElem?_set_self hol]
      · rw [if_neg hi, List.getElem?_set_ne (fun e => hi e.symm)]
    refine ⟨?_, ?_, by rw [hh]; exact h.len, ?_, ?_⟩
    · intro i y hy
      rw [hob] at hy
      by_cases hi : i = o
      · subst hi; simp only [if_pos] at hy; cases hy
        simpa [bump] using hfx
      · rw [if_neg hi] at hy
        have := (h.objs i y hy).grown hg
        simpa [bump, hi] using this
    · intro i hi
      rw [ho, List.length_set] at hi
      have : i ≠ o := by omega
      simpa [bump, this] using h.others i hi
    · intro i hd hhd
      rw [hh] at hhd
      obtain ⟨o', m, hg', hr⟩ := h.handles i hd hhd
      refine ⟨o', m, hg', hr.mono ?_⟩
      intro j y hy
      rw [hob]
      by_cases hj : j = o
      · subst hj
        rw [hx] at hy; cases hy
        refine ⟨x', by rw [if_pos rfl], hcls, ?_⟩
        intro jj p hp hself htgt
        rcases hrefs with hrefs | ⟨hrefs, hsame⟩
        · refine ⟨{ p with target := x'.cls }, ?_, rfl, rfl, rfl⟩
          rw [hrefs, updateRefs, List.getElem?_map, hp]
          simp [hself]
        · exact ⟨p, by rw [hrefs]; exact hp, rfl, rfl, by rw [hsame]; exact htgt⟩
      · refine ⟨y, by rw [if_neg hj]; exact hy, fun _ => rfl, ?_⟩
        intro jj p hp hself htgt
        refine ⟨p, ?_, rfl, rfl, htgt⟩
        rcases hrefs with hrefs | ⟨hrefs, -⟩
        · rw [hrefs, updateRefs, List.getElem?_map, hp]
          have : p.self ≠ o := by rw [hself]; exact hj
          simp [this]
        · rw [hrefs]; exact hp
    · intro p hp
      have hq : ∃ q ∈ w.refs, q.self = p.self := by
        rcases hrefs with hrefs | ⟨hrefs, -⟩
        · rw [hrefs, updateRefs, List.mem_map] at hp
          obtain ⟨q, hq, rfl⟩ := hp
          exact ⟨q, hq, by split <;> rfl⟩
        · rw [hrefs] at hp; exact ⟨p, hp, rfl⟩
      obtain ⟨q, hq, hself⟩ := hq
      rw [← hself, hob]
      split
      · exact ⟨x', rfl⟩
      · exact h.refs q hq
  obtain ⟨p, hp, hpm⟩ := hf.known
  unfold World.exec
  rw [hx]
  simp only
  by_cases hc : x.cls = .proxy
  · obtain ⟨hst, hlog, hidle⟩ := hf.undecided hc
    rw [if_pos hc, hst]
    simp only
    cases hd : decides k with
    | none =>
      refine ⟨_, rfl, ?_, Grown.refl _, by simp, rfl, ?_, fun _ _ => rfl, ?_⟩
      · refine build _ _ rfl rfl (Grown.refl _) ⟨fun h => absurd hc h, fun _ => ⟨rfl, hlog, ?_⟩, ⟨p, hp, hpm⟩⟩
          (fun _ => rfl) (Or.inr ⟨rfl, rfl⟩)
        intro k' hk'
        rcases List.mem_append.mp hk' with hk' | hk'
        · exact hidle k' hk'
        · rw [List.mem_singleton.mp hk']; exact (decides_none k).mp hd
      · intro i hi
        exact List.getElem?_set_ne (fun e => hi e.symm)
      · exact ⟨_, List.getElem?_set_self hol, rfl, Or.inr (Or.inl ⟨hc, rfl, hc, rfl⟩)⟩
    | some m =>
      have hm : m = htmlMethod ∨ m = xmlMethod := by
        rcases decides_cases k with h | h | h <;> rw [h] at hd
        · cases hd
        · cases hd; exact Or.inl rfl
        · cases hd; exact Or.inr rfl
      have hsd : (setdefault p m).method = some htmlMethod ∨ (setdefault p m).method = some xmlMethod := by
        unfold setdefault
        rcases hpm hc with h | h | h <;> rw [h]
        · simp only; rcases hm with rfl | rfl
          · exact Or.inl rfl
          · exact Or.inr rfl
        · simp only; exact Or.inl h
        · simp only; exact Or.inr h
      obtain ⟨c, hlk, hcp⟩ := lookup_default _ hsd
      have hpl : x.params < w.params.length := (List.getElem?_eq_some_iff.mp hp).1
      have hgrown : Grown w.params (w.params.set x.params (setdefault p m)) := by
        refine ⟨by simp, fun i q hq => ?_⟩
        by_cases hi : i = x.params
        · subst hi
          rw [hp] at hq; cases hq
          refine ⟨_, List.getElem?_set_self hpl, ?_, ?_⟩
          · unfold setdefault; split <;> rfl
          · cases hpmm : p.method with
            | none => exact Or.inr ⟨rfl, hsd⟩
            | some m' => left; unfold setdefault; rw [hpmm]; exact hpmm
        · exact ⟨q, by rw [List.getElem?_set_ne (fun e => hi e.symm)]; exact hq, rfl, Or.inl rfl⟩
      have hfin : World.finalize { w with objs := w.objs.set o { x with stack := some (ks o ++ [k]) } } o
          { x with stack := some (ks o ++ [k]) } m =
          .ok { w with params := w.params.set x.params (setdefault p m),
                       refs := updateRefs o c w.refs,
                       objs := w.objs.set o { x with cls := c, stack := none,
                                                     log := x.log ++ (ks o ++ [k]).map fun k => (c, k) } } := by
        unfold World.finalize
        simp only [hp, hlk, List.set_set]
      refine ⟨_, hfin, ?_, hgrown, by simp, rfl, ?_, ?_, ?_⟩
      · refine build _ _ rfl rfl hgrown ⟨fun _ => ⟨rfl, by simp [hlog]⟩, fun h => absurd h hcp, ?_⟩
          (fun h => absurd hc h) (Or.inl rfl)
        exact ⟨_, List.getElem?_set_self hpl, fun h => absurd h hcp⟩
      · intro i hi
        exact List.getElem?_set_ne (fun e => hi e.symm)
      · intro i hi
        exact List.getElem?_set_ne (fun e => hi e.symm)
      · exact ⟨_, List.getElem?_set_self hol, rfl,
          Or.inr (Or.inr ⟨hc, m, p, rfl, hp, List.getElem?_set_self hpl, hlk⟩)⟩
  · obtain ⟨hst, hlog⟩ := hf.real hc
    rw [if_neg hc]
    refine ⟨_, rfl, ?_, Grown.refl _, by simp, rfl, ?_, fun _ _ => rfl, ?_⟩
    · refine build _ _ rfl rfl (Grown.refl _) ⟨fun _ => ⟨hst, by simp [hlog]⟩, fun h => absurd h hc, ⟨p, hp, hpm⟩⟩
        (fun _ => rfl) (Or.inr ⟨rfl, rfl⟩)
    · intro i hi
      exact List.getElem?_set_ne (fun e => hi e.symm)
    · exact ⟨_, List.getElem?_set_self hol, rfl, Or.inl ⟨hc, rfl, rfl⟩⟩

/-! ## Where the output method comes from -/

theorem useHtml_append {ks : List Call} (h : UseHtml ks) (k : Call) : UseHtml (ks ++ [k]) := by
  obtain ⟨a, x, b, rfl, h1, h2⟩ := h
  exact ⟨a, x, b ++ [k], by simp, h1, h2⟩

theorem useHtml_decided {ks : List Call} (h : Decided ks) (l : List Call) : UseHtml (ks ++ l) ↔ UseHtml ks := by
  constructor
  · rintro ⟨a, x, b, e, h1, h2⟩
    rcases List.append_eq_append_iff.mp e with ⟨c, hc1, hc2⟩ | ⟨c, hc1, hc2⟩
    · exfalso
      obtain ⟨k, hk, hn⟩ := h
      exact hn (h1 k (by rw [hc1]; simp [hk]))
    · cases c with
      | nil =>
        exfalso
        obtain ⟨k, hk, hn⟩ := h
        exact hn (h1 k (by simpa [hc1] using hk))
      | cons y c =>
        simp only [List.cons_append, List.cons.injEq] at hc2
        exact ⟨a, x, c, by rw [hc1, ← hc2.1], h1, h2⟩
  · rintro ⟨a, x, b, rfl, h1, h2⟩
    exact ⟨a, x, b ++ l, by simp, h1, h2⟩

/-- Where methods and classes come from; `params` are the output parameters of the beginning. -/
structure Source (params : List Params) (w : World) (ks : Nat → List Call) : Prop where
  grown : Grown params w.params
  cls : ∀ (o : Nat) (x : Obj), w.objs[o]? = some x → x.cls ≠ .proxy →
    ∃ p : Params, w.params[x.params]? = some p ∧ lookup p = .ok x.cls
  decided : ∀ (o : Nat) (x : Obj), w.objs[o]? = some x → x.cls = .proxy → ∀ k ∈ ks o, Idle k
  method : ∀ (i : Nat) (p q : Params) (m : Method), params[i]? = some p → p.method = none → w.params[i]? = some q →
    q.method = some m → ∃ (o : Nat) (x : Obj), w.objs[o]? = some x ∧ x.params = i ∧ Decided (ks o) ∧
      ((m = htmlMethod ∧ UseHtml (ks o)) ∨ (m = xmlMethod ∧ ¬ UseHtml (ks o)))
  given : ∀ (o : Nat) (x : Obj) (p : Params), w.objs[o]? = some x → params[x.params]? = some p → p.method ≠ none →
    x.cls ≠ .proxy

theorem useHtml_first {ks : List Call} {k : Call} (h : ∀ k ∈ ks, Idle k) (hk : ¬ Idle k) :
    UseHtml (ks ++ [k]) ↔ decides k = some htmlMethod := by
  rw [decides_html]
  constructor
  · rintro ⟨a, x, b, e, h1, h2⟩
    have hx : ¬ Idle x := fun hx => hx.1 h2.1
    rcases List.append_eq_append_iff.mp e with ⟨c, hc1, hc2⟩ | ⟨c, hc1, hc2⟩
    · cases c with
      | nil =>
        simp only [List.nil_append, List.cons.injEq] at hc2
        rw [hc2.1]; exact h2
      | cons y c =>
        simp only [List.cons_append, List.cons.injEq] at hc2
        exact absurd (h1 k (by rw [hc1, ← hc2.1]; simp)) hk
    · cases c with
      | nil =>
        simp only [List.nil_append, List.cons.injEq] at hc2
        rw [← hc2.1]; exact h2
      | cons y c =>
        simp only [List.cons_append, List.cons.injEq] at hc2
        exact absurd (h x (by rw [hc1, ← hc2.1]; simp)) hx
  · intro h2
    exact ⟨ks, k, [], rfl, h, h2⟩

theorem exec_source {params : List Params} {w : World} {got : List (Nat × Meth)} {ks : Nat → List Call}
    (h : Inv w got ks) (hs : Source params w ks) {o : Nat} {x : Obj} (hx : w.objs[o]? = some x) (k : Call) {w' : World}
    (he : w.exec x.cls o k = .ok w') : Source params w' (bump ks o k) := by
  obtain ⟨w'', he', hinv, hgr, hlen, -, hothers, hparams, x', hx', hpar, hcase⟩ := exec_inv h hx k
  rw [he] at he'; cases he'
  have hdec : ∀ i, Decided (ks i) → Decided (bump ks o k i) := by
    rintro i ⟨k', hk', hn⟩
    refine ⟨k', ?_, hn⟩
    unfold bump; split <;> simp [hk']
  have hhtml : ∀ i, Decided (ks i) → (UseHtml (bump ks o k i) ↔ UseHtml (ks i)) := by
    intro i hd
    unfold bump; split
    · exact useHtml_decided hd [k]
    · exact Iff.rfl
  have hidle0 := h.objs o x hx
  refine ⟨hs.grown.trans hgr, ?_, ?_, ?_, ?_⟩
  · intro i y hy hyc
    by_cases hi : i = o
    · subst hi
      rw [hx'] at hy; cases hy
      rw [hpar]
      rcases hcase with ⟨hc, he, hp⟩ | ⟨hc, _, he, _⟩ | ⟨hc, m, p, _, _, hp', hl⟩
      · rw [hp, he]; exact hs.cls _ x hx hc
      · exact absurd he hyc
      · exact ⟨_, hp', hl⟩
    · rw [hothers i hi] at hy
      obtain ⟨p, hp, hl⟩ := hs.cls i y hy hyc
      obtain ⟨-, m, hm, -⟩ := lookup_proper hl
      obtain ⟨q, hq, hcd, hqm⟩ := hgr.keeps _ p hp
      have : q = p := by
        rcases hqm with hqm | ⟨hqm, -⟩
        · cases p; cases q; simp only at hcd hqm; rw [hcd, hqm]
        · rw [hm] at hqm; cases hqm
      exact ⟨p, by rw [hq, this], hl⟩
  · intro i y hy hyc
    have := (hinv.objs i y hy).undecided hyc
    exact this.2.2
  · intro i p q m hp hpm hq hqm
    by_cases hold : ∃ q', w.params[i]? = some q' ∧ q'.method = some m
    · obtain ⟨q', hq', hm'⟩ := hold
      obtain ⟨o', y, hy, hyp, hd, hm⟩ := hs.method i p q' m hp hpm hq' hm'
      have hy' : ∃ y', w'.objs[o']? = some y' ∧ y'.params = y.params := by
        by_cases ho : o' = o
        · subst ho; rw [hx] at hy; cases hy; exact ⟨x', hx', hpar⟩
        · exact ⟨y, by rw [hothers o' ho]; exact hy, rfl⟩
      obtain ⟨y', hy', hyp'⟩ := hy'
      refine ⟨o', y', hy', hyp'.trans hyp, hdec _ hd, ?_⟩
      rw [hhtml _ hd]; exact hm
    · have hi : i = x.params := by
        refine Classical.byContradiction fun hi => hold ?_
        rw [hparams i hi] at hq
        exact ⟨q, hq, hqm⟩
      subst hi
      rcases hcase with ⟨hc, he, hpe⟩ | ⟨hc, _, he, hpe⟩ | ⟨hc, m', p', hd, hp', hp'', hl⟩
      · rw [hpe] at hq; exact absurd ⟨q, hq, hqm⟩ hold
      · rw [hpe] at hq; exact absurd ⟨q, hq, hqm⟩ hold
      · rw [hp''] at hq; cases hq
        have hidle := (hidle0.undecided hc).2.2
        have hk : ¬ Idle k := by
          intro hk; rw [(decides_none k).mpr hk] at hd; cases hd
        have hmm : m = m' := by
          unfold setdefault at hqm
          cases hpm' : p'.method with
          | none => rw [hpm'] at hqm; simp only at hqm; cases hqm; rfl
          | some m'' =>
            rw [hpm'] at hqm; simp only at hqm
            exact absurd ⟨p', hp', hqm⟩ hold
        subst hmm
        refine ⟨o, x', hx', hpar, ⟨k, by simp [bump], hk⟩, ?_⟩
        have hb : bump ks o k o = ks o ++ [k] := by simp [bump]
        rw [hb, useHtml_first hidle hk, hd]
        rcases decides_cases k with h | h | h <;> rw [h] at hd
        · cases hd
        · cases hd; exact Or.inl ⟨rfl, rfl⟩
        · cases hd; exact Or.inr ⟨rfl, by decide⟩
  · intro i y p hy hp hpm
    by_cases hi : i = o
    · subst hi
      rw [hx'] at hy; cases hy
      rw [hpar] at hp
      have := hs.given i x p hx hp hpm
      rcases hcase with ⟨hc, he, -⟩ | ⟨hc, -⟩ | ⟨hc, -⟩
      · rw [he]; exact hc
      · exact absurd hc this
      · exact absurd hc this
    · rw [hothers i hi] at hy
      exact hs.given i y p hy hp hpm

/-! ## Programs -/

/-- The calls after a program. -/
theorem run_inv (params : List Params) (acts : List Act) : ∀ (w : World) (got : List (Nat × Meth)) (ks : Nat → List Call),
    Inv w got ks → Source params w ks → Sensible params w.objs.length w.handles.length acts →
    ∃ w' got', w.run acts = .ok w' ∧ Inv w' got' (fun o => ks o ++ calls o got acts) ∧
      Source params w' (fun o => ks o ++ calls o got acts) := by
  induction acts with
  | nil => intro w got ks h hs _; exact ⟨w, got, rfl, by simpa [calls] using h, by simpa [calls] using hs⟩
  | cons a acts ih =>
    intro w got ks h hs hsens
    cases a with
    | make p =>
      obtain ⟨⟨q0, hq0, hq0m⟩, hsens⟩ := hsens
      obtain ⟨q, hq, hcd, hqm⟩ := hs.grown.keeps p q0 hq0
      -- whatever the new writer is
      have key : ∀ x : Obj, x.params = p → x.log = [] → (x.cls = .proxy → x.stack = some [] ∧ q.method = none) →
          (x.cls ≠ .proxy → x.stack = none ∧ lookup q = .ok x.cls) →
          ∃ w' got', ({ w with objs := w.objs ++ [x] } : World).run acts = .ok w' ∧
            Inv w' got' (fun o => ks o ++ calls o got acts) ∧
            Source params w' (fun o => ks o ++ calls o got acts) := by
        intro x hxp hxl hx1 hx2
        have hobj : ∀ (i : Nat) (y : Obj), (w.objs ++ [x])[i]? = some y → w.objs[i]? = some y ∨ (i = w.objs.length ∧ y = x) := by
          intro i y hy
          by_cases hi : i < w.objs.length
          · rw [List.getElem?_append_left hi] at hy; exact Or.inl hy
          · rw [List.getElem?_append_right (by omega)] at hy
            cases hd : i - w.objs.length with
            | zero => rw [hd] at hy; simp at hy; exact Or.inr ⟨by omega, hy.symm⟩
            | succ n => rw [hd] at hy; simp at hy
        have hkeep : ∀ (i : Nat) (y : Obj), w.objs[i]? = some y → (w.objs ++ [x])[i]? = some y := by
          intro i y hy
          rw [List.getElem?_append_left (List.getElem?_eq_some_iff.mp hy).1]; exact hy
        refine ih _ got ks ⟨?_, ?_, h.len, ?_, ?_⟩ ⟨hs.grown, ?_, ?_, ?_, ?_⟩ (by simpa using hsens)
        · intro i y hy
          rcases hobj i y hy with hy | ⟨hi, rfl⟩
          · exact h.objs i y hy
          · have hnil := h.others i (by omega)
            refine ⟨fun hc => ⟨(hx2 hc).1, by rw [hnil, hxl]; rfl⟩, fun hc => ⟨by rw [hnil]; exact (hx1 hc).1, hxl, by rw [hnil]; simp⟩,
              ⟨q, by rw [hxp]; exact hq, fun hc => Or.inl (hx1 hc).2⟩⟩
        · intro i hi
          exact h.others i (by simp at hi; omega)
        · intro i hd hhd
          obtain ⟨o, m, hg, hr⟩ := h.handles i hd hhd
          refine ⟨o, m, hg, hr.mono ?_⟩
          intro j y hy
          exact ⟨y, hkeep j y hy, fun _ => rfl, fun jj p hp _ ht => ⟨p, hp, rfl, rfl, ht⟩⟩
        · intro p hp
          obtain ⟨y, hy⟩ := h.refs p hp
          exact ⟨y, hkeep _ y hy⟩
        · intro i y hy hc
          rcases hobj i y hy with hy | ⟨hi, rfl⟩
          · exact hs.cls i y hy hc
          · exact ⟨q, by rw [hxp]; exact hq, (hx2 hc).2⟩
        · intro i y hy hc
          rcases hobj i y hy with hy | ⟨hi, rfl⟩
          · exact hs.decided i y hy hc
          · rw [h.others i (by omega)]; simp
        · intro i p q m h1 h2 h3 h4
          obtain ⟨o, y, hy, rest⟩ := hs.method i p q m h1 h2 h3 h4
          exact ⟨o, y, hkeep o y hy, rest⟩
        · intro i y p' hy hp' hpm
          rcases hobj i y hy with hy | ⟨hi, rfl⟩
          · exact hs.given i y p' hy hp' hpm
          · intro hc
            rw [hxp, hq0] at hp'; cases hp'
            have := (hx1 hc).2
            rcases hqm with h | ⟨h, -⟩
            · rw [h] at this; exact hpm this
            · exact hpm h
      simp only [World.run, World.step, World.make, hq, calls]
      cases hm : q.method with
      | none =>
        simp only
        exact key _ rfl rfl (fun _ => ⟨rfl, hm⟩) (fun h => absurd rfl h)
      | some m =>
        have hknown : ∃ c, lookup q = .ok c := by
          rcases hqm with hqm | ⟨-, hqm⟩
          · rw [hqm] at hm
            rcases hq0m with h0 | ⟨m', hm', h0⟩
            · rw [h0] at hm; cases hm
            · obtain ⟨qm, qc⟩ := q
              simp only at hqm
              subst hqm
              rw [h0] at hm; cases hm
              rw [h0]
              simp only [List.mem_cons, List.not_mem_nil, or_false] at hm'
              rcases hm' with rfl | rfl | rfl <;> cases qc <;> exact ⟨_, rfl⟩
          · obtain ⟨c, hc, -⟩ := lookup_default q hqm
            exact ⟨c, hc⟩
        obtain ⟨c, hc⟩ := hknown
        simp only [hc]
        exact key _ rfl rfl (fun h => absurd h (lookup_proper hc).1) (fun _ => ⟨rfl, hc⟩)
    | get o m =>
      obtain ⟨ho, hsens⟩ := hsens
      obtain ⟨x, hx⟩ : ∃ x, w.objs[o]? = some x := ⟨_, List.getElem?_eq_getElem ho⟩
      have hgot : ∀ (i : Nat) (y : Nat × Meth), got[i]? = some y → (got ++ [(o, m)])[i]? = some y := by
        intro i y hy
        rw [List.getElem?_append_left (List.getElem?_eq_some_iff.mp hy).1]; exact hy
      have hhand : ∀ (d : Handle) (i : Nat) (y : Handle), (w.handles ++ [d])[i]? = some y →
          w.handles[i]? = some y ∨ (i = got.length ∧ y = d) := by
        intro d i y hy
        by_cases hi : i < w.handles.length
        · rw [List.getElem?_append_left hi] at hy; exact Or.inl hy
        · rw [List.getElem?_append_right (by omega)] at hy
          have := h.len
          cases hd : i - w.handles.length with
          | zero => rw [hd] at hy; simp at hy; exact Or.inr ⟨by omega, hy.symm⟩
          | succ n => rw [hd] at hy; simp at hy
      simp only [World.run, World.step, World.get, hx, calls]
      by_cases hc : x.cls = .proxy
      · rw [if_pos hc]
        simp only
        refine ih _ (got ++ [(o, m)]) ks ⟨h.objs, h.others, ?_, ?_, ?_⟩ ⟨hs.grown, hs.cls, hs.decided, hs.method, hs.given⟩ ?_
        · simp [h.len]
        · intro i d hd
          rcases hhand _ i d hd with hd | ⟨hi, rfl⟩
          · obtain ⟨o', m', hg, hr⟩ := h.handles i d hd
            refine ⟨o', m', hgot _ _ hg, hr.mono ?_⟩
            intro j y hy
            refine ⟨y, hy, fun _ => rfl, fun jj p hp _ ht => ⟨p, ?_, rfl, rfl, ht⟩⟩
            show (w.refs ++ [_])[jj]? = some p
            rw [List.getElem?_append_left (List.getElem?_eq_some_iff.mp hp).1]; exact hp
          · refine ⟨o, m, by rw [hi]; simp, ⟨{ self := o, meth := m, target := .proxy }, x, ?_, rfl, rfl, hx, hc.symm⟩⟩
            simp
        · intro p hp
          rcases List.mem_append.mp hp with hp | hp
          · exact h.refs p hp
          · rw [List.mem_singleton.mp hp]; exact ⟨x, hx⟩
        · simpa using hsens
      · rw [if_neg hc]
        simp only
        refine ih _ (got ++ [(o, m)]) ks ⟨h.objs, h.others, ?_, ?_, h.refs⟩ ⟨hs.grown, hs.cls, hs.decided, hs.method, hs.given⟩ ?_
        · simp [h.len]
        · intro i d hd
          rcases hhand _ i d hd with hd | ⟨hi, rfl⟩
          · obtain ⟨o', m', hg, hr⟩ := h.handles i d hd
            refine ⟨o', m', hgot _ _ hg, hr.mono ?_⟩
            intro j y hy
            exact ⟨y, hy, fun _ => rfl, fun jj p hp _ ht => ⟨p, hp, rfl, rfl, ht⟩⟩
          · exact ⟨o, m, by rw [hi]; simp, rfl, rfl, x, hx, rfl, hc⟩
        · simpa using hsens
    | call hd a =>
      obtain ⟨hlt, hsens⟩ := hsens
      obtain ⟨y, hy⟩ : ∃ y, w.handles[hd]? = some y := ⟨_, List.getElem?_eq_getElem hlt⟩
      obtain ⟨o, m, hg, hr⟩ := h.handles hd y hy
      have hx : ∃ x, w.objs[o]? = some x ∧ w.call hd a = w.exec x.cls o { meth := m, args := a } := by
        unfold World.call
        rw [hy]
        cases y with
        | bound o' c m' =>
          obtain ⟨rfl, rfl, x, hx, rfl, -⟩ := hr
          exact ⟨x, hx, rfl⟩
        | proxy i =>
          obtain ⟨p, x, h1, rfl, rfl, hx, ht⟩ := hr
          exact ⟨x, hx, by simp only [h1, ht]⟩
      obtain ⟨x, hx, hcall⟩ := hx
      obtain ⟨w', he, hinv, -, hlen, hhs, -⟩ := exec_inv h hx { meth := m, args := a }
      have hsrc := exec_source h hs hx { meth := m, args := a } he
      obtain ⟨w'', got'', hrun, h1, h2⟩ := ih w' got _ hinv hsrc (by rw [hlen, hhs]; exact hsens)
      have hks : (fun i => bump ks o { meth := m, args := a } i ++ calls i got acts) =
          fun i => ks i ++ calls i got (.call hd a :: acts) := by
        funext i
        simp only [bump, calls, hg]
        by_cases hi : i = o
        · subst hi; simp
        · rw [if_neg hi, if_neg (fun e => hi e.symm)]
      rw [hks] at h1 h2
      refine ⟨w'', got'', ?_, h1, h2⟩
      simp only [World.run, World.step, hcall, he]
      exact hrun

theorem start_inv (params : List Params) : Inv (start params) [] (fun _ => []) ∧ Source params (start params) (fun _ => []) := by
  refine ⟨⟨?_, ?_, rfl, ?_, ?_⟩, ⟨Grown.refl _, ?_, ?_, ?_, ?_⟩⟩
  · intro o x hx; simp [start] at hx
  · intro o _; rfl
  · intro i h hh; simp [start] at hh
  · intro p hp; simp [start] at hp
  · intro o x hx; simp [start] at hx
  · intro o x hx; simp [start] at hx
  · intro i p q m h1 h2 h3 h4
    have : q = p := by
      have : params[i]? = some q := h3
      rw [h1] at this; cases this; rfl
    rw [this, h2] at h4; cases h4
  · intro o x p hx; simp [start] at hx

/-! ## The properties -/

/-- Whatever a program does with any number of writers, one after the other or interleaved, with methods that
it got before or after the output method was known: no call is lost, none is made twice or in another order,
and none fails.  As long as a writer's output method is not known, there was only what the output method does
not depend on. -/
theorem C77_calls (params : List Params) (acts : List Act) (h : Sensible params 0 0 acts) :
    ∃ w, (start params).run acts = .ok w ∧ ∀ (o : Nat) (x : Obj), w.objs[o]? = some x →
      Wrote x (calls o [] acts) ∧ (x.cls = .proxy → ¬ Decided (calls o [] acts)) := by
  obtain ⟨h1, h2⟩ := start_inv params
  obtain ⟨w, got, hrun, hinv, hsrc⟩ := run_inv params acts _ _ _ h1 h2 h
  refine ⟨w, hrun, fun o x hx => ?_⟩
  have := hinv.objs o x hx
  simp only [List.nil_append] at this
  refine ⟨⟨fun hc => (this.real hc).2, fun hc => (this.undecided hc).2.1⟩, ?_⟩
  rintro hc ⟨k, hk, hn⟩
  exact hn ((this.undecided hc).2.2 k hk)

/-- If the output parameters have a method, it is used. -/
theorem C77_method_given (params : List Params) (acts : List Act) (h : Sensible params 0 0 acts)
    {w : World} (hw : (start params).run acts = .ok w) {o : Nat} {x : Obj} (hx : w.objs[o]? = some x)
    {p : Params} {m : Method} (hp : params[x.params]? = some p) (hm : p.method = some m) :
    IsFor p.cdata m x.cls := by
  obtain ⟨h1, h2⟩ := start_inv params
  obtain ⟨w', got, hrun, hinv, hsrc⟩ := run_inv params acts _ _ _ h1 h2 h
  rw [hw] at hrun; cases hrun
  have hc := hsrc.given o x p hx hp (by rw [hm]; simp)
  obtain ⟨q, hq, hl⟩ := hsrc.cls o x hx hc
  obtain ⟨-, m', hm', hfor⟩ := lookup_proper hl
  obtain ⟨q', hq', hcd, hqm⟩ := hsrc.grown.keeps _ p hp
  rw [hq] at hq'; cases hq'
  rw [hcd] at hfor
  rcases hqm with hqm | ⟨hqm, -⟩
  · rw [hqm, hm] at hm'; cases hm'; exact hfor
  · rw [hm] at hqm; cases hqm

/-- If the output parameters have no method, then all writers that have these output parameters use the default
of XSLT for what is written to one of them. -/
theorem C77_method_shared (params : List Params) (acts : List Act) (h : Sensible params 0 0 acts)
    {w : World} (hw : (start params).run acts = .ok w) {p : Params} {i : Nat} (hp : params[i]? = some p)
    (hm : p.method = none) :
    (∀ (o : Nat) (x : Obj), w.objs[o]? = some x → x.params = i → ¬ Decided (calls o [] acts)) ∨
    ∃ (o' : Nat) (x' : Obj), w.objs[o']? = some x' ∧ x'.params = i ∧ Decided (calls o' [] acts) ∧
      ∀ (o : Nat) (x : Obj), w.objs[o]? = some x → x.params = i → Decided (calls o [] acts) →
        (UseHtml (calls o' [] acts) → x.cls = .html) ∧
        (¬ UseHtml (calls o' [] acts) → x.cls = if p.cdata then .cdata else .xml) := by
  obtain ⟨h1, h2⟩ := start_inv params
  obtain ⟨w', got, hrun, hinv, hsrc⟩ := run_inv params acts _ _ _ h1 h2 h
  rw [hw] at hrun; cases hrun
  obtain ⟨q, hq, hcd, -⟩ := hsrc.grown.keeps _ p hp
  have real : ∀ (o : Nat) (x : Obj), w.objs[o]? = some x → x.params = i → Decided (calls o [] acts) →
      ∃ m, q.method = some m ∧ IsFor p.cdata m x.cls := by
    intro o x hx hxi hd
    have hc : x.cls ≠ .proxy := by
      intro hc
      obtain ⟨k, hk, hn⟩ := hd
      exact hn (hsrc.decided o x hx hc k (by simpa using hk))
    obtain ⟨q', hq', hl⟩ := hsrc.cls o x hx hc
    rw [hxi, hq] at hq'; cases hq'
    obtain ⟨-, m', hm', hfor⟩ := lookup_proper hl
    rw [hcd] at hfor
    exact ⟨m', hm', hfor⟩
  cases hqm : q.method with
  | none =>
    left
    intro o x hx hxi hd
    obtain ⟨m, hm', -⟩ := real o x hx hxi hd
    rw [hqm] at hm'; cases hm'
  | some m =>
    right
    obtain ⟨o', x', hx', hxp, hd', hcase⟩ := hsrc.method _ p q m hp hm hq hqm
    simp only [List.nil_append] at hcase hd'
    refine ⟨o', x', hx', hxp, hd', ?_⟩
    intro o x hx hxi hd
    obtain ⟨m', hm', hfor⟩ := real o x hx hxi hd
    rw [hqm] at hm'; cases hm'
    rcases hcase with ⟨rfl, hu⟩ | ⟨rfl, hu⟩
    · refine ⟨fun _ => ?_, fun hn => absurd hu hn⟩
      rcases hfor with ⟨e, -⟩ | ⟨-, e⟩ | ⟨e, -⟩
      · exact absurd e (by decide)
      · exact e
      · exact absurd e (by decide)
    · refine ⟨fun hn => absurd hn hu, fun _ => ?_⟩
      rcases hfor with ⟨e, -⟩ | ⟨e, -⟩ | ⟨-, e⟩
      · exact absurd e (by decide)
      · exact absurd e (by decide)
      · exact e

/-- If the output parameters have no method, the default of XSLT is used: html if the first element is 'html'
in no namespace with nothing but white space before it, and else xml.  What is missing: other writers that
have the same output parameters. -/
theorem C77_method_partial (params : List Params) (acts : List Act) (h : Sensible params 0 0 acts)
    {w : World} (hw : (start params).run acts = .ok w) {o : Nat} {x : Obj} (hx : w.objs[o]? = some x)
    {p : Params} (hp : params[x.params]? = some p) (hm : p.method = none)
    (alone : ∀ (o' : Nat) (x' : Obj), w.objs[o']? = some x' → x'.params = x.params → o' = o)
    (hd : Decided (calls o [] acts)) :
    (UseHtml (calls o [] acts) → x.cls = .html) ∧
    (¬ UseHtml (calls o [] acts) → x.cls = if p.cdata then .cdata else .xml) := by
  rcases C77_method_shared params acts h hw hp hm with hn | ⟨o', x', hx', hxp, -, hall⟩
  · exact absurd hd (hn o x hx rfl)
  · have := alone o' x' hx' hxp
    subst this
    exact hall o' x hx rfl hd

/-! ## Transformations -/

theorem calls_useWriter (o : Nat) (got : List (Nat × Meth)) (ks : List Call) :
    calls o got (useWriter o got.length ks) = ks := by
  induction ks generalizing got with
  | nil => rfl
  | cons k ks ih =>
    simp only [useWriter, calls]
    rw [List.getElem?_append_right (Nat.le_refl _)]
    simp only [Nat.sub_self, List.getElem?_cons_zero]
    have := ih (got ++ [(o, k.meth)])
    simp only [List.length_append, List.length_cons, List.length_nil, Nat.zero_add] at this
    rw [this]
    simp

theorem sensible_useWriter (params : List Params) (writers o : Nat) (ho : o < writers) (ks : List Call) (n : Nat) :
    Sensible params writers n (useWriter o n ks) := by
  induction ks generalizing n with
  | nil => trivial
  | cons k ks ih => exact ⟨ho, by omega, ih (n + 1)⟩

/-- The output parameters of the writers. -/
def World.uses (w : World) : List Nat := w.objs.map (·.params)

theorem uses_set {l : List Obj} {o : Nat} {x y : Obj} (h : l[o]? = some x) (e : y.params = x.params) :
    (l.set o y).map (·.params) = l.map (·.params) := by
  rw [List.map_set, e]
  apply List.ext_getElem?
  intro i
  by_cases hi : o = i
  · subst hi
    have := (List.getElem?_eq_some_iff.mp h).1
    rw [List.getElem?_set_self (by simpa using this)]
    simp [h]
  · rw [List.getElem?_set_ne hi]

theorem exec_uses {w w' : World} {c : Cls} {o : Nat} {k : Call} (h : w.exec c o k = .ok w') : w'.uses = w.uses := by
  unfold World.exec at h
  cases hx : w.objs[o]? with
  | none => rw [hx] at h; cases h
  | some x =>
    rw [hx] at h
    simp only at h
    split at h
    · cases hs : x.stack with
      | none => rw [hs] at h; cases h
      | some stack =>
        rw [hs] at h
        simp only at h
        split at h
        · cases h; exact uses_set hx rfl
        · unfold World.finalize at h
          simp only at h
          split at h
          · cases h
          · split at h
            · cases h
            · cases h
              show List.map _ (List.set (List.set _ _ _) _ _) = _
              rw [List.set_set]
              exact uses_set hx rfl
    · cases h; exact uses_set hx rfl

theorem run_uses {o : Nat} {ks : List Call} : ∀ {w w' : World} {n : Nat}, w.run (useWriter o n ks) = .ok w' → w'.uses = w.uses := by
  induction ks with
  | nil => intro w w' n h; simp only [useWriter, World.run] at h; cases h; rfl
  | cons k ks ih =>
    intro w w' n h
    simp only [useWriter, World.run, World.step] at h
    cases hg : w.get o k.meth with
    | error e => rw [hg] at h; cases h
    | ok w1 =>
      rw [hg] at h
      simp only at h
      have e1 : w1.uses = w.uses := by
        unfold World.get at hg
        split at hg
        · cases hg
        · split at hg <;> (cases hg; rfl)
      cases hc : w1.call n k.args with
      | error e => rw [hc] at h; cases h
      | ok w2 =>
        rw [hc] at h
        simp only at h
        have e2 : w2.uses = w1.uses := by
          unfold World.call at hc
          split at hc
          · cases hc
          · exact exec_uses hc
          · split at hc
            · cases hc
            · exact exec_uses hc
        exact (ih h).trans (e2.trans e1)

/-- What a transformation with a new stylesheet does. -/
theorem first_transform (p : Params) (ks : List Call)
    (hp : p.method = none ∨ ∃ m ∈ [textMethod, htmlMethod, xmlMethod], p.method = some m) :
    ∃ w x, (start [p]).run (.make 0 :: useWriter 0 0 ks) = .ok w ∧ (start [p]).transform 0 ks = .ok w ∧
      w.objs = [x] ∧ x.params = 0 ∧ Wrote x ks ∧ (x.cls = .proxy → ¬ Decided ks) ∧
      Sensible [p] 0 0 (.make 0 :: useWriter 0 0 ks) := by
  have hsens : Sensible [p] 0 0 (.make 0 :: useWriter 0 0 ks) :=
    ⟨⟨p, rfl, hp⟩, sensible_useWriter [p] 1 0 (by omega) ks 0⟩
  obtain ⟨w, hrun, hall⟩ := C77_calls [p] _ hsens
  have hks : calls 0 [] (.make 0 :: useWriter 0 0 ks) = ks := calls_useWriter 0 [] ks
  have htr : (start [p]).transform 0 ks = .ok w := by
    rw [← hrun]
    unfold World.transform
    simp only [World.run, World.step]
    cases h : (start [p]).make 0 with
    | error e => rfl
    | ok w' => rfl
  have huses : w.uses = [0] := by
    simp only [World.run, World.step] at hrun
    cases h : (start [p]).make 0 with
    | error e => rw [h] at hrun; cases hrun
    | ok w' =>
      rw [h] at hrun
      simp only at hrun
      rw [run_uses hrun]
      unfold World.make at h
      split at h
      · cases h
      · split at h
        · split at h
          · cases h
          · cases h; rfl
        · cases h; rfl
  have hobjs : ∃ x, w.objs = [x] ∧ x.params = 0 := by
    unfold World.uses at huses
    cases ho : w.objs with
    | nil => rw [ho] at huses; cases huses
    | cons x l =>
      rw [ho] at huses
      cases l with
      | nil => simp at huses; exact ⟨x, rfl, huses⟩
      | cons y l => simp at huses
  obtain ⟨x, ho, hxp⟩ := hobjs
  have := hall 0 x (by rw [ho]; rfl)
  rw [hks] at this
  exact ⟨w, x, hrun, htr, ho, hxp, this.1, this.2, hsens⟩

/-- A transformation with a new stylesheet whose xsl:output has no method: everything is written, in the order
of the calls, with the default output method. -/
theorem C77_transform_partial (p : Params) (ks : List Call) (hp : p.method = none) (hd : Decided ks) :
    ∃ w x, (start [p]).transform 0 ks = .ok w ∧ w.objs = [x] ∧
      x.log = ks.map (fun k => (x.cls, k)) ∧
      (UseHtml ks → x.cls = .html) ∧ (¬ UseHtml ks → x.cls = if p.cdata then .cdata else .xml) := by
  obtain ⟨w, x, hrun, htr, ho, hxp, hwr, hpr, hsens⟩ := first_transform p ks (Or.inl hp)
  have hks : calls 0 [] (.make 0 :: useWriter 0 0 ks) = ks := calls_useWriter 0 [] ks
  have hm := C77_method_partial [p] _ hsens hrun (o := 0) (x := x) (by rw [ho]; rfl) (p := p)
    (by rw [hxp]; rfl) hp (by
      intro o' x' hx' _
      rw [ho] at hx'
      cases o' with
      | zero => rfl
      | succ n => simp at hx') (by rw [hks]; exact hd)
  rw [hks] at hm
  exact ⟨w, x, htr, ho, hwr.1 (fun hc => hpr hc hd), hm.1, hm.2⟩

/-- A transformation with a stylesheet whose xsl:output has a method. -/
theorem C77_transform_given (p : Params) (ks : List Call) (m : Method)
    (hm : m ∈ [textMethod, htmlMethod, xmlMethod]) (hp : p.method = some m) :
    ∃ w x, (start [p]).transform 0 ks = .ok w ∧ w.objs = [x] ∧
      x.log = ks.map (fun k => (x.cls, k)) ∧ IsFor p.cdata m x.cls := by
  obtain ⟨w, x, hrun, htr, ho, hxp, hwr, hpr, hsens⟩ := first_transform p ks (Or.inr ⟨m, hm, hp⟩)
  have := C77_method_given [p] _ hsens hrun (o := 0) (x := x) (by rw [ho]; rfl) (p := p) (by rw [hxp]; rfl) hp
  refine ⟨w, x, htr, ho, hwr.1 ?_, this⟩
  intro hc
  rw [hc] at this
  rcases this with ⟨-, e⟩ | ⟨-, e⟩ | ⟨-, e⟩
  · cases e
  · cases e
  · split at e <;> cases e

/-! ## Examples -/

/-- A call with a name or a text. -/
def call1 (m : Meth) (s : Str) : Call := { meth := m, args := { first := s, second := none, rest := 0 } }

/-- `<html>…`, with a comment and white space before it. -/
def page : List Call := [call1 .startDocument [], call1 .comment (s!! "c"), call1 .text (s!! " "),
  call1 .startElement (s!! "HTML"), call1 .text (s!! "x"), call1 .endElement (s!! "HTML"), call1 .endDocument []]

/-- `<a>…`. -/
def other : List Call := [call1 .startDocument [], call1 .startElement (s!! "a"), call1 .endElement (s!! "a"),
  call1 .endDocument []]

/-- The second transformation with a stylesheet has the output method of the first one: a document whose first
element is 'a' is written by the methods for html. -/
theorem C77_refuted_again : ∃ w x, (start [{ method := none, cdata := false }]).transforms 0 [page, other] = .ok w ∧
    w.objs[1]? = some x ∧ ¬ UseHtml other ∧ Decided other ∧ x.cls = .html := by
  refine ⟨_, _, rfl, rfl, ?_, ⟨call1 .endDocument [], by decide, fun h => absurd h.2.1 (by decide)⟩, rfl⟩
  intro h
  have e : other = [call1 .startDocument []] ++ (call1 .startElement (s!! "a")) :: [call1 .endElement (s!! "a"),
    call1 .endDocument []] := rfl
  rw [e, show ∀ (a : List Call) (x : Call) (b : List Call), a ++ x :: b = (a ++ [x]) ++ b by simp] at h
  have hi : ∀ k ∈ [call1 .startDocument []], Idle k := by
    intro k hk
    rw [List.mem_singleton.mp hk]
    exact ⟨by decide, by decide, fun h => absurd h (by decide)⟩
  have hn : ¬ Idle (call1 .startElement (s!! "a")) := fun h => absurd rfl h.1
  rw [useHtml_decided ⟨call1 .startElement (s!! "a"), by simp, hn⟩, useHtml_first hi hn] at h
  exact absurd h (by decide)

/-! ## Examples -/

theorem page_html : UseHtml page := by
  refine ⟨[call1 .startDocument [], call1 .comment (s!! "c"), call1 .text (s!! " ")], call1 .startElement (s!! "HTML"), _, rfl, ?_, rfl, rfl, 'H', 'T', 'M', 'L', rfl, by simp⟩
  intro k hk
  simp only [List.mem_cons, List.not_mem_nil, or_false] at hk
  rcases hk with rfl | rfl | rfl
  · exact ⟨by decide, by decide, fun h => absurd h (by decide)⟩
  · exact ⟨by decide, by decide, fun h => absurd h (by decide)⟩
  · refine ⟨by decide, by decide, fun _ c hc => ?_⟩
    simp [call1] at hc
    exact Or.inl hc

/-- The theorem for transformations says that the page is written as html. -/
example : ∃ w x, (start [{ method := none, cdata := false }]).transform 0 page = .ok w ∧ w.objs = [x] ∧
    x.cls = .html ∧ x.log.length = 7 := by
  obtain ⟨w, x, h1, h2, h3, h4, -⟩ := C77_transform_partial { method := none, cdata := false } page rfl
    ⟨call1 .endDocument [], by decide, fun h => absurd h.2.1 (by decide)⟩
  exact ⟨w, x, h1, h2, h4 page_html, by rw [h3]; rfl⟩

/-- Two writers, one with a method and one without, are used in turn; methods of the second one are got
before the output method is known and used afterwards. -/
def mixed : List Act := [.make 0, .make 1, .get 1 .text, .get 1 .startElement, .get 0 .text,
  .call 0 { first := s!! " ", second := none, rest := 0 }, .call 2 { first := s!! "t", second := none, rest := 0 },
  .call 1 { first := s!! "a", second := none, rest := 0 }, .call 0 { first := s!! "x", second := none, rest := 0 }]

example : Sensible [{ method := some textMethod, cdata := false }, { method := none, cdata := true }] 0 0 mixed :=
  ⟨⟨_, rfl, Or.inr ⟨textMethod, by simp, rfl⟩⟩, ⟨_, rfl, Or.inl rfl⟩, by omega, by omega, by omega, by omega, by omega, by omega, by omega, trivial⟩

example : ∃ w x y, (start [{ method := some textMethod, cdata := false }, { method := none, cdata := true }]).run mixed = .ok w ∧
    w.objs = [x, y] ∧ x.cls = .text ∧ y.cls = .cdata ∧ calls 1 [] mixed =
      [call1 .text (s!! " "), call1 .startElement (s!! "a"), call1 .text (s!! "x")] ∧
    y.log = (calls 1 [] mixed).map fun k => (.cdata, k) := ⟨_, _, _, rfl, rfl, rfl, rfl, rfl, rfl⟩

end Verif.Xslt.Output
