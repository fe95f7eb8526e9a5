import Verif.Dom.CopyTree
/-
C96: copies of nodes.
-/
namespace Verif.Dom.Copy.Spec
open Verif Verif.Dom

/-- What a shallow copy should say: a document without content needs no unparsed entities. -/
def bare : Info → Info
  | .entity u pub sys _ => .entity u pub sys []
  | i => i

end Verif.Dom.Copy.Spec

namespace Verif.Dom.Copy
open Verif Verif.Dom Verif.Dom.Spec Verif.Dom.Copy.Spec

/-- **C96**, a deep copy: whatever tree is at a node, `copy.deepcopy` of the node ends (for every depth of recursion
that is enough) and returns a node without parent at which there is the same tree, made of new nodes only; nothing
happens to the nodes that were there before; and all documents are well formed again.  Missing: attributes on their
own (`C96_refuted_attribute`), and names whose prefix has lost its namespace (`C96_refuted_names`). -/
theorem C96_deep_partial {d : Doc} (g : Good d) {p : Option NodeId} {n : NodeId} {t : Tree} (hn : n < d.heap.size)
    (hk : d.heap.kind n ≠ .attr) (hnm : ∀ x, AncS d.heap n x → (d.info x).named = true) (h : Is d p n t) :
    ∃ f0, ∀ f, f0 ≤ f → ∃ d' memo n', deep f d [] n = .ok (d', memo, n') ∧ Is d' none n' t ∧
      (∀ x, AncS d'.heap n' x → d.heap.size ≤ x ∧ x < d'.heap.size) ∧ Untouched d d' ∧ Good d' := by
  obtain ⟨f0, hf⟩ := deep_tree g hn hk hnm h
  refine ⟨f0, fun f hle => ?_⟩
  obtain ⟨d', memo, n', h1, h2, h3, h4, h5, h6, _, _⟩ := hf f hle d [] ⟨.refl d, g⟩ trivial (fun k hk => absurd rfl hk)
  exact ⟨d', memo, n', h1, h6, fun x hx => ⟨new_below g.heap h3 h4 hx, anc_lt h2.heap h5 hx⟩, h3, h2.good⟩

/-- **C96**, the original is still the tree that it was, where it was. -/
theorem C96_original {d d' : Doc} (g : Good d) (h : Untouched d d') {p : Option NodeId} {n : NodeId} {t : Tree}
    (hn : n < d.heap.size) (hi : Is d p n t) : Is d' p n t :=
  is_mono g.heap h hn hi

/-- **C96**, a shallow copy says what the node says, has namespaces and attributes that say the same, and has
neither parent nor children; no node loses or gains children, and none says anything else.  Missing: the namespaces
and attributes of the original, which are not copied (`C96_refuted_shallow`); attributes
(`C96_refuted_attribute`). -/
theorem C96_shallow_partial {d : Doc} (g : Good d) {n : NodeId} (hn : n < d.heap.size) (hk : d.heap.kind n ≠ .attr)
    (hnm : (d.info n).named = true) :
    ∃ d', shallow d n = .ok (d', d.heap.size) ∧ d'.info d.heap.size = bare (d.info n) ∧
      d'.heap.parent d.heap.size = none ∧ d'.heap.kids d.heap.size = [] ∧
      (d'.nss d.heap.size).map d'.info = (d.nss n).map d.info ∧
      (d'.attrs d.heap.size).map d'.info = (d.attrs n).map d.info ∧
      (∀ x, x < d.heap.size → d'.info x = d.info x ∧ d'.heap.kids x = d.heap.kids x ∧ d'.nss x = d.nss x ∧
        d'.attrs x = d.attrs x) ∧
      (d.nss n = [] → d.attrs n = [] → Untouched d d') := by
  have u := untouched_new d (d.info n).fresh
  have hkind := g.kind n hn
  have leaf : (∀ s q, d.info n ≠ .element s q) → d.nss n = [] ∧ d.attrs n = [] := fun h =>
    g.tables n (by rw [hkind]; cases e : d.info n <;> simp_all [Info.kind])
  have simple : d.nss n = [] → d.attrs n = [] → (d.info n).fresh = bare (d.info n) →
      (d.new (d.info n).fresh).info d.heap.size = bare (d.info n) ∧
      (d.new (d.info n).fresh).heap.parent d.heap.size = none ∧ (d.new (d.info n).fresh).heap.kids d.heap.size = [] ∧
      ((d.new (d.info n).fresh).nss d.heap.size).map (d.new (d.info n).fresh).info = (d.nss n).map d.info ∧
      ((d.new (d.info n).fresh).attrs d.heap.size).map (d.new (d.info n).fresh).info = (d.attrs n).map d.info ∧
      (∀ x, x < d.heap.size → (d.new (d.info n).fresh).info x = d.info x ∧
        (d.new (d.info n).fresh).heap.kids x = d.heap.kids x ∧ (d.new (d.info n).fresh).nss x = d.nss x ∧
        (d.new (d.info n).fresh).attrs x = d.attrs x) ∧
      (d.nss n = [] → d.attrs n = [] → Untouched d (d.new (d.info n).fresh)) := by
    intro h1 h2 h3
    refine ⟨by rw [new_info, h3], new_parent _ _, new_kids _ _, by rw [new_nss, h1]; rfl, by rw [new_attrs, h2]; rfl, ?_, fun _ _ => u⟩
    exact fun x hx => ⟨u.info x hx, u.kids x hx, u.nss x hx, u.attrs x hx⟩
  cases e : d.info n with
  | attr a b c ty => rw [e] at hkind; exact absurd hkind hk
  | entity a b c un =>
    have hl := leaf (by rw [e]; intro s q h; cases h)
    refine ⟨{ d.new (d.info n).fresh with info := upd (d.new (d.info n).fresh).info d.heap.size (.entity a b c []) },
      by unfold shallow; rw [named_create hnm]; simp only [Out.bind, e], upd_same _ _ _, new_parent _ _, new_kids _ _, ?_, ?_, ?_, ?_⟩
    · show ((d.new (d.info n).fresh).nss d.heap.size).map _ = _
      rw [new_nss, hl.1]; rfl
    · show ((d.new (d.info n).fresh).attrs d.heap.size).map _ = _
      rw [new_attrs, hl.2]; rfl
    · intro x hx
      exact ⟨by simp only; rw [upd_ne _ _ (by omega)]; exact u.info x hx, u.kids x hx, u.nss x hx, u.attrs x hx⟩
    · intro _ _
      exact ⟨u.size, u.kind, u.parent, u.kids, fun x hx => by simp only; rw [upd_ne _ _ (by omega)]; exact u.info x hx,
        u.nss, u.attrs⟩
  | element s q =>
    have lt : ∀ x, (x ∈ d.nss n → x < d.heap.size) ∧ (x ∈ d.attrs n → x < d.heap.size) := fun x =>
      ⟨fun h => (g.heap.bounded _ _ (g.nss_own n x h).1).1, fun h => (g.heap.bounded _ _ (g.attrs_own n x h).1).1⟩
    generalize hd1 : d.new (d.info n).fresh = d1 at *
    have en : d1.nss d.heap.size = [] := by rw [← hd1, new_nss]
    have ea : d1.attrs d.heap.size = [] := by rw [← hd1, new_attrs]
    have ei : d1.info d.heap.size = .element s q := by rw [← hd1, new_info, e]; rfl
    have ep : d1.heap.parent d.heap.size = none := by rw [← hd1, new_parent]
    have ek : d1.heap.kids d.heap.size = [] := by rw [← hd1, new_kids]
    have mi : ∀ l : List NodeId, (∀ x ∈ l, x < d.heap.size) → l.map d1.info = l.map d.info := fun l hl =>
      List.map_congr_left fun x hx => u.info x (hl x hx)
    have mn := mi (d.nss n) (fun x => (lt x).1)
    have ma := mi (d.attrs n) (fun x => (lt x).2)
    have nk : ((d.nss n).map fun x => nsKey (d1.info x)).Nodup := by
      rw [keys_congr (key := nsKey) mn]; exact g.nss_keys n
    have ak : ((d.attrs n).map fun x => attrKey (d1.info x)).Nodup := by
      rw [keys_congr (key := attrKey) ma]; exact g.attrs_keys n
    have e1 : putNss d1 d.heap.size (d.nss n) =
        { d1 with heap := owned d1.heap d.heap.size (d.nss n), nss := upd d1.nss d.heap.size (d.nss n) } := by
      rw [putNss_eq _ _ d1 (by simpa [en] using nk), en, List.nil_append]
    have e2 : putAttrs (putNss d1 d.heap.size (d.nss n)) d.heap.size (d.attrs n) =
        { d1 with
          heap := owned (owned d1.heap d.heap.size (d.nss n)) d.heap.size (d.attrs n)
          nss := upd d1.nss d.heap.size (d.nss n)
          attrs := upd d1.attrs d.heap.size (d.attrs n) } := by
      rw [putAttrs_eq _ _ _ (by rw [e1]; simpa [ea] using ak), e1]; simp [ea]
    have hne : d.heap.size ∉ d.nss n ∧ d.heap.size ∉ d.attrs n :=
      ⟨fun h => Nat.lt_irrefl _ ((lt _).1 h), fun h => Nat.lt_irrefl _ ((lt _).2 h)⟩
    refine ⟨{ d1 with
          heap := owned (owned d1.heap d.heap.size (d.nss n)) d.heap.size (d.attrs n)
          nss := upd d1.nss d.heap.size (d.nss n)
          attrs := upd d1.attrs d.heap.size (d.attrs n) },
      by unfold shallow; rw [named_create hnm, hd1]; simp only [Out.bind, e]; rw [e2], ei, ?_, ek, ?_, ?_, ?_, ?_⟩
    · simp [owned, hne.1, hne.2, ep]
    · simp only [upd_same]; exact mn
    · simp only [upd_same]; exact ma
    · intro x hx
      have hx' : x ≠ d.heap.size := by omega
      exact ⟨u.info x hx, u.kids x hx, by simp only; rw [upd_ne _ _ hx']; exact u.nss x hx,
        by simp only; rw [upd_ne _ _ hx']; exact u.attrs x hx⟩
    · intro h1 h2
      refine ⟨u.size, u.kind, fun x hx => ?_, u.kids, u.info, fun x hx => ?_, fun x hx => ?_⟩
      · simp [owned, h1, h2, u.parent x hx]
      · have hx' : x ≠ d.heap.size := by omega
        simp only; rw [upd_ne _ _ hx']; exact u.nss x hx
      · have hx' : x ≠ d.heap.size := by omega
        simp only; rw [upd_ne _ _ hx']; exact u.attrs x hx
  | _ =>
    have hl := leaf (by rw [e]; intro s q h; cases h)
    have := simple hl.1 hl.2 (by rw [e]; rfl)
    rw [e] at this
    exact ⟨_, by unfold shallow; rw [named_create hnm]; simp only [Out.bind, e], this⟩

/-! ### A document -/

/-- No nodes. -/
def none' : Doc := ⟨Heap.empty, fun _ => .text [], fun _ => [], fun _ => []⟩

/-- `<a xmlns:p="u" x="1">t<b/></a>`: nodes 0 (document), 1 (a), 2 (xmlns:p), 3 (x), 4 (t), 5 (b). -/
def sample : Doc :=
  { heap :=
      { size := 6
        kind := fun n => if n = 0 then .entity else if n = 1 then .element else if n = 2 then .ns else if n = 3 then .attr
          else if n = 4 then .text else if n = 5 then .element else .text
        parent := fun n => if n = 1 then some 0 else if n = 2 then some 1 else if n = 3 then some 1
          else if n = 4 then some 1 else if n = 5 then some 1 else none
        kids := fun n => if n = 0 then [1] else if n = 1 then [4, 5] else [] }
    info := fun n => if n = 0 then .entity none none none [] else if n = 1 then .element none (s!! "a")
      else if n = 2 then .ns (some (s!! "p")) (s!! "u") else if n = 3 then .attr none (s!! "x") (s!! "1") 0
      else if n = 4 then .text (s!! "t") else if n = 5 then .element none (s!! "b") else .text []
    nss := fun n => if n = 1 then [2] else []
    attrs := fun n => if n = 1 then [3] else [] }

def sampleTree : Tree :=
  .node (.entity none none none []) [] []
    [.node (.element none (s!! "a")) [.ns (some (s!! "p")) (s!! "u")] [.attr none (s!! "x") (s!! "1") 0]
      [.node (.text (s!! "t")) [] [] [], .node (.element none (s!! "b")) [] [] []]]

theorem sample_parent {x y : NodeId} (h : sample.heap.parent x = some y) :
    (x = 1 ∧ y = 0) ∨ ((x = 2 ∨ x = 3 ∨ x = 4 ∨ x = 5) ∧ y = 1) := by
  simp only [sample] at h
  repeat' split at h
  all_goals simp_all

theorem sample_good : Good sample := by
  refine ⟨⟨?_, ?_, ?_, ?_, ?_, ?_, ?_, ?_⟩, ?_, ?_, ?_, ?_, ?_, ?_⟩
  · intro p c hc
    simp only [sample] at hc
    repeat' split at hc
    all_goals simp_all [sample]
    rcases hc with rfl | rfl <;> simp
  · intro p c hp hk
    rcases sample_parent hp with ⟨rfl, rfl⟩ | ⟨rfl | rfl | rfl | rfl, rfl⟩ <;> simp_all [sample, isChildKind]
  · intro p; simp only [sample]; repeat' split
    all_goals simp
  · intro p c hc
    simp only [sample] at hc
    repeat' split at hc
    all_goals simp_all [sample]
    · rfl
    · rcases hc with rfl | rfl <;> rfl
  · intro p c hp
    rcases sample_parent hp with ⟨rfl, rfl⟩ | ⟨_, rfl⟩ <;> rfl
  · intro c hc
    simp only [sample] at hc
    by_cases h0 : c = 0
    · subst h0; rfl
    · repeat' split at hc
      all_goals simp_all
  · intro a ha
    have key : ∀ x y, Anc sample.heap x y → x < y := by
      intro x y h
      induction h with
      | parent hp => rcases sample_parent hp with ⟨rfl, rfl⟩ | ⟨rfl | rfl | rfl | rfl, rfl⟩ <;> omega
      | step _ hp ih => rcases sample_parent hp with ⟨rfl, rfl⟩ | ⟨rfl | rfl | rfl | rfl, rfl⟩ <;> omega
    exact Nat.lt_irrefl _ (key a a ha)
  · intro p c hp
    rcases sample_parent hp with ⟨rfl, rfl⟩ | ⟨rfl | rfl | rfl | rfl, rfl⟩ <;> simp [sample]
  · intro n hn
    have : n = 0 ∨ n = 1 ∨ n = 2 ∨ n = 3 ∨ n = 4 ∨ n = 5 := by simp only [sample] at hn; omega
    rcases this with rfl | rfl | rfl | rfl | rfl | rfl <;> rfl
  · intro e x hx
    simp only [sample] at hx
    split at hx <;> simp_all [sample]
  · intro e x hx
    simp only [sample] at hx
    split at hx <;> simp_all [sample]
  · intro e; simp only [sample]; split <;> simp
  · intro e; simp only [sample]; split <;> simp
  · intro e he
    have : e ≠ 1 := by rintro rfl; exact he rfl
    simp [sample, this]

theorem sample_is : Is sample none 0 sampleTree := by
  have l0 : ∀ n, Listed sample n [] [] := fun n => ⟨rfl, by simp⟩
  refine Is.mk (d := sample) (n := 0) rfl (l0 0) (l0 0) (.cons ?_ .nil)
  refine Is.mk (d := sample) (n := 1) rfl ⟨rfl, ?_⟩ ⟨rfl, ?_⟩ (.cons ?_ (.cons ?_ .nil))
  · intro x hx; simp [sample] at hx; subst hx; rfl
  · intro x hx; simp [sample] at hx; subst hx; rfl
  · exact Is.mk (d := sample) (n := 4) rfl (l0 4) (l0 4) .nil
  · exact Is.mk (d := sample) (n := 5) rfl (l0 5) (l0 5) .nil

/-- `l` is the local part of the qualified name `q`. -/
def LocalPart (q l : Str) : Prop := ':' ∉ l ∧ (q = l ∨ ∃ p, q = p ++ ':' :: l)

theorem localPart_take (q : Str) : LocalPart q (q.reverse.takeWhile (· != ':')).reverse := by
  have hs := List.takeWhile_append_dropWhile (p := (· != ':')) (l := q.reverse)
  have hn : ':' ∉ (q.reverse.takeWhile (· != ':')).reverse := by
    intro h
    rw [List.mem_reverse] at h
    have := List.all_takeWhile (l := q.reverse) (p := (· != ':'))
    have := List.all_eq_true.1 this _ h
    simp at this
  refine ⟨hn, ?_⟩
  cases hd : q.reverse.dropWhile (· != ':') with
  | nil =>
    rw [hd, List.append_nil] at hs
    left; rw [hs, List.reverse_reverse]
  | cons c r =>
    right
    have hc : c = ':' := by
      have := List.head_dropWhile_not (p := (· != ':')) (l := q.reverse) (by rw [hd]; simp)
      simp only [hd, List.head_cons] at this
      simpa using this
    refine ⟨r.reverse, ?_⟩
    have := congrArg List.reverse hs
    rw [hd, List.reverse_append, List.reverse_reverse, hc, List.reverse_cons] at this
    simpa using this.symm

theorem localPart_unique {q l l' : Str} (h : LocalPart q l) (h' : LocalPart q l') : l = l' := by
  have key : ∀ (p p' a b : Str), ':' ∉ a → ':' ∉ b → p ++ ':' :: a = p' ++ ':' :: b → a = b := by
    intro p
    induction p with
    | nil =>
      intro p' a b ha hb e
      cases p' with
      | nil => simpa using e
      | cons x p' => simp at e; exact absurd (by rw [e.2]; simp) ha
    | cons x p ih =>
      intro p' a b ha hb e
      cases p' with
      | nil => simp at e; exact absurd (by rw [← e.2]; simp) hb
      | cons y p' => simp at e; exact ih p' a b ha hb e.2
  obtain ⟨n, h | ⟨p, h⟩⟩ := h <;> obtain ⟨n', h' | ⟨p', h'⟩⟩ := h'
  · exact h.symm.trans h'
  · exact absurd (by rw [← h, h']; simp) n
  · exact absurd (by rw [← h', h]; simp) n'
  · exact key p p' l l' n n' (h.symm.trans h')

/-- What "no two attributes of one name" in `Good` means: an attribute takes the place of another of the element
exactly when both have the same namespace and the same local name, and a namespace node that of another exactly when
both have the same prefix. -/
theorem C96_keys (u u' : Option Str) (q q' v v' : Str) (t t' : Nat) (p p' : Option Str) (w w' : Str) :
    (attrKey (.attr u q v t) = attrKey (.attr u' q' v' t') ↔ u = u' ∧ ∃ l, LocalPart q l ∧ LocalPart q' l) ∧
    (nsKey (.ns p w) = nsKey (.ns p' w') ↔ p = p') := by
  refine ⟨?_, Iff.rfl⟩
  simp only [attrKey, Prod.mk.injEq]
  constructor
  · rintro ⟨h1, h2⟩
    exact ⟨h1, _, localPart_take q, h2 ▸ localPart_take q'⟩
  · rintro ⟨h1, l, h2, h3⟩
    exact ⟨h1, (localPart_unique (localPart_take q) h2).trans (localPart_unique h3 (localPart_take q'))⟩

example : attrKey (.attr (some (s!! "u")) (s!! "p:x") (s!! "1") 0) ≠ attrKey (.attr none (s!! "x") (s!! "2") 0) := by
  decide +kernel

/-- The hypotheses of `C96_deep_partial` are met by the sample. -/
example : ∃ f0, ∀ f, f0 ≤ f → ∃ d' memo n', deep f sample [] 0 = .ok (d', memo, n') ∧ Is d' none n' sampleTree ∧
    (∀ x, AncS d'.heap n' x → sample.heap.size ≤ x ∧ x < d'.heap.size) ∧ Untouched sample d' ∧ Good d' := by
  refine C96_deep_partial sample_good (by simp [sample]) (by simp [sample]) (fun x _ => ?_) sample_is
  simp only [sample]
  repeat' split
  all_goals rfl

/-- Some facts about a result. -/
def seen {α : Type} (o : Out (Doc × α)) (f : Doc → α → List (List Nat)) : Option (List (List Nat)) :=
  match o with
  | .ok r => some (f r.1 r.2)
  | _ => none

/-- The exception. -/
def error {α : Type} : Out α → Option CErr
  | .raised e => some e
  | _ => none

example : seen (deep 5 sample [] 0) (fun d r => [[r.2], d.heap.kids r.2, d.heap.kids 7, d.nss 7, d.attrs 7,
    (d.heap.parent 9).toList]) = some [[6], [7], [10, 11], [8], [9], [7]] := by decide +kernel

/-! ### Where the code disagrees -/

/-- **C96**, refuted for shallow copies of elements with attributes or namespaces: the copy of `a` (6) has the attribute
and namespace nodes (3, 2) of the original, which still lists them, while their `xml_parent` is the copy now; changing
the value in one changes it in the other. -/
theorem C96_refuted_shallow :
    seen (shallow sample 1) (fun d r => [[r], d.nss 1, d.attrs 1, d.nss 6, d.attrs 6, (d.heap.parent 2).toList,
      (d.heap.parent 3).toList]) = some [[6], [2], [3], [2], [3], [6], [6]] := by decide +kernel

/-- **C96**, refuted for attributes: the deep or shallow copy of an attribute that belongs to no element raises a
SystemError; and the shallow copy of one that does belong to an element has that element as its parent, although the
element does not list it. -/
theorem C96_refuted_attribute :
    error (deep 5 (none'.new (.attr none (s!! "x") (s!! "1") 0)) [] 0) = some .system ∧
    error (shallow (none'.new (.attr none (s!! "x") (s!! "1") 0)) 0) = some .system ∧
    seen (shallow sample 3) (fun d r => [[r], (d.heap.parent r).toList, d.attrs 1]) = some [[6], [1], [3]] := by
  refine ⟨?_, ?_, ?_⟩ <;> decide +kernel

/-- **C96**, refuted for elements whose namespace has been removed, as `strip_namespaces` does, when their names have a
prefix: neither copy can be made. -/
theorem C96_refuted_names :
    error (deep 5 (none'.new (.element none (s!! "p:a"))) [] 0) = some .namespace ∧
    error (shallow (none'.new (.element none (s!! "p:a"))) 0) = some .namespace := by
  constructor <;> decide +kernel

end Verif.Dom.Copy
