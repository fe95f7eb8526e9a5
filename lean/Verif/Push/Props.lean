import Verif.Push.Final

/-
C45: pushtree calls its target for the nodes that the pattern selects.
-/
namespace Verif.Push
open Verif.Push.Spec

/-- `pushtree` reports exactly the elements that the pattern selects, each when it ends, and once for each selected
attribute its element when it starts; for all documents, unions of the supported paths, orders in which Python
iterates over sets, and values of the counter.

Missing: names without a prefix match elements in a namespace, too; a name that satisfies two tests is reported
for one of them only; `//` and `descendant::` after the beginning of a relative path, and predicates (see
`C45_refuted_*`). -/
theorem C45_pushtree_selects_partial (ord : List Nat → List Nat) (hord : ∀ l, (ord l).Perm l) (p : Loc) (ps : List Loc)
    (n : Nat) (hn : 1 ≤ n) (doc : Elem) (hp : ∀ q ∈ p :: ps, Supported q)
    (hpl : Plain doc ((p :: ps).flatMap steps)) (hsep : Separate doc ((p :: ps).flatMap steps)) :
    pushtree ord p ps n doc =
      .ok (some (expectedAll (fun y => truth (∃ q ∈ p :: ps, Selects [doc] q y)) [doc] [] 0)) := by
  obtain ⟨m, hi, h1, h2, h3, h4⟩ := toNfa_ok p ps hn hp
  have hpl' : ∀ q ∈ p :: ps, ∀ s ∈ steps q, PlainFor doc s :=
    fun q hq s hs => hpl s (List.mem_flatMap.2 ⟨q, hq, hs⟩)
  exact pushtree_of_fit hord hp hpl' h1 h2 (fit_of_separate hpl' hsep h2 h3) h4

/-- For a path `/a/b/...` the tests need not exclude each other: `/*/b` and `/p:*/p:b/*` work for all documents. -/
theorem C45_child_path_partial (ord : List Nat → List Nat) (hord : ∀ l, (ord l).Perm l) (r : Rel) (hr : Ladder r)
    (n : Nat) (hn : 1 ≤ n) (doc : Elem) (hpl : Plain doc (relSteps r)) :
    pushtree ord (.abs r) [] n doc = .ok (some (expectedAll (fun y => truth (Selects [doc] (.abs r) y)) [doc] [] 0)) := by
  obtain ⟨hd, hc⟩ := ladder_steps r hr
  have hp : ∀ q ∈ [Loc.abs r], Supported q := by intro q hq; simp at hq; subst hq; exact hd
  obtain ⟨m, hi, h1, h2, _, h4⟩ := toNfa_ok (.abs r) [] hn hp
  have hl : Line m := by
    have h1' := h1
    unfold toNfa at h1'
    simp only [parseLoc, pathNfa] at h1'
    cases hloop : absLoop (parseRel r).2 .empty n with
    | error e => rw [hloop] at h1'; cases h1'
    | ok x =>
      obtain ⟨m', n'⟩ := x
      rw [hloop] at h1'
      simp only [unionLoop] at h1'
      injection h1' with h1'
      subst h1'
      exact absLoop_line _ _ n n m' n' hn (Nat.le_refl _) (empty_wf hn) line_empty hc hloop
  have := pushtree_of_fit hord hp (fun q hq s hs => by
    simp at hq; subst hq; exact hpl s hs) h1 h2 (line_fit h2 hl) h4
  rw [this]
  congr 3
  funext y
  congr 1
  simp

/-! Examples: `<r><b x=""><b/></b><c><b/></c></r>`, the pattern `//b/b|c|r/b/@x` -/

def exDoc : Elem :=
  .mk (none, s!! "r") [] [
    .mk (none, s!! "b") [(none, s!! "x")] [.mk (none, s!! "b") [] []],
    .mk (none, s!! "c") [] [.mk (none, s!! "b") [] []]]

def exPath (a : Axis) (n : Str) : SrcStep := ⟨a, .name n⟩

def exP1 : Loc := .dabs (.slash (.one (exPath .child (s!! "b"))) (exPath .child (s!! "b")))
def exP2 : Loc := .rel (.one (exPath .child (s!! "c")))
def exP3 : Loc := .rel (.slash (.slash (.one (exPath .child (s!! "r"))) (exPath .child (s!! "b"))) (exPath .attribute (s!! "x")))

def exSteps : List SrcStep := [exP1, exP2, exP3].flatMap steps

example : (∀ q ∈ [exP1, exP2, exP3], Supported q) ∧ Plain exDoc exSteps ∧ Separate exDoc exSteps := by
  refine ⟨?_, ?_, ?_⟩
  · simp [exP1, exP2, exP3, Supported, Simple, exPath]
  · intro s hs n hn ln h1 h2
    have key : ∀ a, ∀ n ∈ namesFor exDoc a, n.1 = none := by intro a; cases a <;> decide
    exact key _ n hn
  · intro s hs s' hs' _ n _ h1 h2
    have key : ∀ s ∈ exSteps, ∃ ln, s.test = .name ln := by
      intro s hs
      simp [exSteps, exP1, exP2, exP3, steps, relSteps, exPath] at hs
      rcases hs with rfl | rfl | rfl | rfl | rfl <;> exact ⟨_, rfl⟩
    obtain ⟨l, e⟩ := key s hs
    obtain ⟨l', e'⟩ := key s' hs'
    rw [e, Matches] at h1
    rw [e', Matches] at h2
    rw [h1] at h2
    injection h2 with _ h2
    rw [e, e', h2]

/-- The attribute's element, `b` in `b`, `c`. -/
example : pushtree id exP1 [exP2, exP3] 1 exDoc = .ok (some [[0, 0], [0, 0, 0], [0, 1]]) := by rfl

/-- The order of a set's items does not matter. -/
example : pushtree List.reverse exP1 [exP2, exP3] 7 exDoc = .ok (some [[0, 0], [0, 0, 0], [0, 1]]) := by rfl

/-- `/*/b` -/
example : Ladder (.slash (.one ⟨.child, .any⟩) (exPath .child (s!! "b"))) ∧
    Plain exDoc (relSteps (.slash (.one ⟨.child, .any⟩) (exPath .child (s!! "b")))) ∧
    pushtree id (.abs (.slash (.one ⟨.child, .any⟩) (exPath .child (s!! "b")))) [] 1 exDoc = .ok (some [[0, 0]]) := by
  refine ⟨⟨rfl, rfl⟩, ?_, by rfl⟩
  intro s hs n hn ln h1 h2
  have key : ∀ a, ∀ n ∈ namesFor exDoc a, n.1 = none := by intro a; cases a <;> decide
  exact key _ n hn

/-! Where the code departs from XPath -/

/-- A name without a prefix matches elements in a namespace. -/
theorem C45_refuted_namespace :
    let doc := Elem.mk (some (s!! "urn:x"), s!! "a") [] []
    let p := Loc.rel (.one ⟨.child, .name (s!! "a")⟩)
    pushtree id p [] 1 doc = .ok (some [[0]]) ∧ ¬ Selects [doc] p (.tree [0]) := by
  refine ⟨by rfl, ?_⟩
  rintro ⟨x, _, n, ⟨e, he, hn⟩, hm⟩
  have he : some (Elem.mk (some (s!! "urn:x"), s!! "a") [] []) = some e := he
  injection he with he
  subst he
  rw [show n = (none, s!! "a") from hm] at hn
  simp [name] at hn

/-- `*/b` for `<r><b><b/></b></r>`: once `b` is reached, the test `*` is no longer made for it, and the `b` in it is
missed. -/
theorem C45_refuted_wildcard :
    let doc := Elem.mk (none, s!! "r") [] [.mk (none, s!! "b") [] [.mk (none, s!! "b") [] []]]
    let p := Loc.rel (.slash (.one ⟨.child, .any⟩) ⟨.child, .name (s!! "b")⟩)
    Supported p ∧ Plain doc (steps p) ∧ Selects [doc] p (.tree [0, 0, 0]) ∧
    ∃ l, pushtree id p [] 1 doc = .ok (some l) ∧ [0, 0, 0] ∉ l := by
  refine ⟨⟨rfl, by simp⟩, ?_, ?_, [[0, 0]], by rfl, by decide⟩
  · intro s hs n hn ln h1 h2
    have key : ∀ a, ∀ n ∈ namesFor (Elem.mk (none, s!! "r") [] [.mk (none, s!! "b") [] [.mk (none, s!! "b") [] []]]) a, n.1 = none := by
      intro a; cases a <;> decide
    exact key _ n hn
  · refine ⟨.tree [0], .tree [0, 0], ⟨?_, (none, s!! "b"), ⟨_, rfl, rfl⟩, trivial⟩, ?_, (none, s!! "b"), ⟨_, rfl, rfl⟩, rfl⟩
    · exact OnAxis.child (p := [0]) (i := 0)
    · exact OnAxis.child (p := [0, 0]) (i := 0)

/-- `//a//b` selects only children of `a`. -/
theorem C45_refuted_descendant :
    let doc := Elem.mk (none, s!! "a") [] [.mk (none, s!! "c") [] [.mk (none, s!! "b") [] []]]
    let p := Loc.dabs (.dslash (.one ⟨.child, .name (s!! "a")⟩) ⟨.child, .name (s!! "b")⟩)
    Selects [doc] p (.tree [0, 0, 0]) ∧ pushtree id p [] 1 doc = .ok (some []) := by
  refine ⟨?_, by rfl⟩
  refine ⟨.tree [], Or.inl rfl, .tree [0], .tree [0, 0], ⟨OnAxis.child (p := []) (i := 0), (none, s!! "a"), ⟨_, rfl, rfl⟩, rfl⟩,
    Or.inr (OnAxis.descendant (p := [0]) (q := [0]) (by simp)), OnAxis.child (p := [0, 0]) (i := 0), (none, s!! "b"), ⟨_, rfl, rfl⟩, rfl⟩

/-- `a//b`, `//@x` and `/a/@x` raise `AssertionError`, whatever the document and the names. -/
theorem C45_refuted_assertions (ord : List Nat → List Nat) (n : Nat) (doc : Elem) (s t : SrcTest) (r : Rel) (a : SrcStep) :
    pushtree ord (.rel (.dslash r a)) [] n doc = .error .assertion ∧
    pushtree ord (.dabs (.one ⟨.attribute, t⟩)) [] n doc = .error .assertion ∧
    pushtree ord (.abs (.slash (.one ⟨.child, s⟩) ⟨.attribute, t⟩)) [] n doc = .error .assertion := by
  refine ⟨rfl, rfl, rfl⟩

/-- `@x` raises `ValueError` at the first element of every document. -/
theorem C45_refuted_attribute (n : Nat) (doc : Elem) (t : SrcTest) :
    pushtree id (.rel (.one ⟨.attribute, t⟩)) [] n doc = .error .valueError := by
  have hm : ∃ m, toNfa (.rel (.one ⟨.attribute, t⟩)) [] n = .ok m ∧ m.start = [(n, .attr (toNameTest t)), (n + 1, .any)] :=
    ⟨_, rfl, rfl⟩
  obtain ⟨m, h1, hs⟩ := hm
  obtain ⟨done, h2, hd⟩ := nfaToDfa_ok id m
  have hbuild : ∀ st ∈ done, ∃ y, buildState m done st = some y := by
    intro st hst
    obtain ⟨s, tb⟩ := st
    have ht := hd.table _ hst
    simp only at ht
    subst ht
    obtain ⟨l, hl⟩ : ∃ l, nodeOps (number m done) (tableOf id m s).node = some l := by
      have hc := node_chain (allTransitions id m s)
      cases htr : (tableOf id m s).node with
      | leaf l =>
        cases l with
        | nil => exact ⟨_, rfl⟩
        | cons x l => exact ⟨_, rfl⟩
      | branch u a b => exact ⟨_, htr ▸ nodeOps_chain (number m done) hc (fun l hl => by
          rw [show (makeTable (allTransitions id m s)).node = .branch u a b from htr] at hl; cases hl)⟩
    obtain ⟨l', hl'⟩ := attrOps_some (number m done) (attr_chain (allTransitions id m s)).1
    exact ⟨⟨s.any (· ∈ m.terminal), l, l'⟩, by
      unfold buildState
      simp only [hl, show attrOps (number m done) (tableOf id m s).attr = some l' from hl']⟩
  obtain ⟨mc, h3, h4⟩ := mapM_get (buildState m done) done hbuild
  obtain ⟨tb, rest, hdone⟩ := hd.first
  have htb := hd.table ([0], tb) (by rw [hdone]; simp)
  have hnode : tb.node = .leaf [n + 1] := by
    simp only at htb
    rw [htb, tableOf, allTransitions]
    simp [hs, makeTable, Table.add, addLeaves]
  have hops : (mc[0]?.map MState.nodeOps).getD [] = [.short (-(number m done [n + 1] : Int))] := by
    obtain ⟨y, hy⟩ := hbuild ([0], tb) (by rw [hdone]; simp)
    have hd0 : done[0]? = some ([0], tb) := by rw [hdone]; rfl
    rw [h4, hd0, Option.bind_some, hy]
    unfold buildState at hy
    simp only [hnode, nodeOps] at hy
    split at hy
    · rename_i a b e1 e2
      injection e1 with e1
      injection hy with hy
      subst hy e1
      rfl
    · cases hy
  obtain ⟨nm, as, cs⟩ := doc
  have hstart : startElement mc (some 0) [0] nm as = .error .valueError := by
    unfold startElement
    simp only [hops]
    rfl
  unfold pushtree compile
  simp only [h1, h2, Option.bind_some, h3, eventsAll, events, List.nil_append, List.cons_append, runMachine,
    List.headD_cons, hstart]

end Verif.Push
