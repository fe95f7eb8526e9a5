import Verif.XUpdate.InstLemmas
/-
C90: the content of an XUpdate command makes the nodes, or the string, that it stands for.
-/
namespace Verif.XUpdate.Read
open Verif Verif.Content Verif.XUpdate.Read.Spec
open Verif.Write (UStr)

/-- The result of making nodes or a string, without the context. -/
def made {α : Type} : Except IErr (α × Ctx) → Except IErr α
  | .ok (a, _) => .ok a
  | .error e => .error e

/-- Content written to a tree makes the children that its pieces stand for, or raises the error of its first
instruction that has one; whatever the context was.  (Except where an `xupdate:text` does not have one run of text in it:
`C90_refuted_text`.) -/
theorem C90_tree_partial (ev : Ev) (items : List Item) (c : Ctx) (hp : plainAll items = true) :
    made (makeTree ev items c) = (piecesAll ev items).map children := by
  have h := instAll_spec ev items c.nss (.tree ⟨[], [], []⟩) c.writers hp
  rw [makeTree]
  cases hq : piecesAll ev items with
  | error e =>
    rw [hq] at h
    simp only [Writes] at h
    rw [h]; rfl
  | ok ps =>
    rw [hq] at h
    obtain ⟨nss, h⟩ := h
    rw [h, puts_tree]
    simp only [fold_root]
    rfl

/-- Content written to a string makes the string of its pieces. -/
theorem C90_string_partial (ev : Ev) (items : List Item) (c : Ctx) (hp : plainAll items = true) :
    made (makeString ev items c) = (piecesAll ev items).map string := by
  have h := instAll_spec ev items c.nss (.string []) c.writers hp
  rw [makeString, Ctx.pushString]
  cases hq : piecesAll ev items with
  | error e =>
    rw [hq] at h
    simp only [Writes] at h
    rw [h]; rfl
  | ok ps =>
    rw [hq] at h
    obtain ⟨nss, h⟩ := h
    rw [h, puts_string]
    rfl

/-- Writing content leaves the writers that were there as they were. -/
theorem C90_writers_partial (ev : Ev) (items : List Item) (c : Ctx) (hp : plainAll items = true) (os : List Out) (c' : Ctx)
    (h : makeTree ev items c = .ok (os, c')) : c'.writers = c.writers := by
  have hi := instAll_spec ev items c.nss (.tree ⟨[], [], []⟩) c.writers hp
  rw [makeTree] at h
  cases hq : piecesAll ev items with
  | error e =>
    rw [hq] at hi
    simp only [Writes] at hi
    rw [hi] at h
    cases h
  | ok ps =>
    rw [hq] at hi
    obtain ⟨nss, hi⟩ := hi
    rw [hi, puts_tree] at h
    dsimp only at h
    have := Except.ok.inj h
    rw [← (Prod.mk.inj this).2]

/-- Text before, between and after attributes is one node; attributes come with the element, whatever text is
before them. -/
theorem C90_attribute (as : List OAttr) (s : UStr) (l : List Piece) (hs : s ≠ []) (hl : ∀ p ∈ l, p.isNode = true) :
    children (as.map .attr ++ .text s :: l) = .text s :: children l ∧
    attributes (as.map .attr ++ .text s :: l) = as.foldl (fun l a => setAttr a l) [] := by
  have hc : ∀ (as : List OAttr) (b : UStr) (r : List Piece), childrenFrom b (as.map Piece.attr ++ r) = childrenFrom b r := by
    intro as b r
    induction as with
    | nil => rfl
    | cons a as ih => simp only [List.map_cons, List.cons_append, childrenFrom, ih]
  have ht : ∀ as : List OAttr, ((as.map Piece.attr ++ Piece.text s :: l).takeWhile fun p => !p.isNode).filterMap Piece.attr? = as := by
    intro as
    induction as with
    | nil =>
      cases l with
      | nil => rfl
      | cons p l =>
        have := hl p (by simp)
        simp [List.takeWhile_cons, this, Piece.attr?]
    | cons a as ih =>
      simp only [List.map_cons, List.cons_append, List.takeWhile_cons, isNode_attr, Bool.not_false, if_true, List.filterMap_cons]
      rw [ih]
      rfl
  constructor
  · rw [children, hc]
    simp only [childrenFrom, List.nil_append, children]
    cases l with
    | nil => simp [childrenFrom, textNode, hs]
    | cons p l =>
      have := hl p (by simp)
      cases p with
      | attr a => cases this
      | text t => cases this
      | node o => simp [childrenFrom, textNode, hs]
  · rw [attributes, ht]

theorem setAttr_other (a : OAttr) {x : OAttr} (hx : ¬ SameName x a) {l : List OAttr} (h : ∀ b ∈ l, ¬ SameName x b) :
    ∀ b ∈ setAttr a l, ¬ SameName x b := by
  induction l with
  | nil => simpa [setAttr] using hx
  | cons c l ih =>
    simp only [setAttr]
    have hc := h c (by simp)
    have hl := fun b hb => h b (List.mem_cons_of_mem _ hb)
    split
    · intro b hb
      rcases List.mem_cons.mp hb with rfl | hb
      · exact hx
      · exact hl b hb
    · intro b hb
      rcases List.mem_cons.mp hb with rfl | hb
      · exact hc
      · exact ih hl b hb

theorem setAttr_spec (a : OAttr) {l : List OAttr} (h : l.Pairwise fun x y => ¬ SameName x y) :
    (setAttr a l).Pairwise (fun x y => ¬ SameName x y) ∧ ∀ b, b ∈ setAttr a l ↔ b = a ∨ (b ∈ l ∧ ¬ SameName b a) := by
  induction l with
  | nil => simp [setAttr]
  | cons c l ih =>
    obtain ⟨hc, hl⟩ := List.pairwise_cons.mp h
    obtain ⟨i1, i2⟩ := ih hl
    simp only [setAttr]
    split
    · rename_i he
      have hs : SameName c a := he
      have ho : ∀ b ∈ l, ¬ SameName b a := fun b hb hba => hc b hb ⟨hs.1.trans hba.1.symm, hs.2.trans hba.2.symm⟩
      refine ⟨List.pairwise_cons.mpr ⟨fun b hb hab => ho b hb ⟨hab.1.symm, hab.2.symm⟩, hl⟩, fun b => ?_⟩
      simp only [List.mem_cons]
      constructor
      · rintro (rfl | hb)
        · exact .inl rfl
        · exact .inr ⟨.inr hb, ho b hb⟩
      · rintro (rfl | ⟨rfl | hb, hn⟩)
        · exact .inl rfl
        · exact absurd hs hn
        · exact .inr hb
    · rename_i he
      have hs : ¬ SameName c a := he
      refine ⟨List.pairwise_cons.mpr ⟨setAttr_other a hs hc, i1⟩, fun b => ?_⟩
      simp only [List.mem_cons, i2]
      constructor
      · rintro (rfl | rfl | ⟨hb, hn⟩)
        · exact .inr ⟨.inl rfl, hs⟩
        · exact .inl rfl
        · exact .inr ⟨.inr hb, hn⟩
      · rintro (rfl | ⟨rfl | hb, hn⟩)
        · exact .inr (.inl rfl)
        · exact .inl rfl
        · exact .inr (.inr ⟨hb, hn⟩)

/-- An element has one attribute of each name, and of several attributes of a name among the pieces before the first node
it is the last. -/
theorem C90_later (l : List Piece) :
    (attributes l).Pairwise (fun a b => ¬ SameName a b) ∧
    ∀ a, a ∈ attributes l ↔ ∃ before after, (l.takeWhile fun p => !p.isNode).filterMap Piece.attr? = before ++ a :: after ∧
      ∀ b ∈ after, ¬ SameName a b := by
  rw [attributes]
  generalize (l.takeWhile fun p => !p.isNode).filterMap Piece.attr? = as
  have key : ∀ (as l : List OAttr), l.Pairwise (fun x y => ¬ SameName x y) →
      (as.foldl (fun l a => setAttr a l) l).Pairwise (fun x y => ¬ SameName x y) ∧
      ∀ a, a ∈ as.foldl (fun l a => setAttr a l) l ↔
        (a ∈ l ∧ ∀ b ∈ as, ¬ SameName a b) ∨ ∃ before after, as = before ++ a :: after ∧ ∀ b ∈ after, ¬ SameName a b := by
    intro as
    induction as with
    | nil => intro l h; exact ⟨h, fun a => by simp⟩
    | cons c as ih =>
      intro l h
      obtain ⟨s1, s2⟩ := setAttr_spec c h
      obtain ⟨i1, i2⟩ := ih (setAttr c l) s1
      refine ⟨i1, fun a => ?_⟩
      rw [List.foldl_cons, i2, s2]
      constructor
      · rintro (⟨rfl | ⟨h1, h2⟩, h3⟩ | ⟨b, r, rfl, h3⟩)
        · exact .inr ⟨[], as, rfl, h3⟩
        · refine .inl ⟨h1, fun b hb => ?_⟩
          rcases List.mem_cons.mp hb with rfl | hb
          · exact h2
          · exact h3 b hb
        · exact .inr ⟨c :: b, r, rfl, h3⟩
      · rintro (⟨h1, h2⟩ | ⟨b, r, he, h3⟩)
        · exact .inl ⟨.inr ⟨h1, h2 c (by simp)⟩, fun b hb => h2 b (List.mem_cons_of_mem _ hb)⟩
        · cases b with
          | nil => obtain ⟨rfl, rfl⟩ := List.cons.inj he; exact .inl ⟨.inl rfl, h3⟩
          | cons x b => obtain ⟨rfl, rfl⟩ := List.cons.inj he; exact .inr ⟨b, r, rfl, h3⟩
  obtain ⟨h1, h2⟩ := key as [] .nil
  exact ⟨h1, fun a => by rw [h2]; simp⟩

example : attributes [.attr ⟨u!! "a", none, u!! "1"⟩, .attr ⟨u!! "b", none, u!! "2"⟩, .attr ⟨u!! "a", none, u!! "3"⟩] =
    [⟨u!! "a", none, u!! "3"⟩, ⟨u!! "b", none, u!! "2"⟩] := by decide +kernel

/-! ### Cases -/

namespace Sample2
def nss : Nss := [(some (u!! "p"), some (u!! "urn:1")), (none, none)]
def nss2 : Nss := [(some (u!! "p"), some (u!! "urn:2")), (none, none)]
/-- Templates are as they are, `@a` is an attribute, `b` an element with a text, everything else a string. -/
def ev : Ev where
  avt _ s := .ok s
  value _ s :=
    if s = u!! "@a" then .ok (.nodes [.attr ⟨u!! "a", none, u!! "v"⟩])
    else if s = u!! "b" then .ok (.nodes [.elem (u!! "b") none [] [⟨u!! "c", none, u!! "d"⟩] [.text (u!! "e")]])
    else .ok (.str s)
def c0 : Ctx := ⟨[], []⟩
/-- An element with an attribute, text, a copy, a comment. -/
def content : List Item :=
  [.text (u!! "x"), .node .text [.text (u!! "y")],
   .node (.element nss (u!! "p:f")) [.node (.attribute nss (u!! "g")) [.text (u!! "h"), .node (.valueOf nss (u!! "b")) []],
     .text (u!! "i"), .node (.valueOf nss (u!! "b")) [], .node .comment [.text (u!! "j")]]]
end Sample2
open Sample2

example : plainAll content = true := by decide +kernel
example : made (makeTree ev content c0) = .ok [.text (u!! "xy"), .elem (u!! "p:f") (some (u!! "urn:1")) []
    [⟨u!! "g", none, u!! "he"⟩] [.text (u!! "i"), .elem (u!! "b") none [] [⟨u!! "c", none, u!! "d"⟩] [.text (u!! "e")],
      .comment (u!! "j")]] := by rfl
example : made (makeString ev content c0) = .ok (u!! "xyie") := by rfl

/-- An `xupdate:text` without text raises IndexError, and of text with a comment in it only the part before the comment is
written. -/
theorem C90_refuted_text :
    made (makeTree ev [.node .text []] c0) = .error .indexError ∧
    made (makeTree ev [.node .text [.text (u!! "a"), .text (u!! "b")]] c0) = .ok [.text (u!! "a")] ∧
    (piecesAll ev [.node .text [.text (u!! "a"), .text (u!! "b")]]).map children = .ok [.text (u!! "ab")] :=
  ⟨rfl, rfl, rfl⟩

/-- `value-of` of an attribute inside of `attribute`, `comment` or `update` of an attribute gives nothing, not the value of
the attribute. -/
theorem C90_refuted_attribute :
    made (makeString ev [.node (.valueOf nss (u!! "@a")) []] c0) = .ok [] := by rfl

/-- The expression of the `child` attribute of `append` is not evaluated with the namespaces where it stands, but with
those of the last instruction in the content. -/
theorem C90_refuted_child :
    (childNss ev nss [.node (.valueOf nss2 (u!! "b")) []] c0).toOption = some nss2 ∧ nss2 ≠ nss :=
  ⟨rfl, by decide⟩

/-- A name that is not a QName raises AttributeError: there is no `XUpdateError.INVALID_QNAME_ATTR`. -/
theorem C90_refuted_name :
    made (makeTree ev [.node (.element nss (u!! "1")) []] c0) = .error .attributeError := by rfl

end Verif.XUpdate.Read
