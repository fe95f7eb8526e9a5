/-
C91: validation against an examplotron model accepts exactly the documents
that follow the example.
-/
import Verif.Eg.Lemmas

namespace Verif.Eg
open Verif.Write (UStr)
open Verif.Eg.Spec

/-- **C91 (validation).**  For every example without optional elements whose
elements are in no namespace or in default namespaces, and every document
bound with it that is so too: `xml_validate` on the document raises nothing
exactly if the document follows the example - every element has the children
the example shows for its name, each as often as `eg:occurs` says, and no
others.  Missing: optional elements, prefixes, and elements of one name that
differ by where they stand - see the refutations. -/
theorem C91_validate_partial (xs : List Ex) (ks : List Doc) (hp : Plain xs) (hd : PlainDoc xs ks)
    (ho : NoOptional xs) :
    xmlValidate (exampleModel xs) (.root ks) = .ok () ↔ Follows xs ks := by
  have top_nss : ∀ x, InEx xs x → Unbound x.name (xs.flatMap Ex.nss) := by
    intro x hx u hu p hm
    obtain ⟨y, hy, hm⟩ := List.mem_flatMap.1 hm
    exact hp.prefixes x hx u hu y (.here hy) p hm
  have top_dns : ∀ x, InEx xs x → Unbound x.name (ks.flatMap Doc.nss) := by
    intro x hx u hu p hm
    obtain ⟨y, hy, hm⟩ := List.mem_flatMap.1 hm
    exact hd.prefixes x hx u hu y (.here hy) p hm
  have deep : ∀ x y, InEx xs x → y ∈ x.kids → InEx xs y := fun _ _ => inEx_kid
  rw [xmlValidate, validateAll_ok]
  have node : ∀ n, Under (.root ks) n → (validateNode (exampleModel xs) n = .ok () ↔
      ∀ c, (n.key, c) ∈ exampleModel xs → holds n.nss n.kids c = .ok true) := by
    intro n hn
    have ht : n.truthy = true := by
      rcases hn with rfl | ⟨d, rfl, h⟩
      · rfl
      · simp [Node.truthy, hd.noPrefix d h]
    rw [validateNode, if_pos ht, checkAll_ok]
    exact forall_congr' fun c => by rw [mem_constraintsOf]
  have elem : ∀ x d, InEx xs x → InDoc ks d →
      ((∀ c, Adds (some x.name) x.nss x.kids (some x.name, c) → holds d.nss d.kids c = .ok true) ↔
        Like x.kids d.kids) := by
    intro x d hx hdd
    refine holds_adds (fun y hy => ⟨fun u hu p => hp.prefixes y (deep x y hx hy) u hu x hx p,
      hp.nonempty y (deep x y hx hy)⟩) (fun y hy u hu p => ?_) (fun y hy => ho y (deep x y hx hy))
    exact hd.prefixes y (deep x y hx hy) u hu d hdd p
  have root : (∀ c, Adds none (xs.flatMap Ex.nss) xs (none, c) →
      holds (ks.flatMap Doc.nss) ks c = .ok true) ↔ Like xs ks :=
    holds_adds (fun y hy => ⟨top_nss y (.here hy), hp.nonempty y (.here hy)⟩)
      (fun y hy => top_dns y (.here hy)) (fun y hy => ho y (.here hy))
  constructor
  · intro h
    refine ⟨?_, fun d hdd x hx hn => ?_⟩
    · have h0 := (node (.root ks) (.inl rfl)).1 (h _ ((mem_iter _ _).2 (.inl rfl)))
      exact root.1 fun c hc => h0 c ((mem_exampleModel _ _).2 (.inl hc))
    · have h0 := (node (.el d) (.inr ⟨d, rfl, hdd⟩)).1
        (h _ ((mem_iter _ _).2 (.inr ⟨d, rfl, hdd⟩)))
      refine (elem x d hx hdd).1 fun c hc => h0 c ?_
      rw [mem_exampleModel]
      refine .inr ⟨x, hx, ?_⟩
      simpa only [Node.key, ← hn] using hc
  · rintro ⟨ht, hi⟩ n hn
    have hu := (mem_iter _ _).1 hn
    rw [node n hu]
    intro c hc
    rcases hu with rfl | ⟨d, rfl, hdd⟩
    · rcases (mem_exampleModel _ _).1 hc with ha | ⟨x, _, ha⟩
      · exact root.2 ht c ha
      · exact absurd (key_adds ha) (by simp [Node.key])
    · rcases (mem_exampleModel _ _).1 hc with ha | ⟨x, hx, ha⟩
      · exact absurd (key_adds ha) (by simp [Node.key])
      · have hk : d.name = x.name := Option.some.inj (key_adds ha)
        refine (elem x d hx hdd).2 (hi d hdd x hx hk.symm) c ?_
        simpa only [Node.key, hk] using ha

/-- **C91 (the example itself).**  An example whose elements of one name have
the same children everywhere, and that shows its elements as often as it
says, is accepted by its own model (under the conditions above). -/
theorem C91_self_partial (xs : List Ex) (hp : Plain xs) (ho : NoOptional xs) (hc : Consistent xs)
    (h1 : OnceEach xs) : xmlValidate (exampleModel xs) (.root (asDocs xs)) = .ok () := by
  rw [asDocs_eq]
  have hd : PlainDoc xs (xs.map asDoc) := by
    constructor
    · intro d h
      obtain ⟨x, _, rfl⟩ := inDoc_asDocs h xs rfl
      exact asDoc_pre x
    · intro x hx u hu d h p
      obtain ⟨y, hy, rfl⟩ := inDoc_asDocs h xs rfl
      rw [asDoc_nss]
      exact hp.prefixes x hx u hu y hy p
  rw [C91_validate_partial xs _ hp hd ho]
  have known : ∀ ys zs : List Ex, ys.map Ex.name = zs.map Ex.name →
      ∀ d ∈ zs.map asDoc, ∃ x ∈ ys, x.name = d.name := by
    intro ys zs h d hd
    obtain ⟨z, hz, rfl⟩ := List.mem_map.1 hd
    have : z.name ∈ ys.map Ex.name := h ▸ List.mem_map.2 ⟨z, hz, rfl⟩
    obtain ⟨y, hy, hn⟩ := List.mem_map.1 this
    exact ⟨y, hy, hn.trans (asDoc_name z).symm⟩
  refine ⟨⟨fun x hx => ?_, known xs xs rfl⟩, fun d hdd x hx hn => ?_⟩
  · rw [occurrences_asDoc]
    exact h1.1 x hx
  · obtain ⟨y, hy, rfl⟩ := inDoc_asDocs hdd xs rfl
    rw [asDoc_name] at hn
    have hk := hc x y hx hy hn
    rw [asDoc_kids]
    refine ⟨fun z hz => ?_, known _ _ hk⟩
    rw [occurrences_asDoc, ← filter_names _ _ _ hk]
    exact h1.2 x hx z hz

/-- **C91 (iteration).**  For every document or element, the iteration over
its elements that validation uses meets each of them - and the document or
element itself - exactly once. -/
theorem C91_subtree (n : Node) : (elementSubtreeIter n).Perm
    (match n with
     | .root ks => .root ks :: (docOrders ks).map .el
     | .el d => (docOrder d).map .el) := by
  have h := iter_perm n
  cases n <;> exact h

/-! ### Where the code does not do it -/

private def nm (l : UStr) : Name := ⟨none, l⟩
private def ex (l : UStr) (ks : List Ex) : Ex := .elem (nm l) none [] ks
private def doc (l : UStr) (ks : List Doc) : Doc := .elem none (nm l) [] ks

/-- An optional element that is absent: `<a/>` follows the example
`<a><b eg:occurs="?"/></a>`, but is rejected because `b` must occur once. -/
theorem C91_refuted_optional : ∃ xs ks, Plain xs ∧ PlainDoc xs ks ∧ Follows xs ks ∧
    xmlValidate (exampleModel xs) (.root ks) = .error (.violation (.one (.plain (u!! "b")))) := by
  let b : Ex := .elem (nm (u!! "b")) (some (u!! "?")) [] []
  have hall : ∀ x, InEx [ex (u!! "a") [b]] x → x = ex (u!! "a") [b] ∨ x = b := by
    intro x hx
    simpa [b, ex, exAlls, exAll] using (mem_exAlls _ _).2 hx
  have hdall : ∀ d, InDoc [doc (u!! "a") []] d → d = doc (u!! "a") [] := by
    intro d hd
    simpa [doc, docOrders, docOrder] using (mem_docOrders _ _).2 hd
  refine ⟨[ex (u!! "a") [b]], [doc (u!! "a") []], ⟨?_, ?_⟩, ⟨?_, ?_⟩, ⟨⟨?_, ?_⟩, ?_⟩, by rfl⟩
  · intro x hx u hu
    rcases hall x hx with rfl | rfl <;> exact absurd hu nofun
  · intro x hx
    rcases hall x hx with rfl | rfl <;> exact nofun
  · intro d hd
    rw [hdall d hd]; rfl
  · intro x hx u hu
    rcases hall x hx with rfl | rfl <;> exact absurd hu nofun
  · intro x hx
    rw [List.mem_singleton.1 hx]
    decide
  · intro d hd
    rw [List.mem_singleton.1 hd]
    exact ⟨_, List.mem_singleton.2 rfl, rfl⟩
  · intro d hd x hx hn
    rw [hdall d hd] at hn ⊢
    rcases hall x hx with rfl | rfl
    · refine ⟨fun y hy => ?_, fun d hd => absurd hd (by simp [doc, Doc.kids])⟩
      have : y = b := by simpa [ex, Ex.kids] using hy
      subst this
      decide
    · exact absurd hn (by decide)

/-- Constraints are per name, not per place: the example
`<a><b><c/></b><d><b/></d></a>` does not accept itself. -/
theorem C91_refuted_self : ∃ xs, Plain xs ∧ NoOptional xs ∧ OnceEach xs ∧
    xmlValidate (exampleModel xs) (.root (asDocs xs)) ≠ .ok () := by
  let xs := [ex (u!! "a") [ex (u!! "b") [ex (u!! "c") []], ex (u!! "d") [ex (u!! "b") []]]]
  have hns : ∀ x ∈ exAlls xs, x.name.ns = none := by decide
  have hoc : ∀ x ∈ exAlls xs, x.occurs ≠ some (u!! "?") := by decide
  have hon : ∀ e ∈ exAlls xs, ∀ x ∈ e.kids,
      x.occurs = none ∧ (e.kids.filter fun y => y.name = x.name).length = 1 := by decide
  have hal : ∀ (x : Ex) n, x.occurs = none → n = 1 → Allowed x.occurs n := by
    intro x n h hn
    rw [h, hn]
    decide
  refine ⟨xs, ⟨?_, ?_⟩, ?_, ⟨?_, ?_⟩, by intro h; cases h⟩
  · intro x hx u hu
    rw [hns x ((mem_exAlls _ _).2 hx)] at hu
    exact absurd hu nofun
  · intro x hx
    rw [hns x ((mem_exAlls _ _).2 hx)]
    exact nofun
  · intro x hx
    exact hoc x ((mem_exAlls _ _).2 hx)
  · intro x hx
    rw [List.mem_singleton.1 hx]
    decide
  · intro e he x hx
    have := hon e ((mem_exAlls _ _).2 he) x hx
    exact hal x _ this.1 this.2

/-- Prefixes: a document that is the same as the example
`<p:a xmlns:p="u"/>` overflows the stack, and `<a xmlns="u"/>`, which is the
same document, is refused because `p` is not bound in it. -/
theorem C91_refuted_prefix :
    let n : Name := ⟨some (u!! "u"), u!! "a"⟩
    let nss : Nss := [(some (u!! "p"), u!! "u")]
    let xs : List Ex := [.elem n none nss []]
    Follows xs [.elem (some (u!! "p")) n nss []] ∧
    xmlValidate (exampleModel xs) (.root [.elem (some (u!! "p")) n nss []]) = .error .recursion ∧
    Follows xs [.elem none n [(none, u!! "u")] []] ∧
    xmlValidate (exampleModel xs) (.root [.elem none n [(none, u!! "u")] []]) =
      .error (.undefinedPrefix (u!! "p")) := by
  have key : ∀ (n : Name) (nss : Nss) (d : Doc), d.name = n → d.kids = [] →
      Follows [.elem n none nss []] [d] := by
    intro n nss d hn hk
    refine ⟨⟨fun x hx => ?_, fun e he => ?_⟩, fun e he x hx _ => ?_⟩
    · rw [List.mem_singleton.1 hx]
      simp [Allowed, occurrences, Ex.occurs, Ex.name, hn]
    · rw [List.mem_singleton.1 he]
      exact ⟨_, List.mem_singleton.2 rfl, hn.symm⟩
    · have hx' : x = .elem n none nss [] := by
        simpa [exAlls, exAll] using (mem_exAlls _ _).2 hx
      have he' : e = d := by
        have := (mem_docOrders _ _).2 he
        cases d with
        | elem p m s ks =>
          simp only [Doc.kids] at hk
          subst hk
          simpa [docOrders, docOrder] using this
      subst hx' he'
      rw [hk]
      exact ⟨fun y hy => absurd hy (by simp [Ex.kids]), fun y hy => absurd hy (by simp)⟩
  exact ⟨key _ _ _ rfl rfl, rfl, key _ _ _ rfl rfl, rfl⟩

/-- The iteration is documented to be in document order, and is not: in
`<a><b><c/></b><d><e/></d></a>` it meets `a b d e c`. -/
theorem C91_refuted_order : ∃ d : Doc,
    (elementSubtreeIter (.el d)).map Node.key ≠ (docOrder d).map fun e => some e.name :=
  ⟨doc (u!! "a") [doc (u!! "b") [doc (u!! "c") []], doc (u!! "d") [doc (u!! "e") []]], by decide⟩

/-! ### The hypotheses are met -/

private def someEx : List Ex :=
  [ex (u!! "labels") [.elem (nm (u!! "label")) (some (u!! "*")) []
    [ex (u!! "name") [], ex (u!! "address") [.elem (nm (u!! "street")) (some (u!! "+")) [] []]]]]

private theorem someEx_plain : Plain someEx := by
  have hns : ∀ x ∈ exAlls someEx, x.name.ns = none := by decide
  constructor
  · intro x hx u hu
    rw [hns x ((mem_exAlls _ _).2 hx)] at hu
    exact absurd hu nofun
  · intro x hx
    rw [hns x ((mem_exAlls _ _).2 hx)]
    exact nofun

private theorem someEx_mandatory : NoOptional someEx := by
  have hoc : ∀ x ∈ exAlls someEx, x.occurs ≠ some (u!! "?") := by decide
  exact fun x hx => hoc x ((mem_exAlls _ _).2 hx)

/-- A document with no label at all follows the example, one whose label
lacks a street does not. -/
example : Follows someEx [doc (u!! "labels") []] ∧
    ¬ Follows someEx [doc (u!! "labels") [doc (u!! "label")
      [doc (u!! "name") [], doc (u!! "address") []]]] := by
  have hns : ∀ x ∈ exAlls someEx, x.name.ns = none := by decide
  have plainDoc : ∀ ks, (∀ d ∈ docOrders ks, d.pre = none) → PlainDoc someEx ks := by
    intro ks h
    refine ⟨fun d hd => h d ((mem_docOrders _ _).2 hd), fun x hx u hu => ?_⟩
    rw [hns x ((mem_exAlls _ _).2 hx)] at hu
    exact absurd hu nofun
  constructor
  · exact (C91_validate_partial _ _ someEx_plain (plainDoc _ (by decide)) someEx_mandatory).1 rfl
  · intro h
    have := (C91_validate_partial _ _ someEx_plain (plainDoc _ (by decide)) someEx_mandatory).2 h
    cases this

example : Consistent someEx ∧ OnceEach someEx := by
  have hc : ∀ x ∈ exAlls someEx, ∀ y ∈ exAlls someEx, x.name = y.name →
      x.kids.map Ex.name = y.kids.map Ex.name := by decide
  refine ⟨fun x y hx hy => hc x ((mem_exAlls _ _).2 hx) y ((mem_exAlls _ _).2 hy), ?_, ?_⟩
  · intro x hx
    rw [List.mem_singleton.1 hx]
    decide
  · have hon : ∀ e ∈ exAlls someEx, ∀ x ∈ e.kids,
        (x.occurs = none ∨ x.occurs = some (u!! "*") ∨ x.occurs = some (u!! "+")) ∧
        (e.kids.filter fun y => y.name = x.name).length = 1 := by decide
    intro e he x hx
    obtain ⟨h, h1⟩ := hon e ((mem_exAlls _ _).2 he) x hx
    rw [h1]
    rcases h with h | h | h <;> rw [h] <;> decide

end Verif.Eg
