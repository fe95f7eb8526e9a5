import Verif.Path.Walk
/-
C93: the expression that `abspath` gives for a node selects this node.
-/
namespace Verif.Path
open Verif Verif.XPath Verif.Dom Verif.Dom.Spec Verif.Eval Verif.Eval.Spec Verif.Parse Verif.Parse.Spec Verif.Path.Spec

/-- The text compiles to an expression that, with the namespaces of `env`, has these node-sets as values wherever in the
document it is evaluated. -/
def Selects (d : Doc) (r : Nat) (env : Env) (s : Str) (P : List Nat → Prop) : Prop :=
  ∃ e x, compileExpr s = .ok e ∧ resolve d.R env e = some x ∧
    ∀ c, InDoc d r c → ∀ p k v, Means d x c p k v → ∃ l, v = .nodes l ∧ P l

/-- The same, and there is a value everywhere. -/
def Gives (d : Doc) (r : Nat) (env : Env) (s : Str) (l : List Nat) : Prop :=
  ∃ e x, compileExpr s = .ok e ∧ resolve d.R env e = some x ∧
    ∀ c, InDoc d r c → ∀ p k v, Means d x c p k v ↔ v = .nodes l

section
variable {d : Doc} {r n : Nat} {m : Names} {hints : List (Option Str × Str)} {env : Env} {long : Bool}
  {order : List (Option Str × Str) → List (Option Str × Str)}

theorem meaning_path {steps : List AStep} {ls : List LStep} {ts : List Tok} {s : Str} (w : DocWF d r) (he : EnvIn d r env)
    (hl : Lexes false s ts) (hn : ts.length < 500) (hs : Says .absoluteLocationPath ts (.expr (.path true steps)))
    (hr : resolveSteps d.R env steps = some ls) :
    ∃ e x, compileExpr s = .ok e ∧ resolve d.R env e = some x ∧
      ∀ c, InDoc d r c → ∀ p k v, Means d x c p k v ↔
        ∃ l, v = .nodes l ∧ Sorted d l ∧ ∀ y, y ∈ l ↔ Reaches d ls r y := by
  obtain ⟨e, h1, h2⟩ := C66_meaning_partial s ts hl hn (.path true steps)
    (.p14 (.p21a (.p22a (.p23a (.p24a (.p25a (.p26a (.p27a (.p18a (.p19a (.p1b hs)))))))))))
  obtain ⟨x, h3, h4⟩ := h2 d r w env he (.path true ls) (by simp [resolve, hr])
  refine ⟨e, x, h1, h3, fun c hc p k v => ?_⟩
  rw [h4 c hc]
  simp only [Means, StartNode, if_true]
  have key : ∀ y, (∃ z, Root d.h z c ∧ Reaches d ls z y) ↔ Reaches d ls r y := by
    intro y
    constructor
    · rintro ⟨z, hz, h⟩; rw [root_unique hc.1 hz]; exact h
    · intro h; exact ⟨r, hc.1, h⟩
  simp only [key]

theorem abspath_path (w : DocWF d r) (ho : ∀ l x, x ∈ order l ↔ x ∈ l) (hf : Fit d m hints env long n) (hn : InDoc d r n)
    (hk : d.h.kind n ≠ .ns) (he : EnvIn d r env) {k : Nat} (hl : Level d.h k n)
    (hmax : k ≤ if long then 27 else 99) :
    ∃ s ls e x, abspath d m hints order n = .ok s ∧ compileExpr s = .ok e ∧ resolve d.R env e = some x ∧
      Reaches d ls r n ∧ (AllSingle d n → ∀ y, Reaches d ls r y → y = n) ∧
      ∀ c, InDoc d r c → ∀ p k v, Means d x c p k v ↔
        ∃ l, v = .nodes l ∧ Sorted d l ∧ ∀ y, y ∈ l ↔ Reaches d ls r y := by
  cases k with
  | zero =>
    have hp : d.h.parent n = none := by cases hl with | root h => exact h
    have hrn : r = n := by
      rcases hn.1.1 with h | h
      · exact h
      · cases h with
        | parent h => rw [hp] at h; cases h
        | step _ h => rw [hp] at h; cases h
    subst hrn
    have hlex : Lexes false ['/'] [⟨Term.num .slash, ['/']⟩] :=
      .token (k := .slash) (w := ['/']) (rest := []) (.slash (by intro c cs h; cases h)) .nil
    obtain ⟨e, x, h1, h2, h3⟩ := meaning_path (steps := []) (ls := []) w he hlex (by simp) (.p2a rfl) (by simp [resolveSteps])
    refine ⟨['/'], [], e, x, ?_, h1, h2, by simp [Reaches], fun _ y hy => by simpa [Reaches] using hy, h3⟩
    rw [abspath, abspathFuel, step, w.root]
    simp [otherNode, hp]
  | succ k =>
    obtain ⟨s, h1, w', t, steps, ls, p1, p2, p3, p4, p5, p6, p7⟩ := path_ok w ho k n hl hf hn hk
    have hlex := p2 [] [] (by intro c cs h; cases h) .nil
    simp only [List.append_nil] at hlex
    have hlen : (t :: w').length < 500 := by
      simp only [List.length_cons]
      cases long
      · simp only [Bool.false_eq_true, if_false] at p4 hmax
        split at p4 <;> omega
      · simp only [if_true] at p4 hmax
        split at p4 <;> omega
    obtain ⟨e, x, h2, h3, h4⟩ := meaning_path w he hlex hlen (.p2b p1 p3) p5
    exact ⟨s, ls, e, x, h1 _ (by have := level_le w.wf hl; omega), h2, h3, p6, p7, h4⟩

/-- For every element, attribute, text node, comment, processing instruction and root node that is in the document, `abspath`
gives an expression that compiles, and every value of it contains the node.  (At more than 99 levels, or 27 with the long form
for default namespaces, the bound of C66 is exceeded; for quotation marks in namespace names see `C93_refuted_quote`.) -/
theorem C93_selects_partial (w : DocWF d r) (ho : ∀ l x, x ∈ order l ↔ x ∈ l) (hf : Fit d m hints env long n)
    (hn : InDoc d r n) (hk : d.h.kind n ≠ .ns) (he : EnvIn d r env) {k : Nat} (hl : Level d.h k n)
    (hmax : k ≤ if long then 27 else 99) :
    ∃ s, abspath d m hints order n = .ok s ∧ Selects d r env s (n ∈ ·) := by
  obtain ⟨s, ls, e, x, h1, h2, h3, h4, _, h5⟩ := abspath_path w ho hf hn hk he hl hmax
  refine ⟨s, h1, e, x, h2, h3, fun c hc p k v hv => ?_⟩
  obtain ⟨l, rfl, _, h6⟩ := (h5 c hc p k v).mp hv
  exact ⟨l, rfl, (h6 n).mpr h4⟩

/-- The path is unique if no element on it is the first of several of its name: its value is this node and nothing else.
(`C93_refuted_first` shows what happens otherwise.) -/
theorem C93_unique_partial (w : DocWF d r) (ho : ∀ l x, x ∈ order l ↔ x ∈ l) (hf : Fit d m hints env long n)
    (hn : InDoc d r n) (hk : d.h.kind n ≠ .ns) (he : EnvIn d r env) {k : Nat} (hl : Level d.h k n)
    (hmax : k ≤ if long then 27 else 99) (hu : ∀ x, AncS d.h x n → d.h.kind x = .element → Told d x) :
    ∃ s, abspath d m hints order n = .ok s ∧ Gives d r env s [n] := by
  obtain ⟨s, ls, e, x, h1, h2, h3, h4, h4', h5⟩ := abspath_path w ho hf hn hk he hl hmax
  have h6 : ∀ y, Reaches d ls r y ↔ y = n := fun y => ⟨h4' hu y, fun h => h ▸ h4⟩
  refine ⟨s, h1, e, x, h2, h3, fun c hc p k v => ?_⟩
  rw [h5 c hc p k v]
  simp only [h6]
  constructor
  · rintro ⟨l, rfl, hs, hm⟩
    rw [sorted_det w hs (List.pairwise_singleton _ n) (fun y => by rw [hm]; simp)]
  · rintro rfl
    exact ⟨[n], rfl, List.pairwise_singleton _ n, fun y => by simp⟩

/-- Namespace nodes are not supported; a node that is in no document has no path. -/
theorem C93_errors (w : WF d.h) (n : Nat) :
    (d.h.kind n = .ns → d.h.parent n ≠ none → abspath d m hints order n = .error .unsupported) ∧
    (d.h.kind n ≠ .ns → d.h.kind n ≠ .entity → d.h.parent n = none → abspath d m hints order n = .error .attribute) := by
  constructor
  · intro h1 h2
    rw [abspath, abspathFuel, step, h1]
    simp [otherNode, h2]
  · intro h1 h2 h3
    have hc : ∀ f, count d.h f n = .ok 1 := by
      intro f
      have : precedingSibling d.h n = .ok none := by simp [precedingSibling, h3]
      rw [count, this]
      cases d.h.size <;> rfl
    rw [abspath, abspathFuel, step]
    cases hk : d.h.kind n with
    | ns => exact absurd hk h1
    | entity => exact absurd hk h2
    | element => simp only [hc, h3]
    | attr => simp only [h3]
    | text => simp only [otherNode, hc, h3]
    | comment => simp only [otherNode, hc, h3]
    | pi => simp only [otherNode, hc, h3]

end

/-! ### Cases -/

namespace Sample
/-- `<r xmlns="urn:u"><b xmlns=""><y>1</y><x>2</x></b><b xmlns="" p="" q=""/></r>` with the nodes of `Eval.sample`: 1 is `r`,
2 and 3 are the `b`. -/
def doc : Doc := { sample with
  name := fun n => match n with
    | 1 => (some (s!! "urn:u"), some (s!! "r"))
    | 2 | 3 => (none, some (s!! "b"))
    | 4 => (none, some (s!! "y"))
    | 5 => (none, some (s!! "x"))
    | 8 => (none, some (s!! "p"))
    | 9 => (none, some (s!! "q"))
    | _ => (none, none) }
def names : Names where
  pre _ := none
  nss n := if n = 1 then [(none, s!! "urn:u")] else []
def hints : List (Option Str × Str) := [(some (s!! "u"), s!! "urn:u")]
def env : Env where
  ns p := if p = s!! "u" then some (s!! "urn:u") else none
  var _ := none
  fn _ _ := none

theorem doc_wf : DocWF doc 0 := ⟨sample_wf.wf, sample_wf.root, sample_wf.attr, sample_wf.ns, sample_wf.attr_nodup, sample_wf.ns_nodup⟩
theorem env_in : EnvIn doc 0 env := ⟨fun _ _ h => (by cases h), fun _ _ _ h => (by cases h)⟩
theorem nc (c : Char) (h : c ∈ (s!! "rbyxpqu")) : NCName [c] := by
  refine ⟨c, [], rfl, ?_, by simp⟩
  unfold Verif.Names.Spec.NCNameStart Verif.Names.Spec.Letter Verif.Names.Spec.inClass
  revert c
  decide +kernel

theorem named {long : Bool} : ∀ x ∈ [1, 2, 3, 4, 5, 8, 9], Named doc names hints env long x := by
  have plain : ∀ x c, c ∈ (s!! "rbyxpqu") → doc.name x = (none, some [c]) → Named doc names hints env long x := by
    intro x c hc h
    refine ⟨⟨[c], by rw [h], nc c hc⟩, by rw [h]; simp, fun p hp => (by cases hp), fun _ _ => (by rw [h]), fun u _ _ hu => ?_⟩
    rw [h] at hu; cases hu
  intro x hx
  simp only [List.mem_cons, List.not_mem_nil, or_false] at hx
  rcases hx with rfl | rfl | rfl | rfl | rfl | rfl | rfl
  · refine ⟨⟨s!! "r", rfl, nc 'r' (by decide)⟩, by decide, fun p hp => (by cases hp), fun h => absurd h (by decide), fun u _ _ hu => ?_⟩
    cases hu
    refine ⟨.inl ⟨s!! "u", by decide, .inl (by decide)⟩, fun p hp hb => ?_⟩
    rcases hb with hb | ⟨_, hb⟩
    · simp [hints] at hb
      subst hb
      exact ⟨nc 'u' (by decide), rfl⟩
    · simp [names] at hb
  · exact plain 2 'b' (by decide) rfl
  · exact plain 3 'b' (by decide) rfl
  · exact plain 4 'y' (by decide) rfl
  · exact plain 5 'x' (by decide) rfl
  · exact plain 8 'p' (by decide) rfl
  · exact plain 9 'q' (by decide) rfl

theorem kinds (x : Nat) (h : doc.h.kind x = .element ∨ doc.h.kind x = .attr) (hx : x < 10) : x ∈ [1, 2, 3, 4, 5, 8, 9] := by
  revert h
  revert x
  decide +kernel
theorem fit {long : Bool} (n : Nat) (hn : n < 10) : Fit doc names hints env long n where
  size := by decide
  owner := by
    intro e a ha
    simp only [doc, sample] at ha
    split at ha
    · subst e; rfl
    · simp at ha
  names := by
    intro e a b ha hb
    simp only [doc, sample] at ha hb
    split at ha
    · rename_i he
      rw [if_pos he] at hb
      simp only [List.mem_cons, List.not_mem_nil, or_false] at ha hb
      rcases ha with rfl | rfl <;> rcases hb with rfl | rfl <;> decide
    · simp at ha
  named := by
    intro x hx hk
    refine named x (kinds x hk ?_)
    rcases hx with rfl | hx
    · exact hn
    · obtain ⟨c, hc, _⟩ := hx.child
      exact (doc_wf.wf.bounded _ _ hc).2
/-- `namespace-uri()` and `local-name()`. -/
def part (g : Nat → Option Str) : List EVal → Except XErr EVal
  | [.nodes [x]] => .ok (.sc (.str ((g x).getD [])))
  | _ => .error .typeError
/-- The functions, and no prefix. -/
def env2 : Env where
  ns _ := none
  var _ := none
  fn f n :=
    if f = nuri ∧ n = 0 then some ⟨.str, part fun x => (doc.name x).1, fun _ => .any, some .nodes⟩
    else if f = lname ∧ n = 0 then some ⟨.str, part fun x => (doc.name x).2, fun _ => .any, some .nodes⟩
    else none
theorem functions : Functions doc env2 :=
  ⟨⟨⟨.str, part fun x => (doc.name x).1, fun _ => .any, some .nodes⟩, rfl, rfl, fun _ => rfl⟩,
   ⟨⟨.str, part fun x => (doc.name x).2, fun _ => .any, some .nodes⟩, rfl, rfl, fun _ => rfl⟩⟩
theorem part_in (g : Nat → Option Str) (vs : List EVal) (v : EVal) (h : part g vs = .ok v) : ValIn doc 0 v := by
  unfold part at h
  split at h
  · cases h; trivial
  · cases h
theorem env2_in : EnvIn doc 0 env2 := by
  refine ⟨fun _ _ h => (by cases h), fun f n g h vs _ v hv => ?_⟩
  simp only [env2] at h
  split at h
  · cases h; exact part_in _ vs v hv
  · split at h
    · cases h; exact part_in _ vs v hv
    · cases h
theorem named2 : ∀ x ∈ [1, 2, 3, 4, 5, 8, 9], Named doc names [] env2 true x := by
  have plain : ∀ x c, c ∈ (s!! "rbyxpqu") → doc.name x = (none, some [c]) → Named doc names [] env2 true x := by
    intro x c hc h
    refine ⟨⟨[c], by rw [h], nc c hc⟩, by rw [h]; simp, fun p hp => (by cases hp), fun _ _ => (by rw [h]), fun u _ _ hu => ?_⟩
    rw [h] at hu; cases hu
  intro x hx
  simp only [List.mem_cons, List.not_mem_nil, or_false] at hx
  rcases hx with rfl | rfl | rfl | rfl | rfl | rfl | rfl
  · refine ⟨⟨s!! "r", rfl, nc 'r' (by decide)⟩, by decide, fun p hp => (by cases hp), fun h => absurd h (by decide), fun u _ _ hu => ?_⟩
    cases hu
    refine ⟨.inr ⟨rfl, by decide, functions⟩, fun p hp hb => ?_⟩
    rcases hb with hb | ⟨_, hb⟩
    · cases hb
    · simp [names] at hb
  · exact plain 2 'b' (by decide) rfl
  · exact plain 3 'b' (by decide) rfl
  · exact plain 4 'y' (by decide) rfl
  · exact plain 5 'x' (by decide) rfl
  · exact plain 8 'p' (by decide) rfl
  · exact plain 9 'q' (by decide) rfl
theorem fit2 (n : Nat) (hn : n < 10) : Fit doc names [] env2 true n :=
  ⟨(fit (long := true) n hn).size, (fit (long := true) n hn).owner, (fit (long := true) n hn).names, by
    intro x hx hk
    refine named2 x (kinds x hk ?_)
    rcases hx with rfl | hx
    · exact hn
    · obtain ⟨c, hc, _⟩ := hx.child
      exact (doc_wf.wf.bounded _ _ hc).2⟩
end Sample
open Sample

example : (abspath doc names hints id 9).toOption = some (s!! "/u:r/b[2]/@q") := by decide +kernel
example : (abspath doc names hints id 7).toOption = some (s!! "/u:r/b/x/text()[1]") := by decide +kernel
example : (abspath doc names [] id 3).toOption = some (s!! "/*[namespace-uri()=\"urn:u\" and local-name()=\"r\"]/b[2]") := by
  decide +kernel

/-- The hypotheses are met: the second `b` has the path `/u:r/b[2]`, and this is its value. -/
example : ∃ s, abspath doc names hints id 3 = .ok s ∧ Gives doc 0 env s [3] := by
  have hl : Level doc.h 2 3 := .child (p := 1) rfl (.child (p := 0) rfl (.root rfl))
  refine C93_unique_partial doc_wf (fun _ _ => Iff.rfl) (fit (long := false) 3 (by decide)) (sample_inDoc (n := 3) (by decide)) (by decide)
    env_in hl (by decide) ?_
  have key : ∀ (x p : Nat) (l b c : List Nat), doc.h.parent x = some p → doc.h.kids p = l → l.getLast? = some x →
      doc.h.kids p = b ++ x :: c → c = [] := by
    intro x p l b c _ h1 h2 h3
    have hn := doc_wf.wf.nodup p
    rw [h3] at h1 hn
    subst h1
    rw [List.getLast?_append, List.getLast?_cons] at h2
    cases c with
    | nil => rfl
    | cons y c =>
      rw [List.getLast?_cons] at h2
      simp only [Option.getD_some, Option.some_or, Option.some.injEq] at h2
      have : x ∈ y :: c := by
        rw [← h2]
        cases hc : c.getLast? with
        | none => simp
        | some z => simpa using .inr (List.mem_of_getLast? hc)
      rw [List.nodup_append] at hn
      exact absurd this (List.nodup_cons.mp hn.2.1).1
  intro x hx hk p b c hkids _ y hy
  have hx3 : x = 3 ∨ x = 1 := by
    rcases hx with rfl | hx
    · exact .inl rfl
    · cases hx with
      | parent h => exact .inr (Option.some.inj h).symm
      | step h1 h =>
        cases h
        cases h1 with
        | parent h => cases h; exact absurd hk (by decide)
        | step h1 h =>
          cases h
          cases h1 with
          | parent h => cases h
          | step _ h => cases h
  have hp := doc_wf.wf.kids_parent p x (by rw [hkids]; simp)
  rcases hx3 with rfl | rfl
  · cases hp
    rw [key 3 1 [2, 3] b c rfl rfl rfl hkids] at hy
    cases hy
  · cases hp
    rw [key 1 0 [1] b c rfl rfl rfl hkids] at hy
    cases hy

/-- The long form: the text 2 is found without any prefix. -/
example : ∃ s, abspath doc names [] id 7 = .ok s ∧ Selects doc 0 env2 s (7 ∈ ·) :=
  C93_selects_partial doc_wf (fun _ _ => Iff.rfl) (fit2 7 (by decide)) (sample_inDoc (n := 7) (by decide)) (by decide) env2_in
    (.child (p := 5) rfl (.child (p := 2) rfl (.child (p := 1) rfl (.child (p := 0) rfl (.root rfl))))) (by decide)

/-- The first of two elements of one name has a path that selects both. -/
theorem C93_refuted_first :
    (abspath doc names hints id 2).toOption = some (s!! "/u:r/b") ∧ Gives doc 0 env (s!! "/u:r/b") [2, 3] := by
  refine ⟨by decide +kernel, ?_⟩
  have w1 : Written (s!! "u:r") (.qname (s!! "u") (s!! "r")) := .qname (nc 'u' (by decide)) (nc 'r' (by decide))
  have w2 : Written (s!! "b") (.name (s!! "b")) := .name (nc 'b' (by decide))
  have hslash : ∀ {c : Char} {rest : Str}, c ≠ '/' → Ends (· = '/') (c :: rest) := by
    intro c rest h x xs hx
    obtain ⟨rfl, _⟩ := List.cons.inj hx
    exact h
  have hl : Lexes false (s!! "/u:r/b") [⟨Term.num .slash, ['/']⟩, ⟨Term.num .nameTest, s!! "u:r"⟩, ⟨Term.num .slash, ['/']⟩,
      ⟨Term.num .nameTest, s!! "b"⟩] :=
    .token (k := .slash) (w := ['/']) (rest := s!! "u:r/b") (.slash (hslash (by decide)))
      (.token (w := s!! "u:r") (rest := s!! "/b")
        (written_token w1 (fun c cs h => .inl (List.cons.inj h).1.symm))
        (.token (k := .slash) (w := ['/']) (rest := s!! "b") (.slash (hslash (by decide)))
          (.token (w := s!! "b") (rest := []) (written_token w2 (fun c cs h => by cases h)) .nil)))
  have says : ∀ {q t}, Written q t → Says .step [⟨Term.num .nameTest, q⟩] (.step (.mk (.tree .child) t [])) := by
    intro q t hq
    have := Says.p4a (.p5b .p13b) (.p7a (t := ⟨Term.num .nameTest, q⟩) rfl (written_says hq)) .none
    simpa using this
  have hs : Says .absoluteLocationPath [⟨Term.num .slash, ['/']⟩, ⟨Term.num .nameTest, s!! "u:r"⟩, ⟨Term.num .slash, ['/']⟩,
      ⟨Term.num .nameTest, s!! "b"⟩] (.expr (.path true [.mk (.tree .child) (.qname (s!! "u") (s!! "r")) [],
        .mk (.tree .child) (.name (s!! "b")) []])) :=
    .p2b rfl (.p3b (v := [⟨Term.num .nameTest, s!! "u:r"⟩]) (.p3a (says w1)) rfl (says w2))
  obtain ⟨e, x, h1, h2, h3⟩ := meaning_path (ls := [.mk (.tree .child) (.name (some (s!! "urn:u")) (s!! "r")) [],
    .mk (.tree .child) (.name none (s!! "b")) []]) doc_wf env_in hl (by decide) hs rfl
  refine ⟨e, x, h1, h2, fun c hc p k v => ?_⟩
  rw [h3 c hc]
  have c1 := candidates_child doc_wf (a := 0) ⟨.inl rfl, rfl⟩ (.name (some (s!! "urn:u")) (s!! "r"))
  have c2 := candidates_child doc_wf (a := 1) ⟨.inr (.parent rfl), rfl⟩ (.name none (s!! "b"))
  have e1 : (doc.h.kids 0).filter (passes doc .element (.name (some (s!! "urn:u")) (s!! "r"))) = [1] := by decide +kernel
  have e2 : (doc.h.kids 1).filter (passes doc .element (.name none (s!! "b"))) = [2, 3] := by decide +kernel
  rw [e1] at c1
  rw [e2] at c2
  have hr : ∀ y, Reaches doc [.mk (.tree .child) (.name (some (s!! "urn:u")) (s!! "r")) [],
      .mk (.tree .child) (.name none (s!! "b")) []] 0 y ↔ y = 2 ∨ y = 3 := by
    intro y
    simp only [Reaches]
    constructor
    · rintro ⟨k1, y1, h1, h2, k2, y2, h3, h4, rfl⟩
      rw [selects_iff doc_wf c1] at h1
      simp only [kept] at h1
      subst h1
      simp only [List.mem_singleton] at h2
      subst h2
      rw [selects_iff doc_wf c2] at h3
      simp only [kept] at h3
      subst h3
      simpa using h4
    · intro h
      exact ⟨[1], 1, (selects_iff doc_wf c1 _).mpr (by simp [kept]), by simp, [2, 3], y,
        (selects_iff doc_wf c2 _).mpr (by simp [kept]), by simpa using h, rfl⟩
  simp only [hr]
  have hs : Sorted doc [2, 3] := by
    refine List.pairwise_cons.mpr ⟨fun y hy => ?_, List.pairwise_singleton _ _⟩
    simp only [List.mem_singleton] at hy
    subst hy
    exact .tree (.sib 1 0 1 2 3 rfl rfl (by decide) (.inl rfl) (.inl rfl))
  constructor
  · rintro ⟨l, rfl, h1, h2⟩
    rw [sorted_det doc_wf h1 hs (fun y => by rw [h2]; simp)]
  · rintro rfl
    exact ⟨[2, 3], rfl, hs, fun y => by simp⟩

/-- Is this a syntax error? -/
def refused : Compiled → Bool
  | .syntaxError _ => true
  | _ => false

/-- A namespace name with a quotation mark makes a path that is no expression. -/
theorem C93_refuted_quote :
    (abspath { doc with name := fun _ => (some (s!! "u\"v"), some (s!! "r")) } names [] id 1).toOption =
      some (s!! "/*[namespace-uri()=\"u\"v\" and local-name()=\"r\"]") ∧
    refused (compileExpr (s!! "/*[namespace-uri()=\"u\"v\" and local-name()=\"r\"]")) = true := by
  decide +kernel

end Verif.Path
