import Verif.Xslt.ImportAlias

/-
C62: the import precedence of what a stylesheet, the imported and the included ones declare, and which declaration
is used.
-/
namespace Verif.Xslt
open Verif Verif.Template Spec

variable {α : Type} {files : Str → Option (SheetDoc α)}

/-- C62, import precedence: the declarations are read in the order of the import tree, and those of one stylesheet and
all that it includes get the same number, higher than that of the stylesheets it imports.  Missing: a stylesheet with
imports that is included after a declaration; see `C62_refuted_include`. -/
theorem C62_precedence_partial {fuel uri i out n}
    (h : readSheet files fuel [] uri i = some (.ok (out, n))) :
    ∃ s, Unfolds files uri s ∧ (InOrder s → out = number (layers s) i ∧ n + 1 = i + (layers s).length) := by
  obtain ⟨s, hs, e⟩ := readSheet_num h
  refine ⟨s, hs, fun ho => ?_⟩
  rw [num_layers ho] at e
  obtain ⟨rfl, rfl⟩ := Prod.mk.inj e
  simp [layers, number_append, number, Nat.add_assoc]

/-- C62: there is only one such tree. -/
theorem C62_unique {uri} {s s' : Whole α} (h : Unfolds files uri s) (h' : Unfolds files uri s') : s = s' :=
  unfolds_unique h h'

/-- C62, in every case: the order of reading agrees with the numbers, as `setup` assumes. -/
theorem C62_sorted {fuel visited uri i out n} (h : readSheet files fuel visited uri i = some (.ok (out, n))) :
    out.Pairwise (·.2 ≤ ·.2) ∧ ∀ p ∈ out, i ≤ p.2 ∧ p.2 ≤ n := by
  obtain ⟨s, _, e⟩ := readSheet_num h
  have := num_mono (m := s) (i := i)
  rw [e] at this
  exact this.2

/-- C62, errors: reading succeeds only if all stylesheets exist and none directly or indirectly imports or includes
itself, and each error is reported for such a reason. -/
theorem C62_errors {fuel uri i} {r : Except ReadErr (List (α × Nat) × Nat)}
    (h : readSheet files fuel [] uri i = some r) :
    match r with
    | .ok _ => ∀ v, Reaches files uri v → files v ≠ none ∧ ¬ OnCycle files v
    | .error .notFound => ∃ v, Reaches files uri v ∧ files v = none
    | .error .circular => ∃ v, Reaches files uri v ∧ OnCycle files v := by
  cases r with
  | ok p =>
    obtain ⟨out, n⟩ := p
    obtain ⟨s, hs, _⟩ := readSheet_num h
    intro v hv
    obtain ⟨m, hm, _⟩ := unfolds_reaches hs hv
    refine ⟨?_, not_onCycle _ (Nat.le_refl _) hm⟩
    cases hm with
    | mk h1 _ _ => rw [h1]; nofun
  | error e =>
    have := readSheet_error (start := uri) .refl (by simp) h
    cases e <;> exact this

/-- C62, reading ends if there are finitely many stylesheets, whatever they import and include. -/
theorem C62_ends {dom : List Str} (hd : ∀ u, files u ≠ none → u ∈ dom) (uri : Str) (i : Nat) :
    ∃ r, ∀ k, readSheet files (dom.length + 1 + k) [] uri i = some r := by
  cases e : readSheet files (dom.length + 1) [] uri i with
  | none => exact absurd e (readSheet_ends hd _ [] List.nodup_nil (by simp) (by simp) uri i (by simp))
  | some r => exact ⟨r, fun k => readSheet_mono _ k _ _ _ _ e⟩

/-- C62, global variables: reading fails if and only if two variables or parameters have the same name and the same
import precedence. -/
theorem C62_variables {ls : List (List α)} (var : α → Option Name) (i : Nat) :
    checkVars (fun _ => none) ((number ls i).filterMap fun p => (var p.1).map (·, p.2)) = true ↔
      ∀ l ∈ ls, (l.filterMap var).Nodup := by
  rw [← number_filterMap, checkVars_iff]
  · rw [number_nodup]
    simp
  · generalize ls.map (·.filterMap var) = ks
    clear ls
    induction ks generalizing i with
    | nil => simp [number]
    | cons k ks ih =>
      refine List.pairwise_append.2 ⟨?_, ih (i + 1), ?_⟩
      · exact List.pairwise_map.2 (List.pairwise_of_forall fun _ _ => Nat.le_refl _)
      · rintro ⟨a, x⟩ ha ⟨b, y⟩ hb
        obtain ⟨j, _, rfl, _, _⟩ := mem_number.1 hb
        obtain ⟨_, _, e⟩ := List.mem_map.1 ha
        cases e
        simp only
        omega
  · nofun

/-- The same for the order in which the code reads declarations that are not in the order of the import tree. -/
theorem C62_variables_any {l : List (α × Nat)} (hl : l.Pairwise (·.2 ≤ ·.2)) (var : α → Option Name) :
    checkVars (fun _ => none) (l.filterMap fun p => (var p.1).map (·, p.2)) = true ↔
      (l.filterMap fun p => (var p.1).map (·, p.2)).Nodup := by
  rw [checkVars_iff]
  · simp
  · refine List.Pairwise.filterMap _ ?_ hl
    intro a b h x hx y hy
    cases e : var a.1 with
    | none => simp [e] at hx
    | some _ => cases e' : var b.1 with
      | none => simp [e'] at hy
      | some _ => simp [e] at hx; simp [e'] at hy; subst hx hy; exact h
  · nofun

theorem getElem?_flatten_split : ∀ {ls : List (List α)} {a b : List α} {x : α}, ls.flatten = a ++ x :: b →
    ∃ k l c d, ls[k]? = some l ∧ l = c ++ x :: d ∧ b = d ++ (ls.drop (k + 1)).flatten
  | [], a, b, x, h => by simp at h
  | l :: ls, a, b, x, h => by
    simp only [List.flatten_cons] at h
    rcases List.append_eq_append_iff.1 h with ⟨t, h1, h2⟩ | ⟨t, h1, h2⟩
    · obtain ⟨k, l', c, d, g1, g2, g3⟩ := getElem?_flatten_split h2
      exact ⟨k + 1, l', c, d, g1, g2, by simpa using g3⟩
    · cases t with
      | nil =>
        simp only [List.nil_append] at h2
        obtain ⟨k, l', c, d, g1, g2, g3⟩ := getElem?_flatten_split (a := []) h2.symm
        exact ⟨k + 1, l', c, d, g1, g2, by simpa using g3⟩
      | cons y t =>
        simp only [List.cons_append, List.cons.injEq] at h2
        obtain ⟨rfl, rfl⟩ := h2
        exact ⟨0, l, a, t, rfl, h1, by simp⟩

theorem flatten_of_split : ∀ {ls : List (List α)} {k : Nat} {l c d : List α} {x : α}, ls[k]? = some l → l = c ++ x :: d →
    ∃ a, ls.flatten = a ++ x :: (d ++ (ls.drop (k + 1)).flatten)
  | [], k, l, c, d, x, h, _ => by simp at h
  | l' :: ls, 0, l, c, d, x, h, e => by
    cases h
    exact ⟨c, by simp [e]⟩
  | l' :: ls, k + 1, l, c, d, x, h, e => by
    obtain ⟨a, ha⟩ := flatten_of_split (ls := ls) (k := k) h e
    exact ⟨l' ++ a, by simp [ha]⟩

theorem mem_drop_flatten {ls : List (List α)} {k : Nat} {y : α} :
    y ∈ (ls.drop (k + 1)).flatten ↔ ∃ j l, k < j ∧ ls[j]? = some l ∧ y ∈ l := by
  rw [List.mem_flatten]
  constructor
  · rintro ⟨l, hl, hy⟩
    obtain ⟨j, hj⟩ := List.mem_iff_getElem?.1 hl
    rw [List.getElem?_drop] at hj
    exact ⟨k + 1 + j, l, by omega, hj, hy⟩
  · rintro ⟨j, l, hj, h1, h2⟩
    refine ⟨l, List.mem_iff_getElem?.2 ⟨j - (k + 1), ?_⟩, h2⟩
    rw [List.getElem?_drop]
    rw [show k + 1 + (j - (k + 1)) = j from by omega]
    exact h1

/-- The last one with the property in a list of sets. -/
def Last (ls : List (List α)) (p : α → Prop) (k : Nat) (x : α) : Prop :=
  Highest ls p k x ∧ ∃ l c d, ls[k]? = some l ∧ l = c ++ x :: d ∧ ∀ y ∈ d, ¬ p y

theorem last_iff {ls : List (List α)} {p : α → Prop} {x : α} :
    (∃ a b, ls.flatten = a ++ x :: b ∧ p x ∧ ∀ y ∈ b, ¬ p y) ↔ ∃ k, Last ls p k x := by
  constructor
  · rintro ⟨a, b, h, hp, hb⟩
    obtain ⟨k, l, c, d, h1, h2, rfl⟩ := getElem?_flatten_split h
    refine ⟨k, ⟨hp, ⟨l, h1, by simp [h2]⟩, fun j l' hj hl y hy => ?_⟩, l, c, d, h1, h2, fun y hy => hb y (by simp [hy])⟩
    exact hb y (List.mem_append.2 (.inr (mem_drop_flatten.2 ⟨j, l', hj, hl, hy⟩)))
  · rintro ⟨k, ⟨hp, _, hh⟩, l, c, d, h1, h2, h3⟩
    obtain ⟨a, ha⟩ := flatten_of_split h1 h2
    refine ⟨a, _, ha, hp, fun y hy => ?_⟩
    rcases List.mem_append.1 hy with hy | hy
    · exact h3 y hy
    · obtain ⟨j, l', hj, hl, hy⟩ := mem_drop_flatten.1 hy
      exact hh j l' hj hl y hy

/-- C62, which variable is used: of those with a name the one with the highest import precedence. -/
theorem C62_variable_used {ls : List (List α)} (name : α → Name) (hn : ∀ l ∈ ls, (l.map name).Nodup) (v : α) :
    v ∈ keepVars name ls.flatten ↔ ∃ k, Highest ls (fun w => name w = name v) k v := by
  rw [mem_keepVars]
  have := last_iff (ls := ls) (p := fun w => name w = name v) (x := v)
  simp only [true_and] at this
  rw [this]
  constructor
  · rintro ⟨k, h⟩; exact ⟨k, h.1⟩
  · rintro ⟨k, h⟩
    obtain ⟨l, hl, hv⟩ := h.2.1
    obtain ⟨c, d, rfl⟩ := List.append_of_mem hv
    refine ⟨k, h, _, c, d, hl, rfl, fun y hy e => ?_⟩
    have := hn _ (List.mem_iff_getElem?.2 ⟨k, hl⟩)
    simp only [List.map_append, List.map_cons, List.nodup_append, List.nodup_cons] at this
    exact this.2.1.1 (List.mem_map.2 ⟨y, hy, e⟩)

/-- C62, `xsl:output`: each attribute has the value of the last declaration with the highest import precedence among
those that have it. -/
theorem C62_output {β : Type} (ls : List (List α)) (get : α → Option β) (r : Option β) :
    outputParam get ls.flatten none = r ↔
      match r with
      | none => ∀ l ∈ ls, ∀ x ∈ l, get x = none
      | some v => ∃ k x, Last ls (fun y => get y ≠ none) k x ∧ get x = some v := by
  rw [outputParam_eq]
  simp only [Option.or_none]
  cases r with
  | none =>
    simp only [List.getLast?_eq_none_iff, List.filterMap_eq_nil_iff]
    simp only [List.mem_flatten]
    exact ⟨fun h l hl x hx => h x ⟨l, hl, hx⟩, fun h x ⟨l, hl, hx⟩ => h l hl x hx⟩
  | some v =>
    simp only
    have key : ∀ l : List α, (l.filterMap get).getLast? = some v ↔
        ∃ x, get x = some v ∧ ∃ a b, l = a ++ x :: b ∧ get x ≠ none ∧ ∀ y ∈ b, ¬ get y ≠ none := by
      intro l
      constructor
      · intro h
        obtain ⟨l', hl⟩ := List.getLast?_eq_some_iff.1 h
        obtain ⟨a, b, rfl, h1, h2⟩ := List.filterMap_eq_append_iff.1 hl
        obtain ⟨c, x, d, rfl, h3, h4, h5⟩ := List.filterMap_eq_cons_iff.1 h2
        refine ⟨x, h4, a ++ c, d, by simp, by simp [h4], fun y hy hne => hne ?_⟩
        exact List.filterMap_eq_nil_iff.1 h5 y hy
      · rintro ⟨x, hx, a, b, rfl, _, h⟩
        have : b.filterMap get = [] := List.filterMap_eq_nil_iff.2 fun y hy => by
          have := h y hy
          cases e : get y with
          | none => rfl
          | some _ => exact absurd (by rw [e]; nofun) this
        simp [hx, this]
    rw [key]
    constructor
    · rintro ⟨x, hx, h⟩
      obtain ⟨k, hk⟩ := (last_iff (p := fun y => get y ≠ none)).1 h
      exact ⟨k, x, hk, hx⟩
    · rintro ⟨k, x, hk, hx⟩
      exact ⟨x, hx, (last_iff (p := fun y => get y ≠ none)).2 ⟨k, hk⟩⟩

/-- C62, `xsl:namespace-alias`: the alias with the highest import precedence is used; an exception is raised if and
only if there are two of them for a namespace.  Missing: two with the same result, which are no error; see
`C62_refuted_alias`. -/
theorem C62_alias_partial {l : List Alias} (hl : l.Pairwise (·.prec ≤ ·.prec)) :
    match aliases l with
    | some al => ∀ ns, match al ns with
      | none => ∀ a ∈ l, a.sheetNs ≠ ns
      | some r => ∃ a ∈ l, a.sheetNs = ns ∧ a.resultNs = r ∧ ∀ b ∈ l, b.sheetNs = ns → b.prec ≤ a.prec
    | none => ∃ ns p, 2 ≤ (l.filter fun a => a.sheetNs = ns ∧ a.prec = p).length ∧
        ∀ a ∈ l, a.sheetNs = ns → a.prec ≤ p := by
  cases e : aliases l with
  | none => exact (aliases_raise hl).1 e
  | some al =>
    simp only
    intro ns
    rw [aliases_ok e ns]
    unfold firstAlias
    cases e' : l.reverse.find? (·.sheetNs = ns) with
    | none =>
      simp only [Option.map_none]
      intro a ha
      have := List.find?_eq_none.1 e' a (by simp [ha])
      simpa using this
    | some a =>
      simp only [Option.map_some]
      obtain ⟨h1, as, bs, h2, h3⟩ := List.find?_eq_some_iff_append.1 e'
      have hl' : (as ++ a :: bs).Pairwise (fun x y => y.prec ≤ x.prec) := by
        rw [← h2]; exact List.pairwise_reverse.2 hl
      refine ⟨a, ?_, by simpa using h1, rfl, fun b hb hbn => ?_⟩
      · rw [← List.mem_reverse, h2]; simp
      · rw [← List.mem_reverse, h2, List.mem_append, List.mem_cons] at hb
        rcases hb with hb | rfl | hb
        · have := h3 b hb; simp [hbn] at this
        · exact Nat.le_refl _
        · exact (List.pairwise_cons.1 (List.pairwise_append.1 hl').2.1).1 b hb

theorem C62_alias_raises {l : List Alias} (hl : l.Pairwise (·.prec ≤ ·.prec)) {ns p}
    (h2 : 2 ≤ (l.filter fun a => a.sheetNs = ns ∧ a.prec = p).length) (hh : ∀ a ∈ l, a.sheetNs = ns → a.prec ≤ p) :
    aliases l = none :=
  (aliases_raise hl).2 ⟨ns, p, h2, hh⟩

theorem setLoop_ok {β : Type} {sets : Name → Option (AttrSet β)} {inst : Name → Option (Except ReadErr (List β))}
    (hi : ∀ {x l}, inst x = some (.ok l) → SetAdds sets x l) : ∀ {xs l}, setLoop inst xs = some (.ok l) →
      SetsAdd sets xs l
  | [], l, h => by cases h; exact .nil
  | x :: xs, l, h => by
    simp only [setLoop] at h
    split at h
    · rename_i a e
      split at h
      · rename_i b e'
        cases h
        exact .cons (hi e) (setLoop_ok hi e')
      · rename_i hne
        exact absurd h (hne _)
    · rename_i hne
      exact absurd h (hne _)

/-- C62, attribute sets: if the instantiation ends, the attributes of the used sets are added first, in order, then the
own ones. -/
theorem C62_attribute_sets {β : Type} {sets : Name → Option (AttrSet β)} : ∀ {fuel x l},
    instSet sets fuel x = some (.ok l) → SetAdds sets x l
  | 0, _, _, h => nomatch h
  | fuel + 1, x, l, h => by
    simp only [instSet] at h
    split at h
    · exact nomatch h
    · rename_i s hs
      split at h
      · rename_i a e
        cases h
        exact .mk hs (setLoop_ok (fun h => C62_attribute_sets h) e)
      · rename_i hne
        exact absurd h (hne _)

mutual
theorem setAdds_inst {β : Type} {sets : Name → Option (AttrSet β)} : ∀ {x l}, SetAdds sets x l →
    ∃ n, ∀ k, instSet sets (n + k) x = some (.ok l)
  | _, _, .mk hs h => by
    obtain ⟨n, hn⟩ := setsAdd_inst h
    refine ⟨n + 1, fun k => ?_⟩
    rw [show n + 1 + k = n + k + 1 from by omega]
    simp [instSet, hs, hn k]

theorem setsAdd_inst {β : Type} {sets : Name → Option (AttrSet β)} : ∀ {xs l}, SetsAdd sets xs l →
    ∃ n, ∀ k, setLoop (instSet sets (n + k)) xs = some (.ok l)
  | _, _, .nil => ⟨0, fun _ => rfl⟩
  | _, _, .cons h1 h2 => by
    obtain ⟨n1, e1⟩ := setAdds_inst h1
    obtain ⟨n2, e2⟩ := setsAdd_inst h2
    refine ⟨n1 + n2, fun k => ?_⟩
    have a := e1 (n2 + k)
    have b := e2 (n1 + k)
    rw [show n1 + (n2 + k) = n1 + n2 + k from by omega] at a
    rw [show n2 + (n1 + k) = n1 + n2 + k from by omega] at b
    simp [setLoop, a, b]
end

/-- C62: and it ends if no set uses itself, that is, if the attributes are defined. -/
theorem C62_attribute_sets_end {β : Type} {sets : Name → Option (AttrSet β)} {x l} (h : SetAdds sets x l) :
    ∃ n, ∀ k, instSet sets (n + k) x = some (.ok l) := setAdds_inst h

/-! Examples -/

def twoSets (x : Name) : Option (AttrSet Nat) :=
  if x = (none, some (s!! "s")) then some ⟨[(none, some (s!! "t")), (none, some (s!! "t"))], [1]⟩
  else if x = (none, some (s!! "t")) then some ⟨[], [2, 3]⟩
  else none

example : instSet twoSets 3 (none, some (s!! "s")) = some (.ok [2, 3, 2, 3, 1]) := by decide +kernel

/-- `main` imports `a` and `b` and includes `c`; `a` imports `d`. -/
def sampleFiles (u : Str) : Option (SheetDoc Nat) :=
  if u = s!! "main" then some ⟨[s!! "a", s!! "b"], [.decl 1, .incl (s!! "c"), .decl 2]⟩
  else if u = s!! "a" then some ⟨[s!! "d"], [.decl 10]⟩
  else if u = s!! "b" then some ⟨[], [.decl 20, .decl 21]⟩
  else if u = s!! "c" then some ⟨[], [.decl 30]⟩
  else if u = s!! "d" then some ⟨[], [.decl 40]⟩
  else none

example : readSheet sampleFiles 6 [] (s!! "main") 0 =
    some (.ok ([(40, 0), (10, 1), (20, 2), (21, 2), (1, 3), (30, 3), (2, 3)], 3)) := by decide +kernel

example : ∃ s, Unfolds sampleFiles (s!! "main") s ∧ InOrder s ∧ layers s = [[40], [10], [20, 21], [1, 30, 2]] := by
  refine ⟨.mk (.cons (.mk (.cons (.mk .nil (.decl 40 .nil)) .nil) (.decl 10 .nil))
    (.cons (.mk .nil (.decl 20 (.decl 21 .nil))) .nil)) (.decl 1 (.incl (.mk .nil (.decl 30 .nil)) (.decl 2 .nil))), ?_, ?_, ?_⟩
  · refine .mk rfl (.cons (.mk rfl (.cons (.mk rfl .nil (.decl .nil)) .nil) (.decl .nil))
      (.cons (.mk rfl .nil (.decl (.decl .nil))) .nil)) (.decl (.incl (.mk rfl .nil (.decl .nil)) (.decl .nil)))
  · simp [InOrder, InOrderAll, InOrderParts, belowParts, below, belowAll]
  · rfl

example : ∀ u, sampleFiles u ≠ none → u ∈ [s!! "main", s!! "a", s!! "b", s!! "c", s!! "d"] := by
  intro u h
  unfold sampleFiles at h
  simp only [List.mem_cons]
  repeat' split at h
  all_goals simp_all

/-- A stylesheet that includes one that imports it. -/
def roundFiles (u : Str) : Option (SheetDoc Nat) :=
  if u = s!! "main" then some ⟨[], [.decl 1, .incl (s!! "a")]⟩
  else if u = s!! "a" then some ⟨[s!! "main"], []⟩
  else none

example : readSheet roundFiles 3 [] (s!! "main") 0 = some (.error .circular) := by decide +kernel

/-- The same stylesheet imported twice is no error. -/
def twiceFiles (u : Str) : Option (SheetDoc Nat) :=
  if u = s!! "main" then some ⟨[s!! "a", s!! "a"], []⟩
  else if u = s!! "a" then some ⟨[], [.decl 1]⟩
  else none

example : readSheet twiceFiles 3 [] (s!! "main") 0 = some (.ok ([(1, 0), (1, 1)], 2)) := by decide +kernel

def nameOf (n : Nat) : Name := (none, some (if n % 10 = 0 then s!! "x" else s!! "y"))

example : keepVars nameOf [[40], [10], [20, 21], [1]].flatten = [20, 1] := by decide +kernel

example : checkVars (fun _ => none) [(nameOf 40, 0), (nameOf 20, 1), (nameOf 21, 1)] = true ∧
    checkVars (fun _ => none) [(nameOf 40, 0), (nameOf 20, 1), (nameOf 10, 1)] = false := by decide +kernel

example : outputParam (fun n : Nat => if n % 2 = 0 then some n else none) [[4, 5], [6, 8, 9], [7]].flatten none = some 8 := by
  decide +kernel

def aliasSample : List Alias :=
  [⟨some (s!! "a"), some (s!! "x"), 0⟩, ⟨some (s!! "b"), some (s!! "y"), 0⟩, ⟨some (s!! "a"), none, 1⟩]

example : aliasSample.Pairwise (·.prec ≤ ·.prec) ∧
    (aliases aliasSample).map (fun al => (al (some (s!! "a")), al (some (s!! "b")), al none)) =
      some (some none, some (some (s!! "y")), none) := by
  refine ⟨by simp [aliasSample], by decide +kernel⟩

end Verif.Xslt
