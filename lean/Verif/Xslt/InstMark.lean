import Verif.Xslt.InstSound

/-
Marking tail calls, and the stylesheet as written.
-/
namespace Verif.Xslt
open Verif Verif.XPath Verif.Dom Verif.Dom.Spec Verif.Eval Verif.Eval.Spec Verif.Template
open Verif.Xslt.Spec

variable {d : Doc} {r : Nat} {sh sh0 : Sheet} {R : Rules}

mutual
theorem weaken_instr {t0 : Option Nat} {Γ : List Name} {i i0 : Instr} (tail : Option Nat) :
    InstrOk d r sh.named R t0 Γ i i0 → t0 = none → InstrOk d r sh.named R tail Γ i i0
  | .text, _ => .text
  | .valueOf h, _ => .valueOf h
  | .lit h1 h2, _ => .lit h1 h2
  | .attribute h, _ => .attribute h
  | .comment h, _ => .comment h
  | .pi h, _ => .pi h
  | .copy h1 h2, _ => .copy h1 h2
  | .copyOf h, _ => .copyOf h
  | .ite h1 h2, e => .ite h1 (weaken_instrs _ h2 (by simp [e]))
  | .choose h, e => .choose (weaken_whens _ h e)
  | .forEach h1 h2 h3 h4, _ => .forEach h1 h2 h3 h4
  | .apply h1 h2 h3, _ => .apply h1 h2 h3
  | .applyImports, _ => .applyImports
  | .call h1 h2, _ => .call h1 h2
  | .tailCall _ _ _, e => nomatch e

theorem weaken_instrs {t0 : Option Nat} {Γ : List Name} {b b0 : List Instr} (tail : Option Nat) :
    InstrsOk d r sh.named R t0 Γ b b0 → t0 = none → InstrsOk d r sh.named R tail Γ b b0
  | .nil, _ => .nil
  | .last h, e => .last (weaken_instr _ h e)
  | .cons h1 h2, e => .cons h1 (weaken_instrs _ h2 e)
  | .variable h1 h2 h3, e => .variable h1 h2 (weaken_instrs _ h3 e)

theorem weaken_whens {t0 : Option Nat} {Γ : List Name} {ws ws0 : List (XExpr × List Instr)}
    {o o0 : Option (List Instr)} (tail : Option Nat) :
    WhensOk d r sh.named R t0 Γ ws o ws0 o0 → t0 = none → WhensOk d r sh.named R tail Γ ws o ws0 o0
  | .none, _ => .none
  | .otherwise h, e => .otherwise (weaken_instrs _ h (by simp [e]))
  | .cons h1 h2 h3, e => .cons h1 (weaken_instrs _ h2 (by simp [e])) (weaken_whens _ h3 e)
end

theorem markPath_isVariable (p : List Nat) (i : Instr) : (markPath p i).isVariable = i.isVariable := by
  cases p <;> cases i <;> simp [markPath, Instr.isVariable]

theorem declares_onLast {p : List Nat} (b : List Instr) : declares (onLast (markPath p) b) = declares b := by
  have one : ∀ i : Instr, ∀ is, declares (i :: is) = (i.isVariable || declares is) := by
    intro i is; cases i <;> simp [declares, Instr.isVariable]
  induction b with
  | nil => rfl
  | cons i is ih =>
    cases is with
    | nil => simp [onLast, one, markPath_isVariable]
    | cons j is => rw [onLast, one, one i, ih]; simp

theorem mark_last {j : Nat} {f : Instr → Instr} {Γ : List Name} {b b0 : List Instr} {i : Instr}
    (hb : InstrsOk d r sh.named R none Γ b b0) (hl : b.getLast? = some i) (hi : i.isVariable = false)
    (hf : ∀ Γ i0, InstrOk d r sh.named R none Γ i i0 → InstrOk d r sh.named R (some j) Γ (f i) i0) :
    InstrsOk d r sh.named R (some j) Γ (onLast f b) b0 := by
  induction b generalizing Γ b0 with
  | nil => cases hl
  | cons k is ih =>
    cases is with
    | nil =>
      obtain rfl : k = i := by simpa using hl
      cases hb with
      | last h => exact .last (hf _ _ h)
      | cons h1 h2 => cases h2; exact .last (hf _ _ h1)
      | «variable» h1 h2 h3 => cases hi
    | cons k' is =>
      have hl' : (k' :: is).getLast? = some i := by simpa [List.getLast?_cons_cons] using hl
      rw [onLast]
      · cases hb with
        | cons h1 h2 => exact .cons h1 (ih h2 hl')
        | «variable» h1 h2 h3 => exact .variable h1 h2 (ih h3 hl')
      · simp

theorem hit_not_variable {name : Name} {k : Nat} {i : Instr} {p : List Nat} (h : p ∈ hitsAt name k i) :
    i.isVariable = false := by
  cases i with
  | «variable» x e => cases k <;> simp [hitsAt] at h
  | _ => rfl

theorem mark_path {name : Name} {j : Nat} (hj : sh.named name = some j) (k : Nat) {i i0 : Instr} {Γ : List Name}
    {p : List Nat} (hp : p ∈ hitsAt name k i) (hi : InstrOk d r sh.named R none Γ i i0) :
    InstrOk d r sh.named R (some j) Γ (markPath p i) i0 := by
  induction k generalizing i i0 Γ p with
  | zero =>
    cases hi with
    | call h1 h2 =>
      simp only [hitsAt] at hp
      split at hp
      · rename_i hn
        obtain rfl : p = [] := by simpa using hp
        exact .tailCall h1 h2 (hn ▸ hj)
      · cases hp
    | _ => simp [hitsAt] at hp
  | succ k ih =>
    -- the content of one branch
    have branch : ∀ {b b0 : List Instr} {Γ : List Name} {q : List Nat} {l : Instr}, lastInstr b = some l →
        q ∈ hitsAt name k l → InstrsOk d r sh.named R (if declares b then none else none) Γ b b0 →
        InstrsOk d r sh.named R (if declares (onLast (markPath q) b) then none else some j) Γ (onLast (markPath q) b) b0 := by
      intro b b0 Γ q l hl hq hb
      unfold lastInstr at hl
      split at hl
      · cases hl
      · rename_i hd
        rw [declares_onLast, if_neg hd]
        exact mark_last (by simpa using hb) hl (hit_not_variable hq) fun Γ i0 h => ih hq h
    cases hi with
    | ite h1 h2 =>
      simp only [hitsAt] at hp
      split at hp
      · rename_i l hl
        obtain ⟨q, hq, rfl⟩ := List.mem_map.1 hp
        rw [markPath]
        exact .ite h1 (branch hl hq h2)
      · cases hp
    | choose h =>
      rename_i ws ws0 o o0
      simp only [hitsAt] at hp
      obtain ⟨⟨b, m⟩, hb, hp⟩ := List.mem_flatMap.1 hp
      split at hp
      · rename_i l hl
        obtain ⟨q, hq, rfl⟩ := List.mem_map.1 hp
        rw [markPath]
        refine .choose ?_
        have hb' : (ws.map (·.2) ++ o.toList)[m]? = some b := by
          simpa [List.mem_zipIdx_iff_getElem?] using hb
        dsimp only at hl
        suffices ∀ (ws ws0 : List (XExpr × List Instr)) (m : Nat), WhensOk d r sh.named R none Γ ws o ws0 o0 →
            (ws.map (·.2) ++ o.toList)[m]? = some b →
            WhensOk d r sh.named R (some j) Γ (onBranch (onLast (markPath q)) m ws o).1
              (onBranch (onLast (markPath q)) m ws o).2 ws0 o0 from this ws ws0 m h hb'
        clear hb hp hb' h
        intro ws ws0 m h hb'
        induction ws generalizing ws0 m with
        | nil =>
          cases h with
          | none => simp at hb'
          | otherwise h =>
            cases m with
            | succ m => simp at hb'
            | zero =>
            obtain rfl : b = _ := by simpa using hb'.symm
            exact .otherwise (branch hl hq h)
        | cons w ws ihw =>
          cases h with
          | cons h1 h2 h3 =>
            cases m with
            | zero =>
              obtain rfl : b = _ := by simpa using hb'.symm
              exact .cons h1 (branch hl hq h2) (weaken_whens _ h3 rfl)
            | succ m =>
              exact .cons h1 (weaken_instrs _ h2 (by simp)) (ihw _ m h3 (by simpa using hb'))
      · cases hp
    | _ => simp [hitsAt] at hp

theorem firstHit_mem {name : Name} {i : Instr} (n : Nat) {k : Nat} {p : List Nat} (h : firstHit name i k n = some p) :
    ∃ k, p ∈ hitsAt name k i := by
  induction n generalizing k with
  | zero => cases h
  | succ n ih =>
    rw [firstHit] at h
    split at h
    · rename_i hh
      cases h
      exact ⟨k, by rw [hh]; simp⟩
    · exact ih h

/-! The stylesheet -/

theorem setup_same (t : XTmpl) : t.setup.rule = t.rule ∧ t.setup.name = t.name ∧ t.setup.params = t.params ∧
    declares t.setup.body = declares t.body := by
  unfold XTmpl.setup
  split
  · split
    · exact ⟨rfl, rfl, rfl, declares_onLast _⟩
    · exact ⟨rfl, rfl, rfl, rfl⟩
  · exact ⟨rfl, rfl, rfl, rfl⟩

theorem setup_rules (sh : Sheet) : sh.setup.rules = sh.rules := by
  simp [Sheet.rules, Sheet.setup, Function.comp_def, setup_same]

theorem find_last {α : Type} {p : α → Bool} {l : List α} {x : α × Nat}
    (h : l.zipIdx.reverse.find? (fun t => p t.1) = some x) :
    l[x.2]? = some x.1 ∧ p x.1 = true ∧ ∀ (j : Nat) (u : α), l[j]? = some u → p u = true → j ≤ x.2 := by
  obtain ⟨h1, as, bs, h2, h3⟩ := List.find?_eq_some_iff_append.1 h
  have hm : x ∈ l.zipIdx := by
    rw [← List.mem_reverse, h2]
    simp
  refine ⟨by simpa [List.mem_zipIdx_iff_getElem?] using hm, h1, ?_⟩
  intro j u hj hu
  have hj' : (u, j) ∈ l.zipIdx := by simpa [List.mem_zipIdx_iff_getElem?] using hj
  have hs : l.zipIdx = bs.reverse ++ x :: as.reverse := by
    rw [← List.reverse_reverse l.zipIdx, h2]
    simp
  have hsort : (l.zipIdx.map (·.2)).Pairwise (· < ·) := by
    rw [List.zipIdx_map_snd]
    exact List.pairwise_lt_range'
  rw [hs] at hj' hsort
  simp only [List.map_append, List.map_cons, List.pairwise_append, List.pairwise_cons] at hsort
  rcases List.mem_append.1 hj' with hb | hb
  · have := hsort.2.2 j (List.mem_map.2 ⟨_, hb, rfl⟩) x.2 (by simp)
    omega
  · rcases List.mem_cons.1 hb with rfl | hb
    · exact Nat.le_refl _
    · have := h3 _ (List.mem_reverse.1 hb)
      simp [hu] at this

theorem named_spec {sh : Sheet} {x : Name} {i : Nat} (h : sh.named x = some i) :
    ∃ t, sh.ts[i]? = some t ∧ t.name = some x ∧ ∀ (j : Nat) (u : XTmpl), sh.ts[j]? = some u → u.name = some x → j ≤ i := by
  obtain ⟨y, h1, rfl⟩ := Option.map_eq_some_iff.1 h
  obtain ⟨g1, g2, g3⟩ := find_last (p := fun (t : XTmpl) => decide (t.name = some x)) h1
  exact ⟨y.1, g1, by simpa using g2, fun j u hj hu => g3 j u hj (by simpa using hu)⟩

theorem named_some {sh : Sheet} {x : Name} {i : Nat} {t : XTmpl} (ht : sh.ts[i]? = some t) (hn : t.name = some x) :
    ∃ j, sh.named x = some j := by
  cases h : sh.named x with
  | some j => exact ⟨j, rfl⟩
  | none =>
    simp only [Sheet.named, Option.map_eq_none_iff, List.find?_eq_none] at h
    have := h (t, i) (by simpa [List.mem_zipIdx_iff_getElem?] using ht)
    simp [hn] at this

theorem setup_named (sh : Sheet) (x : Name) : sh.setup.named x = sh.named x := by
  have key : ∀ (l : List (XTmpl × Nat)), ((l.map fun t => (t.1.setup, t.2)).find? fun t => t.1.name = some x).map (·.2) =
      (l.find? fun t => t.1.name = some x).map (·.2) := by
    intro l
    induction l with
    | nil => rfl
    | cons t l ih =>
      rw [List.map_cons, List.find?_cons, List.find?_cons]
      simp only [(setup_same t.1).2.1]
      by_cases h : t.1.name = some x
      · simp [h]
      · simpa [h] using ih
  have e : (sh.ts.map XTmpl.setup).zipIdx.reverse = sh.ts.zipIdx.reverse.map fun t => (t.1.setup, t.2) := by
    rw [List.map_reverse, List.zipIdx_map]
    rfl
  rw [Sheet.named, Sheet.setup, e, key, Sheet.named]

theorem style_ok (h : SourceOk d r R sh) : StyleOk d r R sh.setup sh where
  globals := rfl
  good := h.good
  defined := h.defined
  rules := (setup_rules sh).symm
  runtime := by rw [setup_rules]; exact h.runtime
  patterns := by rw [setup_rules]; exact h.patterns
  named := by
    intro x i hx
    rw [setup_named] at hx
    obtain ⟨t, h1, h2, h3⟩ := named_spec hx
    refine ⟨t, h1, h2, fun j u hj hu hne => (h.named j i u t x hj h1 ?_ hu h2).1⟩
    have := h3 j u hj hu
    omega
  tmpl := by
    intro i t' ht'
    obtain ⟨t, ht, rfl⟩ : ∃ t, sh.ts[i]? = some t ∧ t.setup = t' := by
      simpa [Sheet.setup] using ht'
    obtain ⟨s1, s2, s3, s4⟩ := setup_same t
    obtain ⟨h1, h2⟩ := h.content t (List.mem_of_getElem? ht)
    refine ⟨t, ht, s3.symm, s1.symm, by rw [s3]; exact h1, ?_⟩
    rw [s3, s4, show sh.setup.named = sh.named from funext (setup_named sh)]
    by_cases hsame : t.setup = t
    · rw [hsame]; exact weaken_instrs _ h2 rfl
    replace hsame := fun j u x hj hlt hx hy => hsame (h.named i j t u x ht hj hlt hx hy).2
    generalize htail : (if t.params = [] ∧ declares t.body = true then none else some i) = tail
    unfold XTmpl.setup
    split
    · rename_i x y name l hname hlast
      split
      · rename_i p hp
        obtain ⟨k, hk⟩ := firstHit_mem _ hp
        obtain ⟨j, hj⟩ := named_some ht hname
        -- the template is not overridden, since it is changed
        have hji : j = i := by
          obtain ⟨u, g1, g2, g3⟩ := named_spec hj
          have := g3 i t ht hname
          rcases Nat.lt_or_ge i j with hlt | hge
          · exact (hsame j u _ g1 hlt hname g2).elim
          · omega
        subst hji
        have hlast' : t.body.getLast? = some l := by
          split at hlast
          · unfold lastInstr at hlast
            split at hlast
            · cases hlast
            · exact hlast
          · exact hlast
        have hd : ¬ (t.params = [] ∧ declares t.body = true) := by
          rintro ⟨e1, e2⟩
          simp [e1, lastInstr, e2] at hlast
        rw [if_neg hd] at htail
        subst htail
        exact mark_last h2 hlast' (hit_not_variable hk) fun Γ i0 hi => mark_path hj k hk hi
      · exact weaken_instrs _ h2 rfl
    · exact weaken_instrs _ h2 rfl

end Verif.Xslt
