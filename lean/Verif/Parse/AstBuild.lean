import Verif.Parse.AstSpec
import Verif.Parse.XPathLang
import Verif.Parse.LexLemmas
/-
The expression object built for a phrase, compared with the expression that the
phrase stands for (`Says`).  They are not equal: the constructors join some
steps, unions and predicates.  `Alike` says how far they differ; that alike
expressions mean the same is shown in Verif.Parse.AstMeans.
-/
namespace Verif.Parse
open Spec
open Verif.Eval (LAxis)

mutual
/-- The expression built (left) and the one meant (right). -/
inductive Alike : Ast → Ast → Prop where
  | literal (s) : Alike (.literal s) (.literal s)
  | number (s) : Alike (.number s) (.number s)
  | variable (s) : Alike (.variable s) (.variable s)
  | call (f) {es' es} : Alikes es' es → Alike (.call f es') (.call f es)
  | or {a' a b' b} : Alike a' a → Alike b' b → Alike (.or a' b') (.or a b)
  | and {a' a b' b} : Alike a' a → Alike b' b → Alike (.and a' b') (.and a b)
  | compare (op) {a' a b' b} : Alike a' a → Alike b' b → Alike (.compare op a' b') (.compare op a b)
  | arith (op) {a' a b' b} : Alike a' a → Alike b' b → Alike (.arith op a' b') (.arith op a b)
  | neg {a' a} : Alike a' a → Alike (.neg a') (.neg a)
  | path (ab) {l' l} : AlikeSteps l' l → Alike (.path ab l') (.path ab l)
  | union {a' a b' b} : Alike a' a → Alike b' b → Alike (.union [a', b']) (.union [a, b])
  /-- unions are joined -/
  | unions {es' a b' b} : Alike (.union es') a → Alike b' b →
      Alike (.union (es' ++ [b'])) (.union [a, b])
  | filter {a' a p' p} : Alike a' a → Alike p' p → Alike (.filter a' [p']) (.filter a [p])
  /-- predicates are joined -/
  | filters {a' ps' a p' p} : Alike (.filter a' ps') a → Alike p' p →
      Alike (.filter a' (ps' ++ [p'])) (.filter a [p])
  | pathFrom {a' a l' l} : Alike a' a → AlikeSteps l' l → Alike (.pathFrom a' l') (.pathFrom a l)
inductive Alikes : List Ast → List Ast → Prop where
  | nil : Alikes [] []
  | cons {a' a l' l} : Alike a' a → Alikes l' l → Alikes (a' :: l') (a :: l)
inductive AlikeStep : AStep → AStep → Prop where
  | mk (ax t) {ps' ps} : Alikes ps' ps → AlikeStep (.mk ax t ps') (.mk ax t ps)
inductive AlikeSteps : List AStep → List AStep → Prop where
  | nil : AlikeSteps [] []
  | cons {s' s l' l} : AlikeStep s' s → AlikeSteps l' l → AlikeSteps (s' :: l') (s :: l)
  /-- `//name` is `descendant::name` -/
  | fuse (t) {l' l} : AlikeSteps l' l →
      AlikeSteps (.mk (.tree .descendant) t [] :: l') (dosNode :: .mk (.tree .child) t [] :: l)
end

theorem Alikes.append {a' a : List Ast} (h : Alikes a' a) {b' b : Ast} (hb : Alike b' b) :
    Alikes (a' ++ [b']) (a ++ [b]) := by
  induction a' generalizing a with
  | nil => cases h; exact .cons hb .nil
  | cons x a' ih => cases h with | cons h1 h2 => exact .cons h1 (ih h2)

theorem Alikes.length {a' a : List Ast} (h : Alikes a' a) : a'.length = a.length := by
  induction a' generalizing a with
  | nil => cases h; rfl
  | cons x a' ih => cases h with | cons h1 h2 => simp [ih h2]

theorem AlikeSteps.append {a' a : List AStep} (h : AlikeSteps a' a) {b' b : List AStep}
    (hb : AlikeSteps b' b) : AlikeSteps (a' ++ b') (a ++ b) := by
  induction a' generalizing a with
  | nil => cases h; exact hb
  | cons x a' ih => cases h with
    | cons h1 h2 => exact .cons h1 (ih h2)
    | fuse t h2 => exact .fuse t (ih h2)

theorem slashes_alike {s' s : AStep} (h : AlikeStep s' s) {l' l : List AStep} (hl : AlikeSteps l' l) :
    AlikeSteps (slashes s' ++ l') (dosNode :: s :: l) := by
  cases h with
  | mk ax t hp =>
    rw [slashes]
    split
    · rename_i h
      rename_i ps' _
      cases hp with
      | nil => rw [h.2]; exact .fuse t hl
      | cons _ _ => exact (nomatch h.1)
    · exact .cons (s' := anyNode) (s := dosNode) (AlikeStep.mk (.tree .descendantOrSelf) .node .nil)
        (.cons (.mk _ _ hp) hl)

/-- There is a tree of the table's grammar for the symbol, with this value. -/
def HasV (x : Nat) (w : List Tok) (v : Val) : Prop :=
  ∃ t, Derives (grammar xpathTables) t ∧ root (grammar xpathTables).lhs t = x ∧ yield t = w ∧
    build t = .ok v

def HasAllV (xs : List Nat) (w : List Tok) (vs : List Val) : Prop :=
  ∃ ts, DerivesAll (grammar xpathTables) ts ∧ roots (grammar xpathTables).lhs ts = xs ∧
    yields ts = w ∧ builds ts = .ok vs

theorem HasAllV.nil : HasAllV [] [] [] := ⟨.nil, .nil, rfl, rfl, rfl⟩

theorem HasAllV.cons {x : Nat} {xs : List Nat} {u v : List Tok} {a : Val} {l : List Val}
    (h : HasV x u a) (h' : HasAllV xs v l) : HasAllV (x :: xs) (u ++ v) (a :: l) := by
  obtain ⟨t, h1, h2, h3, h4⟩ := h
  obtain ⟨ts, g1, g2, g3, g4⟩ := h'
  exact ⟨.cons t ts, .cons _ _ h1 g1, by rw [roots, h2, g2], by rw [yields, h3, g3],
    by rw [builds, h4, g4]⟩

theorem HasV.rule (r : Nat) (hr : 0 < r ∧ r < 61) {w : List Tok} {vs : List Val} {v : Val}
    (h : HasAllV (xpathTables.rhs.getD r []) w vs) (ha : act r vs = .ok v) :
    HasV (xpathTables.derives.getD r 0) w v := by
  obtain ⟨ts, h1, h2, h3, h4⟩ := h
  exact ⟨.node r ts, .node r ts hr h2 h1, rfl, h3, by rw [build, h4]; exact ha⟩

theorem HasV.term {k : Term} {t : Tok} (h : Is k t) : HasV k.num [t] (.tok t.text) :=
  ⟨.leaf t, .leaf t (by rw [show t.kind = k.num from h]; show 0 < k.num ∧ k.num < 29; cases k <;> decide), h, rfl, rfl⟩

/-! The texts of tokens -/

theorem axes_found {name : String} {a : LAxis} (h : (name, a) ∈ axes) :
    axisSpecifier name.toList = .ok (.axis a) := by
  simp only [axes, List.mem_cons, Prod.mk.injEq, List.not_mem_nil, or_false] at h
  rcases h with ⟨rfl, rfl⟩ | ⟨rfl, rfl⟩ | ⟨rfl, rfl⟩ | ⟨rfl, rfl⟩ | ⟨rfl, rfl⟩ | ⟨rfl, rfl⟩ |
    ⟨rfl, rfl⟩ | ⟨rfl, rfl⟩ | ⟨rfl, rfl⟩ | ⟨rfl, rfl⟩ | ⟨rfl, rfl⟩ | ⟨rfl, rfl⟩ | ⟨rfl, rfl⟩ <;> rfl

theorem ncname_no {c : Char} {w : Str} (hs : ¬ Verif.Names.Spec.NCNameChar c.toNat)
    (hs' : ¬ Verif.Names.Spec.NCNameStart c.toNat) (h : NCName w) : c ∉ w := by
  obtain ⟨x, xs, rfl, h1, h2⟩ := h
  intro hc
  rcases List.mem_cons.mp hc with rfl | hc
  · exact hs' h1
  · exact hs (h2 _ hc)

theorem ncname_colon {w : Str} (h : NCName w) : ':' ∉ w :=
  ncname_no (fun h => absurd ((isName_iff ':').mpr h) (by decide +kernel))
    (fun h => absurd ((isStart_iff ':').mpr h) (by decide +kernel)) h

theorem ncname_star {w : Str} (h : NCName w) : '*' ∉ w :=
  ncname_no (fun h => absurd ((isName_iff '*').mpr h) (by decide +kernel))
    (fun h => absurd ((isStart_iff '*').mpr h) (by decide +kernel)) h

theorem ncname_ne {w : Str} (h : NCName w) : w ≠ [] := by
  obtain ⟨c, cs, rfl, _⟩ := h
  exact nofun

theorem splitColon_none {w : Str} (h : ':' ∉ w) : splitColon w = none := by
  induction w with
  | nil => rfl
  | cons c w ih =>
    rw [splitColon, if_neg (fun e : c = ':' => h (e ▸ List.mem_cons_self)),
      ih fun hw => h (List.mem_cons_of_mem _ hw)]

theorem splitColon_append {p l : Str} (h : ':' ∉ p) :
    splitColon (p ++ ':' :: l) = some (p, l) := by
  induction p with
  | nil => simp [splitColon]
  | cons c w ih =>
    rw [List.cons_append, splitColon, if_neg (fun e : c = ':' => h (e ▸ List.mem_cons_self)),
      ih fun hw => h (List.mem_cons_of_mem _ hw)]

theorem getLast_ne {w : Str} (hs : '*' ∉ w) : w.getLast? ≠ some '*' :=
  fun h => hs (List.mem_of_getLast? h)

theorem getLast_append {a b : Str} (h : b ≠ []) : (a ++ b).getLast? = b.getLast? := by
  rw [List.getLast?_append]
  cases hb : b.getLast? with
  | none => exact absurd (List.getLast?_eq_none_iff.mp hb) h
  | some x => rfl

theorem nameTest_says {s : Str} {x : RawTest} (h : NameTestSays s x) : nameTest s = x := by
  rw [nameTest]
  cases h with
  | star => rfl
  | nsStar hp =>
    rw [if_pos (by simp), splitColon_append (ncname_colon hp)]
  | qname hp hl =>
    rename_i p l
    have : (p ++ ':' :: l).getLast? ≠ some '*' := by
      rw [getLast_append (by simp), List.getLast?_cons_of_ne_nil (ncname_ne hl)]
      exact getLast_ne (ncname_star hl)
    rw [if_neg this, splitColon_append (ncname_colon hp)]
  | name hl => rw [if_neg (getLast_ne (ncname_star hl)), splitColon_none (ncname_colon hl)]

theorem nodeType_says {name : String} {x : RawTest} (h : (name, x) ∈ nodeTypeTests) :
    nodeType name.toList none = .ok (.test x) := by
  simp only [nodeTypeTests, List.mem_cons, Prod.mk.injEq, List.not_mem_nil, or_false] at h
  rcases h with ⟨rfl, rfl⟩ | ⟨rfl, rfl⟩ | ⟨rfl, rfl⟩ | ⟨rfl, rfl⟩ <;> rfl

theorem unquote_says {q : Char} {s : Str} : unquote (q :: s ++ [q]) = s := by
  simp [unquote]

theorem piType_says {text s : Str} (h : LiteralSays text s) :
    nodeType piName (some text) = .ok (.test (.pi (some s))) := by
  obtain ⟨q, hq, rfl⟩ := h
  have e : ∀ l, nodeType piName (some (q :: l)) = .ok (.test (.pi (some (unquote (q :: l))))) := by
    intro l
    rw [nodeType, if_neg (by decide), if_neg (by decide), if_neg (by decide), if_pos (by decide)]
    exact if_pos hq
  rw [List.cons_append, e, ← List.cons_append, unquote_says]

theorem stringLiteral_says {text s : Str} (h : LiteralSays text s) :
    stringLiteral text = .literal s := by
  obtain ⟨q, hq, rfl⟩ := h
  rw [stringLiteral, if_pos, unquote_says]
  refine ⟨?_, ?_⟩
  · rcases hq with rfl | rfl
    · exact .inl rfl
    · exact .inr rfl
  · rw [getLast_append (by simp)]
    rfl

/-- The least and the greatest number of arguments in the table of the code. -/
def codeSignature (f : String) (least : Nat) (most : Option Nat) : Bool :=
  match find f.toList builtins with
  | some (mx, va, df) => mx - df == least && (if va then most == none else most == some mx)
  | none => false

theorem signatures_agree : signatures.all (fun x => codeSignature x.1 x.2.1 x.2.2) = true := by
  decide +kernel

theorem checkCount_ok {mx df n : Nat} {va : Bool} :
    checkCount mx va df n = .ok () ↔ mx - df ≤ n ∧ (va = false → n ≤ mx) := by
  rw [checkCount]
  split
  · rename_i h
    have : ¬ (mx - df ≤ n ∧ (va = false → n ≤ mx)) := fun h' => by have := h'.2 h.2; omega
    split <;> exact iff_of_false nofun this
  · rename_i h
    split
    · rename_i h2
      have : ¬ (mx - df ≤ n ∧ (va = false → n ≤ mx)) := by omega
      exact iff_of_false nofun this
    · rename_i h2
      refine iff_of_true rfl ⟨by omega, fun hv => ?_⟩
      have : ¬ n > mx := fun h' => h ⟨h', hv⟩
      omega

theorem builtins_plain : builtins.all (fun x => !x.1.contains ':') = true := by decide +kernel

theorem find_key {α : Type} {l : List (Str × α)} {k : Str} {a : α} (h : find k l = some a) :
    (k, a) ∈ l := by
  induction l with
  | nil => exact (nomatch h)
  | cons x l ih =>
    obtain ⟨k', a'⟩ := x
    rw [find] at h
    split at h
    · rename_i e
      injection h with h
      rw [e, h]
      exact List.mem_cons_self
    · exact List.mem_cons_of_mem _ (ih h)

theorem call_says {f : Str} {es : List Ast} (h : MayCall f es.length) :
    functionCall f es = .ok (.expr (.call f es)) := by
  rcases h with ⟨name, least, most, hm, rfl, h1, h2⟩ | ⟨p, l, hp, hl, rfl⟩
  · have h := List.all_eq_true.mp signatures_agree _ hm
    simp only [codeSignature] at h
    rw [functionCall]
    generalize find name.toList builtins = o at h ⊢
    match o, h with
    | some (mx, va, df), h =>
      dsimp only at h ⊢
      rw [Bool.and_eq_true, beq_iff_eq] at h
      have : checkCount mx va df es.length = .ok () := by
        rw [checkCount_ok]
        refine ⟨h.1 ▸ h1, ?_⟩
        rintro rfl
        exact h2 mx (by simpa using h.2)
      rw [this]
  · rw [functionCall]
    have : find (p ++ ':' :: l) builtins = none := by
      cases hf : find (p ++ ':' :: l) builtins with
      | none => rfl
      | some a =>
        have := List.all_eq_true.mp builtins_plain _ (find_key hf)
        simp at this
    rw [this]
    dsimp only
    rw [if_pos (by simp)]

/-- The predicates and the primary expression of a filter expression. -/
def FilterFound (w : List Tok) (e : Ast) : Prop :=
  (∃ e', HasV 43 w (.expr e') ∧ Alike e' e) ∨
  ∃ u v e' ps', w = u ++ v ∧ HasV 43 u (.expr e') ∧ HasV 33 v (.list ps') ∧
    Alike (.filter e' ps') e

/-- What the symbols of the specification are for the parser, with values. -/
def FoundV : Sym → List Tok → Val → Prop
  | .predicates, w, v => ∃ ps, v = .list ps ∧
      ((w = [] ∧ ps = []) ∨ ∃ ps', HasV 33 w (.list ps') ∧ Alikes ps' ps)
  | .filterExpr, w, v => ∃ e, v = .expr e ∧ FilterFound w e
  | .relativeLocationPath, w, v => ∃ l' l, v = .expr (.path false l) ∧
      HasV 31 w (.expr (.path false l')) ∧ AlikeSteps l' l ∧ l' ≠ []
  | .abbrevRelative, w, v => ∃ l' l, v = .expr (.path false l) ∧
      HasV 39 w (.expr (.path false l')) ∧ AlikeSteps l' l ∧ l' ≠ []
  | .step, w, v => ∃ s' s, v = .step s ∧ HasV 32 w (.step s') ∧ AlikeStep s' s
  | .abbrevStep, w, v => ∃ s text, v = .step s ∧ HasV 40 w (.tok text) ∧
      abbreviatedStep text = .ok (.step s) ∧ AlikeStep s s
  | .axisSpecifier, w, v => HasV 34 w v
  | .abbrevAxis, w, v => HasV 41 w v
  | .nodeTest, w, v => HasV 35 w v
  | .arguments, w, v => ∃ es' es, v = .list es ∧ HasV 45 w (.list es') ∧ Alikes es' es
  | s, w, v => ∃ e' e, v = .expr e ∧ HasV (num s) w (.expr e') ∧ Alike e' e

theorem hasV_filter {w : List Tok} {e : Ast} (h : FilterFound w e) :
    ∃ e', HasV 49 w (.expr e') ∧ Alike e' e := by
  rcases h with ⟨e', h, ha⟩ | ⟨u, v, e', ps', rfl, hu, hv, ha⟩
  · have : HasV 49 _ _ := HasV.rule 44 (by decide) (.cons h .nil) rfl
    exact ⟨e', by simpa [num] using this, ha⟩
  · have : HasV 49 _ _ := HasV.rule 45 (by decide) (.cons hu (.cons hv .nil)) rfl
    exact ⟨_, by simpa [num] using this, ha⟩

theorem unionExpr_alike {a' a b' b : Ast} (ha : Alike a' a) (hb : Alike b' b) :
    Alike (unionExpr a' b') (.union [a, b]) := by
  cases a' with
  | union es => exact .unions ha hb
  | _ => exact .union ha hb

theorem foundV {s : Sym} {w : List Tok} {v : Val} (h : Says s w v) : FoundV s w v := by
  induction h with
  | p1a h1 i1 =>
    obtain ⟨l', l, rfl, h, ha, _⟩ := i1
    have : HasV 29 _ _ := HasV.rule 1 (by decide) (.cons h .nil) rfl
    exact ⟨_, _, rfl, by simpa [num] using this, .path _ ha⟩
  | p1b h1 i1 =>
    obtain ⟨e', e, rfl, h, ha⟩ := i1
    have : HasV 29 _ _ := HasV.rule 2 (by decide) (.cons h .nil) rfl
    exact ⟨e', e, rfl, by simpa [num] using this, ha⟩
  | p2a h1 =>
    have : HasV 30 _ _ := HasV.rule 3 (by decide) (.cons (.term h1) .nil) rfl
    exact ⟨_, _, rfl, by simpa [num] using this, .path _ .nil⟩
  | p2b h1 h2 i2 =>
    obtain ⟨l', _, e, h, ha, _⟩ := i2
    cases e
    have : HasV 30 _ _ := HasV.rule 4 (by decide) (.cons (.term h1) (.cons h .nil)) rfl
    exact ⟨_, _, rfl, by simpa [num] using this, .path _ ha⟩
  | p2c h1 i1 =>
    obtain ⟨e', e, rfl, h, ha⟩ := i1
    have : HasV 30 _ _ := HasV.rule 5 (by decide) (.cons h .nil) rfl
    exact ⟨e', e, rfl, by simpa [num] using this, ha⟩
  | p3a h1 i1 =>
    obtain ⟨s', _, e, h, ha⟩ := i1
    cases e
    have : HasV 31 _ _ := HasV.rule 6 (by decide) (.cons h .nil) rfl
    exact ⟨_, _, rfl, by simpa [num] using this, .cons ha .nil, nofun⟩
  | p3b h1 h2 h3 i1 i3 =>
    obtain ⟨l', _, e, h, ha, hn⟩ := i1
    cases e
    obtain ⟨s', _, e, g, hb⟩ := i3
    cases e
    have : HasV 31 _ _ := HasV.rule 7 (by decide) (.cons h (.cons (.term h2) (.cons g .nil))) rfl
    exact ⟨_, _, rfl, by simpa [num] using this, ha.append (.cons hb .nil), by simp⟩
  | p3c h1 i1 =>
    obtain ⟨l', l, rfl, h, ha, hn⟩ := i1
    have : HasV 31 _ _ := HasV.rule 8 (by decide) (.cons h .nil) rfl
    exact ⟨l', l, rfl, by simpa [num] using this, ha, hn⟩
  | p4a h1 h2 h3 i1 i2 i3 =>
    obtain ⟨_, e, i3⟩ := i3
    cases e
    rcases i3 with ⟨rfl, rfl⟩ | ⟨ps', i3, ha⟩
    · have : HasV 32 _ _ := HasV.rule 9 (by decide) (.cons i1 (.cons i2 .nil)) rfl
      exact ⟨_, _, rfl, by simpa [num] using this, .mk _ _ .nil⟩
    · have : HasV 32 _ _ := HasV.rule 10 (by decide) (.cons i1 (.cons i2 (.cons i3 .nil))) rfl
      exact ⟨_, _, rfl, by simpa [num] using this, .mk _ _ ha⟩
  | p4b h1 i1 =>
    obtain ⟨s, text, rfl, h, hs, ha⟩ := i1
    have : HasV 32 _ _ := HasV.rule 11 (by decide) (.cons h .nil) hs
    exact ⟨s, s, rfl, by simpa [num] using this, ha⟩
  | none => exact ⟨[], rfl, .inl ⟨rfl, rfl⟩⟩
  | some h1 h2 i1 i2 =>
    obtain ⟨_, e, i1⟩ := i1
    cases e
    obtain ⟨p', _, e, h, hp⟩ := i2
    cases e
    refine ⟨_, rfl, .inr ?_⟩
    rcases i1 with ⟨rfl, rfl⟩ | ⟨ps', i1, ha⟩
    · have : HasV 33 _ _ := HasV.rule 12 (by decide) (.cons h .nil) rfl
      exact ⟨_, by simpa [num] using this, .cons hp .nil⟩
    · have : HasV 33 _ _ := HasV.rule 13 (by decide) (.cons i1 (.cons h .nil)) rfl
      exact ⟨_, by simpa [num] using this, ha.append hp⟩
  | p5a h1 h2 hm ht =>
    have : HasV 34 _ _ := HasV.rule 14 (by decide) (.cons (.term h1) (.cons (.term h2) .nil))
      (ht ▸ axes_found hm)
    simpa [FoundV] using this
  | p5b h1 i1 =>
    have : HasV 34 _ _ := HasV.rule 15 (by decide) (.cons i1 .nil) rfl
    simpa [FoundV] using this
  | p7a h1 hn =>
    have : HasV 35 _ _ := HasV.rule 16 (by decide) (.cons (.term h1) .nil) rfl
    rw [nameTest_says hn] at this
    simpa [FoundV] using this
  | p7b h1 h2 h3 hm ht =>
    have : HasV 35 _ _ := HasV.rule 17 (by decide)
      (.cons (.term h1) (.cons (.term h2) (.cons (.term h3) .nil))) (ht ▸ nodeType_says hm)
    simpa [FoundV] using this
  | p7c h1 ht h2 h3 h4 hl =>
    have : HasV 35 _ _ := HasV.rule 18 (by decide)
      (.cons (.term h1) (.cons (.term h2) (.cons (.term h3) (.cons (.term h4) .nil))))
      (ht ▸ piType_says hl)
    simpa [FoundV] using this
  | p8 h1 h2 h3 i2 =>
    obtain ⟨e', e, rfl, h, ha⟩ := i2
    have : HasV 36 _ _ := HasV.rule 19 (by decide) (.cons (.term h1) (.cons h (.cons (.term h3) .nil))) rfl
    exact ⟨e', e, rfl, by simpa [num] using this, ha⟩
  | p9 h1 i1 =>
    obtain ⟨e', e, rfl, h, ha⟩ := i1
    have : HasV 37 _ _ := HasV.rule 20 (by decide) (.cons h .nil) rfl
    exact ⟨e', e, rfl, by simpa [num] using this, ha⟩
  | p10 h1 h2 i2 =>
    obtain ⟨l', _, e, h, ha, hn⟩ := i2
    cases e
    match l', hn, ha, h with
    | s' :: l', _, ha, h =>
      have : HasV 38 _ _ := HasV.rule 21 (by decide) (.cons (.term h1) (.cons h .nil)) rfl
      refine ⟨_, _, rfl, by simpa [num] using this, .path _ ?_⟩
      cases ha with
      | cons hs hl => exact slashes_alike hs hl
      | fuse t hl =>
        rw [slashes, if_neg (by simp)]
        exact .cons (s' := anyNode) (s := dosNode)
          (AlikeStep.mk (.tree .descendantOrSelf) .node .nil) (.fuse t hl)
  | p11 h1 h2 h3 i1 i3 =>
    obtain ⟨l', _, e, h, ha, hn⟩ := i1
    cases e
    obtain ⟨s', _, e, g, hb⟩ := i3
    cases e
    have : HasV 39 _ _ := HasV.rule 22 (by decide) (.cons h (.cons (.term h2) (.cons g .nil))) rfl
    refine ⟨_, _, rfl, by simpa [num] using this, ha.append ?_, by simp [hn]⟩
    simpa using slashes_alike hb .nil
  | p12a h1 ht =>
    have : HasV 40 _ _ := HasV.rule 23 (by decide) (.cons (.term h1) .nil) rfl
    exact ⟨_, _, rfl, by simpa [num] using this, by rw [ht]; rfl, .mk _ _ .nil⟩
  | p12b h1 ht =>
    have : HasV 40 _ _ := HasV.rule 24 (by decide) (.cons (.term h1) .nil) rfl
    exact ⟨_, _, rfl, by simpa [num] using this, by rw [ht]; rfl, .mk _ _ .nil⟩
  | p13a h1 =>
    have : HasV 41 _ _ := HasV.rule 25 (by decide) (.cons (.term h1) .nil) rfl
    simpa [FoundV] using this
  | p13b =>
    have : HasV 41 _ _ := HasV.rule 26 (by decide) .nil rfl
    simpa [FoundV] using this
  | p14 h1 i1 =>
    obtain ⟨e', e, rfl, h, ha⟩ := i1
    have : HasV 42 _ _ := HasV.rule 27 (by decide) (.cons h .nil) rfl
    exact ⟨e', e, rfl, by simpa [num] using this, ha⟩
  | p15a h1 ht =>
    have : HasV 43 _ _ := HasV.rule 28 (by decide) (.cons (.term h1) .nil) rfl
    rw [ht] at this
    exact ⟨_, _, rfl, by simpa [num] using this, .variable _⟩
  | p15b h1 h2 h3 i2 =>
    obtain ⟨e', e, rfl, h, ha⟩ := i2
    have : HasV 43 _ _ := HasV.rule 29 (by decide) (.cons (.term h1) (.cons h (.cons (.term h3) .nil))) rfl
    exact ⟨e', e, rfl, by simpa [num] using this, ha⟩
  | p15c h1 hl =>
    have : HasV 43 _ _ := HasV.rule 30 (by decide) (.cons (.term h1) .nil) rfl
    rw [stringLiteral_says hl] at this
    exact ⟨_, _, rfl, by simpa [num] using this, .literal _⟩
  | p15d h1 =>
    have : HasV 43 _ _ := HasV.rule 31 (by decide) (.cons (.term h1) .nil) rfl
    exact ⟨_, _, rfl, by simpa [num] using this, .number _⟩
  | p15e h1 i1 =>
    obtain ⟨e', e, rfl, h, ha⟩ := i1
    have : HasV 43 _ _ := HasV.rule 32 (by decide) (.cons h .nil) rfl
    exact ⟨e', e, rfl, by simpa [num] using this, ha⟩
  | p16a h1 h2 h3 hm =>
    have : HasV 44 _ _ := HasV.rule 33 (by decide)
      (.cons (.term h1) (.cons (.term h2) (.cons (.term h3) .nil))) (call_says (es := []) hm)
    exact ⟨_, _, rfl, by simpa [num] using this, .call _ .nil⟩
  | p16b h1 h2 h3 h4 hm i3 =>
    obtain ⟨es', _, e, h, ha⟩ := i3
    cases e
    have : HasV 44 _ _ := HasV.rule 34 (by decide)
      (.cons (.term h1) (.cons (.term h2) (.cons h (.cons (.term h4) .nil))))
      (call_says (ha.length ▸ hm))
    exact ⟨_, _, rfl, by simpa [num] using this, .call _ ha⟩
  | one h1 i1 =>
    obtain ⟨e', _, e, h, ha⟩ := i1
    cases e
    have : HasV 45 _ _ := HasV.rule 35 (by decide) (.cons h .nil) rfl
    exact ⟨_, _, rfl, by simpa [num] using this, .cons ha .nil⟩
  | more h1 h2 h3 i1 i3 =>
    obtain ⟨a', _, e, h, ha⟩ := i1
    cases e
    obtain ⟨b', _, e, g, hb⟩ := i3
    cases e
    have : HasV 45 _ _ := HasV.rule 36 (by decide) (.cons h (.cons (.term h2) (.cons g .nil))) rfl
    exact ⟨_, _, rfl, by simpa [num] using this, ha.append hb⟩
  | p17 h1 i1 =>
    obtain ⟨e', e, rfl, h, ha⟩ := i1
    have : HasV 46 _ _ := HasV.rule 37 (by decide) (.cons h .nil) rfl
    exact ⟨e', e, rfl, by simpa [num] using this, ha⟩
  | p18a h1 i1 =>
    obtain ⟨e', e, rfl, h, ha⟩ := i1
    have : HasV 47 _ _ := HasV.rule 38 (by decide) (.cons h .nil) rfl
    exact ⟨e', e, rfl, by simpa [num] using this, ha⟩
  | p18b h1 h2 h3 i1 i3 =>
    obtain ⟨a', _, e, h, ha⟩ := i1
    cases e
    obtain ⟨b', _, e, g, hb⟩ := i3
    cases e
    have : HasV 47 _ _ := HasV.rule 39 (by decide) (.cons h (.cons (.term h2) (.cons g .nil))) rfl
    exact ⟨_, _, rfl, by simpa [num] using this, unionExpr_alike ha hb⟩
  | p19a h1 i1 =>
    obtain ⟨e', e, rfl, h, ha⟩ := i1
    have : HasV 48 _ _ := HasV.rule 40 (by decide) (.cons h .nil) rfl
    exact ⟨e', e, rfl, by simpa [num] using this, ha⟩
  | p19b h1 i1 =>
    obtain ⟨e, rfl, h⟩ := i1
    obtain ⟨e', h, ha⟩ := hasV_filter h
    have : HasV 48 _ _ := HasV.rule 41 (by decide) (.cons h .nil) rfl
    exact ⟨e', e, rfl, by simpa [num] using this, ha⟩
  | p19c h1 h2 ht h3 i1 i3 =>
    obtain ⟨_, e, h⟩ := i1
    cases e
    obtain ⟨e', h, ha⟩ := hasV_filter h
    obtain ⟨l', _, e, g, hb, _⟩ := i3
    cases e
    have : HasV 48 _ _ := HasV.rule 42 (by decide) (.cons h (.cons (.term h2) (.cons g .nil))) rfl
    rw [ht, pathExpr, if_neg (by decide)] at this
    exact ⟨_, _, rfl, by simpa [num] using this, .pathFrom ha hb⟩
  | p19d h1 h2 ht h3 i1 i3 =>
    obtain ⟨_, e, h⟩ := i1
    cases e
    obtain ⟨e', h, ha⟩ := hasV_filter h
    obtain ⟨l', _, e, g, hb, _⟩ := i3
    cases e
    have : HasV 48 _ _ := HasV.rule 43 (by decide) (.cons h (.cons (.term h2) (.cons g .nil))) rfl
    rw [ht, pathExpr, if_pos rfl] at this
    exact ⟨_, _, rfl, by simpa [num] using this, .pathFrom ha (.cons (s' := anyNode) (s := dosNode)
      (AlikeStep.mk (.tree .descendantOrSelf) .node .nil) hb)⟩
  | p20a h1 i1 =>
    obtain ⟨e', e, rfl, h, ha⟩ := i1
    exact ⟨e, rfl, .inl ⟨e', h, ha⟩⟩
  | p20b h1 h2 i1 i2 =>
    obtain ⟨_, e, i1⟩ := i1
    cases e
    obtain ⟨p', _, e, h, hp⟩ := i2
    cases e
    refine ⟨_, rfl, .inr ?_⟩
    rcases i1 with ⟨e', g, ha⟩ | ⟨u, v, e', ps', rfl, hu, hv, ha⟩
    · have : HasV 33 _ _ := HasV.rule 12 (by decide) (.cons h .nil) rfl
      exact ⟨_, _, e', _, rfl, g, by simpa [num] using this, .filter ha hp⟩
    · have : HasV 33 _ _ := HasV.rule 13 (by decide) (.cons hv (.cons h .nil)) rfl
      exact ⟨u, _, e', _, List.append_assoc _ _ _, hu, by simpa [num] using this, .filters ha hp⟩
  | p21a h1 i1 =>
    obtain ⟨e', e, rfl, h, ha⟩ := i1
    have : HasV 50 _ _ := HasV.rule 46 (by decide) (.cons h .nil) rfl
    exact ⟨e', e, rfl, by simpa [num] using this, ha⟩
  | p21b h1 h2 h3 i1 i3 =>
    obtain ⟨a', _, e, h, ha⟩ := i1
    cases e
    obtain ⟨b', _, e, g, hb⟩ := i3
    cases e
    have : HasV 50 _ _ := HasV.rule 47 (by decide) (.cons h (.cons (.term h2) (.cons g .nil))) rfl
    exact ⟨_, _, rfl, by simpa [num] using this, .or ha hb⟩
  | p22a h1 i1 =>
    obtain ⟨e', e, rfl, h, ha⟩ := i1
    have : HasV 51 _ _ := HasV.rule 48 (by decide) (.cons h .nil) rfl
    exact ⟨e', e, rfl, by simpa [num] using this, ha⟩
  | p22b h1 h2 h3 i1 i3 =>
    obtain ⟨a', _, e, h, ha⟩ := i1
    cases e
    obtain ⟨b', _, e, g, hb⟩ := i3
    cases e
    have : HasV 51 _ _ := HasV.rule 49 (by decide) (.cons h (.cons (.term h2) (.cons g .nil))) rfl
    exact ⟨_, _, rfl, by simpa [num] using this, .and ha hb⟩
  | p23a h1 i1 =>
    obtain ⟨e', e, rfl, h, ha⟩ := i1
    have : HasV 52 _ _ := HasV.rule 50 (by decide) (.cons h .nil) rfl
    exact ⟨e', e, rfl, by simpa [num] using this, ha⟩
  | p23b h1 h2 h3 i1 i3 =>
    obtain ⟨a', _, e, h, ha⟩ := i1
    cases e
    obtain ⟨b', _, e, g, hb⟩ := i3
    cases e
    have : HasV 52 _ _ := HasV.rule 51 (by decide) (.cons h (.cons (.term h2) (.cons g .nil))) rfl
    exact ⟨_, _, rfl, by simpa [num] using this, .compare _ ha hb⟩
  | p24a h1 i1 =>
    obtain ⟨e', e, rfl, h, ha⟩ := i1
    have : HasV 53 _ _ := HasV.rule 52 (by decide) (.cons h .nil) rfl
    exact ⟨e', e, rfl, by simpa [num] using this, ha⟩
  | p24b h1 h2 h3 i1 i3 =>
    obtain ⟨a', _, e, h, ha⟩ := i1
    cases e
    obtain ⟨b', _, e, g, hb⟩ := i3
    cases e
    have : HasV 53 _ _ := HasV.rule 53 (by decide) (.cons h (.cons (.term h2) (.cons g .nil))) rfl
    exact ⟨_, _, rfl, by simpa [num] using this, .compare _ ha hb⟩
  | p25a h1 i1 =>
    obtain ⟨e', e, rfl, h, ha⟩ := i1
    have : HasV 54 _ _ := HasV.rule 54 (by decide) (.cons h .nil) rfl
    exact ⟨e', e, rfl, by simpa [num] using this, ha⟩
  | p25b h1 h2 h3 i1 i3 =>
    obtain ⟨a', _, e, h, ha⟩ := i1
    cases e
    obtain ⟨b', _, e, g, hb⟩ := i3
    cases e
    have : HasV 54 _ _ := HasV.rule 55 (by decide) (.cons h (.cons (.term h2) (.cons g .nil))) rfl
    exact ⟨_, _, rfl, by simpa [num] using this, .arith _ ha hb⟩
  | p25c h1 h2 h3 i1 i3 =>
    obtain ⟨a', _, e, h, ha⟩ := i1
    cases e
    obtain ⟨b', _, e, g, hb⟩ := i3
    cases e
    have : HasV 54 _ _ := HasV.rule 56 (by decide) (.cons h (.cons (.term h2) (.cons g .nil))) rfl
    exact ⟨_, _, rfl, by simpa [num] using this, .arith _ ha hb⟩
  | p26a h1 i1 =>
    obtain ⟨e', e, rfl, h, ha⟩ := i1
    have : HasV 55 _ _ := HasV.rule 57 (by decide) (.cons h .nil) rfl
    exact ⟨e', e, rfl, by simpa [num] using this, ha⟩
  | p26b h1 h2 h3 i1 i3 =>
    obtain ⟨a', _, e, h, ha⟩ := i1
    cases e
    obtain ⟨b', _, e, g, hb⟩ := i3
    cases e
    have : HasV 55 _ _ := HasV.rule 58 (by decide) (.cons h (.cons (.term h2) (.cons g .nil))) rfl
    exact ⟨_, _, rfl, by simpa [num] using this, .arith _ ha hb⟩
  | p27a h1 i1 =>
    obtain ⟨e', e, rfl, h, ha⟩ := i1
    have : HasV 56 _ _ := HasV.rule 59 (by decide) (.cons h .nil) rfl
    exact ⟨e', e, rfl, by simpa [num] using this, ha⟩
  | p27c h1 h2 i2 =>
    obtain ⟨e', _, e, h, ha⟩ := i2
    cases e
    have : HasV 56 _ _ := HasV.rule 60 (by decide) (.cons (.term h1) (.cons h .nil)) rfl
    exact ⟨_, _, rfl, by simpa [num] using this, .neg ha⟩

end Verif.Parse
