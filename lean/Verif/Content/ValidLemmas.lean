import Verif.Content.Correct
import Verif.Content.ValidSpec
/-
The validator reports no error exactly for valid documents.
-/
set_option linter.unusedSectionVars false
set_option linter.unusedSimpArgs false
namespace Verif.Content
open Spec
variable {N : Type} [DecidableEq N]

theorem lookup_append {K V : Type} [DecidableEq K] (k : K) : ∀ (a b : List (K × V)),
    lookup k (a ++ b) = (lookup k a).or (lookup k b)
  | [], b => by simp [lookup]
  | (k', v) :: a, b => by
    rw [List.cons_append, lookup, lookup]
    split
    · rfl
    · exact lookup_append k a b

theorem lookup_elements (n : N) : ∀ (decls : List (N × Decl N)) (v : Validator N),
    lookup n (decls.foldl (fun v d => addElementType v d.1 d.2) v).elements =
      (lookup n v.elements).or ((declOf n decls).map declModel)
  | [], v => by simp [declOf]
  | (m, d) :: decls, v => by
    rw [List.foldl_cons, lookup_elements n decls, declOf]
    unfold addElementType
    by_cases h : m = n
    · subst h
      cases hl : lookup m v.elements with
      | some x => simp [hl]
      | none => simp [lookup_append, hl, lookup]
    · cases hl : lookup m v.elements with
      | some x => simp [h]
      | none => simp [lookup_append, lookup, h]

theorem fold_context (decls : List (N × Decl N)) : ∀ (v : Validator N),
    (decls.foldl (fun v d => addElementType v d.1 d.2) v).context = v.context := by
  induction decls with
  | nil => intro v; rfl
  | cons d decls ih =>
    intro v
    rw [List.foldl_cons, ih]
    unfold addElementType
    split <;> rfl

theorem run_append (p : Bool) : ∀ (a b : List (Sax N)) (r : Reader N),
    run p r (a ++ b) = ((run p r a).1 ++ (run p (run p r a).2 b).1, (run p (run p r a).2 b).2)
  | [], b, r => by simp [run]
  | e :: a, b, r => by
    rw [List.cons_append, run, run, run_append p a b]
    simp [List.append_assoc]

theorem runDfa_append (dfa : List (List (Ev N × Nat))) : ∀ (u : List (Ev N)) (j : Nat) (w : List (Ev N)),
    runDfa dfa j (u ++ w) = (runDfa dfa j u).bind (fun k => runDfa dfa k w)
  | [], _, _ => rfl
  | e :: u, j, w => by
    rw [List.cons_append, runDfa, runDfa]
    cases transit dfa j e with
    | none => rfl
    | some k => exact runDfa_append dfa u k w

theorem runDfa_one (dfa : List (List (Ev N × Nat))) (j : Nat) (e : Ev N) : runDfa dfa j [e] = transit dfa j e := by
  rw [runDfa]
  cases transit dfa j e <;> rfl

/-- The content of a declaration is one that the compiler handles. -/
theorem declContent_ok {d : Decl N} (hw : WellFormedDecl d) {c : Content (Ev N)} (h : declContent d = some c) :
    NoEmptySeq c ∧ NoEmptyAlt c ∧ Ev.fin ∉ Names c := by
  cases d with
  | any => cases h
  | empty => cases h; simp [NoEmptySeq, NoEmptyAlt, Names]
  | children c' =>
    cases h
    refine ⟨hw.1, hw.2.1, fun hm => ?_⟩
    obtain ⟨n, hn⟩ := hw.2.2 _ hm
    cases hn
  | mixed ns =>
    cases h
    have : ∀ ns : List N, NoEmptySeqs (ns.map fun n => Content.name (Ev.name n) Quant.none) ∧
        NoEmptyAlts (ns.map fun n => Content.name (Ev.name n) Quant.none) ∧
        Ev.fin ∉ NamesL (ns.map fun n => Content.name (Ev.name n) Quant.none) := by
      intro ns
      induction ns with
      | nil => simp [NoEmptySeqs, NoEmptyAlts, NamesL]
      | cons n ns ih => simp [NoEmptySeqs, NoEmptyAlts, NamesL, NoEmptySeq, NoEmptyAlt, Names, ih]
    simp [NoEmptySeq, NoEmptyAlt, Names, NoEmptySeqs, NoEmptyAlts, NamesL, this ns]

theorem langAlt_names (ns : List N) (w : List (Ev N)) :
    langAlt (ns.map fun n => Content.name (Ev.name n) Quant.none) w ↔ ∃ n ∈ ns, w = [Ev.name n] := by
  induction ns with
  | nil => simp [langAlt]
  | cons n ns ih => simp [langAlt, lang, quantify, ih]

theorem lang_mixed (ns : List N) (w : List (Ev N)) :
    lang (.alt (.name .pcdata .none :: ns.map fun n => .name (.name n) .none) .rep) w ↔
      ∀ e ∈ w, e = Ev.pcdata ∨ ∃ n ∈ ns, e = Ev.name n := by
  have key : ∀ u : List (Ev N), langAlt (.name .pcdata .none :: ns.map fun n => .name (.name n) .none) u ↔
      ∃ e, u = [e] ∧ (e = Ev.pcdata ∨ ∃ n ∈ ns, e = Ev.name n) := by
    intro u
    rw [langAlt]
    simp only [langAlt_names, lang, quantify]
    constructor
    · rintro (rfl | ⟨n, hn, rfl⟩)
      · exact ⟨_, rfl, Or.inl rfl⟩
      · exact ⟨_, rfl, Or.inr ⟨n, hn, rfl⟩⟩
    · rintro ⟨e, rfl, rfl | ⟨n, hn, rfl⟩⟩
      · exact Or.inl rfl
      · exact Or.inr ⟨n, hn, rfl⟩
  rw [lang]
  simp only [quantify]
  constructor
  · intro h
    induction h with
    | nil => simp
    | cons h1 _ ih =>
      obtain ⟨e, rfl, he⟩ := (key _).1 h1
      intro x hx
      rw [List.cons_append, List.nil_append] at hx
      rcases List.mem_cons.1 hx with rfl | hx
      · exact he
      · exact ih x hx
  · intro h
    induction w with
    | nil => exact .nil
    | cons e w ih =>
      have := Star.cons (L := langAlt (.name Ev.pcdata .none :: ns.map fun n => .name (Ev.name n) .none))
        ((key [e]).2 ⟨e, rfl, h e (by simp)⟩) (ih fun x hx => h x (by simp [hx]))
      exact this

mutual
theorem lang_names : ∀ (c : Content (Ev N)) (w : List (Ev N)), lang c w → ∀ e ∈ w, e ∈ Names c
  | .name a q, w, h => by rw [lang] at h; rw [Names]; exact quant_names q (by rintro w rfl; simp) w h
  | .seq l q, w, h => by rw [lang] at h; rw [Names]; exact quant_names q (langSeq_names l) w h
  | .alt l q, w, h => by rw [lang] at h; rw [Names]; exact quant_names q (langAlt_namesL l) w h
theorem langSeq_names : ∀ (l : List (Content (Ev N))) (w : List (Ev N)), langSeq l w → ∀ e ∈ w, e ∈ NamesL l
  | [], w, h => by rw [langSeq] at h; rw [h]; simp
  | c :: cs, w, h => by
    rw [langSeq] at h
    obtain ⟨u, v, rfl, h1, h2⟩ := h
    intro e he
    rw [NamesL]
    rcases List.mem_append.1 he with he | he
    · exact List.mem_append.2 (Or.inl (lang_names c u h1 e he))
    · exact List.mem_append.2 (Or.inr (langSeq_names cs v h2 e he))
theorem langAlt_namesL : ∀ (l : List (Content (Ev N))) (w : List (Ev N)), langAlt l w → ∀ e ∈ w, e ∈ NamesL l
  | [], w, h => by rw [langAlt] at h; exact h.elim
  | c :: cs, w, h => by
    rw [langAlt] at h
    intro e he
    rw [NamesL]
    rcases h with h | h
    · exact List.mem_append.2 (Or.inl (lang_names c w h e he))
    · exact List.mem_append.2 (Or.inr (langAlt_namesL cs w h e he))
theorem quant_names {L : Lang (Ev N)} {S : List (Ev N)} (q : Quant) (hL : ∀ w, L w → ∀ e ∈ w, e ∈ S) (w : List (Ev N))
    (h : quantify q L w) : ∀ e ∈ w, e ∈ S := by
  have hstar : ∀ w, Star L w → ∀ e ∈ w, e ∈ S := by
    intro w h
    induction h with
    | nil => simp
    | cons h1 _ ih =>
      intro e he
      rcases List.mem_append.1 he with he | he
      · exact hL _ h1 e he
      · exact ih e he
  cases q with
  | none => exact hL w h
  | opt =>
    rcases h with rfl | h
    · simp
    · exact hL w h
  | rep => exact hstar w h
  | plus =>
    obtain ⟨u, v, rfl, h1, h2⟩ := h
    intro e he
    rcases List.mem_append.1 he with he | he
    · exact hL _ h1 e he
    · exact hstar v h2 e he
end

/-- The word `u` of events can be continued to a word that the declaration allows. -/
def PrefixOk (d : Decl N) (u : List (Ev N)) : Prop := ∀ c, declContent d = some c → ∃ v, lang c (u ++ v)

/-- The word `u` of events is one that the declaration allows. -/
def FinalOk (d : Decl N) (u : List (Ev N)) : Prop := ∀ c, declContent d = some c → lang c u

/-- The state stored in a context for declaration `d` after the events `u`. -/
def At (d : Decl N) (u : List (Ev N)) (st : Option (Dfa N × Nat)) : Prop :=
  (declContent d = none ∧ st = none) ∨
    ∃ c dfa j, declContent d = some c ∧ compile .fin c = some dfa ∧ runDfa dfa 0 u = some j ∧ st = some (dfa, j)

/-- What one event does. -/
theorem transit_at {d : Decl N} (hw : WellFormedDecl d) {u : List (Ev N)} {v : Validator N} {cx : Ctx N} {rest : List (Ctx N)}
    (hc : v.context = cx :: rest) (ha : At d u cx.state) (hu : Ev.fin ∉ u) (e : Ev N) (he : e ≠ .fin) (save : Bool) :
    ((transitEvent v e save).1 = true ↔ PrefixOk d (u ++ [e])) ∧
      ((transitEvent v e true).1 = true → ∃ cx', (transitEvent v e true).2 = { v with context := cx' :: rest } ∧
        At d (u ++ [e]) cx'.state) := by
  unfold transitEvent
  rw [hc]
  rcases ha with ⟨h1, h2⟩ | ⟨c, dfa, j, h1, h2, h3, h4⟩
  · simp only [h2, true_iff]
    refine ⟨?_, fun _ => ⟨cx, by rw [← hc], Or.inl ⟨h1, h2⟩⟩⟩
    intro c hc'
    rw [h1] at hc'; cases hc'
  · obtain ⟨o1, o2, o3⟩ := declContent_ok hw h1
    obtain ⟨dfa', g1, g2, g3⟩ := compile_correct o1 o3
    rw [h2] at g1
    cases g1
    have hfin : Ev.fin ∉ u ++ [e] := by simp [hu, he.symm]
    have hrun : (transit dfa j e).isSome = true ↔ PrefixOk d (u ++ [e]) := by
      have := g3 o2 _ hfin
      rw [runDfa_append, h3] at this
      simp only [Option.bind_some, runDfa_one] at this
      rw [this]
      unfold PrefixOk
      constructor
      · intro h c' hc'
        rw [h1] at hc'; cases hc'; exact h
      · intro h; exact h c h1
    simp only [h4]
    cases ht : transit dfa j e with
    | none =>
      rw [ht] at hrun
      simp only [Option.isSome_none, Bool.false_eq_true] at hrun
      simp [← hrun]
    | some j' =>
      rw [ht] at hrun
      simp only [Option.isSome_some, true_iff] at hrun
      simp only [hrun, true_iff, true_implies, if_true]
      refine ⟨trivial, { cx with state := some (dfa, j') }, rfl, Or.inr ⟨c, dfa, j', h1, h2, ?_, rfl⟩⟩
      rw [runDfa_append, h3]
      simp [runDfa_one, ht]

theorem transit_fin {d : Decl N} (hw : WellFormedDecl d) {u : List (Ev N)} {v : Validator N} {cx : Ctx N} {rest : List (Ctx N)}
    (hc : v.context = cx :: rest) (ha : At d u cx.state) (hu : Ev.fin ∉ u) :
    ((endElement v).1 = true ↔ FinalOk d u) ∧ (endElement v).2.context = rest ∧
      (endElement v).2.elements = v.elements := by
  have hstep : (transitEvent v .fin true).1 = true ↔ FinalOk d u := by
    unfold transitEvent
    rw [hc]
    rcases ha with ⟨h1, h2⟩ | ⟨c, dfa, j, h1, h2, h3, h4⟩
    · simp only [h2, true_iff]
      intro c hc'
      rw [h1] at hc'; cases hc'
    · obtain ⟨o1, o2, o3⟩ := declContent_ok hw h1
      obtain ⟨dfa', g1, g2, g3⟩ := compile_correct o1 o3
      rw [h2] at g1
      cases g1
      have hrun : (transit dfa j .fin).isSome = true ↔ FinalOk d u := by
        have := g2 u hu
        unfold accepts at this
        rw [runDfa_append, h3] at this
        simp only [Option.bind_some, runDfa_one] at this
        rw [this]
        unfold FinalOk
        constructor
        · intro h c' hc'
          rw [h1] at hc'; cases hc'; exact h
        · intro h; exact h c h1
      simp only [h4]
      cases ht : transit dfa j .fin with
      | none => rw [ht] at hrun; simpa using hrun
      | some j' => rw [ht] at hrun; simpa using hrun
  have hctx : ∃ cx', (transitEvent v .fin true).2 = { v with context := cx' :: rest } := by
    unfold transitEvent
    rw [hc]
    split
    · rename_i h; cases h
    · rename_i c' cs' heq
      cases heq
      split
      · exact ⟨_, by rw [← hc]⟩
      · split
        · exact ⟨_, by rw [← hc]⟩
        · exact ⟨_, rfl⟩
  obtain ⟨cx', hcx⟩ := hctx
  unfold endElement
  rw [hc]
  simp only [hcx, hstep, and_self, and_true]

theorem start_declared {v : Validator N} {n : N} {d : Decl N} (hl : lookup n v.elements = some (declModel d))
    (hw : WellFormedDecl d) : (startElement v n).1 = true ∧ ∃ cx, (startElement v n).2.context = cx :: v.context ∧
      (startElement v n).2.elements = v.elements ∧ At d [] cx.state := by
  unfold startElement
  rw [hl]
  refine ⟨rfl, _, rfl, rfl, ?_⟩
  simp only [declModel]
  cases hd : declContent d with
  | none => exact Or.inl ⟨hd, rfl⟩
  | some c =>
    obtain ⟨o1, o2, o3⟩ := declContent_ok hw hd
    obtain ⟨dfa, g1, -, -⟩ := compile_correct o1 o3
    simp only [g1]
    exact Or.inr ⟨c, dfa, 0, hd, g1, rfl, rfl⟩

/-- The character data allowed by a declaration (white space is preserved). -/
def TextOk (d : Decl N) (ws : Bool) : Prop :=
  match d with
  | .empty => False
  | .any => True
  | .mixed _ => True
  | .children _ => ws = true

theorem chars_at {d : Decl N} (hw : WellFormedDecl d) {u : List N} {r : Reader N} {cx : Ctx N} {rest : List (Ctx N)}
    (hc : r.validator.context = cx :: rest) (ha : At d (u.map Ev.name) cx.state) (hp : PrefixOk d (u.map Ev.name))
    (ws : Bool) : chars true ws r = [] ↔ TextOk d ws := by
  have hu : Ev.fin ∉ u.map Ev.name := by simp
  have h1 := (transit_at hw hc ha hu .pcdata (by simp) false).1
  have h2 := (transit_at hw hc ha hu .empty (by simp) false).1
  unfold chars
  simp only [Bool.not_true, Bool.and_false, Bool.false_eq_true, if_false]
  cases d with
  | any =>
    have : PrefixOk (Decl.any : Decl N) (u.map Ev.name ++ [Ev.pcdata]) := fun c hc => by cases hc
    rw [if_pos (h1.2 this)]
    simp [TextOk]
  | mixed ns =>
    have : PrefixOk (Decl.mixed ns) (u.map Ev.name ++ [Ev.pcdata]) := by
      intro c hc
      cases hc
      obtain ⟨v, hv⟩ := hp _ rfl
      rw [lang_mixed] at hv
      refine ⟨[], ?_⟩
      rw [lang_mixed]
      intro e he
      simp only [List.append_nil, List.mem_append, List.mem_singleton] at he
      rcases he with he | he
      · exact hv e (List.mem_append.2 (Or.inl he))
      · exact Or.inl he
    rw [if_pos (h1.2 this)]
    simp [TextOk]
  | empty =>
    have hu0 : u = [] := by
      obtain ⟨v, hv⟩ := hp _ rfl
      rw [lang] at hv
      cases u with
      | nil => rfl
      | cons n u => simp [quantify, opt] at hv
    subst hu0
    have n1 : ¬ PrefixOk (Decl.empty : Decl N) ([] ++ [Ev.pcdata]) := by
      intro h
      obtain ⟨v, hv⟩ := h _ rfl
      rw [lang] at hv
      simp [quantify, opt] at hv
    have p2 : PrefixOk (Decl.empty : Decl N) ([] ++ [Ev.empty]) := by
      intro c hc
      cases hc
      refine ⟨[], ?_⟩
      rw [lang]
      exact Or.inr rfl
    have e1 : (transitEvent r.validator .pcdata false).1 = false := by
      cases h : (transitEvent r.validator .pcdata false).1 with
      | false => rfl
      | true => exact absurd (h1.1 h) n1
    have e2 := h2.2 p2
    rw [e1, e2]
    cases ws <;> simp [TextOk, errIf]
  | children c =>
    have n1 : ∀ e, (∀ n, e ≠ Ev.name n) → ¬ PrefixOk (Decl.children c) (u.map Ev.name ++ [e]) := by
      intro e he h
      obtain ⟨v, hv⟩ := h _ rfl
      obtain ⟨n, hn⟩ := hw.2.2 e (lang_names c _ hv e (by simp))
      exact he n hn
    have e1 : (transitEvent r.validator .pcdata false).1 = false := by
      cases h : (transitEvent r.validator .pcdata false).1 with
      | false => rfl
      | true => exact absurd (h1.1 h) (n1 _ (by simp))
    have e2 : (transitEvent r.validator .empty false).1 = false := by
      cases h : (transitEvent r.validator .empty false).1 with
      | false => rfl
      | true => exact absurd (h2.1 h) (n1 _ (by simp))
    rw [e1, e2]
    cases ws <;> simp [TextOk, errIf]

theorem FinalOk.prefix {d : Decl N} {u v : List (Ev N)} (h : FinalOk d (u ++ v)) : PrefixOk d u :=
  fun c hc => ⟨v, h c hc⟩

theorem PrefixOk.prefix {d : Decl N} {u v : List (Ev N)} (h : PrefixOk d (u ++ v)) : PrefixOk d u := by
  intro c hc
  obtain ⟨w, hw⟩ := h c hc
  exact ⟨v ++ w, by rw [← List.append_assoc]; exact hw⟩

/-- The content check, split into its parts. -/
def TextsOk (d : Decl N) (cs : List (Doc N)) : Prop := ∀ ws, Doc.text ws ∈ cs → TextOk d ws

theorem childNames_text_empty : ∀ {cs : List (Doc N)}, childNames cs = [] → (∀ ws, Doc.text ws ∉ cs) → cs = []
  | [], _, _ => rfl
  | .elem _ _ :: _, h, _ => by cases h
  | .text ws :: _, _, h => absurd (by simp) (h ws)

theorem contentOk_iff (d : Decl N) (cs : List (Doc N)) :
    ContentOk d cs ↔ TextsOk d cs ∧ FinalOk d ((childNames cs).map Ev.name) := by
  cases d with
  | any => simp [ContentOk, TextsOk, TextOk, FinalOk, declContent]
  | empty =>
    simp only [ContentOk, TextsOk, TextOk, FinalOk, declContent]
    constructor
    · rintro rfl
      refine ⟨by simp, ?_⟩
      intro c hc; cases hc
      rw [lang]; exact Or.inl rfl
    · rintro ⟨h1, h2⟩
      refine childNames_text_empty ?_ h1
      have := h2 _ rfl
      rw [lang] at this
      cases hn : childNames cs with
      | nil => rfl
      | cons n ns => rw [hn] at this; simp [quantify, opt] at this
  | mixed ns =>
    simp only [ContentOk, TextsOk, TextOk, FinalOk, declContent]
    constructor
    · intro h
      refine ⟨by simp, ?_⟩
      intro c hc; cases hc
      rw [lang_mixed]
      intro e he
      obtain ⟨n, hn, rfl⟩ := List.mem_map.1 he
      exact Or.inr ⟨n, h n hn, rfl⟩
    · rintro ⟨-, h⟩ n hn
      have := (lang_mixed ns _).1 (h _ rfl) (Ev.name n) (List.mem_map.2 ⟨n, hn, rfl⟩)
      rcases this with h | ⟨m, hm, he⟩
      · cases h
      · cases he; exact hm
  | children c =>
    simp only [ContentOk, TextsOk, TextOk, FinalOk, declContent]
    constructor
    · rintro ⟨h1, h2⟩
      refine ⟨?_, ?_⟩
      · intro ws hws
        cases ws with
        | true => rfl
        | false => exact absurd hws h2
      · intro c' hc; cases hc; exact h1
    · rintro ⟨h1, h2⟩
      refine ⟨h2 _ rfl, fun h => ?_⟩
      have := h1 false h
      cases this

theorem append_eq_nil {E : Type} {a b : List E} : a ++ b = [] ↔ a = [] ∧ b = [] := by simp

theorem errIf_nil {E : Type} {b : Bool} {e : E} : errIf b e = [] ↔ b = true := by
  cases b <;> simp [errIf]

theorem declOf_wf : ∀ {l : List (N × Decl N)}, (∀ x ∈ l, WellFormedDecl x.2) → ∀ {n : N} {d : Decl N},
    declOf n l = some d → WellFormedDecl d
  | [], _, _, _, h => by cases h
  | (m, d') :: l, hl, n, d, h => by
    rw [declOf] at h
    split at h
    · cases h; exact hl (m, d') (by simp)
    · exact declOf_wf (fun x hx => hl x (by simp [hx])) h

section
variable (decls : List (N × Decl N))

/-- The reader is inside an element with declaration `d`, after the children `u`. -/
structure Inside (d : Decl N) (u : List N) (rest : List (Ctx N)) (r : Reader N) : Prop where
  root : r.root = none
  elements : ∀ n, lookup n r.validator.elements = (declOf n decls).map declModel
  ctx : ∃ cx, r.validator.context = cx :: rest ∧ At d (u.map Ev.name) cx.state
  ok : PrefixOk d (u.map Ev.name)

variable (hwf : ∀ x ∈ decls, WellFormedDecl x.2)
include hwf

mutual
theorem doc_run : ∀ (x : Doc N) (d : Decl N), WellFormedDecl d → ∀ (u : List N) (rest : List (Ctx N)) (r : Reader N),
    Inside decls d u rest r →
    ((run true r (events x)).1 = [] ↔ Valid decls x ∧ TextsOk d [x] ∧ PrefixOk d ((u ++ childNames [x]).map Ev.name)) ∧
    ((run true r (events x)).1 = [] → Inside decls d (u ++ childNames [x]) rest (run true r (events x)).2)
  | .text ws, d, hd, u, rest, r, h => by
    obtain ⟨cx, hc, ha⟩ := h.ctx
    have := chars_at hd hc ha h.ok ws
    have ht : TextsOk d [Doc.text ws] ↔ TextOk d ws := by
      constructor
      · intro h; exact h ws (by simp)
      · intro h ws' hws; simp at hws; subst hws; exact h
    have hr : run true r (events (Doc.text ws)) = (chars true ws r, r) := by
      rw [events]; simp [run, onEvent]
    rw [hr]
    simp only [childNames, List.append_nil, Valid, ht, this, h.ok]
    exact ⟨by simp, fun _ => h⟩
  | .elem n cs, d, hd, u, rest, r, h => by
    obtain ⟨cx, hc, ha⟩ := h.ctx
    have hfin : Ev.fin ∉ u.map Ev.name := by simp
    obtain ⟨t1, -⟩ := transit_at hd hc ha hfin (.name n) (by simp) true
    obtain ⟨-, t2⟩ := transit_at hd hc ha hfin (.name n) (by simp) true
    have htexts : TextsOk d [Doc.elem n cs] := by intro ws hws; simp at hws
    have hcn : (u ++ childNames [Doc.elem n cs]).map Ev.name = u.map Ev.name ++ [Ev.name n] := by
      simp [childNames]
    rw [hcn]
    -- the start tag
    have hev : events (Doc.elem n cs) = [Sax.start n] ++ (eventsAll cs ++ [Sax.stop n]) := by rw [events]; rfl
    rw [hev, run_append, run_append]
    have hs : run true r [Sax.start n] = onStart n r := by simp [run, onEvent]
    rw [hs]
    simp only [append_eq_nil]
    have hcheck : checkElement n r = (errIf (transitEvent r.validator (.name n) true).1 (.invalidElement n),
        { r with validator := (transitEvent r.validator (.name n) true).2 }) := by
      unfold checkElement; rw [h.root]
    have hstart : (onStart n r).1 = errIf (transitEvent r.validator (.name n) true).1 (.invalidElement n) ++
        errIf (startElement (transitEvent r.validator (.name n) true).2 n).1 (.undeclaredElement n) ∧
        (onStart n r).2 = ⟨(startElement (transitEvent r.validator (.name n) true).2 n).2, none⟩ := by
      unfold onStart
      rw [hcheck]
      simp only [h.root, and_self]
    rw [hstart.1, hstart.2]
    simp only [append_eq_nil, errIf_nil, t1]
    by_cases hp : PrefixOk d (u.map Ev.name ++ [Ev.name n])
    · obtain ⟨cx', e1, e2⟩ := t2 (t1.2 hp)
      rw [e1]
      have hel : lookup n r.validator.elements = (declOf n decls).map declModel := h.elements n
      cases hdecl : declOf n decls with
      | none =>
        rw [hdecl] at hel
        have hf : (startElement { r.validator with context := cx' :: rest } n).1 = false := by
          unfold startElement; rw [hel]; rfl
        rw [hf]
        simp [Valid, hdecl]
      | some d' =>
        rw [hdecl] at hel
        have hw' := declOf_wf hwf hdecl
        obtain ⟨s1, cx2, s2, s3, s4⟩ := start_declared (v := { r.validator with context := cx' :: rest }) (n := n) hel hw'
        rw [s1]
        have hin : Inside decls d' [] (cx' :: rest)
            ⟨(startElement { r.validator with context := cx' :: rest } n).2, none⟩ := by
          refine ⟨rfl, ?_, ⟨cx2, s2, s4⟩, ?_⟩
          · intro k; simp only [s3]; exact h.elements k
          · intro c hc'
            obtain ⟨o1, o2, o3⟩ := declContent_ok hw' hc'
            obtain ⟨w, hw⟩ := lang_ne c o2
            exact ⟨w, hw⟩
        obtain ⟨c1, c2⟩ := docs_run cs d' hw' [] (cx' :: rest) _ hin
        obtain ⟨r2, hr2⟩ : ∃ r2, r2 = run true
            (⟨(startElement { r.validator with context := cx' :: rest } n).2, none⟩ : Reader N) (eventsAll cs) := ⟨_, rfl⟩
        rw [← hr2] at c1 c2 ⊢
        rw [List.nil_append] at c1 c2
        have hstop : run true r2.2 [Sax.stop n] = onStop n r2.2 := by simp [run, onEvent]
        rw [hstop]
        unfold onStop
        simp only [errIf_nil]
        by_cases hr0 : r2.1 = []
        · have hin2 := c2 hr0
          obtain ⟨cx3, k1, k2⟩ := hin2.ctx
          obtain ⟨f1, f2, f3⟩ := transit_fin hw' k1 k2 (by simp)
          have hc1 := c1.1 hr0
          simp only [hr0, f1, true_and, hp, and_true, htexts]
          refine ⟨?_, ?_⟩
          · rw [Valid, hdecl]
            constructor
            · intro hf
              exact ⟨⟨d', rfl, (contentOk_iff d' cs).2 ⟨hc1.2.1, hf⟩⟩, hc1.1⟩
            · rintro ⟨⟨d2, hd2, hok⟩, -⟩
              cases hd2
              exact ((contentOk_iff _ cs).1 hok).2
          · intro _
            refine ⟨hin2.root, ?_, ⟨cx', f2, ?_⟩, ?_⟩
            · intro k; simp only [f3]; exact hin2.elements k
            · rw [hcn]; exact e2
            · rw [hcn]; exact hp
        · simp only [hr0, false_and, and_false, false_implies, and_true, hp, true_and, false_iff, htexts]
          intro hv
          apply hr0
          rw [c1]
          rw [Valid, hdecl] at hv
          obtain ⟨⟨d2, hd2, hok⟩, hall⟩ := hv
          cases hd2
          have := (contentOk_iff _ cs).1 hok
          exact ⟨hall, this.1, fun c hc => ⟨[], by rw [List.append_nil]; exact this.2 c hc⟩⟩
    · simp [hp]
theorem docs_run : ∀ (l : List (Doc N)) (d : Decl N), WellFormedDecl d → ∀ (u : List N) (rest : List (Ctx N))
    (r : Reader N), Inside decls d u rest r →
    ((run true r (eventsAll l)).1 = [] ↔
      ValidAll decls l ∧ TextsOk d l ∧ PrefixOk d ((u ++ childNames l).map Ev.name)) ∧
    ((run true r (eventsAll l)).1 = [] → Inside decls d (u ++ childNames l) rest (run true r (eventsAll l)).2)
  | [], d, hd, u, rest, r, h => by
    have hr : run true r (eventsAll ([] : List (Doc N))) = ([], r) := by rw [eventsAll]; rfl
    rw [hr]
    simp only [childNames, List.append_nil, ValidAll, h.ok]
    exact ⟨by simp [TextsOk], fun _ => h⟩
  | x :: l, d, hd, u, rest, r, h => by
    obtain ⟨a1, a2⟩ := doc_run x d hd u rest r h
    rw [eventsAll, run_append]
    simp only [append_eq_nil]
    have hcn : childNames (x :: l) = childNames [x] ++ childNames l := by
      cases x <;> simp [childNames]
    have hts : TextsOk d (x :: l) ↔ TextsOk d [x] ∧ TextsOk d l := by
      unfold TextsOk
      constructor
      · intro h
        exact ⟨fun ws hw => h ws (by simp at hw; simp [hw]), fun ws hw => h ws (by simp [hw])⟩
      · rintro ⟨h1, h2⟩ ws hw
        rcases List.mem_cons.1 hw with hw | hw
        · exact h1 ws (by simp [hw])
        · exact h2 ws hw
    rw [hcn, ← List.append_assoc, ValidAll, hts]
    by_cases hx : (run true r (events x)).1 = []
    · obtain ⟨b1, b2⟩ := docs_run l d hd _ rest _ (a2 hx)
      have hx1 := a1.1 hx
      simp only [hx, true_and, b1, hx1]
      exact fun hb => b2 (b1.2 hb)
    · simp only [hx, false_and, false_iff, false_implies, and_true]
      rintro ⟨⟨v1, -⟩, ⟨t1, -⟩, p⟩
      rw [List.map_append] at p
      exact hx (a1.2 ⟨v1, t1, p.prefix⟩)
end

end

end Verif.Content
