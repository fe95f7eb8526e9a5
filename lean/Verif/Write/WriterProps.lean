import Verif.Write.WriterFacts
import Verif.Write.VisitProps

/-
C78: what the xml writer writes reads back with the names that it was given.
-/
namespace Verif.Write.XmlWriter
open Verif Verif.Write.Spec Verif.Write.XmlWriter.Spec

mutual
/-- The calls for a node after the first element has begun. -/
theorem node_facts {P : Params} {it : Iter} (hit : GoodIter it) {wide : Bool} : ∀ (n : Node) {d : Scope} {rest : List Scope}
    {o : List Call} {w' : Writer}, DictLegal wide d → LegalNode wide n →
    run P it (cl false (d :: rest)) (callsOf n) = .ok (o, w') →
    w' = cl false (d :: rest) ∧ Facts wide d o (wanted n) (fun outer => allAsked outer n)
  | .element name ns namespaces attributes adds children, d, rest, o, w', hd, hl, hr => by
    obtain ⟨top, A, content, wc, last, he, h1, h2, rfl⟩ := element_run hit hd hl hr
    obtain ⟨rfl, hf⟩ := nodes_facts hit children he.dict hl.2.2.2.2.2 h1
    cases h2
    exact ⟨rfl, Facts.element hit hd hl.1 he hf⟩
  | .text s, d, rest, o, w', hd, hl, hr => by
    rw [callsOf] at hr
    obtain ⟨x, w1, y, h1, h2, rfl⟩ := run_cons_ok.1 hr
    cases h1; cases h2
    exact ⟨rfl, Facts.text hl⟩
  | .comment s, d, rest, o, w', hd, hl, hr => by
    rw [callsOf] at hr
    obtain ⟨x, w1, y, h1, h2, rfl⟩ := run_cons_ok.1 hr
    cases h1; cases h2
    exact ⟨rfl, Facts.comment hl⟩
  | .pi t s, d, rest, o, w', hd, hl, hr => by
    rw [callsOf] at hr
    obtain ⟨x, w1, y, h1, h2, rfl⟩ := run_cons_ok.1 hr
    cases h1; cases h2
    refine ⟨rfl, ?_⟩
    show Facts wide d [.pi t (strip s)] _ _
    rw [strip_trimmed]
    exact Facts.pi (legal_pi hl)
theorem nodes_facts {P : Params} {it : Iter} (hit : GoodIter it) {wide : Bool} : ∀ (ns : List Node) {d : Scope} {rest : List Scope}
    {o : List Call} {w' : Writer}, DictLegal wide d → LegalNodes wide ns →
    run P it (cl false (d :: rest)) (allCalls ns) = .ok (o, w') →
    w' = cl false (d :: rest) ∧ Facts wide d o (allWanted ns) (fun outer => allsAsked outer ns)
  | [], d, rest, o, w', hd, hl, hr => by
    cases hr
    exact ⟨rfl, Facts.nil wide d⟩
  | n :: ns, d, rest, o, w', hd, hl, hr => by
    rw [allCalls] at hr
    obtain ⟨x, w1, y, h1, h2, rfl⟩ := run_append_ok.1 hr
    obtain ⟨rfl, f1⟩ := node_facts hit n hd hl.1 h1
    obtain ⟨rfl, f2⟩ := nodes_facts hit ns hd hl.2 h2
    exact ⟨rfl, f1.append f2⟩
end

/-- The calls for comments and processing instructions. -/
theorem misc_facts {P : Params} {it : Iter} {wide : Bool} {b : Bool} {d : Scope} {rest : List Scope} : ∀ (ns : List Node)
    {o : List Call} {w' : Writer}, LegalNodes wide ns → ns.all isMisc = true →
    run P it (cl b (d :: rest)) (allCalls ns) = .ok (o, w') →
    w' = cl b (d :: rest) ∧ Facts wide d o (allWanted ns) (fun _ => []) ∧
      (∀ ph open_ r, DocCalls ph open_ (o ++ r) ↔ DocCalls ph open_ r) ∧ ∀ outer, allsAsked outer ns = []
  | [], o, w', hl, hm, hr => by
    cases hr
    exact ⟨rfl, Facts.nil wide d, fun _ _ _ => Iff.rfl, fun _ => rfl⟩
  | n :: ns, o, w', hl, hm, hr => by
    rw [List.all_cons, Bool.and_eq_true] at hm
    rw [allCalls] at hr
    obtain ⟨x, w1, y, h1, h2, rfl⟩ := run_append_ok.1 hr
    cases n with
    | element => cases hm.1
    | text s => cases hm.1
    | comment s =>
      rw [callsOf] at h1
      obtain ⟨x', w2, y', h3, h4, rfl⟩ := run_cons_ok.1 h1
      cases h3; cases h4
      obtain ⟨rfl, f2, f3, f4⟩ := misc_facts ns hl.2 hm.2 h2
      refine ⟨rfl, (Facts.comment hl.1).append f2, fun ph open_ r => ?_, fun outer => ?_⟩
      · rw [List.append_assoc]; exact f3 ph open_ r
      · rw [allsAsked, f4]; rfl
    | pi t s =>
      rw [callsOf] at h1
      obtain ⟨x', w2, y', h3, h4, rfl⟩ := run_cons_ok.1 h1
      cases h3; cases h4
      obtain ⟨rfl, f2, f3, f4⟩ := misc_facts ns hl.2 hm.2 h2
      refine ⟨rfl, ?_, fun ph open_ r => ?_, fun outer => ?_⟩
      · have : Facts wide d [.pi t (strip s)] [.pi t (trimmed s)] (fun _ => []) := by
          rw [strip_trimmed]
          exact Facts.pi (legal_pi hl.1)
        exact this.append f2
      · rw [List.append_assoc]; exact f3 ph open_ r
      · rw [allsAsked, f4]; rfl

/-- The document type declaration. -/
theorem doctype_facts {P : Params} {b : Bool} {S : List Scope} {name : UStr} (hn : isName name = true)
    (hi : LegalIds P.doctypePublic P.doctypeSystem) :
    (∀ c ∈ doctypeCalls P (cl b S) name, LegalDoctype c) ∧
    (∀ r, (∀ ph : Phase, ph ≠ .root → DocCalls ph [] r) → DocCalls .prolog [] (doctypeCalls P (cl b S) name ++ r)) ∧
    ∀ stack es, SameEvs es (events (doctypeCalls P (cl true S) name)) →
      (∀ rest, resolve stack (es ++ rest) = (resolve stack rest).map (doctypeWanted P.doctypePublic P.doctypeSystem name ++ ·)) ∧
      ∀ rest, scopes stack (es ++ rest) = scopes stack rest := by
  unfold doctypeCalls
  cases hs : P.doctypeSystem with
  | none =>
    simp only [truthy, Bool.false_eq_true, and_false, if_false]
    refine ⟨nofun, fun r h => h _ (by decide), fun stack es he => ?_⟩
    cases he
    exact ⟨fun rest => by simp [doctypeWanted], fun _ => rfl⟩
  | some s =>
    cases s with
    | nil =>
      simp only [truthy, List.isEmpty_nil, Bool.not_true, Bool.false_eq_true, and_false, if_false]
      refine ⟨nofun, fun r h => h _ (by decide), fun stack es he => ?_⟩
      cases he
      exact ⟨fun rest => by simp [doctypeWanted], fun _ => rfl⟩
    | cons q qs =>
      have hi' := hi _ hs (by simp)
      refine ⟨?_, ?_, ?_⟩
      · intro c hc
        split at hc
        · simp only [List.mem_singleton] at hc
          subst hc
          exact ⟨hn, hi'.1, _, rfl, by simp, hi'.2⟩
        · cases hc
      · intro r h
        split
        · exact ⟨rfl, rfl, h _ (by decide)⟩
        · exact h _ (by decide)
      · intro stack es he
        simp only [cl, truthy, List.isEmpty_cons, Bool.not_false, and_self, if_true] at he
        cases hp : P.doctypePublic with
        | none =>
          rw [hp] at he
          simp [events, expected] at he
          cases he with | cons h1 h2 =>
          cases h1; cases h2
          exact ⟨fun rest => by simp [resolve, doctypeWanted], fun _ => rfl⟩
        | some p =>
          rw [hp] at he
          cases p with
          | nil =>
            simp [events, expected] at he
            cases he with | cons h1 h2 =>
            cases h1; cases h2
            exact ⟨fun rest => by simp [resolve, doctypeWanted], fun _ => rfl⟩
          | cons a as =>
            simp [events, expected] at he
            cases he with | cons h1 h2 =>
            cases h1; cases h2
            exact ⟨fun rest => by simp [resolve, doctypeWanted], fun _ => rfl⟩

/-- The calls for a document. -/
theorem document_facts {P : Params} {it : Iter} (hit : GoodIter it) {wide : Bool} {before after : List Node} {root : Node}
    (hl : LegalDocument wide P before root after) {cs : List Call} {w : Writer}
    (hrun : run P it newWriter (documentCalls before root after) = .ok (cs, w)) :
    ∃ body, cs = (if P.omitDeclaration then [] else [.startDocument (standaloneOf P)]) ++ body ∧
      (∀ c ∈ body, LegalCall wide c ∨ LegalDoctype c ∨ c = .endDocument) ∧
      DocCalls .prolog [] body ∧
      ∀ es, SameEvs es (events body) →
        ∃ xs, resolve [] es = some xs ∧ SameXEvs xs (documentWanted P before root after) ∧
          AllProvide (scopes [] es) (allAsked [] root) := by
  unfold documentCalls at hrun
  obtain ⟨x0, w0, y0, h0, h1, rfl⟩ := run_cons_ok.1 hrun
  cases h0
  refine ⟨y0, rfl, ?_⟩
  obtain ⟨x1, w1, y1, h2, h3, rfl⟩ := run_append_ok.1 h1
  obtain ⟨x2, w2, y2, h4, h5, rfl⟩ := run_append_ok.1 h3
  obtain ⟨x3, w3, y3, h6, h7, rfl⟩ := run_append_ok.1 h5
  have hb := base_legal wide
  obtain ⟨rfl, f1, f2, f3⟩ := misc_facts (P := P) (it := it) (b := true) (d := baseScope) (rest := []) before hl.before.1 hl.before.2 h2
  obtain ⟨r1, r2⟩ := hl.root
  cases root with
  | text s => cases r2
  | comment s => cases r2
  | pi t s => cases r2
  | element name ns namespaces attributes adds children =>
    obtain ⟨top, A, content, wc, last, he, k1, k2, rfl⟩ := element_run hit hb r1 h4
    obtain ⟨rfl, kf⟩ := nodes_facts hit children he.dict r1.2.2.2.2.2 k1
    cases k2
    have ke := Facts.element hit hb r1.1 he kf
    obtain ⟨rfl, g1, g2, g3⟩ := misc_facts (P := P) (it := it) (b := false) (d := baseScope) (rest := []) after hl.after.1 hl.after.2 h6
    obtain ⟨z1, z2, z3, h8, h9, rfl⟩ := run_cons_ok.1 h7
    cases h8; cases h9
    obtain ⟨⟨p, l⟩, hs⟩ := Option.isSome_iff_exists.1 r1.1.1
    obtain ⟨d1, d2, d3⟩ := doctype_facts (P := P) (b := true) (S := [baseScope]) (splitName_isName hs) hl.doctype
    refine ⟨?_, ?_, ?_⟩
    · intro c hc
      rcases List.mem_append.1 hc with hc | hc
      · exact Or.inl (f1.legal c hc)
      rcases List.mem_append.1 hc with hc | hc
      · rcases List.mem_append.1 hc with hc | hc
        · exact Or.inr (Or.inl (d1 c hc))
        · exact Or.inl (ke.legal c hc)
      rcases List.mem_append.1 hc with hc | hc
      · exact Or.inl (g1.legal c hc)
      · refine Or.inr (Or.inr ?_)
        simpa [complete_cl] using hc
    · rw [f2, List.append_assoc]
      refine d2 _ fun ph hph => ?_
      simp only [List.cons_append, List.append_assoc, DocCalls, List.nil_append]
      refine ⟨fun _ => hph, ?_⟩
      rw [kf.doc _ _ (by simp)]
      refine ⟨[], rfl, ?_⟩
      rw [g2]
      exact ⟨rfl, rfl, rfl⟩
    · intro es hes
      rw [events_append, events_append (_ ++ _), events_append (doctypeCalls _ _ _), events_append x3] at hes
      obtain ⟨e1, e2, rfl, s1, s2⟩ := sameEvs_append hes
      obtain ⟨e3, e4, rfl, s3, s4⟩ := sameEvs_append s2
      obtain ⟨e5, e6, rfl, s5, s6⟩ := sameEvs_append s3
      obtain ⟨e7, e8, rfl, s7, s8⟩ := sameEvs_append s4
      have he8 : e8 = [] := by
        have : SameEvs e8 [] := s8
        cases this; rfl
      subst he8
      have hlink : Link baseScope [] := fun p v h => by cases h
      obtain ⟨a1, a2, a3⟩ := f1.read [] _ base_agree s1
      obtain ⟨b1, b2, b3⟩ := ke.read [] _ base_agree s6
      obtain ⟨c1, c2, c3⟩ := g1.read [] _ base_agree s7
      obtain ⟨t1, t2⟩ := d3 [] _ s5
      obtain ⟨ss1, q1, q2⟩ := f1.scope [] _ [] base_agree hlink s1
      obtain ⟨ss2, q3, q4⟩ := ke.scope [] _ [] base_agree hlink s6
      obtain ⟨ss3, q5, q6⟩ := g1.scope [] _ [] base_agree hlink s7
      refine ⟨a1 ++ (doctypeWanted P.doctypePublic P.doctypeSystem name ++ (b1 ++ c1)), ?_, ?_, ?_⟩
      · rw [a3, List.append_assoc, t1, b3, c3]
        simp [resolve]
      · unfold documentWanted
        exact sameXEvs_append a2 (sameXEvs_append (sameXEvs_refl _) (sameXEvs_append b2 c2))
      · rw [q2, List.append_assoc, t2, q4, q6]
        cases q1; cases q5
        simp only [scopes, List.append_nil, List.nil_append]
        exact q3

/-! C78 -/

/-- The document that is printed reads back with the names, the attributes and the content that the writer was
given, whatever prefixes were given, and in whatever order dictionaries are iterated over.  What was asked to
be declared is in scope where it was asked for. -/
theorem C78_document_partial (wide : Bool) {le : Bool} {lookup : UStr → Option Codec} {encoding : UStr} {st : Stream}
    (hnew : newStream le lookup encoding = some st) (hu : Usable st.enc)
    {dec : Bytes → Option UStr} (hdec : Inverse dec st.enc) (he : isEncName encoding = true)
    {P : Params} (hP : P.omitDeclaration = false) {it : Iter} (hit : GoodIter it)
    {before after : List Node} {root : Node} (hl : LegalDocument wide P before root after) {cs : List Call} {w : Writer}
    (hrun : run P it newWriter (documentCalls before root after) = .ok (cs, w)) {st' : Stream}
    (hprint : printCalls wide st false encoding cs = .ok st') :
    ∃ b T evs xs, st'.out = bomBytes st ++ b ∧ dec b = some T ∧
      readDocument T = some (some ⟨u!! "1.0", some encoding, standaloneOf P⟩, evs) ∧
      resolve [] evs = some xs ∧ SameXEvs xs (documentWanted P before root after) ∧
      AllProvide (scopes [] evs) (allAsked [] root) := by
  obtain ⟨body, rfl, h1, h2, h3⟩ := document_facts hit hl hrun
  rw [hP] at hprint
  have hsa : standaloneOf P = none ∨ standaloneOf P = some (u!! "yes") ∨ standaloneOf P = some (u!! "no") := by
    unfold standaloneOf
    cases P.standalone with
    | none => exact Or.inl rfl
    | some x => cases x <;> simp
  obtain ⟨b, T, evs, k1, k2, k3, k4⟩ := C34_document_read_back wide hnew hu hdec he hsa h1 h2 hprint
  obtain ⟨xs, k5, k6, k7⟩ := h3 evs k4
  exact ⟨b, T, evs, xs, k1, k2, k3, k5, k6, k7⟩

/-- Unless `namespace` is called, the writer fails for no such document, and an encoding that has all
characters can write it. -/
theorem C78_written (wide : Bool) {le : Bool} {lookup : UStr → Option Codec} {encoding : UStr} {st : Stream}
    (hnew : newStream le lookup encoding = some st) (hu : Usable st.enc) (hall : ∀ c, st.enc [c] ≠ none)
    (he : isEncName encoding = true)
    {P : Params} (hP : P.omitDeclaration = false) {it : Iter} (hit : GoodIter it)
    {before after : List Node} {root : Node} (hl : LegalDocument wide P before root after) (hpl : Spec.Plain root) :
    ∃ cs w st', run P it newWriter (documentCalls before root after) = .ok (cs, w) ∧
      printCalls wide st false encoding cs = .ok st' := by
  have hmisc : ∀ ns : List Node, ns.all isMisc = true → PlainAll ns := by
    intro ns
    induction ns with
    | nil => intro _; trivial
    | cons n ns ih =>
      intro h
      rw [List.all_cons, Bool.and_eq_true] at h
      refine ⟨?_, ih h.2⟩
      cases n with
      | element => cases h.1
      | text => trivial
      | comment => trivial
      | pi => trivial
  have hb := base_legal wide
  obtain ⟨o1, b1, h1⟩ := run_total_all (P := P) hit before (b := true) (rest := []) hb hl.before.1 (hmisc _ hl.before.2)
  obtain ⟨o2, b2, h2⟩ := run_total (P := P) hit root (b := b1) (rest := []) hb hl.root.1 hpl
  obtain ⟨o3, b3, h3⟩ := run_total_all (P := P) hit after (b := b2) (rest := []) hb hl.after.1 (hmisc _ hl.after.2)
  have hrun : ∃ cs w, run P it newWriter (documentCalls before root after) = .ok (cs, w) := by
    have h4 : run P it (cl b3 [baseScope]) [.endDocument] = .ok ([.endDocument], cl b3 [baseScope]) := rfl
    have h5 := run_append_ok.2 ⟨_, _, _, h1, run_append_ok.2 ⟨_, _, _, h2, run_append_ok.2 ⟨_, _, _, h3, h4, rfl⟩, rfl⟩, rfl⟩
    exact ⟨_, _, run_cons_ok.2 ⟨_, cl true [baseScope], _, rfl, h5, rfl⟩⟩
  obtain ⟨cs, w, hrun⟩ := hrun
  refine ⟨cs, w, ?_⟩
  obtain ⟨body, rfl, k1, k2, -⟩ := document_facts hit hl hrun
  have hsa : standaloneOf P = none ∨ standaloneOf P = some (u!! "yes") ∨ standaloneOf P = some (u!! "no") := by
    unfold standaloneOf
    cases P.standalone with
    | none => exact Or.inl rfl
    | some x => cases x <;> simp
  have h : ∀ s, Encodable st.enc s := fun s c _ => hall c
  obtain ⟨st', h4⟩ := C34_document_written wide hnew hu he hsa k1 k2 (fun c _ => by cases c <;> simp [Writable, h])
  exact ⟨st', hrun, by rw [hP]; exact h4⟩

/-! Attributes -/

/-- What the state says about the calls. -/
structure Hist (cs : List WCall) (w : Writer) : Prop where
  tag : truthy w.name = tagOpen cs
  need : w.needDoctype = !begun cs
  two : truthy w.name = true → ∃ a b l, w.scopes = a :: b :: l

theorem complete_name (it : Iter) {w : Writer} (h : truthy w.name = true → ∃ a b l, w.scopes = a :: b :: l) :
    truthy (complete it w).2.name = false ∧ (complete it w).2.needDoctype = w.needDoctype := by
  unfold complete
  split
  · rename_i ht
    obtain ⟨a, b, l, e⟩ := h ht
    rw [e]
    exact ⟨rfl, rfl⟩
  · rename_i ht
    exact ⟨by simpa using ht, rfl⟩

theorem begun_snoc (cs : List WCall) (c : WCall) : begun (cs ++ [c]) = (begun cs || begun [c]) := by
  simp [begun]

theorem tagOpen_keep (cs : List WCall) {c : WCall} (hc : ∃ n v ns, c = .attribute n v ns ∨ ∃ p u, c = .namespace p u) :
    tagOpen (cs ++ [c]) = tagOpen cs := by
  obtain ⟨n, v, ns, h | ⟨p, u, h⟩⟩ := hc <;> subst h <;> simp [tagOpen]

theorem addAttribute_keeps {it : Iter} {w w' : Writer} {n v : UStr} {ns : Option UStr}
    (h : addAttribute it w n v ns = .ok w') : w'.name = w.name ∧ w'.needDoctype = w.needDoctype ∧
      ∀ a b l, w.scopes = a :: b :: l → ∃ a b l, w'.scopes = a :: b :: l := by
  unfold addAttribute at h
  split at h
  · cases ns with
    | none => cases h; exact ⟨rfl, rfl, fun a b l e => ⟨a, b, l, e⟩⟩
    | some u =>
      simp only at h
      cases hs : w.scopes with
      | nil => rw [hs] at h; cases h
      | cons top rest =>
        rw [hs] at h
        cases h
        refine ⟨rfl, rfl, fun a b l e => ?_⟩
        cases e
        exact ⟨_, _, _, rfl⟩
  · cases h

theorem addAttributes_keeps {it : Iter} : ∀ (l : List ((UStr × Option UStr) × UStr)) {w w' : Writer},
    addAttributes it w l = .ok w' → w'.name = w.name ∧ w'.needDoctype = w.needDoctype ∧
      ∀ a b k, w.scopes = a :: b :: k → ∃ a b k, w'.scopes = a :: b :: k
  | [], w, w', h => by cases h; exact ⟨rfl, rfl, fun a b k e => ⟨a, b, k, e⟩⟩
  | ((n, ns), v) :: l, w, w', h => by
    simp only [addAttributes] at h
    cases ha : addAttribute it w n v ns with
    | error e => rw [ha] at h; cases h
    | ok w1 =>
      rw [ha] at h
      obtain ⟨a1, a2, a3⟩ := addAttribute_keeps ha
      obtain ⟨b1, b2, b3⟩ := addAttributes_keeps l h
      refine ⟨b1.trans a1, b2.trans a2, fun a b k e => ?_⟩
      obtain ⟨a', b', k', e'⟩ := a3 a b k e
      exact b3 _ _ _ e'

theorem hist_exec {P : Params} {it : Iter} {cs : List WCall} {w w' : Writer} (h : Hist cs w) {c : WCall} (hc : Later c)
    {o : List Call} (he : exec P it w c = .ok (o, w')) : Hist (cs ++ [c]) w' := by
  obtain ⟨c1, c2⟩ := complete_name it h.two
  have other : ∀ w'', truthy w''.name = false → w''.needDoctype = w.needDoctype → tagOpen (cs ++ [c]) = false →
      begun [c] = false → Hist (cs ++ [c]) w'' := by
    intro w'' t1 t2 t3 t4
    refine ⟨by rw [t1, t3], by rw [t2, h.need, begun_snoc, t4, Bool.or_false], fun t => ?_⟩
    rw [t1] at t; cases t
  cases c with
  | startDocument => cases hc
  | endDocument => cases he; exact other _ c1 c2 (by simp [tagOpen]) rfl
  | text s raw => cases he; exact other _ c1 c2 (by simp [tagOpen]) rfl
  | comment s => cases he; exact other _ c1 c2 (by simp [tagOpen]) rfl
  | pi t d => cases he; exact other _ c1 c2 (by simp [tagOpen]) rfl
  | endElement name =>
    simp only [exec] at he
    cases hs : (complete it w).2.scopes with
    | nil => rw [hs] at he; cases he
    | cons top rest =>
      rw [hs] at he
      cases he
      exact other _ c1 c2 (by simp [tagOpen]) rfl
  | startElement name ns namespaces attributes =>
    simp only [exec] at he
    cases hs : (complete it w).2.scopes with
    | nil => rw [hs] at he; cases he
    | cons top rest =>
      rw [hs] at he
      simp only at he
      split at he
      · cases he
      · rename_i w1 ha
        cases he
        obtain ⟨k1, k2, k3⟩ := addAttributes_keeps _ ha
        have hn : truthy (some name) = true := by cases name with
          | nil => exact absurd rfl hc
          | cons => rfl
        refine ⟨?_, ?_, fun _ => k3 _ _ _ rfl⟩
        · rw [k1, hn]; simp [tagOpen]
        · rw [k2, begun_snoc]; simp [begun]
  | «attribute» n v ns =>
    simp only [exec] at he
    cases ha : addAttribute it w n v ns with
    | error e => rw [ha] at he; cases he
    | ok w1 =>
      rw [ha] at he
      cases he
      obtain ⟨k1, k2, k3⟩ := addAttribute_keeps ha
      refine ⟨by rw [k1, h.tag, tagOpen_keep _ ⟨n, v, ns, Or.inl rfl⟩], by rw [k2, h.need, begun_snoc]; simp [begun], fun t => ?_⟩
      rw [k1] at t
      obtain ⟨a, b, l, e⟩ := h.two t
      exact k3 _ _ _ e
  | «namespace» p u =>
    simp only [exec] at he
    cases ha : addNamespace w p u with
    | error e => rw [ha] at he; cases he
    | ok w1 =>
      rw [ha] at he
      cases he
      have k : w'.name = w.name ∧ w'.needDoctype = w.needDoctype ∧
          ∀ a b l, w.scopes = a :: b :: l → ∃ a b l, w'.scopes = a :: b :: l := by
        unfold addNamespace at ha
        cases hs : w.scopes with
        | nil => rw [hs] at ha; cases ha
        | cons top rest =>
          rw [hs] at ha
          simp only at ha
          split at ha
          · split at ha
            · cases ha
            · cases ha
              refine ⟨rfl, rfl, fun a b l e => ?_⟩
              cases e
              exact ⟨_, _, _, rfl⟩
          · split at ha
            · cases ha
            · cases ha
              exact ⟨rfl, rfl, fun a b l e => ⟨a, b, l, by rw [hs, e]⟩⟩
      refine ⟨by rw [k.1, h.tag, tagOpen_keep _ ⟨[], [], none, Or.inr ⟨p, u, rfl⟩⟩], by rw [k.2.1, h.need, begun_snoc]; simp [begun], fun t => ?_⟩
      rw [k.1] at t
      obtain ⟨a, b, l, e⟩ := h.two t
      exact k.2.2 _ _ _ e

theorem hist_run {P : Params} {it : Iter} : ∀ (cs done : List WCall) {w w' : Writer} {o : List Call}, Hist done w →
    (∀ c ∈ cs, Later c) → run P it w cs = .ok (o, w') → Hist (done ++ cs) w'
  | [], done, w, w', o, h, hl, hr => by cases hr; simpa using h
  | c :: cs, done, w, w', o, h, hl, hr => by
    obtain ⟨x, w1, y, h1, h2, rfl⟩ := run_cons_ok.1 hr
    have := hist_run cs (done ++ [c]) (hist_exec h (hl c (List.mem_cons_self ..)) h1)
      (fun c hc => hl c (List.mem_cons_of_mem _ hc)) h2
    simpa using this

/-- After any calls, an attribute is accepted exactly if a start tag is open.  Otherwise the error tells whether
an element has begun before. -/
theorem C78_attribute {P : Params} {it : Iter} {cs : List WCall} (hl : ∀ c ∈ cs, Later c) {o : List Call} {w : Writer}
    (hrun : run P it newWriter (.startDocument :: cs) = .ok (o, w)) (name value : UStr) (ns : Option UStr) :
    (∃ w', exec P it w (.attribute name value ns) = .ok ([], w')) ∧ tagOpen cs = true ∨
    exec P it w (.attribute name value ns) = .error (if begun cs then .addedTooLate else .addedToNonElement) ∧
      tagOpen cs = false := by
  obtain ⟨x, w1, y, h1, h2, rfl⟩ := run_cons_ok.1 hrun
  cases h1
  have h := hist_run cs [] (P := P) (it := it) ⟨rfl, rfl, fun h => by cases h⟩ hl h2
  rw [List.nil_append] at h
  cases ht : tagOpen cs with
  | true =>
    refine Or.inl ⟨?_, rfl⟩
    have htr := h.tag.trans ht
    obtain ⟨a, b, l, e⟩ := h.two htr
    simp only [exec, addAttribute, htr, if_true, e]
    cases ns <;> exact ⟨_, rfl⟩
  | false =>
    refine Or.inr ⟨?_, rfl⟩
    have htr := h.tag.trans ht
    simp only [exec, addAttribute, htr, Bool.false_eq_true, if_false, h.need]
    cases begun cs <;> rfl

/-! A document that meets the hypotheses -/

/-- Given prefixes are in conflict, an attribute is written twice, one has no prefix, and another one gets
a namespace with a call of `namespace`. -/
def sampleRoot : Node :=
  .element (u!! "p:a") (some (u!! "urn:x")) [(none, some (u!! "urn:d")), (some (u!! "q"), some (u!! "urn:y"))]
    [((u!! "b", none), u!! "1"), ((u!! "p:c", some (u!! "urn:y")), u!! "2")]
    [.attribute (u!! "c") (u!! "3") (some (u!! "urn:z")), .attribute (u!! "p:c") (u!! "4") (some (u!! "urn:y")),
      .namespace (some (u!! "r")) (u!! "urn:r")]
    [.element (u!! "e") none [] [((u!! "s:f", some (u!! "urn:r")), u!! "5")] [] [.text (u!! "t")], .pi (u!! "g") (u!! " h ")]

def sampleParams : Params := ⟨false, some true, none, some (u!! "a.dtd")⟩

deriving instance DecidableEq for Call

/-- The printer gets these calls. -/
example : (run sampleParams ⟨id, id⟩ newWriter (documentCalls [.comment (u!! "k")] sampleRoot [])).toOption =
    some ([.startDocument (some (u!! "yes")), .comment (u!! "k"), .doctype (u!! "p:a") none (some (u!! "a.dtd")),
      .startElement (u!! "p:a") [(none, u!! "urn:d"), (some (u!! "q"), u!! "urn:y"), (some (u!! "p"), u!! "urn:x"),
          (some (u!! "org.4suite.4xslt.ns0"), u!! "urn:z"), (some (u!! "r"), u!! "urn:r")]
        [(u!! "b", u!! "1"), (u!! "q:c", u!! "4"), (u!! "org.4suite.4xslt.ns0:c", u!! "3")],
      .startElement (u!! "e") [(none, [])] [(u!! "r:f", u!! "5")], .text (u!! "t"), .endElement (u!! "e"),
      .pi (u!! "g") (u!! "h"), .endElement (u!! "p:a"), .endDocument], cl false [baseScope]) := by decide +kernel

/-- They are meant to read back so. -/
example : documentWanted sampleParams [.comment (u!! "k")] sampleRoot [] =
    [.comment (u!! "k"), .doctype (u!! "p:a") none (some (u!! "a.dtd")),
      .start (some (u!! "urn:x"), u!! "a") [((none, u!! "b"), u!! "1"), ((some (u!! "urn:z"), u!! "c"), u!! "3"),
        ((some (u!! "urn:y"), u!! "c"), u!! "4")],
      .start (none, u!! "e") [((some (u!! "urn:r"), u!! "f"), u!! "5")], .char 116, .stop (none, u!! "e"),
      .pi (u!! "g") (u!! "h"), .stop (some (u!! "urn:x"), u!! "a")] := by decide +kernel

theorem not_occurs {t s : UStr} (c : Nat) (h : s.count c < t.count c) : ¬ Occurs t s := by
  rintro ⟨a, b, rfl⟩
  simp only [List.count_append] at h
  omega

theorem sample_legal : LegalDocument true sampleParams [.comment (u!! "k")] sampleRoot [] := by
  refine ⟨⟨⟨⟨?_, ?_⟩, trivial⟩, rfl⟩, ⟨?_, rfl⟩, ⟨trivial, rfl⟩, ?_⟩
  · unfold Raw; decide
  · exact not_occurs 45 (by decide)
  · refine ⟨⟨by decide +kernel, by decide, by decide +kernel, ?_⟩, by decide, ?_, ?_, ?_, ⟨⟨by decide +kernel, by decide⟩, by decide, nofun, ?_, nofun,
      ?_, trivial⟩, ⟨by decide +kernel, by decide +kernel, ?_, ?_⟩, trivial⟩
    · unfold LegalText; decide +kernel
    · intro e he
      simp only [List.mem_cons, List.not_mem_nil, or_false] at he
      rcases he with rfl | rfl
      · exact ⟨by decide +kernel, by unfold LegalText; decide +kernel⟩
      · exact ⟨by decide +kernel, by unfold LegalText; decide +kernel⟩
    · intro a ha
      simp only [List.mem_cons, List.not_mem_nil, or_false] at ha
      rcases ha with rfl | rfl
      · exact ⟨by decide +kernel, by unfold LegalText; decide +kernel, by decide +kernel⟩
      · exact ⟨by decide +kernel, by unfold LegalText; decide +kernel, by decide, by decide, by unfold LegalText; decide +kernel⟩
    · intro a ha
      simp only [List.mem_cons, List.not_mem_nil, or_false] at ha
      rcases ha with rfl | rfl | rfl
      · exact ⟨by decide +kernel, by unfold LegalText; decide +kernel, by decide, by decide, by unfold LegalText; decide +kernel⟩
      · exact ⟨by decide +kernel, by unfold LegalText; decide +kernel, by decide, by decide, by unfold LegalText; decide +kernel⟩
      · exact ⟨by decide +kernel, by unfold LegalText; decide +kernel⟩
    · intro a ha
      simp only [List.mem_cons, List.not_mem_nil, or_false] at ha
      subst ha
      exact ⟨by decide +kernel, by unfold LegalText; decide +kernel, by decide, by decide, by unfold LegalText; decide +kernel⟩
    · unfold LegalNode LegalText; decide
    · unfold Raw; decide
    · exact not_occurs 63 (by decide)
  · intro s hs _
    cases hs
    refine ⟨nofun, ?_, by decide⟩
    unfold Raw; decide

/-- Without the call of `namespace` the writer never fails. -/
example : Spec.Plain (.element (u!! "a") none [] [] [.attribute (u!! "x:b") (u!! "1") (some (u!! "urn:x"))] []) :=
  ⟨fun a ha => by simp only [List.mem_singleton] at ha; exact ⟨_, _, _, ha⟩, trivial⟩

example : GoodIter ⟨id, List.reverse⟩ := ⟨fun d => List.Perm.refl d, fun d => List.reverse_perm d⟩

/-- So it is written in UTF-8 and reads back. -/
example : ∃ st st' T evs xs, newStream true (fun _ => some utf8Codec) (u!! "utf-8") = some st ∧
    (∃ cs w, run sampleParams ⟨id, id⟩ newWriter (documentCalls [.comment (u!! "k")] sampleRoot []) = .ok (cs, w) ∧
      printCalls true st false (u!! "utf-8") cs = .ok st') ∧
    decodeUtf8 st'.out = some T ∧ readDocument T = some (some ⟨u!! "1.0", some (u!! "utf-8"), some (u!! "yes")⟩, evs) ∧
    resolve [] evs = some xs ∧ SameXEvs xs (documentWanted sampleParams [.comment (u!! "k")] sampleRoot []) ∧
    AllProvide (scopes [] evs) (allAsked [] sampleRoot) := by
  have hnew : ∃ st, newStream true (fun _ => some utf8Codec) (u!! "utf-8") = some st ∧ st.enc = utf8Codec ∧ st.bom = none := by
    unfold newStream
    rw [if_neg (by decide)]
    exact ⟨_, rfl, rfl, rfl⟩
  obtain ⟨st, hnew, henc, hbom⟩ := hnew
  have hb : bomBytes st = [] := by rw [bomBytes, hbom]
  have hu : Usable st.enc := henc ▸ usable_utf8
  have hit : GoodIter ⟨id, id⟩ := ⟨fun d => List.Perm.refl d, fun d => List.Perm.refl d⟩
  have hrun : ∃ cs w, run sampleParams ⟨id, id⟩ newWriter (documentCalls [.comment (u!! "k")] sampleRoot []) = .ok (cs, w) :=
    ⟨_, _, rfl⟩
  obtain ⟨cs, w, hrun⟩ := hrun
  obtain ⟨body, hcs, k1, k2, -⟩ := document_facts hit sample_legal hrun
  have h : ∀ s, Encodable st.enc s := fun s c _ => by rw [henc]; simp [utf8Codec]
  obtain ⟨st', h4⟩ := C34_document_written true hnew hu (encoding := u!! "utf-8") (by decide) (sa := some (u!! "yes"))
    (Or.inr (Or.inl rfl)) k1 k2 (fun c _ => by cases c <;> simp [Writable, h])
  have h5 : printCalls true st false (u!! "utf-8") cs = .ok st' := by rw [hcs]; exact h4
  obtain ⟨b, T, evs, xs, g1, g2, g3, g4, g5, g6⟩ := C78_document_partial true hnew hu (henc ▸ inverse_utf8) (by decide) rfl hit
    sample_legal hrun h5
  rw [hb] at g1
  exact ⟨st, st', T, evs, xs, hnew, ⟨cs, w, hrun, h5⟩, by rw [g1]; exact g2, g3, g4, g5, g6⟩

/-! Where C78 is false of the code -/

def refParams : Params := ⟨false, none, none, none⟩

/-- What a reader finds in what is written. -/
def writtenAgain (cs : List WCall) : Option (List XEv) :=
  match run refParams ⟨id, id⟩ newWriter cs with
  | .error _ => none
  | .ok (calls, _) => (((outputOf true true utf8Codec false (u!! "utf-8") calls).bind decodeUtf8).bind
      readDocument).bind fun d => resolve [] d.2

/-- The error of calls. -/
def failure (cs : List WCall) : Option Err :=
  match run refParams ⟨id, id⟩ newWriter cs with
  | .error e => some e
  | .ok _ => none

/-- `namespace` fails if the prefix is in scope with another namespace, even of an element around (xmlwriter.py:221-224);
if the namespace has another prefix (xmlwriter.py:215-218); and for every default namespace that is not in scope
already. -/
theorem C78_refuted_namespace :
    failure (documentCalls [] (.element (u!! "p:a") (some (u!! "urn:x")) [] [] []
      [.element (u!! "b") none [] [] [.namespace (some (u!! "p")) (u!! "urn:y")] []]) []) = some .attributeError ∧
    failure (documentCalls [] (.element (u!! "p:a") (some (u!! "urn:x")) [] [] [.namespace (some (u!! "q")) (u!! "urn:x")] []) []) =
      some .attributeError ∧
    failure (documentCalls [] (.element (u!! "p:a") (some (u!! "urn:x")) [] [] [.namespace none (u!! "urn:y")] []) []) =
      some .attributeError := by decide +kernel

/-- A call of `namespace` when no start tag is open is not an error, and later declarations of the same are
left out: no reader accepts what is written. -/
theorem C78_refuted_late :
    failure [.startDocument, .startElement (u!! "a") none [] [], .text (u!! "t") false,
      .namespace (some (u!! "p")) (u!! "urn:x"), .startElement (u!! "p:b") (some (u!! "urn:x")) [] [],
      .endElement (u!! "p:b"), .endElement (u!! "a"), .endDocument] = none ∧
    writtenAgain [.startDocument, .startElement (u!! "a") none [] [], .text (u!! "t") false,
      .namespace (some (u!! "p")) (u!! "urn:x"), .startElement (u!! "p:b") (some (u!! "urn:x")) [] [],
      .endElement (u!! "p:b"), .endElement (u!! "a"), .endDocument] = none ∧
    writtenAgain [.startDocument, .namespace (some (u!! "p")) (u!! "urn:x"), .startElement (u!! "p:b") (some (u!! "urn:x")) [] [],
      .endElement (u!! "p:b"), .endDocument] = none ∧
    writtenAgain [.startDocument, .startElement (u!! "p:b") (some (u!! "urn:x")) [] [], .endElement (u!! "p:b"), .endDocument] =
      some [.start (some (u!! "urn:x"), u!! "b") [], .stop (some (u!! "urn:x"), u!! "b")] := by decide +kernel

end Verif.Write.XmlWriter
