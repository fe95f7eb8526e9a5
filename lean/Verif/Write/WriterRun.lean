import Verif.Write.WriterLemmas

/-
What the printer gets for the calls that write an element.
-/
namespace Verif.Write.XmlWriter
open Verif Verif.Write.Spec Verif.Write.XmlWriter.Spec

/-! ## Sequences of calls -/

/-- A writer without an open start tag. -/
def cl (b : Bool) (S : List Scope) : Writer := ⟨b, none, S, []⟩

def isContent : WCall → Bool
  | .startDocument | .attribute _ _ _ | .namespace _ _ => false
  | _ => true

theorem complete_cl (it : Iter) (b : Bool) (S : List Scope) : complete it (cl b S) = ([], cl b S) := rfl

theorem complete_open (it : Iter) {b : Bool} {name : UStr} (hn : name ≠ []) (top below : Scope) (rest : List Scope) (A : Attrs) :
    complete it ⟨b, some name, top :: below :: rest, A⟩ =
      ([.startElement name (newDecls it top below) ((it.attrs A).map (·.2))], cl b (top :: below :: rest)) := by
  have : truthy (some name) = true := by cases name with
    | nil => exact absurd rfl hn
    | cons => rfl
  simp [complete, this, cl]

theorem run_append_ok {P : Params} {it : Iter} : ∀ {a b : List WCall} {w w' : Writer} {o : List Call},
    run P it w (a ++ b) = .ok (o, w') ↔
      ∃ x w1 y, run P it w a = .ok (x, w1) ∧ run P it w1 b = .ok (y, w') ∧ o = x ++ y
  | [], b, w, w', o => by
    constructor
    · intro h; exact ⟨[], w, o, rfl, h, rfl⟩
    · rintro ⟨x, w1, y, h1, h2, rfl⟩
      cases h1; exact h2
  | c :: a, b, w, w', o => by
    simp only [List.cons_append, run]
    cases he : exec P it w c with
    | error e => simp
    | ok r =>
      obtain ⟨z, w2⟩ := r
      simp only
      constructor
      · intro h
        cases hr : run P it w2 (a ++ b) with
        | error e => rw [hr] at h; cases h
        | ok r =>
          obtain ⟨o', w3⟩ := r
          rw [hr] at h
          simp only [Except.ok.injEq, Prod.mk.injEq] at h
          obtain ⟨rfl, rfl⟩ := h
          obtain ⟨x, w1, y, h1, h2, rfl⟩ := run_append_ok.1 hr
          exact ⟨z ++ x, w1, y, by rw [h1], h2, by simp⟩
      · rintro ⟨x, w1, y, h1, h2, rfl⟩
        cases hr : run P it w2 a with
        | error e => rw [hr] at h1; cases h1
        | ok r =>
          obtain ⟨x', w3⟩ := r
          rw [hr] at h1
          simp only [Except.ok.injEq, Prod.mk.injEq] at h1
          obtain ⟨rfl, rfl⟩ := h1
          rw [run_append_ok.2 ⟨x', w3, y, hr, h2, rfl⟩]
          simp

theorem ok_pair {a x o : List Call} {y w' : Writer} :
    (Except.ok (a ++ x, y) : Except Err (List Call × Writer)) = .ok (o, w') ↔
      ∃ b, (Except.ok (x, y) : Except Err (List Call × Writer)) = .ok (b, w') ∧ o = a ++ b := by
  constructor
  · intro h; cases h; exact ⟨x, rfl, rfl⟩
  · rintro ⟨b, h, rfl⟩; cases h; rfl

theorem exec_open {P : Params} {it : Iter} {w w1 : Writer} {a : List Call} (h : complete it w = (a, w1))
    (h1 : complete it w1 = ([], w1)) (hn : w1.needDoctype = w.needDoctype) {c : WCall} (hc : isContent c = true)
    {o : List Call} {w' : Writer} :
    exec P it w c = .ok (o, w') ↔ ∃ b, exec P it w1 c = .ok (b, w') ∧ o = a ++ b := by
  cases c with
  | startDocument => cases hc
  | «attribute» => cases hc
  | «namespace» => cases hc
  | endDocument => simp only [exec, h, h1]; exact ok_pair
  | startElement name ns namespaces attributes =>
    simp only [exec, h, h1, doctypeCalls, hn]
    cases w1.scopes with
    | nil => simp
    | cons top rest =>
      simp only
      split
      · simp
      · exact ok_pair
  | endElement name =>
    simp only [exec, h, h1]
    cases w1.scopes with
    | nil => simp
    | cons top rest => exact ok_pair
  | text s raw => simp only [exec, h, h1]; exact ok_pair
  | comment s => simp only [exec, h, h1]; exact ok_pair
  | pi t d => simp only [exec, h, h1]; exact ok_pair

theorem run_open {P : Params} {it : Iter} {w w1 : Writer} {a : List Call} (h : complete it w = (a, w1))
    (h1 : complete it w1 = ([], w1)) (hn : w1.needDoctype = w.needDoctype) {c : WCall} (hc : isContent c = true)
    {cs : List WCall} {o : List Call} {w' : Writer} :
    run P it w (c :: cs) = .ok (o, w') ↔ ∃ b, run P it w1 (c :: cs) = .ok (b, w') ∧ o = a ++ b := by
  rw [show c :: cs = [c] ++ cs from rfl, run_append_ok]
  constructor
  · rintro ⟨x, w2, y, h2, h3, rfl⟩
    have : exec P it w c = .ok (x, w2) := by
      simp only [run] at h2
      cases he : exec P it w c with
      | error e => rw [he] at h2; cases h2
      | ok r => rw [he] at h2; simp at h2; rw [← h2.1, ← h2.2]
    obtain ⟨b, h4, rfl⟩ := (exec_open h h1 hn hc).1 this
    exact ⟨b ++ y, run_append_ok.2 ⟨b, w2, y, by simp [run, h4], h3, rfl⟩, by simp⟩
  · rintro ⟨b, h2, rfl⟩
    obtain ⟨x, w2, y, h3, h4, rfl⟩ := run_append_ok.1 h2
    have : exec P it w1 c = .ok (x, w2) := by
      simp only [run] at h3
      cases he : exec P it w1 c with
      | error e => rw [he] at h3; cases h3
      | ok r => rw [he] at h3; simp at h3; rw [← h3.1, ← h3.2]
    have := (exec_open h h1 hn hc).2 ⟨x, this, rfl⟩
    exact ⟨a ++ x, w2, y, by simp [run, this], h4, by simp⟩

theorem calls_head : ∀ (n : Node), ∃ c cs, callsOf n = c :: cs ∧ isContent c = true
  | .element _ _ _ _ _ _ => ⟨_, _, by rw [callsOf], rfl⟩
  | .text _ => ⟨_, _, by rw [callsOf], rfl⟩
  | .comment _ => ⟨_, _, by rw [callsOf], rfl⟩
  | .pi _ _ => ⟨_, _, by rw [callsOf], rfl⟩

theorem content_head (children : List Node) (name : UStr) :
    ∃ c cs, allCalls children ++ [WCall.endElement name] = c :: cs ∧ isContent c = true := by
  cases children with
  | nil => exact ⟨_, [], by rw [allCalls]; rfl, rfl⟩
  | cons n ns =>
    obtain ⟨c, cs, h1, h2⟩ := calls_head n
    exact ⟨c, cs ++ allCalls ns ++ [.endElement name], by rw [allCalls, h1]; simp, h2⟩

/-! ## Adding attributes -/

/-- The attributes by namespace and local name. -/
def plainAttrs (A : Attrs) : List (XName × UStr) := A.map fun e => (e.1, e.2.2)

theorem plainAttrs_put (A : Attrs) (k : Option UStr × UStr) (q v : UStr) :
    plainAttrs (put A k (q, v)) = put (plainAttrs A) k v := 
  put_map (fun e : UStr × UStr => e.2) A k (q, v)

theorem addAttribute_spec {it : Iter} (hit : GoodIter it) {wide : Bool} {b : Bool} {name : UStr} (hn : name ≠ [])
    {top : Scope} {rest : List Scope} {A : Attrs} (ht : DictLegal wide top) (hA : AttrsOk wide top A)
    {n v : UStr} {ns : Option UStr} (hl : LegalAttribute wide n v ns) :
    ∃ top' A', addAttribute it ⟨b, some name, top :: rest, A⟩ n v ns = .ok ⟨b, some name, top' :: rest, A'⟩ ∧
      DictLegal wide top' ∧ Grows top top' ∧ AttrsOk wide top' A' ∧
      plainAttrs A' = putAll (plainAttrs A) [((ns, localName n), v)] := by
  have htr : truthy (some name) = true := by cases name with
    | nil => exact absurd rfl hn
    | cons => rfl
  obtain ⟨h1, h2, h3⟩ := hl
  obtain ⟨⟨p, l⟩, hs⟩ := Option.isSome_iff_exists.1 h1
  have hq := splitQ_eq hs
  have hloc : localName n = l := by simp [localName, hs]
  obtain ⟨hl1, hl2⟩ := splitName_nc' hs
  rw [hloc] at h3 ⊢
  simp only [addAttribute, htr, if_true, hq]
  cases ns with
  | none =>
    exact ⟨top, _, rfl, ht, fun _ _ h => h, hA.put h2 hl1 ⟨rfl, h3⟩, by rw [plainAttrs_put]; rfl⟩
  | some u =>
    obtain ⟨c1, c2, c3⟩ := choose_spec hit ht h3 (pfx := p) hl2
    refine ⟨_, _, rfl, c1, c2, (hA.grows c2).put h2 hl1 ⟨_, rfl, c3, h3.2.1⟩, by rw [plainAttrs_put]; rfl⟩

theorem addAttributes_spec {it : Iter} (hit : GoodIter it) {wide : Bool} {b : Bool} {name : UStr} (hn : name ≠ [])
    {rest : List Scope} : ∀ (l : List ((UStr × Option UStr) × UStr)) {top : Scope} {A : Attrs}
    (_ : DictLegal wide top) (_ : AttrsOk wide top A)
    (_ : ∀ a ∈ l, LegalAttribute wide a.1.1 a.2 a.1.2),
    ∃ top' A', addAttributes it ⟨b, some name, top :: rest, A⟩ l = .ok ⟨b, some name, top' :: rest, A'⟩ ∧
      DictLegal wide top' ∧ Grows top top' ∧ AttrsOk wide top' A' ∧
      plainAttrs A' = putAll (plainAttrs A) (l.map fun a => ((a.1.2, localName a.1.1), a.2))
  | [], top, A, ht, hA, hl => ⟨top, A, rfl, ht, fun _ _ h => h, hA, rfl⟩
  | ((n, ns), v) :: l, top, A, ht, hA, hl => by
    obtain ⟨t1, A1, e1, d1, g1, a1, p1⟩ := addAttribute_spec hit hn ht hA (b := b) (rest := rest) (hl _ (List.mem_cons_self ..))
    obtain ⟨t2, A2, e2, d2, g2, a2, p2⟩ := addAttributes_spec hit hn l (b := b) (rest := rest) d1 a1 (fun a ha => hl a (List.mem_cons_of_mem _ ha))
    refine ⟨t2, A2, ?_, d2, fun p v h => g2 _ _ (g1 _ _ h), a2, ?_⟩
    · simp only [addAttributes, e1, e2]
    · rw [p2, p1]; rfl

/-- The namespaces that are asked for with `namespace`. -/
def nsAdds (adds : List Add) : Scope := adds.filterMap fun a => match a with
  | .namespace p u => some (p, some u)
  | .attribute _ _ _ => none

/-- The attributes that are added. -/
def attrAdds (adds : List Add) : List (XName × UStr) := adds.filterMap fun a => match a with
  | .attribute n v ns => some ((ns, localName n), v)
  | .namespace _ _ => none

structure AddsOk (wide : Bool) (top top' : Scope) (A A' : Attrs) (adds : List Add) : Prop where
  dict : DictLegal wide top'
  grows : Grows top top'
  attrs : AttrsOk wide top' A'
  plain : plainAttrs A' = putAll (plainAttrs A) (attrAdds adds)
  asked : ∀ p u, (p, u) ∈ nsAdds adds → get top' p = some u

theorem addNamespace_spec {wide : Bool} {w w' : Writer} {top : Scope} {rest : List Scope} (hw : w.scopes = top :: rest)
    (ht : DictLegal wide top) {p : Option UStr} {u : UStr} (hl : legalBinding (p, u) = true ∧ LegalText wide u)
    (h : addNamespace w p u = .ok w') :
    ∃ top', w' = { w with scopes := top' :: rest } ∧ DictLegal wide top' ∧ Grows top top' ∧ get top' p = some (some u) := by
  unfold addNamespace at h
  rw [hw] at h
  simp only at h
  cases hg : get top p with
  | none =>
    rw [hg] at h
    simp only at h
    split at h
    · cases h
    · cases h
      cases p with
      | none => exact absurd hg ht.dflt
      | some q => exact ⟨_, rfl, ht.put_new hg hl, grows_put hg, by rw [get_put, if_pos rfl]⟩
  | some v =>
    rw [hg] at h
    simp only at h
    split at h
    · cases h
    · rename_i hv
      cases h
      exact ⟨top, by rw [← hw], ht, fun _ _ h => h, by rw [hg, Classical.not_not.mp hv]⟩

theorem adds_spec {P : Params} {it : Iter} (hit : GoodIter it) {wide : Bool} {b : Bool} {name : UStr} (hn : name ≠ [])
    {rest : List Scope} : ∀ (adds : List Add) {top : Scope} {A : Attrs}
    (_ : DictLegal wide top) (_ : AttrsOk wide top A) (_ : ∀ a ∈ adds, LegalAdd wide a) {o : List Call} {w1 : Writer},
    run P it ⟨b, some name, top :: rest, A⟩ (adds.map Add.call) = .ok (o, w1) →
    o = [] ∧ ∃ top' A', w1 = ⟨b, some name, top' :: rest, A'⟩ ∧ AddsOk wide top top' A A' adds
  | [], top, A, ht, hA, hl, o, w1, h => by
    cases h
    exact ⟨rfl, top, A, rfl, ht, fun _ _ h => h, hA, rfl, nofun⟩
  | .attribute n v ns :: adds, top, A, ht, hA, hl, o, w1, h => by
    obtain ⟨t1, A1, e1, d1, g1, a1, p1⟩ := addAttribute_spec hit hn ht hA (b := b) (rest := rest) (hl _ (List.mem_cons_self ..))
    rw [List.map_cons] at h
    obtain ⟨x, w2, y, h1, h2, rfl⟩ := run_append_ok (a := [_]).1 h
    simp only [run, exec, Add.call, e1, List.append_nil] at h1
    cases h1
    obtain ⟨rfl, t2, A2, e2, k⟩ := adds_spec hit hn adds d1 a1 (fun a ha => hl a (List.mem_cons_of_mem _ ha)) h2
    refine ⟨rfl, t2, A2, e2, k.dict, fun p v h => k.grows _ _ (g1 _ _ h), k.attrs, ?_, k.asked⟩
    rw [k.plain, p1]; rfl
  | .namespace p u :: adds, top, A, ht, hA, hl, o, w1, h => by
    rw [List.map_cons] at h
    obtain ⟨x, w2, y, h1, h2, rfl⟩ := run_append_ok (a := [_]).1 h
    simp only [run, exec, Add.call] at h1
    cases hn' : addNamespace ⟨b, some name, top :: rest, A⟩ p u with
    | error e => rw [hn'] at h1; cases h1
    | ok w3 =>
      rw [hn'] at h1
      cases h1
      obtain ⟨t1, rfl, d1, g1, s1⟩ := addNamespace_spec rfl ht (hl _ (List.mem_cons_self ..)) hn'
      obtain ⟨rfl, t2, A2, e2, k⟩ := adds_spec hit hn adds d1 (hA.grows g1) (fun a ha => hl a (List.mem_cons_of_mem _ ha)) h2
      refine ⟨rfl, t2, A2, e2, k.dict, fun p v h => k.grows _ _ (g1 _ _ h), k.attrs, k.plain, ?_⟩
      intro q v hq
      rcases List.mem_cons.1 (show (q, v) ∈ (p, some u) :: nsAdds adds from hq) with hq | hq
      · cases hq; exact k.grows _ _ s1
      · exact k.asked _ _ hq

theorem adds_total {P : Params} {it : Iter} (hit : GoodIter it) {wide : Bool} {b : Bool} {name : UStr} (hn : name ≠ [])
    {rest : List Scope} : ∀ (adds : List Add) {top : Scope} {A : Attrs}
    (_ : DictLegal wide top) (_ : AttrsOk wide top A) (_ : ∀ a ∈ adds, LegalAdd wide a)
    (_ : ∀ a ∈ adds, ∃ n v ns, a = .attribute n v ns),
    ∃ w1, run P it ⟨b, some name, top :: rest, A⟩ (adds.map Add.call) = .ok ([], w1)
  | [], top, A, ht, hA, hl, hp => ⟨_, rfl⟩
  | a :: adds, top, A, ht, hA, hl, hp => by
    obtain ⟨n, v, ns, rfl⟩ := hp a (List.mem_cons_self ..)
    obtain ⟨t1, A1, e1, d1, g1, a1, p1⟩ := addAttribute_spec hit hn ht hA (b := b) (rest := rest) (hl _ (List.mem_cons_self ..))
    obtain ⟨w1, h⟩ := adds_total hit hn adds d1 a1 (fun a ha => hl a (List.mem_cons_of_mem _ ha))
      (fun a ha => hp a (List.mem_cons_of_mem _ ha)) (b := b) (rest := rest) (P := P)
    refine ⟨w1, ?_⟩
    simp only [List.map_cons, run, exec, Add.call, e1, h, List.append_nil]

/-! ## An element -/

theorem legalName_ne {wide : Bool} {name : UStr} {ns : Option UStr} (h : LegalName wide name ns) : name ≠ [] := by
  rintro rfl
  have := h.1
  simp [splitName, ncName, isName] at this

theorem splitQ_prefix {name : UStr} (h : (splitName name).isSome = true) : (splitQ name).1 = prefixName name := by
  obtain ⟨⟨p, l⟩, hs⟩ := Option.isSome_iff_exists.1 h
  rw [splitQ_eq hs]; simp [prefixName, hs]

/-- The dictionary of a new element before its attributes. -/
def own (d : Scope) (name : UStr) (ns : Option UStr) (namespaces : Scope) : Scope :=
  put (update d namespaces) (prefixName name) ns

theorem start_spec {P : Params} {it : Iter} (hit : GoodIter it) {wide : Bool} {b : Bool} {d : Scope} {rest : List Scope}
    (hd : DictLegal wide d) {name : UStr} {ns : Option UStr} {namespaces : Scope}
    {attributes : List ((UStr × Option UStr) × UStr)} (hn : LegalName wide name ns)
    (hk : (namespaces.map (·.1)).Nodup) (hl : ∀ e ∈ namespaces, LegalDecl wide e)
    (ha : ∀ a ∈ attributes, LegalAttribute wide a.1.1 a.2 a.1.2) :
    ∃ top A, exec P it (cl b (d :: rest)) (.startElement name ns namespaces attributes) =
        .ok (doctypeCalls P (cl b (d :: rest)) name, ⟨false, some name, top :: d :: rest, A⟩) ∧
      DictLegal wide top ∧ Grows (own d name ns namespaces) top ∧ AttrsOk wide top A ∧
      plainAttrs A = putAll [] (attributes.map fun a => ((a.1.2, localName a.1.1), a.2)) := by
  have h0 := hd.push hn hk hl
  obtain ⟨t1, A1, e1, d1, g1, a1, p1⟩ := addAttributes_spec hit (legalName_ne hn) attributes (b := false) (rest := d :: rest)
    h0 (A := []) ⟨by simp, nofun⟩ ha
  refine ⟨t1, A1, ?_, d1, g1, a1, p1⟩
  simp only [exec, complete_cl]
  simp only [cl, splitQ_prefix hn.1, e1, List.nil_append]

theorem run_cons_ok {P : Params} {it : Iter} {w w' : Writer} {c : WCall} {cs : List WCall} {o : List Call} :
    run P it w (c :: cs) = .ok (o, w') ↔
      ∃ x w1 y, exec P it w c = .ok (x, w1) ∧ run P it w1 cs = .ok (y, w') ∧ o = x ++ y := by
  rw [show c :: cs = [c] ++ cs from rfl, run_append_ok]
  have : ∀ x w1, run P it w [c] = .ok (x, w1) ↔ exec P it w c = .ok (x, w1) := by
    intro x w1
    simp only [run]
    cases exec P it w c with
    | error e => simp
    | ok r => obtain ⟨a, b⟩ := r; simp
  simp only [this]

theorem get_entry (d : Scope) (p : Option UStr) : entry d p = get d p := by
  induction d with
  | nil => rfl
  | cons e d ih => obtain ⟨q, u⟩ := e; simp only [entry, get, ih]

theorem entry_append (a b : Scope) (p : Option UStr) : entry (a ++ b) p = (entry a p).or (entry b p) := by
  induction a with
  | nil => simp [entry]
  | cons e a ih =>
    obtain ⟨q, u⟩ := e
    simp only [List.cons_append, entry, ih]
    split <;> simp

/-- `d` has what is asked for. -/
def Link (d outer : Scope) : Prop := ∀ p v, entry outer p = some v → get d p = some v ∧ p ≠ some (u!! "xmlns")

theorem legalDecl_ne {wide : Bool} {p v : Option UStr} (h : LegalDecl wide (p, v)) : p ≠ some (u!! "xmlns") := by
  cases v with
  | none => rw [show p = none from h]; simp
  | some u => intro e; subst e; exact absurd rfl (legal_nonempty h.1).2.2

structure ElementOk (wide : Bool) (d top : Scope) (A : Attrs) (name : UStr) (ns : Option UStr) (namespaces : Scope)
    (attributes : List ((UStr × Option UStr) × UStr)) (adds : List Add) : Prop where
  dict : DictLegal wide top
  attrs : AttrsOk wide top A
  nameOk : get top (prefixName name) = some ns ∧ prefixName name ≠ some (u!! "xmlns")
  perm : (A.map fun e => (e.1, e.2.2)).Perm (lastOnes (given attributes adds))
  link : ∀ outer, Link d outer → Link top (asked name ns namespaces adds outer)

theorem element_run {P : Params} {it : Iter} (hit : GoodIter it) {wide : Bool} {b : Bool} {d : Scope} {rest : List Scope}
    (hd : DictLegal wide d) {name : UStr} {ns : Option UStr} {namespaces : Scope}
    {attributes : List ((UStr × Option UStr) × UStr)} {adds : List Add} {children : List Node}
    (hleg : LegalNode wide (.element name ns namespaces attributes adds children)) {o : List Call} {w' : Writer}
    (hr : run P it (cl b (d :: rest)) (callsOf (.element name ns namespaces attributes adds children)) = .ok (o, w')) :
    ∃ top A content wc last, ElementOk wide d top A name ns namespaces attributes adds ∧
      run P it (cl false (top :: d :: rest)) (allCalls children) = .ok (content, wc) ∧
      exec P it wc (.endElement name) = .ok (last, w') ∧
      o = doctypeCalls P (cl b (d :: rest)) name ++
        (.startElement name (newDecls it top d) ((it.attrs A).map (·.2)) :: (content ++ last)) := by
  obtain ⟨hn, hk, hl, ha, hadd, hch⟩ := hleg
  obtain ⟨t1, A1, e1, d1, g1, a1, p1⟩ := start_spec hit hd hn hk hl ha (b := b) (rest := rest) (P := P)
  rw [callsOf, run_cons_ok] at hr
  obtain ⟨x, w1, y, h1, h2, rfl⟩ := hr
  rw [e1] at h1
  cases h1
  obtain ⟨x, w2, y, h3, h4, rfl⟩ := run_append_ok.1 h2
  obtain ⟨rfl, t2, A2, rfl, k⟩ := adds_spec hit (legalName_ne hn) adds d1 a1 hadd h3
  obtain ⟨c, cs, hc1, hc2⟩ := content_head children name
  rw [hc1, run_open (complete_open it (legalName_ne hn) t2 d rest A2) (complete_cl it _ _) rfl hc2, ← hc1] at h4
  obtain ⟨z, h5, rfl⟩ := h4
  obtain ⟨content, wc, last, h6, h7, rfl⟩ := run_append_ok.1 h5
  obtain ⟨z1, z2, z3, h8, h9, h10⟩ := run_cons_ok.1 h7
  cases h9
  rw [List.append_nil] at h10
  subst h10
  have hgrow : Grows (own d name ns namespaces) t2 := fun p v h => k.grows _ _ (g1 _ _ h)
  have hown : get (own d name ns namespaces) (prefixName name) = some ns := by
    unfold own; rw [get_put, if_pos rfl]
  have hname : LegalDecl wide (prefixName name, ns) := by
    cases ns with
    | none => exact hn.2
    | some u => exact hn.2.2
  refine ⟨t2, A2, content, wc, _, ⟨k.dict, k.attrs, ⟨hgrow _ _ hown, legalDecl_ne hname⟩, ?_, ?_⟩, h6, h8, rfl⟩
  · have : plainAttrs A2 = putAll [] (given attributes adds) := by
      rw [k.plain, p1]
      unfold given
      rw [putAll_append]; rfl
    show (plainAttrs A2).Perm _
    rw [this]
    exact putAll_perm _
  · intro outer ho p v hp
    unfold asked at hp
    simp only [entry] at hp
    split at hp
    · rename_i e
      cases hp; subst e
      exact ⟨hgrow _ _ hown, legalDecl_ne hname⟩
    · rename_i hne
      rw [entry_append, entry_append] at hp
      cases h1 : entry namespaces p with
      | some v' =>
        rw [h1] at hp
        simp at hp
        subst hp
        rw [get_entry] at h1
        refine ⟨hgrow _ _ ?_, legalDecl_ne (hl _ (get_mem h1))⟩
        unfold own
        rw [get_put, if_neg hne, get_update _ _ hk, h1]; rfl
      | none =>
        rw [h1, Option.none_or] at hp
        change (entry (nsAdds adds) p).or (entry outer p) = some v at hp
        cases h2 : entry (nsAdds adds) p with
        | some v' =>
          rw [h2] at hp
          simp at hp
          subst hp
          rw [get_entry] at h2
          have hm := get_mem h2
          refine ⟨k.asked _ _ hm, ?_⟩
          obtain ⟨a, ha1, ha2⟩ := List.mem_filterMap.1 hm
          cases a with
          | «attribute» => cases ha2
          | «namespace» q u =>
            cases ha2
            exact legalDecl_ne (wide := wide) (v := some u) (hadd _ ha1)
        | none =>
          rw [h2, Option.none_or] at hp
          obtain ⟨g, hx⟩ := ho p v hp
          refine ⟨hgrow _ _ ?_, hx⟩
          unfold own
          rw [get_entry] at h1
          rw [get_put, if_neg hne, get_update _ _ hk, h1, g]; rfl

mutual
/-- Without `namespace` nothing fails. -/
theorem run_total {P : Params} {it : Iter} (hit : GoodIter it) {wide : Bool} : ∀ (n : Node) {b : Bool} {d : Scope} {rest : List Scope},
    DictLegal wide d → LegalNode wide n → Spec.Plain n →
    ∃ o b', run P it (cl b (d :: rest)) (callsOf n) = .ok (o, cl b' (d :: rest))
  | .element name ns namespaces attributes adds children, b, d, rest, hd, hleg, hp => by
    obtain ⟨hn, hk, hl, ha, hadd, hch⟩ := hleg
    obtain ⟨t1, A1, e1, d1, g1, a1, p1⟩ := start_spec hit hd hn hk hl ha (b := b) (rest := rest) (P := P)
    obtain ⟨w1, h1⟩ := adds_total hit (legalName_ne hn) adds d1 a1 hadd hp.1 (P := P) (b := false) (rest := d :: rest)
    obtain ⟨-, t2, A2, rfl, k⟩ := adds_spec hit (legalName_ne hn) adds d1 a1 hadd h1
    obtain ⟨o, b', h2⟩ := run_total_all hit children (b := false) (rest := d :: rest) k.dict hch hp.2 (P := P)
    obtain ⟨c, cs, hc1, hc2⟩ := content_head children name
    have h3 : run P it (cl false (t2 :: d :: rest)) (allCalls children ++ [.endElement name]) =
        .ok (o ++ [.endElement name], cl b' (d :: rest)) := by
      refine run_append_ok.2 ⟨o, _, [.endElement name], h2, ?_, rfl⟩
      exact run_cons_ok.2 ⟨_, _, [], rfl, rfl, rfl⟩
    have h4 : ∃ o2, run P it ⟨false, some name, t2 :: d :: rest, A2⟩ (allCalls children ++ [.endElement name]) =
        .ok (o2, cl b' (d :: rest)) := by
      rw [hc1] at h3 ⊢
      exact ⟨_, (run_open (complete_open it (legalName_ne hn) t2 d rest A2) (complete_cl it _ _) rfl hc2).2 ⟨_, h3, rfl⟩⟩
    obtain ⟨o2, h4⟩ := h4
    refine ⟨doctypeCalls P (cl b (d :: rest)) name ++ ([] ++ o2), b', ?_⟩
    rw [callsOf, run_cons_ok]
    exact ⟨_, _, _, e1, run_append_ok.2 ⟨_, _, _, h1, h4, rfl⟩, rfl⟩
  | .text s, b, d, rest, hd, hleg, hp => ⟨_, b, by rw [callsOf]; simp [run, exec, complete_cl]; rfl⟩
  | .comment s, b, d, rest, hd, hleg, hp => ⟨_, b, by rw [callsOf]; simp [run, exec, complete_cl]; rfl⟩
  | .pi t s, b, d, rest, hd, hleg, hp => ⟨_, b, by rw [callsOf]; simp [run, exec, complete_cl]; rfl⟩
theorem run_total_all {P : Params} {it : Iter} (hit : GoodIter it) {wide : Bool} : ∀ (ns : List Node) {b : Bool} {d : Scope} {rest : List Scope},
    DictLegal wide d → LegalNodes wide ns → PlainAll ns →
    ∃ o b', run P it (cl b (d :: rest)) (allCalls ns) = .ok (o, cl b' (d :: rest))
  | [], b, d, rest, hd, hleg, hp => ⟨[], b, rfl⟩
  | n :: ns, b, d, rest, hd, hleg, hp => by
    obtain ⟨o1, b1, h1⟩ := run_total hit n (b := b) (rest := rest) hd hleg.1 hp.1 (P := P)
    obtain ⟨o2, b2, h2⟩ := run_total_all hit ns (b := b1) (rest := rest) hd hleg.2 hp.2 (P := P)
    exact ⟨_, b2, by rw [allCalls]; exact run_append_ok.2 ⟨_, _, _, h1, h2, rfl⟩⟩
end

end Verif.Write.XmlWriter
