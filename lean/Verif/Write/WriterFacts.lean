import Verif.Write.WriterRun

/-
What a reader finds in what the printer writes.
-/
namespace Verif.Write.XmlWriter
open Verif Verif.Write.Spec Verif.Write.XmlWriter.Spec

/-! ## White space around data -/

theorem isSpace_eq : isSpace = space := by
  funext c
  simp only [isSpace, space]
  grind

theorem strip_trimmed (s : UStr) : strip s = trimmed s := by rw [strip, trimmed, isSpace_eq]

theorem trimmed_infix (s : UStr) : ∃ a b, s = a ++ trimmed s ++ b := by
  unfold trimmed
  refine ⟨s.takeWhile space, ((s.dropWhile space).reverse.takeWhile space).reverse, ?_⟩
  rw [List.append_assoc, ← List.reverse_append, List.takeWhile_append_dropWhile, List.reverse_reverse,
    List.takeWhile_append_dropWhile]

theorem dropWhile_head (p : Nat → Bool) (s : UStr) {c : Nat} (h : (s.dropWhile p).head? = some c) : p c = false := by
  induction s with
  | nil => cases h
  | cons x s ih =>
    rw [List.dropWhile_cons] at h
    split at h
    · exact ih h
    · rename_i hx
      cases h
      simpa using hx

theorem trimmed_head (s : UStr) {c : Nat} (h : (trimmed s).head? = some c) : space c = false := by
  unfold trimmed at h
  have h1 : s.dropWhile space =
      ((s.dropWhile space).reverse.dropWhile space).reverse ++ ((s.dropWhile space).reverse.takeWhile space).reverse := by
    rw [← List.reverse_append, List.takeWhile_append_dropWhile, List.reverse_reverse]
  refine dropWhile_head space s (c := c) ?_
  rw [h1, List.head?_append, h]; rfl

/-! ## Facts about calls -/

structure Facts (wide : Bool) (d : Scope) (out : List Call) (want : List XEv) (ask : Scope → List Scope) : Prop where
  legal : ∀ c ∈ out, LegalCall wide c
  doc : ∀ open_ rest, open_ ≠ [] → (DocCalls .root open_ (out ++ rest) ↔ DocCalls .root open_ rest)
  read : ∀ stack es, Agree (stack.headD []) d → SameEvs es (events out) →
    ∃ ys, SameXEvs ys want ∧ ∀ rest, resolve stack (es ++ rest) = (resolve stack rest).map (ys ++ ·)
  scope : ∀ stack es outer, Agree (stack.headD []) d → Link d outer → SameEvs es (events out) →
    ∃ ss, AllProvide ss (ask outer) ∧ ∀ rest, scopes stack (es ++ rest) = ss ++ scopes stack rest

theorem Facts.nil (wide : Bool) (d : Scope) : Facts wide d [] [] (fun _ => []) := by
  refine ⟨nofun, fun _ _ _ => Iff.rfl, ?_, ?_⟩
  · intro stack es _ h
    cases h
    exact ⟨[], .nil, fun rest => by simp⟩
  · intro stack es outer _ _ h
    cases h
    exact ⟨[], .nil, fun rest => rfl⟩

theorem allProvide_append {a b c d} (h : AllProvide a b) (h2 : AllProvide c d) : AllProvide (a ++ c) (b ++ d) := by
  induction h with
  | nil => exact h2
  | cons h1 _ ih => exact .cons h1 ih

theorem Facts.append {wide : Bool} {d : Scope} {a b : List Call} {x y : List XEv} {f g : Scope → List Scope}
    (h1 : Facts wide d a x f) (h2 : Facts wide d b y g) : Facts wide d (a ++ b) (x ++ y) (fun o => f o ++ g o) := by
  refine ⟨?_, ?_, ?_, ?_⟩
  · intro c hc
    exact (List.mem_append.1 hc).elim (h1.legal c) (h2.legal c)
  · intro o r ho
    rw [List.append_assoc, h1.doc _ _ ho, h2.doc _ _ ho]
  · intro stack es hs he
    rw [events_append] at he
    obtain ⟨e1, e2, rfl, k1, k2⟩ := sameEvs_append he
    obtain ⟨ys, g1, g2⟩ := h1.read _ _ hs k1
    obtain ⟨zs, g3, g4⟩ := h2.read _ _ hs k2
    refine ⟨ys ++ zs, sameXEvs_append g1 g3, fun rest => ?_⟩
    rw [List.append_assoc, g2, g4]
    cases resolve stack rest <;> simp
  · intro stack es outer hs hl he
    rw [events_append] at he
    obtain ⟨e1, e2, rfl, k1, k2⟩ := sameEvs_append he
    obtain ⟨ys, g1, g2⟩ := h1.scope _ _ _ hs hl k1
    obtain ⟨zs, g3, g4⟩ := h2.scope _ _ _ hs hl k2
    refine ⟨ys ++ zs, allProvide_append g1 g3, fun rest => ?_⟩
    rw [List.append_assoc, g2, g4, List.append_assoc]

theorem scopes_chars (stack : List (List (Option UStr × UStr))) (s : UStr) (rest : List Ev) :
    scopes stack (s.map .char ++ rest) = scopes stack rest := by
  induction s with
  | nil => rfl
  | cons c s ih => simpa [scopes] using ih

theorem Facts.text {wide : Bool} {d : Scope} {s : UStr} (hs : LegalText wide s) :
    Facts wide d [.text s] (s.map .char) (fun _ => []) := by
  refine ⟨?_, ?_, ?_, ?_⟩
  · intro c hc
    simp only [List.mem_singleton] at hc
    subst hc; exact hs
  · intro o r ho; simp [DocCalls, ho]
  · intro stack es _ he
    simp [events, expected] at he
    rw [same_chars he]
    exact ⟨_, sameXEvs_refl _, resolve_chars stack s⟩
  · intro stack es outer _ _ he
    simp [events, expected] at he
    rw [same_chars he]
    exact ⟨[], .nil, scopes_chars stack s⟩

theorem Facts.comment {wide : Bool} {d : Scope} {s : UStr} (hs : LegalCall wide (.comment s)) :
    Facts wide d [.comment s] [.comment s] (fun _ => []) := by
  have key : ∀ es, SameEvs es (events [Call.comment s]) → es = [.comment s] := by
    intro es he
    simp [events, expected] at he
    cases he with | cons h1 h2 => cases h1; cases h2; rfl
  refine ⟨?_, ?_, ?_, ?_⟩
  · intro c hc
    simp only [List.mem_singleton] at hc
    subst hc; exact hs
  · intro o r ho; simp [DocCalls]
  · intro stack es _ he
    rw [key es he]
    exact ⟨_, sameXEvs_refl _, fun rest => by simp [resolve]⟩
  · intro stack es outer _ _ he
    rw [key es he]
    exact ⟨[], .nil, fun rest => rfl⟩

theorem Facts.pi {wide : Bool} {d : Scope} {t s : UStr} (hs : LegalCall wide (.pi t s)) :
    Facts wide d [.pi t s] [.pi t s] (fun _ => []) := by
  have key : ∀ es, SameEvs es (events [Call.pi t s]) → es = [.pi t s] := by
    intro es he
    simp [events, expected] at he
    cases he with | cons h1 h2 => cases h1; cases h2; rfl
  refine ⟨?_, ?_, ?_, ?_⟩
  · intro c hc
    simp only [List.mem_singleton] at hc
    subst hc; exact hs
  · intro o r ho; simp [DocCalls]
  · intro stack es _ he
    rw [key es he]
    exact ⟨_, sameXEvs_refl _, fun rest => by simp [resolve]⟩
  · intro stack es outer _ _ he
    rw [key es he]
    exact ⟨[], .nil, fun rest => rfl⟩

theorem legal_pi {wide : Bool} {t s : UStr}
    (h : isName t = true ∧ isXml t = false ∧ Raw s ∧ ¬ Occurs (u!! "?>") s) : LegalCall wide (.pi t (trimmed s)) := by
  obtain ⟨a, b, hs⟩ := trimmed_infix s
  refine ⟨h.1, h.2.1, ?_, ?_, fun c hc => trimmed_head s hc⟩
  · intro c hc
    refine h.2.2.1 c ?_
    rw [hs]; simp [hc]
  · rintro ⟨x, y, hxy⟩
    refine h.2.2.2 ⟨a ++ x, y ++ b, ?_⟩
    rw [hs, hxy]; simp

theorem Link.provides {d outer : Scope} (h : Link d outer) {S : List (Option UStr × UStr)} (hS : Agree S d) :
    Provides S outer := by
  intro p u hp
  obtain ⟨g, hx⟩ := h p u hp
  exact hS p u g hx

/-- The calls for an element. -/
theorem Facts.element {it : Iter} (hit : GoodIter it) {wide : Bool} {d top : Scope} (hd : DictLegal wide d) {A : Attrs} {name : UStr}
    {ns : Option UStr} {namespaces : Scope} {attributes : List ((UStr × Option UStr) × UStr)} {adds : List Add}
    (hn : LegalName wide name ns) (he : ElementOk wide d top A name ns namespaces attributes adds)
    {content : List Call} {want : List XEv} {ask : Scope → List Scope} (hc : Facts wide top content want ask) :
    Facts wide d (.startElement name (newDecls it top d) ((it.attrs A).map (·.2)) :: (content ++ [.endElement name]))
      (.start (ns, localName name) (lastOnes (given attributes adds)) :: (want ++ [.stop (ns, localName name)]))
      (fun outer => asked name ns namespaces adds outer :: ask (asked name ns namespaces adds outer)) := by
  obtain ⟨⟨p, l⟩, hs⟩ := Option.isSome_iff_exists.1 hn.1
  have hpn : prefixName name = p := by simp [prefixName, hs]
  have hln : localName name = l := by simp [localName, hs]
  have hname : ∀ S, Agree S top → expandElement S name = some (ns, localName name) := by
    intro S hS
    have := hS _ _ he.nameOk.1 he.nameOk.2
    rw [hpn] at this
    simp only [expandElement, hs, this, hln, Option.map_some]
    cases ns with
    | none => rfl
    | some u => have := hn.2.1; simp [norm, this]
  have key : ∀ es, SameEvs es (events (Call.startElement name (newDecls it top d) ((it.attrs A).map (·.2)) ::
      (content ++ [.endElement name]))) → ∃ as x, es = .start name as :: (x ++ [.stop name]) ∧
      as.Perm ((newDecls it top d).map (fun e => (declName e.1, e.2)) ++ (it.attrs A).map (·.2)) ∧
      SameEvs x (events content) := by
    intro es hes
    simp only [events_cons, events_append, expected, List.cons_append, List.nil_append] at hes
    cases hes with
    | cons h1 h2 =>
      obtain ⟨x, y, rfl, h3, h4⟩ := sameEvs_append h2
      have hy : y = [.stop name] := by
        cases h4 with
        | cons h5 h9 => cases h5; simp only [events, List.flatMap_nil] at h9; cases h9; rfl
      subst hy
      obtain ⟨as, rfl, hp⟩ := same_start h1
      exact ⟨as, x, rfl, hp, h3⟩
  refine ⟨?_, ?_, ?_, ?_⟩
  · have ht := tag_facts hit he.dict hd
      (agree_decls hit hd (R := []) (below := []) (fun _ _ h => by cases h) (List.Perm.refl _)) he.attrs
    intro c hcm
    simp only [List.mem_cons, List.mem_append, List.not_mem_nil, or_false] at hcm
    rcases hcm with rfl | hcm | rfl
    · exact ⟨splitName_isName hs, ht.decls, ht.attrs, ht.nodup⟩
    · exact hc.legal c hcm
    · trivial
  · intro open_ rest hop
    simp only [List.cons_append, List.append_assoc, DocCalls, List.nil_append]
    rw [hc.doc _ _ (by simp)]
    simp only [DocCalls]
    constructor
    · rintro ⟨_, o', h1, h2⟩; cases h1; exact h2
    · intro h; exact ⟨fun h2 => absurd h2 hop, _, rfl, h⟩
  · intro stack es hS hes
    obtain ⟨as, x, rfl, hp, h3⟩ := key es hes
    obtain ⟨f1, ⟨ys, f3, f4, f5⟩, f6⟩ := (tag_facts hit he.dict hd hS he.attrs).read as hp
    obtain ⟨xs, g1, g2⟩ := hc.read ((as.filterMap declOf ++ stack.headD []) :: stack) x f6 h3
    refine ⟨.start (ns, localName name) ys :: (xs ++ [.stop (ns, localName name)]), ?_, fun rest => ?_⟩
    · exact .cons (.start _ _ _ (f4.trans he.perm)) (sameXEvs_append g1 (sameXEvs_refl _))
    · simp only [List.cons_append, List.append_assoc, List.nil_append, resolve]
      rw [if_pos f1, hname _ f6, f3]
      dsimp only
      rw [if_pos f5, g2]
      simp only [resolve, List.headD_cons, List.tail_cons, hname _ f6]
      cases resolve stack rest <;> simp
  · intro stack es outer hS hl hes
    obtain ⟨as, x, rfl, hp, h3⟩ := key es hes
    obtain ⟨f1, -, f6⟩ := (tag_facts hit he.dict hd hS he.attrs).read as hp
    have hl' := he.link outer hl
    obtain ⟨ss, g1, g2⟩ := hc.scope ((as.filterMap declOf ++ stack.headD []) :: stack) x _ f6 hl' h3
    refine ⟨_ :: ss, .cons (hl'.provides f6) g1, fun rest => ?_⟩
    simp only [List.cons_append, List.append_assoc, List.nil_append, scopes, g2, List.tail_cons]

end Verif.Write.XmlWriter
