import Verif.Compare.Order
/- The lines of the report as data, how they come from a document, and how they are read back. -/
namespace Verif.Compare
open Verif

/-- A line of the report. -/
inductive L where
  | start (name : Str)
  | ns (l : List (Option Str × Option Str))
  | attrs (l : List (Str × Str))
  | stop (name : Str)
  | text (d : Str)
  | pi (t d : Str)
  | comment (d : Str)
  | startC
  | endC
  | doctype (n : Str) (s p : Option Str) (i : Bool)

def render : L → Str
  | .start n => s!! "start-tag: " ++ n
  | .ns l => s!! "  namespaces: " ++ Py.join (s!! ", ") (l.map nsText)
  | .attrs l => s!! "  attributes: " ++ Py.join (s!! ", ") (l.map attrText)
  | .stop n => s!! "end-tag: " ++ n
  | .text d => s!! "#text: " ++ repr d
  | .pi t d => s!! "processing-instruction: target=" ++ t ++ s!! ", data=" ++ repr d
  | .comment d => s!! "#comment: " ++ repr d
  | .startC => s!! "start-cdata"
  | .endC => s!! "end-cdata"
  | .doctype n s p i => s!! "doctype-decl: name=" ++ n ++ s!! ", sysid=" ++ reprOpt s ++
      s!! ", pubid=" ++ reprOpt p ++ s!! ", subset=" ++ (if i then s!! "yes" else s!! "no")

def OkL : L → Prop
  | .ns l => ∀ p ∈ l, PrefixOk p.1
  | .attrs l => ∀ p ∈ l, Plain p.1
  | .pi t _ => ',' ∉ t
  | .doctype n _ _ _ => ',' ∉ n
  | _ => True

theorem attrText_ne (x : Str × Str) : attrText x ≠ [] := by simp [attrText]
theorem nsText_ne (x : Option Str × Option Str) : nsText x ≠ [] := by simp [nsText]

theorem render_inj {a b : L} (ha : OkL a) (hb : OkL b) (h : render a = render b) : a = b := by
  cases a <;> cases b <;> first | rfl | (simp [render] at h; done) | skip
  case start.start => simp [render] at h; rw [h]
  case stop.stop => simp [render] at h; rw [h]
  case ns.ns =>
    simp only [render, List.append_cancel_left_eq] at h
    rw [join_inj (f := nsText) (ok := fun p => PrefixOk p.1) (fun x y r r' h1 h2 h3 => ns_prefix h1 h2 h3)
      nsText_ne ha hb h]
  case attrs.attrs =>
    simp only [render, List.append_cancel_left_eq] at h
    rw [join_inj (f := attrText) (ok := fun p => Plain p.1) (fun x y r r' h1 h2 h3 => attr_prefix h1 h2 h3)
      attrText_ne ha hb h]
  case text.text =>
    simp only [render, List.append_cancel_left_eq] at h
    rw [repr_inj h]
  case comment.comment =>
    simp only [render, List.append_cancel_left_eq] at h
    rw [repr_inj h]
  case pi.pi =>
    simp only [render, List.append_assoc, List.append_cancel_left_eq] at h
    simp only [List.cons_append] at h
    obtain ⟨h1, h2⟩ := cut_prefix ha hb h
    simp only [List.cons.injEq, true_and, List.nil_append] at h2
    rw [h1, repr_inj h2]
  case doctype.doctype =>
    simp only [render, List.append_assoc, List.append_cancel_left_eq] at h
    simp only [List.cons_append] at h
    obtain ⟨h1, h2⟩ := cut_prefix ha hb h
    simp only [List.cons.injEq, true_and, List.nil_append] at h2
    obtain ⟨h3, h4⟩ := reprOpt_prefix h2
    simp only [List.cons.injEq, true_and] at h4
    obtain ⟨h5, h6⟩ := reprOpt_prefix h4
    rename_i i _ _ _ j
    have : i = j := by cases i <;> cases j <;> simp at h6 <;> rfl
    rw [h1, h3, h5, this]

theorem map_render_inj {xs ys : List L} (hx : ∀ l ∈ xs, OkL l) (hy : ∀ l ∈ ys, OkL l)
    (h : xs.map render = ys.map render) : xs = ys := by
  induction xs generalizing ys with
  | nil => cases ys with
    | nil => rfl
    | cons => simp at h
  | cons x xs ih =>
    cases ys with
    | nil => simp at h
    | cons y ys =>
      simp only [List.map_cons, List.cons.injEq] at h
      rw [render_inj (hx x (by simp)) (hy y (by simp)) h.1,
        ih (fun l hl => hx l (by simp [hl])) (fun l hl => hy l (by simp [hl])) h.2]

/-! ### From a document -/

def nsL (ns : List (Option Str × Option Str)) : List L :=
  if ns = [] then [] else [.ns (sorted (pairLe optLe optLe) ns)]

def attrL (as : List (Str × Str)) : List L :=
  if as = [] then [] else [.attrs (sorted (pairLe strLe strLe) as)]

def textL (ws : Bool) (d : Str) : List L :=
  if d = [] then [] else if ws || !isspace d then [.text d] else []

def giv (as : List (Name × Str)) : List (Str × Str) := as.map (fun p => (given p.1, p.2))

def lines (ws : Bool) : Content → List L
  | .nil => []
  | .elem ns n as k r =>
    .start (given n) :: (nsL ns ++ (attrL (giv as) ++ (lines ws k ++ .stop (given n) :: lines ws r)))
  | .text d r => textL ws d ++ lines ws r
  | .cdata d r => .startC :: (textL ws d ++ .endC :: lines ws r)
  | .comment d r => .comment d :: lines ws r
  | .pi t d r => .pi t d :: lines ws r
  | .ref _ _ r => lines ws r
  | .doctype n s p i r => .doctype n s p i :: lines ws r

theorem nsLines_eq (ns) : nsLines ns = (nsL ns).map render := by
  unfold nsLines nsL; split <;> simp [render]

theorem attrLines_eq (as) : attrLines as = (attrL as).map render := by
  unfold attrLines attrL; split <;> simp [render]

theorem flush_eq (ws out p ns) :
    flush ws ⟨out, p, ns⟩ = ⟨out ++ (textL ws p).map render, [], ns⟩ := by
  unfold flush textL
  split
  · rename_i h; simp at h; simp [h]
  · rename_i h
    simp at h
    simp only [h, if_false]
    split <;> simp [render]

theorem line_eq (ws out p ns l) :
    line ws ⟨out, p, ns⟩ l = ⟨out ++ (textL ws p).map render ++ [l], [], ns⟩ := by
  simp [line, flush_eq]

theorem feed_ns (ws out p) (n0 ns : List (Option Str × Option Str)) (t : List Event) :
    feed ws ⟨out, p, n0⟩ (ns.map (fun p => .nsDecl p.1 p.2) ++ t) = feed ws ⟨out, p, n0 ++ ns⟩ t := by
  induction ns generalizing n0 with
  | nil => simp
  | cons x xs ih =>
    simp only [List.map_cons, List.cons_append, feed, step]
    rw [ih]; simp

theorem feed_chars (ws out p n0) (ps : List Str) (t : List Event) :
    feed ws ⟨out, p, n0⟩ (ps.map .chars ++ t) = feed ws ⟨out, p ++ ps.flatten, n0⟩ t := by
  induction ps generalizing p with
  | nil => simp
  | cons x xs ih =>
    simp only [List.map_cons, List.cons_append, feed, step]
    rw [ih]; simp

theorem feed_delivers {ws : Bool} {c : Content} {es : List Event} (h : Delivers c es) :
    Merged c → Known c → ∀ (out : List Str) (p : Str), (p = [] ∨ ¬ StartsText c) →
    ∀ tail, ∃ out' p', feed ws ⟨out, p, []⟩ (es ++ tail) = feed ws ⟨out', p', []⟩ tail ∧
      out' ++ (textL ws p').map render =
        out ++ (textL ws p).map render ++ (lines ws c).map render := by
  induction h with
  | nil => intro _ _ out p _ tail; exact ⟨out, p, rfl, by simp [lines]⟩
  | @elem ns name attrs kids rest k r _ _ ihk ihr =>
    intro hm hk out p _ tail
    simp only [List.append_assoc, List.cons_append]
    rw [feed_ns]
    simp only [feed, step, line_eq, List.nil_append]
    obtain ⟨o1, p1, e1, e2⟩ := ihk hm.1 hk.1
      (out ++ (textL ws p).map render ++ [s!! "start-tag: " ++ given name] ++ nsLines ns ++
        attrLines (giv attrs)) [] (Or.inl rfl) (.stop (given name) :: (r ++ tail))
    obtain ⟨o2, p2, e3, e4⟩ := ihr hm.2 hk.2
      (o1 ++ (textL ws p1).map render ++ [s!! "end-tag: " ++ given name]) [] (Or.inl rfl) tail
    refine ⟨o2, p2, ?_, ?_⟩
    · refine Eq.trans ?_ (Eq.trans e1 (Eq.trans ?_ e3))
      · rfl
      · simp only [feed, step, line_eq]
    · rw [e4, e2, nsLines_eq, attrLines_eq]
      simp [lines, textL, render]
  | @text pieces rest r _ ih =>
    intro hm hk out p hp tail
    have hp' : p = [] := hp.resolve_right (fun h => h trivial)
    subst hp'
    simp only [List.append_assoc]
    rw [feed_chars]
    obtain ⟨o, q, e1, e2⟩ := ih hm.2.2 hk out ([] ++ pieces.flatten) (Or.inr hm.2.1) tail
    refine ⟨o, q, e1, ?_⟩
    rw [e2]; simp [lines, textL]
  | @cdata pieces rest r _ ih =>
    intro hm hk out p hp tail
    simp only [List.append_assoc, List.cons_append, feed, step, line_eq]
    rw [feed_chars]
    simp only [feed, step, line_eq, List.nil_append]
    obtain ⟨o, q, e1, e2⟩ := ih hm hk
      (out ++ (textL ws p).map render ++ [s!! "start-cdata"] ++
        (textL ws pieces.flatten).map render ++ [s!! "end-cdata"]) [] (Or.inl rfl) tail
    refine ⟨o, q, by simpa using e1, ?_⟩
    rw [e2]; simp [lines, textL, render]
  | @comment d rest r _ ih =>
    intro hm hk out p hp tail
    simp only [List.cons_append, feed, step, line_eq]
    obtain ⟨o, q, e1, e2⟩ := ih hm hk
      (out ++ (textL ws p).map render ++ [s!! "#comment: " ++ repr d]) [] (Or.inl rfl) tail
    refine ⟨o, q, e1, ?_⟩
    rw [e2]; simp [lines, textL, render]
  | @pi t d rest r _ ih =>
    intro hm hk out p hp tail
    simp only [List.cons_append, feed, step, line_eq]
    obtain ⟨o, q, e1, e2⟩ := ih hm hk
      (out ++ (textL ws p).map render ++ [render (.pi t d)]) [] (Or.inl rfl) tail
    refine ⟨o, q, e1, ?_⟩
    rw [e2]; simp [lines, textL]
  | ref => intro _ hk; exact absurd hk id
  | @doctype n s p' i rest r _ ih =>
    intro hm hk out p hp tail
    simp only [List.cons_append, feed, step, line_eq]
    obtain ⟨o, q, e1, e2⟩ := ih hm hk
      (out ++ (textL ws p).map render ++ [render (.doctype n s p' i)]) [] (Or.inl rfl) tail
    refine ⟨o, q, e1, ?_⟩
    rw [e2]; simp [lines, textL]

theorem sequence_delivers {entity ws : Bool} {c : Content} {es : List Event} (h : Delivers c es)
    (hm : Merged c) (hk : Known c) (hs : ws = true ∨ entity = true) :
    sequence entity ws es = .ok ((lines ws c).map render) := by
  have hc : ¬ ((!ws && !entity) = true) := by rcases hs with h | h <;> simp [h]
  obtain ⟨o, p, e1, e2⟩ := feed_delivers (ws := ws) h hm hk [] [] (Or.inl rfl) []
  rw [List.append_nil] at e1
  rw [sequence, if_neg hc, e1]
  simp only [feed, flush_eq]
  rw [e2]; simp [textL]

/-! ### Entities that the parser does not know -/

theorem feed_ref {ws : Bool} {c : Content} {es : List Event} (h : Delivers c es) :
    ¬ Known c → ∀ (s : State) (tail : List Event), feed ws s (es ++ tail) = .error .typeError := by
  have total : ∀ {c : Content} {es : List Event}, Delivers c es → Known c → ∀ (s : State) tail,
      ∃ t, feed ws s (es ++ tail) = feed ws t tail := by
    intro c es h
    induction h with
    | nil => intro _ s tail; exact ⟨s, rfl⟩
    | @elem ns name attrs kids rest k r _ _ ihk ihr =>
      intro hk s tail
      simp only [List.append_assoc, List.cons_append]
      rw [feed_ns]; simp only [feed, step]
      obtain ⟨t, e⟩ := ihk hk.1 _ (.stop (given name) :: (r ++ tail))
      rw [e]; simp only [feed, step]
      exact ihr hk.2 _ _
    | text _ ih => intro hk s tail; rw [List.append_assoc, feed_chars]; exact ih hk _ _
    | cdata _ ih =>
      intro hk s tail
      simp only [List.append_assoc, List.cons_append, feed, step]
      rw [feed_chars]; simp only [feed, step]; exact ih hk _ _
    | comment _ ih => intro hk s tail; simp only [List.cons_append, feed, step]; exact ih hk _ _
    | pi _ ih => intro hk s tail; simp only [List.cons_append, feed, step]; exact ih hk _ _
    | ref _ ih => intro hk; exact absurd hk id
    | doctype _ ih => intro hk s tail; simp only [List.cons_append, feed, step]; exact ih hk _ _
  induction h with
  | nil => intro hk; exact absurd trivial hk
  | @elem ns name attrs kids rest k r hkids _ ihk ihr =>
    intro hk s tail
    simp only [List.append_assoc, List.cons_append]
    rw [feed_ns]; simp only [feed, step]
    by_cases h1 : Known kids
    · obtain ⟨t, e⟩ := total hkids h1 _ (.stop (given name) :: (r ++ tail))
      rw [e]; simp only [feed, step]
      exact ihr (fun h2 => hk ⟨h1, h2⟩) _ _
    · exact ihk h1 _ _
  | text _ ih => intro hk s tail; rw [List.append_assoc, feed_chars]; exact ih hk _ _
  | cdata _ ih =>
    intro hk s tail
    simp only [List.append_assoc, List.cons_append, feed, step]
    rw [feed_chars]; simp only [feed, step]; exact ih hk _ _
  | comment _ ih => intro hk s tail; simp only [List.cons_append, feed, step]; exact ih hk _ _
  | pi _ ih => intro hk s tail; simp only [List.cons_append, feed, step]; exact ih hk _ _
  | ref _ ih => intro hk s tail; simp only [List.cons_append, feed, step]
  | doctype _ ih => intro hk s tail; simp only [List.cons_append, feed, step]; exact ih hk _ _

/-! ### Documents that are the same have the same lines -/

theorem isspace_iff (d : Str) : isspace d = true ↔ Blank d := by
  simp [isspace, Blank, or_assoc]

theorem lines_stripped (c : Content) : lines false c = lines true (stripped c) := by
  induction c with
  | nil => rfl
  | elem ns n as k r ih1 ih2 => simp [lines, stripped, ih1, ih2]
  | text d r ih =>
    unfold stripped
    split
    · rename_i h
      rw [← ih]; simp [lines, textL, (isspace_iff d).mpr h]
    · rename_i h
      have h' : isspace d = false := by
        cases e : isspace d with
        | false => rfl
        | true => exact absurd ((isspace_iff d).mp e) h
      simp [lines, textL, h', ih]
  | cdata d r ih =>
    unfold stripped
    split
    · rename_i h
      simp [lines, textL, (isspace_iff d).mpr h, ih]
    · rename_i h
      have h' : isspace d = false := by
        cases e : isspace d with
        | false => rfl
        | true => exact absurd ((isspace_iff d).mp e) h
      simp [lines, textL, h', ih]
  | comment d r ih => simp [lines, stripped, ih]
  | pi t d r ih => simp [lines, stripped, ih]
  | ref n p r ih => simp [lines, stripped, ih]
  | doctype n s p i r ih => simp [lines, stripped, ih]

theorem nsL_perm {ns ns' : List (Option Str × Option Str)} (h : ns.Perm ns') : nsL ns = nsL ns' := by
  unfold nsL
  have e := (sorted_eq_iff (pairLe_linear optLe_linear optLe_linear)).mpr h
  by_cases h1 : ns = []
  · subst h1; rw [List.nil_perm] at h; rw [h]
  · have h2 : ns' ≠ [] := by intro e; subst e; exact h1 (List.perm_nil.mp h)
    simp [h1, h2, e]

theorem attrL_perm {as as' : List (Str × Str)} (h : as.Perm as') : attrL as = attrL as' := by
  unfold attrL
  have e := (sorted_eq_iff (pairLe_linear strLe_linear strLe_linear)).mpr h
  by_cases h1 : as = []
  · subst h1; rw [List.nil_perm] at h; rw [h]
  · have h2 : as' ≠ [] := by intro e; subst e; exact h1 (List.perm_nil.mp h)
    simp [h1, h2, e]

theorem lines_same {ws : Bool} {c c' : Content} (h : Same c c') : lines ws c = lines ws c' := by
  induction h with
  | nil => rfl
  | elem h1 h2 _ _ ih1 ih2 =>
    simp only [lines, ih1, ih2, nsL_perm h1, giv, attrL_perm (h2.map _)]
  | _ => simp_all [lines]

/-! ### Reading the lines back -/

/-- No text is empty. -/
def Filled : Content → Prop
  | .nil => True
  | .elem _ _ _ kids rest => Filled kids ∧ Filled rest
  | .text d rest => d ≠ [] ∧ Filled rest
  | .cdata _ rest | .comment _ rest | .pi _ _ rest | .ref _ _ rest | .doctype _ _ _ _ rest =>
    Filled rest

theorem merged_filled {c : Content} (h : Merged c) : Filled c := by
  induction c with
  | nil => trivial
  | elem _ _ _ _ _ ih1 ih2 => exact ⟨ih1 h.1, ih2 h.2⟩
  | text d r ih => exact ⟨h.1, ih h.2.2⟩
  | cdata _ _ ih => exact ih h
  | comment _ _ ih => exact ih h
  | pi _ _ _ ih => exact ih h
  | ref _ _ _ ih => exact ih h
  | doctype _ _ _ _ _ ih => exact ih h

theorem stripped_filled (c : Content) : Filled (stripped c) := by
  induction c with
  | text d r ih =>
    unfold stripped; split
    · exact ih
    · rename_i h
      refine ⟨?_, ih⟩
      intro e; subst e; exact h (by simp [Blank])
  | nil => trivial
  | elem _ _ _ _ _ ih1 ih2 => exact ⟨ih1, ih2⟩
  | cdata _ _ ih => exact ih
  | comment _ _ ih => exact ih
  | pi _ _ _ ih => exact ih
  | ref _ _ _ ih => exact ih
  | doctype _ _ _ _ _ ih => exact ih

theorem stripped_known {c : Content} (h : Known c) : Known (stripped c) := by
  induction c with
  | text d r ih => unfold stripped; split <;> exact ih h
  | nil => trivial
  | elem _ _ _ _ _ ih1 ih2 => exact ⟨ih1 h.1, ih2 h.2⟩
  | cdata _ _ ih => exact ih h
  | comment _ _ ih => exact ih h
  | pi _ _ _ ih => exact ih h
  | ref _ _ _ ih => exact absurd h id
  | doctype _ _ _ _ _ ih => exact ih h

theorem stripped_named {c : Content} (h : Named c) : Named (stripped c) := by
  induction c with
  | text d r ih => unfold stripped; split <;> exact ih h
  | nil => trivial
  | elem _ _ _ _ _ ih1 ih2 => exact ⟨h.1, h.2.1, h.2.2.1, ih1 h.2.2.2.1, ih2 h.2.2.2.2⟩
  | cdata _ _ ih => exact ih h
  | comment _ _ ih => exact ih h
  | pi _ _ _ ih => exact ⟨h.1, ih h.2⟩
  | ref _ _ _ ih => exact ih h
  | doctype _ _ _ _ _ ih => exact ⟨h.1, ih h.2⟩

theorem perm_of_map {α β : Type} {f : α → β} {ok : α → Prop}
    (hf : ∀ x y, ok x → ok y → f x = f y → x = y) {xs ys : List α} (hx : ∀ x ∈ xs, ok x)
    (hy : ∀ y ∈ ys, ok y) (h : (xs.map f).Perm (ys.map f)) : xs.Perm ys := by
  classical
  cases xs with
  | nil =>
    rw [List.map_nil, List.nil_perm, List.map_eq_nil_iff] at h
    rw [h]
  | cons x0 xs =>
    let g : β → α := fun b => if e : ∃ a, ok a ∧ f a = b then e.choose else x0
    have hg : ∀ a, ok a → g (f a) = a := by
      intro a ha
      have e : ∃ a', ok a' ∧ f a' = f a := ⟨a, ha, rfl⟩
      have : g (f a) = e.choose := dif_pos e
      rw [this]
      exact hf _ _ e.choose_spec.1 ha e.choose_spec.2
    have back : ∀ l : List α, (∀ x ∈ l, ok x) → (l.map f).map g = l := by
      intro l hl
      induction l with
      | nil => rfl
      | cons a l ih =>
        simp only [List.map_cons]
        rw [hg a (hl a (by simp)), ih (fun x hx => hl x (by simp [hx]))]
    have := h.map g
    rw [back _ hx, back _ hy] at this
    exact this

def Stops : List L → Prop
  | [] => True
  | .stop _ :: _ => True
  | _ => False

/-- Lines that do not start with the lines of an element's declarations or attributes. -/
def Body : List L → Prop
  | .ns _ :: _ => False
  | .attrs _ :: _ => False
  | _ => True

def NoAttrs : List L → Prop
  | .ns _ :: _ => False
  | _ => True

theorem body_lines (c : Content) {r : List L} (hr : Stops r) : Body (lines true c ++ r) := by
  induction c with
  | nil => revert hr; rcases r with _ | ⟨l, r⟩
           · intro _; trivial
           · cases l <;> simp [lines, Stops, Body]
  | elem => trivial
  | text d r' ih =>
    simp only [lines, textL]
    by_cases h : d = []
    · simpa [h] using ih
    · simp [h, Body]
  | cdata => trivial
  | comment => trivial
  | pi => trivial
  | ref n p r' ih => exact ih
  | doctype => trivial

theorem nsL_cut {a b : List (Option Str × Option Str)} {r r' : List L} (h1 : NoAttrs r)
    (h2 : NoAttrs r') (h : nsL a ++ r = nsL b ++ r') : a.Perm b ∧ r = r' := by
  unfold nsL at h
  by_cases ha : a = [] <;> by_cases hb : b = []
  · subst ha; subst hb; exact ⟨.refl _, by simpa using h⟩
  · simp [ha, hb] at h; rw [h] at h1; exact absurd h1 id
  · simp [ha, hb] at h; rw [← h] at h2; exact absurd h2 id
  · simp [ha, hb] at h
    exact ⟨(sorted_eq_iff (pairLe_linear optLe_linear optLe_linear)).mp h.1, h.2⟩

theorem attrL_cut {a b : List (Str × Str)} {r r' : List L} (h1 : Body r) (h2 : Body r')
    (h : attrL a ++ r = attrL b ++ r') : a.Perm b ∧ r = r' := by
  unfold attrL at h
  by_cases ha : a = [] <;> by_cases hb : b = []
  · subst ha; subst hb; exact ⟨.refl _, by simpa using h⟩
  · simp [ha, hb] at h; rw [h] at h1; exact absurd h1 id
  · simp [ha, hb] at h; rw [← h] at h2; exact absurd h2 id
  · simp [ha, hb] at h
    exact ⟨(sorted_eq_iff (pairLe_linear strLe_linear strLe_linear)).mp h.1, h.2⟩

theorem noAttrs_of_attrL (a : List (Str × Str)) {r : List L} (h : Body r) :
    NoAttrs (attrL a ++ r) := by
  unfold attrL
  by_cases ha : a = []
  · rcases r with _ | ⟨l, r⟩
    · simp [ha, NoAttrs]
    · cases l <;> simp_all [Body, NoAttrs]
  · simp [ha, NoAttrs]

theorem giv_perm {as bs : List (Name × Str)} (ha : ∀ p ∈ as, '#' ∉ p.1.loc)
    (hb : ∀ p ∈ bs, '#' ∉ p.1.loc) (h : (giv as).Perm (giv bs)) : as.Perm bs := by
  refine perm_of_map (ok := fun p => '#' ∉ p.1.loc) ?_ ha hb h
  intro x y hx hy e
  simp only [Prod.mk.injEq] at e
  exact Prod.ext (given_inj hx hy e.1) e.2

theorem textL_true {d : Str} (h : d ≠ []) : textL true d = [.text d] := by simp [textL, h]

theorem cdata_cut {d e : Str} {r r' : List L}
    (h : textL true d ++ L.endC :: r = textL true e ++ L.endC :: r') : d = e ∧ r = r' := by
  unfold textL at h
  by_cases hd : d = [] <;> by_cases he : e = [] <;> simp [hd, he] at h
  · exact ⟨by rw [hd, he], h⟩
  · exact h

theorem lines_cut {c : Content} : ∀ {c' : Content} {r r' : List L}, Filled c → Filled c' →
    Known c → Known c' → Named c → Named c' → Stops r → Stops r' →
    lines true c ++ r = lines true c' ++ r' → Same c c' ∧ r = r' := by
  have ends : ∀ {c : Content} {r r' : List L}, Filled c → Known c → Stops r' →
      lines true c ++ r = r' → c = .nil := by
    intro c r r' hf hk hs h
    cases c with
    | nil => rfl
    | text d k => rw [← h] at hs; simp only [lines, textL_true hf.1] at hs; exact absurd hs id
    | ref => exact absurd hk id
    | _ => rw [← h] at hs; exact absurd hs id
  induction c with
  | nil =>
    intro c' r r' _ hf' _ hk' _ _ hs hs' h
    have := ends hf' hk' hs h.symm
    subst this
    exact ⟨.nil, h⟩
  | elem ns n as k rest ih1 ih2 =>
    intro c' r r' hf hf' hk hk' hn hn' hs hs' h
    cases c' with
    | elem ns' n' as' k' rest' =>
      simp only [lines, List.cons_append, List.append_assoc, List.cons.injEq, L.start.injEq] at h
      obtain ⟨e1, h⟩ := h
      have e1 := given_inj hn.2.1 hn'.2.1 e1
      subst e1
      have b1 := body_lines k (r := .stop (given n) :: (lines true rest ++ r)) trivial
      have b2 := body_lines k' (r := .stop (given n) :: (lines true rest' ++ r')) trivial
      obtain ⟨e2, h⟩ := nsL_cut (noAttrs_of_attrL _ b1) (noAttrs_of_attrL _ b2) h
      obtain ⟨e3, h⟩ := attrL_cut b1 b2 h
      have e3 := giv_perm (fun p hp => (hn.2.2.1 p hp).1) (fun p hp => (hn'.2.2.1 p hp).1) e3
      obtain ⟨e4, h⟩ := ih1 (c' := k') (r := .stop (given n) :: (lines true rest ++ r))
        (r' := .stop (given n) :: (lines true rest' ++ r')) hf.1 hf'.1 hk.1 hk'.1 hn.2.2.2.1 hn'.2.2.2.1 trivial trivial h
      obtain ⟨e5, h⟩ := ih2 hf.2 hf'.2 hk.2 hk'.2 hn.2.2.2.2 hn'.2.2.2.2 hs hs'
        (List.cons.inj h).2
      exact ⟨.elem e2 e3 e4 e5, h⟩
    | nil => exact nomatch ends hf hk hs' h
    | text d q => simp [lines, textL_true hf'.1] at h
    | ref => exact absurd hk' id
    | _ => simp [lines] at h
  | text d rest ih =>
    intro c' r r' hf hf' hk hk' hn hn' hs hs' h
    cases c' with
    | text d' rest' =>
      simp only [lines, textL_true hf.1, textL_true hf'.1, List.cons_append, List.nil_append,
        List.cons.injEq, L.text.injEq] at h
      obtain ⟨e1, h⟩ := h
      subst e1
      obtain ⟨e2, h⟩ := ih (c' := rest') hf.2 hf'.2 hk hk' hn hn' hs hs' h
      exact ⟨.text e2, h⟩
    | nil => exact nomatch ends hf hk hs' h
    | ref => exact absurd hk' id
    | _ => simp [lines, textL_true hf.1] at h
  | cdata d rest ih =>
    intro c' r r' hf hf' hk hk' hn hn' hs hs' h
    cases c' with
    | cdata d' rest' =>
      simp only [lines, List.cons_append, List.append_assoc, List.cons.injEq, true_and] at h
      obtain ⟨e1, h3⟩ := cdata_cut h
      subst e1
      obtain ⟨e2, h⟩ := ih (c' := rest') hf hf' hk hk' hn hn' hs hs' h3
      exact ⟨.cdata e2, h⟩
    | nil => exact nomatch ends hf hk hs' h
    | text d q => simp [lines, textL_true hf'.1] at h
    | ref => exact absurd hk' id
    | _ => simp [lines] at h
  | comment d rest ih =>
    intro c' r r' hf hf' hk hk' hn hn' hs hs' h
    cases c' with
    | comment d' rest' =>
      simp only [lines, List.cons_append, List.cons.injEq, L.comment.injEq] at h
      obtain ⟨e1, h⟩ := h
      subst e1
      obtain ⟨e2, h⟩ := ih (c' := rest') hf hf' hk hk' hn hn' hs hs' h
      exact ⟨.comment e2, h⟩
    | nil => exact nomatch ends hf hk hs' h
    | text d q => simp [lines, textL_true hf'.1] at h
    | ref => exact absurd hk' id
    | _ => simp [lines] at h
  | pi t d rest ih =>
    intro c' r r' hf hf' hk hk' hn hn' hs hs' h
    cases c' with
    | pi t' d' rest' =>
      simp only [lines, List.cons_append, List.cons.injEq, L.pi.injEq] at h
      obtain ⟨⟨e1, e1'⟩, h⟩ := h
      subst e1; subst e1'
      obtain ⟨e2, h⟩ := ih (c' := rest') hf hf' hk hk' hn.2 hn'.2 hs hs' h
      exact ⟨.pi e2, h⟩
    | nil => exact nomatch ends hf hk hs' h
    | text d q => simp [lines, textL_true hf'.1] at h
    | ref => exact absurd hk' id
    | _ => simp [lines] at h
  | ref n p r ih => intro c' r r' _ _ hk; exact absurd hk id
  | doctype n s p i rest ih =>
    intro c' r r' hf hf' hk hk' hn hn' hs hs' h
    cases c' with
    | doctype n' s' p' i' rest' =>
      simp only [lines, List.cons_append, List.cons.injEq, L.doctype.injEq] at h
      obtain ⟨⟨e1, e2, e3, e4⟩, h⟩ := h
      subst e1; subst e2; subst e3; subst e4
      obtain ⟨e2, h⟩ := ih (c' := rest') hf hf' hk hk' hn.2 hn'.2 hs hs' h
      exact ⟨.doctype e2, h⟩
    | nil => exact nomatch ends hf hk hs' h
    | text d q => simp [lines, textL_true hf'.1] at h
    | ref => exact absurd hk' id
    | _ => simp [lines] at h

theorem mem_textL {ws : Bool} {d : Str} {l : L} (h : l ∈ textL ws d) : OkL l := by
  unfold textL at h
  split at h
  · cases h
  · split at h
    · simp at h; rw [h]; trivial
    · cases h

theorem lines_ok {ws : Bool} {c : Content} (h : Named c) : ∀ l ∈ lines ws c, OkL l := by
  induction c with
  | nil => intro l hl; cases hl
  | elem ns n as k r ih1 ih2 =>
    intro l hl
    simp only [lines, List.mem_cons, List.mem_append] at hl
    rcases hl with rfl | hl | hl | hl | rfl | hl
    · trivial
    · unfold nsL at hl; split at hl
      · cases hl
      · simp at hl; rw [hl]
        intro p hp
        exact h.1 p ((sorted_perm ns).mem_iff.mp hp)
    · unfold attrL at hl; split at hl
      · cases hl
      · simp at hl; rw [hl]
        intro p hp
        have := (sorted_perm (giv as)).mem_iff.mp hp
        simp only [giv, List.mem_map] at this
        obtain ⟨q, hq, rfl⟩ := this
        have := h.2.2.1 q hq
        exact plain_given this.2.1 this.2.2
    · exact ih1 h.2.2.2.1 l hl
    · trivial
    · exact ih2 h.2.2.2.2 l hl
  | text d r ih =>
    intro l hl
    simp only [lines, List.mem_append] at hl
    rcases hl with hl | hl
    · exact mem_textL hl
    · exact ih h l hl
  | cdata d r ih =>
    intro l hl
    simp only [lines, List.mem_append, List.mem_cons] at hl
    rcases hl with rfl | hl | rfl | hl
    · trivial
    · exact mem_textL hl
    · trivial
    · exact ih h l hl
  | comment d r ih =>
    intro l hl
    simp only [lines, List.mem_cons] at hl
    rcases hl with rfl | hl
    · trivial
    · exact ih h l hl
  | pi t d r ih =>
    intro l hl
    simp only [lines, List.mem_cons] at hl
    rcases hl with rfl | hl
    · exact h.1
    · exact ih h.2 l hl
  | ref n p r ih => exact ih h
  | doctype n s p i r ih =>
    intro l hl
    simp only [lines, List.mem_cons] at hl
    rcases hl with rfl | hl
    · exact h.1
    · exact ih h.2 l hl

theorem lines_inj {c c' : Content} (hf : Filled c) (hf' : Filled c') (hk : Known c) (hk' : Known c')
    (hn : Named c) (hn' : Named c') (h : (lines true c).map render = (lines true c').map render) :
    Same c c' := by
  have := map_render_inj (lines_ok hn) (lines_ok hn') h
  exact (lines_cut (r := []) (r' := []) hf hf' hk hk' hn hn' trivial trivial (by rw [this])).1

end Verif.Compare
