import Verif.XUpdate.InstSpec
import Verif.XUpdate.ReadLemmas
/-
The instructions write the pieces that the content stands for.
-/
namespace Verif.XUpdate.Read
open Verif Verif.Content Verif.XUpdate.Read.Spec
open Verif.Write (UStr)
open Verif.Names (isQName isNCName splitQName)

/-- A piece, written. -/
def Writer.put (w : Writer) : Piece → Writer
  | .attr a => match w with
    | .tree w => .tree (w.attribute a)
    | .string s => .string s
  | .text t => match w with
    | .tree w => .tree (w.text t)
    | .string s => .string (s ++ t)
  | .node o => match w with
    | .tree w => .tree (w.node o)
    | .string s => .string (s ++ textIn o)

def Writer.puts (w : Writer) (ps : List Piece) : Writer := ps.foldl Writer.put w

/-- The same for the tree writer. -/
def TW.put (w : TW) : Piece → TW
  | .attr a => w.attribute a
  | .text t => w.text t
  | .node o => w.node o

theorem puts_tree (w : TW) (ps : List Piece) : Writer.puts (.tree w) ps = .tree (ps.foldl TW.put w) := by
  induction ps generalizing w with
  | nil => rfl
  | cons p ps ih =>
    simp only [Writer.puts, List.foldl_cons] at ih ⊢
    cases p <;> exact ih _

theorem puts_string (s : UStr) (ps : List Piece) : Writer.puts (.string s) ps = .string (s ++ string ps) := by
  induction ps generalizing s with
  | nil => simp [Writer.puts, string]
  | cons p ps ih =>
    simp only [Writer.puts, List.foldl_cons] at ih ⊢
    cases p with
    | attr a => simp only [Writer.put, string]; exact ih _
    | text t => simp only [Writer.put, string]; rw [ih]; simp
    | node o => simp only [Writer.put, string]; rw [ih]; simp

theorem puts_append (w : Writer) (l m : List Piece) : w.puts (l ++ m) = (w.puts l).puts m := by
  simp [Writer.puts]

theorem flush_open (r : List Out) (o : Open) (ts : List Open) (b : UStr) :
    TW.flush ⟨r, o :: ts, b⟩ = ⟨r, { o with kids := o.kids ++ textNode b } :: ts, []⟩ := by
  cases b with
  | nil => simp [TW.flush, textNode]
  | cons c cs => simp [TW.flush, textNode, TW.add]

theorem flush_root (r : List Out) (b : UStr) : TW.flush ⟨r, [], b⟩ = ⟨r ++ textNode b, [], []⟩ := by
  cases b with
  | nil => simp [TW.flush, textNode]
  | cons c cs => simp [TW.flush, textNode, TW.add]

/-- The attributes that an element gets, if it has some already. -/
def attrsFrom (free : Bool) (as : List OAttr) (ps : List Piece) : List OAttr :=
  if free then ((ps.takeWhile fun p => !p.isNode).filterMap Piece.attr?).foldl (fun as a => setAttr a as) as else as

@[simp] theorem isNode_text (t : UStr) : (Piece.text t).isNode = false := rfl
@[simp] theorem isNode_attr (a : OAttr) : (Piece.attr a).isNode = false := rfl
@[simp] theorem isNode_node (o : Out) : (Piece.node o).isNode = true := rfl

theorem fold_open (ps : List Piece) : ∀ (r : List Out) (o : Open) (ts : List Open) (b : UStr),
    (ps.foldl TW.put ⟨r, o :: ts, b⟩).flush =
      ⟨r, { o with attrs := attrsFrom o.kids.isEmpty o.attrs ps, kids := o.kids ++ childrenFrom b ps } :: ts, []⟩ := by
  induction ps with
  | nil =>
    intro r o ts b
    simp only [List.foldl_nil, flush_open, childrenFrom, attrsFrom]
    simp
  | cons p ps ih =>
    intro r o ts b
    simp only [List.foldl_cons]
    cases p with
    | text t =>
      simp only [TW.put, TW.text, ih, childrenFrom]
      simp [attrsFrom, List.filterMap_cons, show (Piece.text t).attr? = none from rfl]
    | attr a =>
      simp only [TW.put, TW.attribute, childrenFrom]
      cases hk : o.kids.isEmpty with
      | true =>
        simp only [if_true, ih, hk]
        simp [attrsFrom, List.takeWhile_cons, Piece.attr?]
      | false =>
        simp only [Bool.false_eq_true, if_false, ih, hk]
        simp [attrsFrom]
    | node n =>
      simp only [TW.put, TW.node, flush_open, TW.add, ih, childrenFrom]
      have : (o.kids ++ textNode b ++ [n]).isEmpty = false := by simp
      rw [this]
      simp [attrsFrom, List.takeWhile_cons]

theorem fold_root (ps : List Piece) : ∀ (r : List Out) (b : UStr),
    (ps.foldl TW.put ⟨r, [], b⟩).flush = ⟨r ++ childrenFrom b ps, [], []⟩ := by
  induction ps with
  | nil => intro r b; simp [flush_root, childrenFrom]
  | cons p ps ih =>
    intro r b
    simp only [List.foldl_cons]
    cases p with
    | text t => simp only [TW.put, TW.text, ih, childrenFrom]
    | attr a => simp only [TW.put, TW.attribute, ih, childrenFrom]
    | node n => simp only [TW.put, TW.node, flush_root, TW.add, ih, childrenFrom]; simp

theorem flush_buf (w : TW) : w.flush.buf = [] := by
  obtain ⟨r, s, b⟩ := w
  cases s with
  | nil => rw [flush_root]
  | cons o ts => rw [flush_open]

theorem textIn_childrenFrom (ps : List Piece) : ∀ b, textInAll (childrenFrom b ps) = b ++ string ps := by
  have ht : ∀ (b : UStr) (l : List Out), textInAll (textNode b ++ l) = b ++ textInAll l := by
    intro b l
    cases b with
    | nil => rfl
    | cons c cs => simp [textNode, textInAll, textIn]
  induction ps with
  | nil =>
    intro b
    have := ht b []
    simpa [childrenFrom, string, textInAll] using this
  | cons p ps ih =>
    intro b
    cases p with
    | attr a => simp only [childrenFrom, string, ih]
    | text t => simp only [childrenFrom, string, ih]; simp
    | node n => simp only [childrenFrom, string, ht, textInAll, ih]; simp

/-- An element from its start to its end. -/
theorem element_put (w : Writer) (q : UStr) (ns : Option UStr) (d : Nss) (ps : List Piece) :
    ∃ w1, Writer.startElement q ns d w = .ok w1 ∧
      Writer.endElement q ns (w1.puts ps) = .ok (w.put (.node (.elem q ns d (attributes ps) (children ps)))) := by
  cases w with
  | string s =>
    refine ⟨_, rfl, ?_⟩
    rw [puts_string]
    simp only [Writer.endElement, Writer.put, textIn, children, textIn_childrenFrom]
    simp
  | tree w =>
    refine ⟨_, rfl, ?_⟩
    rw [puts_tree]
    have h : w.startElement q ns d = ⟨w.flush.root, ⟨q, ns, d, [], []⟩ :: w.flush.stack, []⟩ := by
      simp only [TW.startElement, ← flush_buf w]
    simp only [Writer.endElement, TW.endElement, h, fold_open]
    simp only [and_self, if_true, Writer.put, TW.node]
    simp only [attrsFrom, attributes, children, List.isEmpty_nil, if_true, List.nil_append, ← flush_buf w]

theorem writeAttrs_spec (as : List OAttr) : ∀ (nss : Nss) (w : Writer) (ws : List Writer),
    writeAttrs ⟨nss, w :: ws⟩ as = .ok ⟨nss, w.puts (as.map .attr) :: ws⟩ := by
  induction as with
  | nil => intro nss w ws; rfl
  | cons a as ih =>
    intro nss w ws
    cases w with
    | tree t => simp only [writeAttrs, Ctx.write, Writer.attribute, ih]; rfl
    | string s => simp only [writeAttrs, Ctx.write, Writer.attribute, ih]; rfl

mutual
theorem copyNode_spec : ∀ (s : Src) (nss : Nss) (w : Writer) (ws : List Writer),
    copyNode ⟨nss, w :: ws⟩ s = .ok ⟨nss, w.puts (copied s) :: ws⟩
  | .elem q ns d as ks, nss, w, ws => by
    obtain ⟨w1, h1, h2⟩ := element_put w q ns d (as.map .attr ++ copiedAll ks)
    rw [puts_append] at h2
    simp only [copyNode, Ctx.write, h1, writeAttrs_spec, copyNodes_spec ks, h2, copied]
    rfl
  | .attr a, nss, w, ws => by
    rw [copyNode, copied]; cases w <;> rfl
  | .text s, nss, w, ws => by
    rw [copyNode, copied]; cases w <;> rfl
  | .pi t d, nss, w, ws => by
    rw [copyNode, copied]
    cases w with
    | tree w => rfl
    | string s => simp [Ctx.write, Writer.node, Writer.puts, Writer.put, textIn]
  | .comment s, nss, w, ws => by
    rw [copyNode, copied]
    cases w with
    | tree w => rfl
    | string s => simp [Ctx.write, Writer.node, Writer.puts, Writer.put, textIn]
  | .entity ks, nss, w, ws => by
    rw [copyNode, copied]; exact copyNodes_spec ks nss w ws
  | .namespace _ _, nss, w, ws => by
    rw [copyNode, copied]; rfl
theorem copyNodes_spec : ∀ (l : List Src) (nss : Nss) (w : Writer) (ws : List Writer),
    copyNodes ⟨nss, w :: ws⟩ l = .ok ⟨nss, w.puts (copiedAll l) :: ws⟩
  | [], nss, w, ws => by rw [copyNodes, copiedAll]; rfl
  | s :: l, nss, w, ws => by
    rw [copyNodes, copiedAll, copyNode_spec s]
    dsimp only
    rw [copyNodes_spec l, puts_append]
end

theorem evalQName_spec (ev : Ev) (c : Ctx) (name : UStr) : evalQName ev c name = checked isQName (ev.avt c.nss name) := by
  rw [evalQName, checked.eq_def]; cases ev.avt c.nss name <;> rfl

theorem evalNCName_spec (ev : Ev) (c : Ctx) (name : UStr) : evalNCName ev c name = checked isNCName (ev.avt c.nss name) := by
  rw [evalNCName, checked.eq_def]; cases ev.avt c.nss name <;> rfl

theorem elementNs_spec (nss : Nss) (name : UStr) : elementNs nss name = bound nss name := by
  rw [elementNs, bound, lookup_head]
  cases (nss.filter fun x => x.1 = (splitQName name).1).head? with
  | some x => rfl
  | none =>
    rcases (splitQName name).1 with _ | _ | ⟨c, p⟩ <;> rfl

theorem attributeNs_spec (nss : Nss) (name : UStr) : attributeNs nss name = boundAttr nss name := by
  rw [attributeNs, boundAttr, bound]
  rcases (splitQName name).1 with _ | _ | ⟨c, p⟩
  · rfl
  · rfl
  · dsimp only
    rw [lookup_head]
    cases (nss.filter fun x => x.1 = some (c :: p)).head? <;> rfl

/-- What an instruction has to do. -/
def Writes (r : Except IErr Ctx) (w : Writer) (ws : List Writer) : Except IErr (List Piece) → Prop
  | .error e => r = .error e
  | .ok ps => ∃ nss, r = .ok ⟨nss, w.puts ps :: ws⟩

theorem put_text (nss : Nss) (w : Writer) (ws : List Writer) (s : UStr) :
    Ctx.write ⟨nss, w :: ws⟩ (Writer.text s) = .ok ⟨nss, w.puts [.text s] :: ws⟩ := by cases w <;> rfl

theorem put_attr (nss : Nss) (w : Writer) (ws : List Writer) (a : OAttr) :
    Ctx.write ⟨nss, w :: ws⟩ (Writer.attribute a) = .ok ⟨nss, w.puts [.attr a] :: ws⟩ := by cases w <;> rfl

theorem put_leaf (nss : Nss) (w : Writer) (ws : List Writer) (o : Out) (h : textIn o = []) :
    Ctx.write ⟨nss, w :: ws⟩ (Writer.node o) = .ok ⟨nss, w.puts [.node o] :: ws⟩ := by
  cases w with
  | tree w => rfl
  | string s => simp [Ctx.write, Writer.node, Writer.puts, Writer.put, h]

theorem plain_kids {h : Head} {kids : List Item} (hp : plain (.node h kids) = true) : plainAll kids = true := by
  rw [plain, Bool.and_eq_true] at hp; exact hp.2

mutual
theorem inst_spec (ev : Ev) : ∀ (i : Item) (nss : Nss) (w : Writer) (ws : List Writer), plain i = true →
    Writes (inst ev i ⟨nss, w :: ws⟩) w ws (pieces ev i)
  | .text s, nss, w, ws, _ => by
    rw [inst, pieces]
    exact ⟨nss, put_text nss w ws s⟩
  | .node (.literal tag ns attrs) kids, nss, w, ws, hp => by
    rw [inst, pieces]
    simp only [Ctx.write]
    cases hk : piecesAll ev kids with
    | error e =>
      obtain ⟨w1, h1, h2⟩ := element_put w tag ns [] []
      have := instAll_spec ev kids nss (w1.puts ((attrs.map fun a => ⟨a.2.1, a.1, a.2.2⟩).map .attr)) ws (plain_kids hp)
      rw [hk] at this
      simp only [h1, writeAttrs_spec]
      simp only [Writes] at this
      rw [this]
      rfl
    | ok ps =>
      obtain ⟨w1, h1, h2⟩ := element_put w tag ns [] (attrs.map (fun a => Piece.attr ⟨a.2.1, a.1, a.2.2⟩) ++ ps)
      have := instAll_spec ev kids nss (w1.puts ((attrs.map fun a => ⟨a.2.1, a.1, a.2.2⟩).map .attr)) ws (plain_kids hp)
      rw [hk] at this
      obtain ⟨nss', this⟩ := this
      simp only [h1, writeAttrs_spec, this]
      rw [← puts_append, List.map_map]
      refine ⟨nss', ?_⟩
      show (match Writer.endElement tag ns (w1.puts (attrs.map (fun a => Piece.attr ⟨a.2.1, a.1, a.2.2⟩) ++ ps)) with
        | .error e => Except.error e
        | .ok w => Except.ok (⟨nss', w :: ws⟩ : Ctx)) = _
      rw [h2]
      rfl
  | .node (.element nss0 name) kids, nss, w, ws, hp => by
    rw [inst, pieces, evalQName_spec]
    dsimp only
    cases checked isQName (ev.avt nss0 name) with
    | error e => exact rfl
    | ok n =>
      dsimp only
      rw [elementNs_spec]
      simp only [bind, Except.bind]
      cases bound nss0 n with
      | error e => exact rfl
      | ok ns =>
        dsimp only
        cases hk : piecesAll ev kids with
        | error e =>
          obtain ⟨w1, h1, h2⟩ := element_put w n ns [] []
          have := instAll_spec ev kids nss0 w1 ws (plain_kids hp)
          rw [hk] at this
          simp only [Ctx.write, h1]
          simp only [Writes] at this
          rw [this]
          rfl
        | ok ps =>
          obtain ⟨w1, h1, h2⟩ := element_put w n ns [] ps
          have := instAll_spec ev kids nss0 w1 ws (plain_kids hp)
          rw [hk] at this
          obtain ⟨nss', this⟩ := this
          simp only [Ctx.write, h1, this, h2]
          exact ⟨nss', rfl⟩
  | .node (.attribute nss0 name) kids, nss, w, ws, hp => by
    rw [inst, pieces, evalQName_spec]
    dsimp only
    cases checked isQName (ev.avt nss0 name) with
    | error e => exact rfl
    | ok n =>
      dsimp only
      rw [attributeNs_spec]
      simp only [bind, Except.bind]
      cases boundAttr nss0 n with
      | error e => exact rfl
      | ok ns =>
        dsimp only [Ctx.pushString]
        have := instAll_spec ev kids nss0 (.string []) (w :: ws) (plain_kids hp)
        cases hk : piecesAll ev kids with
        | error e =>
          rw [hk] at this
          simp only [Writes] at this
          rw [this]
          rfl
        | ok ps =>
          rw [hk] at this
          obtain ⟨nss', this⟩ := this
          rw [this, puts_string]
          simp only [Ctx.popString, List.nil_append, put_attr]
          exact ⟨nss', rfl⟩
  | .node .text kids, nss, w, ws, hp => by
    rw [plain, Bool.and_eq_true] at hp
    have hp := hp.1
    simp only [if_true] at hp
    rw [inst]
    match kids, hp with
    | [.text s], _ =>
      rw [firstText]
      dsimp only
      rw [put_text]
      refine ⟨nss, ?_⟩
      simp [string]
  | .node (.pi nss0 name) kids, nss, w, ws, hp => by
    rw [inst, pieces, evalNCName_spec]
    dsimp only
    cases checked isNCName (ev.avt nss0 name) with
    | error e => exact rfl
    | ok n =>
      simp only [bind, Except.bind]
      dsimp only [Ctx.pushString]
      have := instAll_spec ev kids nss0 (.string []) (w :: ws) (plain_kids hp)
      cases hk : piecesAll ev kids with
      | error e =>
        rw [hk] at this
        simp only [Writes] at this
        rw [this]
        rfl
      | ok ps =>
        rw [hk] at this
        obtain ⟨nss', this⟩ := this
        rw [this, puts_string]
        simp only [Ctx.popString, List.nil_append]
        rw [put_leaf _ _ _ _ (by rw [textIn])]
        exact ⟨nss', rfl⟩
  | .node .comment kids, nss, w, ws, hp => by
    rw [inst, pieces]
    simp only [bind, Except.bind]
    dsimp only [Ctx.pushString]
    have := instAll_spec ev kids nss (.string []) (w :: ws) (plain_kids hp)
    cases hk : piecesAll ev kids with
    | error e =>
      rw [hk] at this
      simp only [Writes] at this
      rw [this]
      rfl
    | ok ps =>
      rw [hk] at this
      obtain ⟨nss', this⟩ := this
      rw [this, puts_string]
      simp only [Ctx.popString, List.nil_append]
      rw [put_leaf _ _ _ _ (by rw [textIn])]
      exact ⟨nss', rfl⟩
  | .node (.valueOf nss0 sel) kids, nss, w, ws, _ => by
    rw [inst, pieces]
    simp only [bind, Except.bind]
    cases ev.value nss0 sel with
    | error e => exact rfl
    | ok v =>
      cases v with
      | nodes l => exact ⟨nss0, copyNodes_spec l nss0 w ws⟩
      | str s => exact ⟨nss0, put_text nss0 w ws s⟩
  | .node .modifications _, _, _, _, _ => by rw [inst, pieces] <;> first | exact rfl | (intros; contradiction)
  | .node (.insertBefore _ _) _, _, _, _, _ => by rw [inst, pieces] <;> first | exact rfl | (intros; contradiction)
  | .node (.insertAfter _ _) _, _, _, _, _ => by rw [inst, pieces] <;> first | exact rfl | (intros; contradiction)
  | .node (.append _ _ _) _, _, _, _, _ => by rw [inst, pieces] <;> first | exact rfl | (intros; contradiction)
  | .node (.update _ _) _, _, _, _, _ => by rw [inst, pieces] <;> first | exact rfl | (intros; contradiction)
  | .node (.remove _ _) _, _, _, _, _ => by rw [inst, pieces] <;> first | exact rfl | (intros; contradiction)
  | .node (.rename _ _) _, _, _, _, _ => by rw [inst, pieces] <;> first | exact rfl | (intros; contradiction)
  | .node (.variable _ _ _) _, _, _, _, _ => by rw [inst, pieces] <;> first | exact rfl | (intros; contradiction)
  | .node (.cond _ _) _, _, _, _, _ => by rw [inst, pieces] <;> first | exact rfl | (intros; contradiction)
theorem instAll_spec (ev : Ev) : ∀ (is : List Item) (nss : Nss) (w : Writer) (ws : List Writer), plainAll is = true →
    Writes (instAll ev is ⟨nss, w :: ws⟩) w ws (piecesAll ev is)
  | [], nss, w, ws, _ => by
    rw [instAll, piecesAll]
    exact ⟨nss, rfl⟩
  | i :: is, nss, w, ws, hp => by
    rw [plainAll, Bool.and_eq_true] at hp
    rw [instAll, piecesAll]
    simp only [bind, Except.bind]
    have h1 := inst_spec ev i nss w ws hp.1
    cases hi : pieces ev i with
    | error e =>
      rw [hi] at h1
      simp only [Writes] at h1
      rw [h1]
      rfl
    | ok ps =>
      rw [hi] at h1
      obtain ⟨nss1, h1⟩ := h1
      rw [h1]
      dsimp only
      have h2 := instAll_spec ev is nss1 (w.puts ps) ws hp.2
      cases hs : piecesAll ev is with
      | error e =>
        rw [hs] at h2
        exact h2
      | ok qs =>
        rw [hs] at h2
        obtain ⟨nss2, h2⟩ := h2
        refine ⟨nss2, ?_⟩
        rw [h2, puts_append]
end

end Verif.XUpdate.Read
