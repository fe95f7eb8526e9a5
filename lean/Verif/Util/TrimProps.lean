import Verif.Util.Trim
/-
C99: cutting documents after a number of words.
-/
namespace Verif.Util.Trim.Spec
open Verif Verif.Util.Trim

mutual
/-- A tree that has been cut: the beginning of another. -/
inductive Cut : Node → Node → Prop
  | branch {t : Str} {l ks : List Node} : CutKids l ks → Cut (.branch t l) (.branch t ks)
  | text {s s' : Str} : s <+: s' → Cut (.text s) (.text s')
/-- The first children, where the last of them may have been cut. -/
inductive CutKids : List Node → List Node → Prop
  | nil {ks : List Node} : CutKids [] ks
  | cons {k : Node} {l ks : List Node} : CutKids l ks → CutKids (k :: l) (k :: ks)
  | last {k k' : Node} {ks : List Node} : Cut k k' → CutKids [k] (k' :: ks)
end

mutual
/-- No word goes across the border of a node, and there are no words in comments and processing instructions. -/
def Whole : Node → Prop
  | .branch _ ks => WholeKids ks
  | .text _ => True
  | .leaf s => split s = []
def WholeKids : List Node → Prop
  | [] => True
  | .leaf s :: ks => split s = [] ∧ WholeKids ks
  | .text s :: ks => split (s ++ inner ks) = split s ++ split (inner ks) ∧ WholeKids ks
  | .branch _ l :: ks =>
    split (inner l ++ inner ks) = split (inner l) ++ split (inner ks) ∧ WholeKids l ∧ WholeKids ks
end

end Verif.Util.Trim.Spec

namespace Verif.Util.Trim
open Verif Verif.Util.Trim.Spec

/-! ### Words -/

/-- The word that has not ended. -/
def st : Str → Str → Str
  | cur, [] => cur
  | cur, c :: s => if isSpace c then st [] s else st (c :: cur) s

/-- The words that have ended. -/
def out : Str → Str → List Str
  | _, [] => []
  | cur, c :: s => if isSpace c then flush cur ++ out [] s else out (c :: cur) s

theorem split_append : ∀ (x y cur : Str), splitFrom cur (x ++ y) = out cur x ++ splitFrom (st cur x) y
  | [], y, cur => by simp [out, st]
  | c :: x, y, cur => by
    simp only [List.cons_append, splitFrom, out, st]
    split
    · rw [split_append x y []]; simp
    · rw [split_append x y (c :: cur)]

theorem split_eq (x : Str) : split x = out [] x ++ flush (st [] x) := by
  have := split_append x [] []
  simpa [split, splitFrom] using this

theorem split_len : ∀ (s c d : Str), c ≠ [] → d ≠ [] → (splitFrom c s).length = (splitFrom d s).length
  | [], c, d, hc, hd => by simp [splitFrom, flush, hc, hd]
  | x :: s, c, d, hc, hd => by
    simp only [splitFrom]
    split
    · simp [flush, hc, hd]
    · exact split_len s _ _ (by simp) (by simp)

/-- A border that no word goes across. -/
def Border (x y : Str) : Prop := st [] x = [] ∨ y = [] ∨ ∃ c y', y = c :: y' ∧ isSpace c = true

theorem border_iff (x y : Str) : split (x ++ y) = split x ++ split y ↔ Border x y := by
  have e : split (x ++ y) = out [] x ++ splitFrom (st [] x) y := split_append x y []
  rw [e, split_eq x, List.append_assoc, List.append_cancel_left_eq]
  unfold Border split
  constructor
  · intro h
    by_cases h1 : st [] x = []
    · exact .inl h1
    · match y, h with
      | [], _ => exact .inr (.inl rfl)
      | c :: y', h =>
        refine .inr (.inr ⟨c, y', rfl, ?_⟩)
        cases hc : isSpace c with
        | true => rfl
        | false =>
          have h2 := congrArg List.length h
          simp only [splitFrom, hc, List.length_append] at h2
          have h3 := split_len y' (c :: st [] x) [c] (by simp) (by simp)
          simp only [flush, h1, if_false, List.length_singleton, Bool.false_eq_true] at h2
          omega
  · rintro (h | rfl | ⟨c, y', rfl, hc⟩)
    · simp [h, flush]
    · simp [splitFrom, flush]
    · simp [splitFrom, hc, flush]

theorem border_prefix {x y y' : Str} (h : Border x y) (hp : y' <+: y) : Border x y' := by
  rcases h with h | h | ⟨c, z, rfl, hc⟩
  · exact .inl h
  · subst h; exact .inr (.inl (List.prefix_nil.1 hp))
  · match y', hp with
    | [], _ => exact .inr (.inl rfl)
    | d :: y', hp =>
      obtain ⟨t, ht⟩ := hp
      injection ht with h1 _
      exact .inr (.inr ⟨d, y', rfl, h1 ▸ hc⟩)

theorem split_spaces : ∀ (w cur : Str), (∀ c ∈ w, isSpace c = true) → splitFrom cur w = flush cur
  | [], _, _ => rfl
  | c :: w, cur, h => by
    simp only [splitFrom, h c List.mem_cons_self, if_true]
    rw [split_spaces w [] (fun x hx => h x (List.mem_cons_of_mem _ hx))]
    simp [flush]

theorem split_word : ∀ (w cur : Str), (∀ c ∈ w, isSpace c = false) → splitFrom cur w = flush (w.reverse ++ cur)
  | [], _, _ => rfl
  | c :: w, cur, h => by
    simp only [splitFrom, h c List.mem_cons_self, Bool.false_eq_true, if_false]
    rw [split_word w (c :: cur) (fun x hx => h x (List.mem_cons_of_mem _ hx))]
    simp

theorem takeWhile_all (p : Char → Bool) : ∀ s : Str, ∀ x ∈ s.takeWhile p, p x = true
  | [], _, h => by simp at h
  | c :: s, x, h => by
    cases e : p c with
    | false => simp [e] at h
    | true =>
      simp [e] at h
      rcases h with rfl | h
      · exact e
      · exact takeWhile_all p s x h

theorem dropWhile_head (p : Char → Bool) : ∀ s : Str, ∀ c r, s.dropWhile p = c :: r → p c = false
  | [], _, _, h => by simp at h
  | x :: s, c, r, h => by
    cases e : p x with
    | false => simp [e] at h; rw [← h.1]; exact e
    | true => simp [e] at h; exact dropWhile_head p s c r h

/-- Space at the end does not matter. -/
theorem split_rstrip (r : Str) : split (r.dropWhile isSpace).reverse = split r.reverse := by
  conv => rhs; rw [← List.takeWhile_append_dropWhile (p := isSpace) (l := r), List.reverse_append]
  rw [split, split, split_append, split_spaces _ _ (fun c hc => takeWhile_all isSpace r c (List.mem_reverse.1 hc))]
  exact split_eq _

theorem st_end (x : Str) (c : Char) (h : isSpace c = true) : ∀ cur, st cur (x ++ [c]) = [] := by
  induction x with
  | nil => intro cur; simp [st, h]
  | cons d x ih =>
    intro cur
    simp only [List.cons_append, st]
    split <;> exact ih _

/-- The last word. -/
theorem split_dropWord (r : Str) :
    split ((r.dropWhile isSpace).dropWhile fun c => !isSpace c).reverse = (split r.reverse).dropLast := by
  rw [← split_rstrip r]
  generalize hr : r.dropWhile isSpace = r'
  have hhead : ∀ c t, r' = c :: t → isSpace c = false := fun c t h => dropWhile_head isSpace r c t (hr.trans h)
  generalize hu : r'.takeWhile (fun c => !isSpace c) = u
  generalize hv : r'.dropWhile (fun c => !isSpace c) = v
  have e : r' = u ++ v := by rw [← hu, ← hv]; exact List.takeWhile_append_dropWhile.symm
  have hall : ∀ c ∈ u.reverse, isSpace c = false := fun c hc => by
    have := takeWhile_all _ r' c (by rw [hu]; exact List.mem_reverse.1 hc)
    simpa using this
  have hst : st [] v.reverse = [] := by
    cases v with
    | nil => rfl
    | cons c t =>
      have := dropWhile_head _ _ _ _ hv
      rw [List.reverse_cons]
      exact st_end _ _ (by simpa using this) _
  have h1 : split r'.reverse = split v.reverse ++ flush u := by
    rw [e, List.reverse_append, split, split_append, hst, split_word _ _ hall, split_eq, hst]
    simp [flush]
  rw [h1]
  cases u with
  | nil =>
    have : v = [] := by
      cases v with
      | nil => rfl
      | cons c t =>
        have h2 := hhead c t (by rw [e]; rfl)
        have h3 := dropWhile_head _ _ _ _ hv
        simp [h2] at h3
    rw [this]; rfl
  | cons c t => simp [flush]

theorem split_rest : ∀ (k : Nat) (r : Str),
    split (rest k r).reverse = (split r.reverse).take ((split r.reverse).length - k)
  | 0, r => by rw [rest, split_rstrip]; simp
  | k + 1, r => by
    rw [rest, split_rest k, split_dropWord, List.length_dropLast, List.dropLast_eq_take, List.take_take]
    congr 1
    omega

theorem rest_suffix : ∀ (k : Nat) (r : Str), rest k r <:+ r
  | 0, r => List.dropWhile_suffix _
  | k + 1, r => (rest_suffix k _).trans ((List.dropWhile_suffix _).trans (List.dropWhile_suffix _))

/-- The first `m` words of a text. -/
theorem rsplit0_ok (s : Str) (m : Nat) (h0 : 0 < m) (hm : m ≤ (split s).length) :
    ∃ c, rsplit0 s ((split s).length - m) = some c ∧ c <+: s ∧ split c = (split s).take m := by
  have h := split_rest ((split s).length - m) s.reverse
  rw [List.reverse_reverse, show (split s).length - ((split s).length - m) = m by omega] at h
  have hne : rest ((split s).length - m) s.reverse ≠ [] := by
    intro e
    rw [e] at h
    have := congrArg List.length h
    simp [split, splitFrom, flush] at this
    unfold split at hm
    omega
  refine ⟨_, by rw [rsplit0, if_neg hne], ?_, h⟩
  have := rest_suffix ((split s).length - m) s.reverse
  have := List.reverse_prefix.2 this
  rwa [List.reverse_reverse] at this

/-! ### Trees -/

theorem trimKids_ok (max : Int) : ∀ (ks : List Node) (count : Int), count < max → WholeKids ks →
    ∃ l, trimKids max count ks = .ok l ∧ CutKids l ks ∧ inner l <+: inner ks ∧
      split (inner l) = (split (inner ks)).take (max - count).toNat
  | [], _, _, _ => ⟨[], by simp [trimKids], .nil, List.prefix_rfl, by simp [inner, split, splitFrom, flush]⟩
  | .leaf s :: ks, count, h, hw => by
    simp only [WholeKids] at hw
    have hs : split (Node.leaf s).value = [] := hw.1
    obtain ⟨l, h1, h2, h3, h4⟩ := trimKids_ok max ks count h hw.2
    refine ⟨.leaf s :: l, ?_, .cons h2, by simpa [inner, part, List.nil_append] using h3, by simpa [inner, part, List.nil_append] using h4⟩
    rw [trimKids, if_neg (by omega), if_pos (by rw [hs]; simpa using h), hs]
    simp [h1]
  | .text s :: ks, count, h, hw => by
    simp only [WholeKids] at hw
    by_cases hc : count + (split s).length < max
    · obtain ⟨l, h1, h2, h3, h4⟩ := trimKids_ok max ks (count + (split s).length) hc hw.2
      refine ⟨.text s :: l, ?_, .cons h2, ?_, ?_⟩
      · rw [trimKids, if_neg (by omega), if_pos (by exact hc)]
        show (match trimKids max (count + (split s).length) ks with | .ok l => _ | .error e => _) = _
        rw [h1]
      · simpa [inner, part, List.nil_append] using h3
      · simp only [inner, part, List.nil_append]
        rw [(border_iff _ _).2 (border_prefix ((border_iff _ _).1 hw.1) h3), h4, hw.1, List.take_append]
        rw [List.take_of_length_le (l := split s) (by omega)]
        congr 2; omega
    · obtain ⟨c, h1, h2, h3⟩ := rsplit0_ok s (max - count).toNat (by omega) (by omega)
      refine ⟨[.text c], ?_, .last (.text h2), ?_, ?_⟩
      · rw [trimKids, if_neg (by omega), if_neg (by exact hc)]
        have e : (((split s).length : Int) - (max - count)).toNat = (split s).length - (max - count).toNat := by omega
        simp only [cut, e, h1]
      · simp only [inner, part, List.append_nil]
        exact h2.trans (List.prefix_append _ _)
      · simp only [inner, part, List.append_nil]
        rw [h3, hw.1, List.take_append_of_le_length (by omega)]
  | .branch t b :: ks, count, h, hw => by
    simp only [WholeKids] at hw
    by_cases hc : count + (split (inner b)).length < max
    · obtain ⟨l, h1, h2, h3, h4⟩ := trimKids_ok max ks (count + (split (inner b)).length) hc hw.2.2
      refine ⟨.branch t b :: l, ?_, .cons h2, ?_, ?_⟩
      · rw [trimKids, if_neg (by omega), if_pos (by simpa [Node.value, part] using hc)]
        simp only [Node.value, part, h1]
      · simpa [inner, part, List.nil_append] using h3
      · simp only [inner, part, List.nil_append]
        rw [(border_iff _ _).2 (border_prefix ((border_iff _ _).1 hw.1) h3), h4, hw.1, List.take_append]
        rw [List.take_of_length_le (l := split (inner b)) (by omega)]
        congr 2; omega
    · obtain ⟨l, h1, h2, h3, h4⟩ := trimKids_ok max b count h hw.2.1
      refine ⟨[.branch t l], ?_, .last (.branch h2), ?_, ?_⟩
      · rw [trimKids, if_neg (by omega), if_neg (by simpa [Node.value, part] using hc)]
        simp only [cut, h1]
      · simp only [inner, part, List.append_nil]
        exact h3.trans (List.prefix_append _ _)
      · simp only [inner, part, List.append_nil]
        rw [h4, hw.1, List.take_append_of_le_length (by omega)]

/-- **C99**: whatever document or element is cut, if no word goes across the borders of nodes, and comments and
processing instructions have no words, the result is the beginning of the tree, and its words are the first `n`
words of the tree (all of them, if there are not more).  Missing: other trees (`C99_refuted_border`,
`C99_refuted_comment`), and that the tree itself is left alone (`C96_refuted_shallow`). -/
theorem C99_trim_partial (tag : Str) (ks : List Node) (hw : Whole (.branch tag ks)) (n : Nat) :
    ∃ r, trimWordCount (.branch tag ks) n = .ok r ∧ Cut r (.branch tag ks) ∧
      split r.value = (split (Node.value (.branch tag ks))).take n := by
  rcases Nat.eq_zero_or_pos n with rfl | hn
  · refine ⟨.branch tag [], ?_, .branch .nil, ?_⟩
    · cases ks <;> simp [trimWordCount, trim, trimKids]
    · simp [Node.value, part, inner, split, splitFrom, flush]
  · obtain ⟨l, h1, h2, _, h4⟩ := trimKids_ok n ks 0 (by omega) hw
    exact ⟨.branch tag l, by simp [trimWordCount, trim, h1], .branch h2, by simpa [Node.value, part] using h4⟩

mutual
theorem cut_cut (max : Int) : ∀ (n r : Node) (count : Int), count < max → ¬count + (split n.value).length < max →
    cut max count n = .ok r → Cut r n
  | .text s, r, count, hlt, hge, h => by
    simp only [cut] at h
    simp only [Node.value, part] at hge
    obtain ⟨c, h1, h2, _⟩ := rsplit0_ok s (max - count).toNat (by omega) (by omega)
    have e' : (((split s).length : Int) - (max - count)).toNat = (split s).length - (max - count).toNat := by omega
    rw [e', h1] at h
    cases h; exact .text h2
  | .leaf s, _, _, _, _, h => by simp [cut] at h
  | .branch t ks, r, count, _, _, h => by
    simp only [cut] at h
    cases e : trimKids max count ks with
    | error x => rw [e] at h; cases h
    | ok l => rw [e] at h; cases h; exact .branch (cut_kids max ks l count e)

theorem cut_kids (max : Int) : ∀ (ks l : List Node) (count : Int), trimKids max count ks = .ok l → CutKids l ks
  | [], l, _, h => by
    simp only [trimKids] at h
    injection h with h; subst h; exact .nil
  | k :: ks, l, count, h => by
    simp only [trimKids] at h
    split at h
    · injection h with h; subst h; exact .nil
    · rename_i hlt
      split at h
      · split at h
        · rename_i l' e
          injection h with h; subst h
          exact .cons (cut_kids max ks _ _ e)
        · cases h
      · rename_i hge
        split at h
        · rename_i k' e
          injection h with h; subst h
          exact .last (cut_cut max k k' count (by omega) hge e)
        · cases h
end

/-- **C99**, for every tree: what comes out is the beginning of the tree. -/
theorem C99_beginning {n r : Node} {max : Int} (h : trimWordCount n max = .ok r) : Cut r n := by
  cases n with
  | text s => cases h
  | leaf s => cases h
  | branch t ks =>
    simp only [trimWordCount, trim] at h
    cases e : trimKids max 0 ks with
    | error x => rw [e] at h; cases h
    | ok l => rw [e] at h; cases h; exact .branch (cut_kids max ks l 0 e)

/-- `<a>one two <b>three four </b><c>five <d>six seven</d> eight</c> nine</a>` -/
def sample : Node :=
  .branch (s!! "a") [.text (s!! "one two "), .branch (s!! "b") [.text (s!! "three four ")],
    .branch (s!! "c") [.text (s!! "five "), .branch (s!! "d") [.text (s!! "six seven")], .text (s!! " eight")],
    .text (s!! " nine")]

example : Whole sample := by
  simp only [sample, Whole, WholeKids]
  decide +kernel

def valueOf : Except Err Node → Option Str
  | .ok n => some n.value
  | _ => none

example : valueOf (trimWordCount sample 6) = some (s!! "one two three four five six") := by decide +kernel

def errorOf : Except Err Node → Option Err
  | .error e => some e
  | _ => none

/-- **C99**, refuted for words with markup in them: of `<a>ab<i>c d</i></a>` the first word is `abc`, and `ab` comes
out. -/
theorem C99_refuted_border :
    valueOf (trimWordCount (.branch (s!! "a") [.text (s!! "ab"), .branch (s!! "i") [.text (s!! "c d")]]) 1) = some (s!! "ab") ∧
    (split (Node.value (.branch (s!! "a") [.text (s!! "ab"), .branch (s!! "i") [.text (s!! "c d")]]))).take 1 = [s!! "abc"] := by
  constructor <;> decide +kernel

/-- **C99**, refuted for comments: their words are counted, and if the limit is reached in one, an AttributeError is
raised. -/
theorem C99_refuted_comment :
    valueOf (trimWordCount (.branch (s!! "a") [.leaf (s!! "x"), .text (s!! "one two three")]) 2) = some (s!! "one") ∧
    errorOf (trimWordCount (.branch (s!! "a") [.leaf (s!! "x y"), .text (s!! "one two three")]) 2) = some .attribute := by
  constructor <;> decide +kernel

end Verif.Util.Trim
