import Verif.Parse.XPathLex
import Verif.Names.Props
/-
What the patterns of the XPath lexer match.
-/
namespace Verif.Parse
open Verif.Names (agree agree_test inClass_append inClass_cons inClass_nil)
open Verif.Names.Spec (BaseChar Ideographic CombiningChar Extender inClass NCNameStart NCNameChar
  Letter Other)

/-! Repetitions of one character -/

/-- The pattern matches one character of a class. -/
def OneOf (S : Sets) (p : Prog) (q : Char → Bool) : Prop :=
  scan S p [] = none ∧ ∀ c cs, scan S p (c :: cs) = if q c then some cs else none

theorem firstOf_trail {f g : Str → Option Str} {q : Char → Bool} (h0 : f [] = none)
    (hf : ∀ c cs, f (c :: cs) = if q c then some cs else none) :
    ∀ (s : Str) (n : Nat) (acc : List Str), s.length ≤ n →
    ((∀ c cs, q c = true → g (c :: cs) = none) ∨ g (s.dropWhile q) ≠ none) →
    firstOf g (trail f n s acc) = match g (s.dropWhile q) with
      | some r => some r
      | none => firstOf g acc
  | [], n, acc, _, _ => by
    have : trail f n [] acc = [] :: acc := by
      cases n with
      | zero => rfl
      | succ n => rw [trail, h0]
    rw [this, firstOf]
    rfl
  | c :: cs, n, acc, hn, hg => by
    obtain ⟨n, rfl⟩ : ∃ m, n = m + 1 := ⟨n - 1, by simp at hn; omega⟩
    rw [trail, hf]
    by_cases hq : q c = true
    · rw [if_pos hq]
      dsimp only
      have hd : (c :: cs).dropWhile q = cs.dropWhile q := by simp [hq]
      rw [hd] at hg ⊢
      rw [firstOf_trail h0 hf cs n _ (by simp at hn; omega) hg]
      cases hx : g (cs.dropWhile q) with
      | some r => rfl
      | none =>
        dsimp only
        rw [firstOf]
        rcases hg with hg | hg
        · rw [hg c cs hq]
        · exact absurd hx hg
    · rw [if_neg hq]
      have hd : (c :: cs).dropWhile q = c :: cs := by simp [hq]
      dsimp only
      rw [hd, firstOf]
      cases g (c :: cs) <;> rfl

theorem scan_rep0 {S : Sets} {p k : Prog} {q : Char → Bool} (hp : OneOf S p q) (s : Str)
    (hk : (∀ c cs, q c = true → scan S k (c :: cs) = none) ∨
      scan S k (s.dropWhile q) ≠ none) :
    scan S (.rep 0 p k) s = scan S k (s.dropWhile q) := by
  rw [scan, times]
  dsimp only
  rw [firstOf_trail hp.1 hp.2 s _ _ (Nat.le_refl _) hk]
  cases scan S k (s.dropWhile q) <;> rfl

theorem scan_rep1 {S : Sets} {p k : Prog} {q : Char → Bool} (hp : OneOf S p q) (c : Char)
    (s : Str) (hk : (∀ c cs, q c = true → scan S k (c :: cs) = none) ∨
      scan S k (s.dropWhile q) ≠ none) :
    scan S (.rep 1 p k) (c :: s) = if q c then scan S k (s.dropWhile q) else none := by
  rw [scan, times, hp.2]
  by_cases hq : q c = true
  · rw [if_pos hq, if_pos hq]
    have e : (some s).bind (times (scan S p) 0) = some s := rfl
    rw [e]
    dsimp only
    rw [firstOf_trail hp.1 hp.2 s _ _ (Nat.le_refl _) hk]
    cases scan S k (s.dropWhile q) <;> rfl
  · rw [if_neg hq, if_neg hq]
    rfl

theorem scan_rep1_nil {S : Sets} {p k : Prog} {q : Char → Bool} (hp : OneOf S p q) :
    scan S (.rep 1 p k) [] = none := by
  rw [scan, times, hp.1]
  rfl

/-- An optional item is not given up once it was found. -/
theorem scan_opt (S : Sets) (p k : Prog) (s : Str) :
    scan S (.range 0 1 p k) s = match scan S p s with
      | none => scan S k s
      | some s' => scan S k s' := by
  rw [scan, times]
  show firstOf (scan S k) (tried (climb (scan S p) 1 s [])) = _
  rw [climb]
  cases scan S p s with
  | none =>
    dsimp only
    rw [tried, firstOf]
    cases scan S k s <;> rfl
  | some s' =>
    dsimp only
    rw [climb]
    show firstOf (scan S k) [s'] = _
    rw [firstOf]
    cases scan S k s' <;> rfl

theorem scan_set (S : Sets) (m : CSet) : OneOf S (.set m .success) (fun c => inSet S c m) :=
  ⟨rfl, fun _ _ => rfl⟩

theorem scan_notLit (S : Sets) (n : Nat) :
    OneOf S (.notLit n .success) (fun c => c.toNat != n) := by
  refine ⟨rfl, fun c cs => ?_⟩
  show (if c.toNat = n then none else some cs) = _
  by_cases h : c.toNat = n <;> simp [h]

theorem longer_none (a : Option Str) : longer a none = a := by cases a <;> rfl

theorem longer_self (a : Option Str) : longer a a = a := by
  cases a with
  | none => rfl
  | some a => simp [longer]

/-! The classes -/

abbrev X := xpathSets

def isSp (c : Char) : Bool := inSet X c spaceSet
def isDig (c : Char) : Bool := inSet X c (.big 2)
def isLet (c : Char) : Bool := inSet X c (.big 0) || inSet X c (.big 1)
def isStart (c : Char) : Bool := c.toNat == 95 || isLet c
def isName (c : Char) : Bool := inSet X c (.small 29) || (isLet c || (isDig c ||
  (inSet X c (.big 3) || inSet X c (.big 4))))

theorem agree_blocks :
    (agree (xpathBlock0 ++ xpathRows) BaseChar && agree (xpathBlock1 ++ xpathRows) Ideographic &&
    agree (xpathBlock2 ++ xpathRows) Names.Spec.Digit &&
    agree (xpathBlock3 ++ xpathRows) CombiningChar &&
    agree (xpathBlock4 ++ xpathRows) Extender) = true := by decide +kernel

theorem lt_of_class {c : Nat} {r : List (Nat × Nat)} (hr : r.all (fun ab => decide (ab.2 < 65536)) = true)
    (h : inClass c r) : c < 65536 := by
  obtain ⟨ab, h1, _, h3⟩ := h
  have := List.all_eq_true.mp hr ab h1
  simp only [decide_eq_true_eq] at this
  omega

theorem inBig {i : Nat} {r : List (Nat × Nat)} {b : List Nat} (c : Char)
    (hb : X.blocks.getD i [] = b)
    (ha : agree (b ++ xpathRows) r = true)
    (hr : r.all (fun ab => decide (ab.2 < 65536)) = true) :
    inSet X c (.big i) = true ↔ inClass c.toNat r := by
  rw [inSet, Bool.and_eq_true, decide_eq_true_eq, hb]
  constructor
  · rintro ⟨h1, h2⟩
    exact (agree_test ha h1).mp h2
  · intro h
    have h1 := lt_of_class hr h
    exact ⟨h1, (agree_test ha h1).mpr h⟩

theorem block0 : X.blocks.getD 0 [] = xpathBlock0 := rfl
theorem block1 : X.blocks.getD 1 [] = xpathBlock1 := rfl
theorem block2 : X.blocks.getD 2 [] = xpathBlock2 := rfl
theorem block3 : X.blocks.getD 3 [] = xpathBlock3 := rfl
theorem block4 : X.blocks.getD 4 [] = xpathBlock4 := rfl
def below (r : List (Nat × Nat)) : Bool := r.all (fun ab => decide (ab.2 < 65536))
theorem below_base : below BaseChar = true := by decide +kernel
theorem below_ideo : below Ideographic = true := by decide +kernel
theorem below_digit : below Names.Spec.Digit = true := by decide +kernel
theorem below_comb : below CombiningChar = true := by decide +kernel
theorem below_ext : below Extender = true := by decide +kernel

theorem isLet_iff (c : Char) : isLet c = true ↔ Letter c.toNat := by
  have h := agree_blocks
  simp only [Bool.and_eq_true] at h
  rw [isLet, Bool.or_eq_true, inBig c block0 h.1.1.1.1 below_base,
    inBig c block1 h.1.1.1.2 below_ideo, Letter]

theorem isDig_iff (c : Char) : isDig c = true ↔ inClass c.toNat Names.Spec.Digit := by
  have h := agree_blocks
  simp only [Bool.and_eq_true] at h
  rw [isDig, inBig c block2 h.1.1.2 below_digit]

/-- A small set is known once its 256 members are. -/
theorem small_iff {i : Nat} (l : List Nat) (c : Char)
    (h : ∀ n ∈ List.range 256,
      (X.rows.getD (32 * i + n >>> 3) 0 &&& (1 <<< (n &&& 7)) != 0) = l.contains n)
    (hl : l.all (fun n => decide (n < 256)) = true) :
    inSet X c (.small i) = true ↔ c.toNat ∈ l := by
  rw [inSet, Bool.and_eq_true, decide_eq_true_eq]
  constructor
  · rintro ⟨h1, h2⟩
    rw [h _ (List.mem_range.mpr h1)] at h2
    simpa using h2
  · intro hm
    have := List.all_eq_true.mp hl _ hm
    simp only [decide_eq_true_eq] at this
    refine ⟨this, ?_⟩
    rw [h _ (List.mem_range.mpr this)]
    simpa using hm

theorem isSp_nat (c : Char) : isSp c = true ↔ c.toNat ∈ [9, 10, 13, 32] :=
  small_iff _ c (by decide +kernel) (by decide)

theorem close_nat (c : Char) : inSet X c (.small 1) = true ↔ c.toNat ∈ [41, 93] :=
  small_iff _ c (by decide +kernel) (by decide)

theorem rel_nat (c : Char) : inSet X c (.small 2) = true ↔ c.toNat ∈ [60, 62] :=
  small_iff _ c (by decide +kernel) (by decide)

theorem misc_nat (c : Char) : inSet X c (.small 29) = true ↔ c.toNat ∈ [45, 46, 95] :=
  small_iff _ c (by decide +kernel) (by decide)

theorem isStart_iff (c : Char) : isStart c = true ↔ NCNameStart c.toNat := by
  rw [isStart, Bool.or_eq_true, isLet_iff, beq_iff_eq, NCNameStart]
  have : '_'.toNat = 95 := rfl
  rw [this]
  exact Or.comm

theorem isName_iff (c : Char) : isName c = true ↔ NCNameChar c.toNat := by
  have h := agree_blocks
  simp only [Bool.and_eq_true] at h
  rw [isName]
  simp only [Bool.or_eq_true]
  rw [isLet_iff, isDig_iff, misc_nat, inBig c block3 h.1.2 below_comb,
    inBig c block4 h.2 below_ext, NCNameChar, Other]
  have h1 : '_'.toNat = 95 := rfl
  have h2 : '.'.toNat = 46 := rfl
  have h3 : '-'.toNat = 45 := rfl
  rw [h1, h2, h3]
  simp only [List.mem_cons, List.not_mem_nil, or_false]
  constructor
  · rintro ((h | h | h) | h | h | h | h)
    · exact .inr (.inr (.inr (.inl h)))
    · exact .inr (.inr (.inl h))
    · exact .inr (.inr (.inr (.inr h)))
    · exact .inl h
    · exact .inr (.inl (.inr (.inl h)))
    · exact .inr (.inl (.inl h))
    · exact .inr (.inl (.inr (.inr h)))
  · rintro (h | (h | h | h) | h | h | h)
    · exact .inr (.inl h)
    · exact .inr (.inr (.inr (.inl h)))
    · exact .inr (.inr (.inl h))
    · exact .inr (.inr (.inr (.inr h)))
    · exact .inl (.inr (.inl h))
    · exact .inl (.inl h)
    · exact .inl (.inr (.inr h))

/-! Names -/

theorem scan_letter : OneOf X letter isLet := by
  refine ⟨rfl, fun c cs => ?_⟩
  rw [letter, scan, longest, longest, longest, longer_none, scan, scan]
  simp only [scan]
  rw [isLet]
  cases inSet X c (.big 0) <;> cases inSet X c (.big 1) <;> simp [longer]

theorem scan_nameChar : OneOf X nameChar isName := by
  refine ⟨rfl, fun c cs => ?_⟩
  rw [nameChar, scan]
  simp only [longest, scan_letter.2, longer_none]
  simp only [scan]
  rw [isName, isDig]
  cases inSet X c (.small 29) <;> cases isLet c <;> cases inSet X c (.big 2) <;>
    cases inSet X c (.big 3) <;> cases inSet X c (.big 4) <;> simp [longer]

/-- What is left after the longest NCName. -/
def afterName : Str → Option Str
  | [] => none
  | c :: cs => if isStart c then some (cs.dropWhile isName) else none

theorem scan_ncName {k : Prog} (s : Str)
    (hk : (∀ c cs, isName c = true → scan X k (c :: cs) = none) ∨ ∀ s, scan X k s ≠ none) :
    scan X (ncName k) s = (afterName s).bind (scan X k) := by
  cases s with
  | nil => rfl
  | cons c cs =>
    have hb : scan X (ncName k) (c :: cs) = match longer (if c.toNat = 95 then some cs else none)
        (if isLet c then some cs else none) with
        | none => none
        | some s' => scan X (.rep 0 nameChar k) s' := by
      rw [← scan_letter.2, ← longer_none (scan X letter (c :: cs))]
      rfl
    rw [hb, afterName, isStart]
    have hr := scan_rep0 scan_nameChar (k := k) cs (hk.imp id (fun h => h _))
    by_cases h1 : c.toNat = 95
    · rw [if_pos h1]
      have e : longer (some cs) (if isLet c = true then some cs else none) = some cs := by
        cases isLet c <;> simp [longer]
      rw [e]
      dsimp only
      rw [hr, h1]
      rfl
    · rw [if_neg h1]
      by_cases h2 : isLet c = true
      · rw [if_pos h2]
        have e : longer none (some cs) = some cs := rfl
        rw [e]
        dsimp only
        rw [hr, h2, Bool.or_true]
        rfl
      · rw [if_neg h2]
        have e : longer none (none : Option Str) = none := rfl
        rw [e, if_neg (by simp [h1, h2])]
        rfl

end Verif.Parse
