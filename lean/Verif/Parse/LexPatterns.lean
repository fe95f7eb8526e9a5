import Verif.Parse.LexFirst
/-
What the single patterns of the XPath lexer match, in closed form.
-/
namespace Verif.Parse
open Verif.Names.Spec (BaseChar Ideographic inClass)

/-! Characters -/

theorem char_eq {c : Char} (d : Char) (h : c.toNat = d.toNat) : c = d := Char.toNat_inj.mp h

/-- Characters of these numbers are no name characters. -/
theorem not_name {c : Char} {n : Nat} (h : c.toNat = n)
    (hn : isName (Char.ofNat n) = false) : isName c = false := by
  rw [← h, Char.ofNat_toNat] at hn
  exact hn

theorem not_start {c : Char} {n : Nat} (h : c.toNat = n)
    (hn : isStart (Char.ofNat n) = false) : isStart c = false := by
  rw [← h, Char.ofNat_toNat] at hn
  exact hn

theorem not_dig {c : Char} {n : Nat} (h : c.toNat = n)
    (hn : isDig (Char.ofNat n) = false) : isDig c = false := by
  rw [← h, Char.ofNat_toNat] at hn
  exact hn

theorem not_sp {c : Char} {n : Nat} (h : c.toNat = n)
    (hn : isSp (Char.ofNat n) = false) : isSp c = false := by
  rw [← h, Char.ofNat_toNat] at hn
  exact hn

theorem sp_not_name {c : Char} (h : isSp c = true) : isName c = false := by
  have := (isSp_nat c).mp h
  simp only [List.mem_cons, List.not_mem_nil, or_false] at this
  rcases this with h | h | h | h <;> exact not_name h (by decide +kernel)

theorem sp_not_start {c : Char} (h : isSp c = true) : isStart c = false := by
  have := (isSp_nat c).mp h
  simp only [List.mem_cons, List.not_mem_nil, or_false] at this
  rcases this with h | h | h | h <;> exact not_start h (by decide +kernel)

theorem sp_not_dig {c : Char} (h : isSp c = true) : isDig c = false := by
  have := (isSp_nat c).mp h
  simp only [List.mem_cons, List.not_mem_nil, or_false] at this
  rcases this with h | h | h | h <;> exact not_dig h (by decide +kernel)

def apart (r r' : List (Nat × Nat)) : Bool :=
  r.all fun a => r'.all fun b => decide (a.2 < b.1 ∨ b.2 < a.1)

theorem not_both {r r' : List (Nat × Nat)} (h : apart r r' = true) {n : Nat}
    (h1 : inClass n r) (h2 : inClass n r') : False := by
  obtain ⟨a, ha, h3, h4⟩ := h1
  obtain ⟨b, hb, h5, h6⟩ := h2
  have := List.all_eq_true.mp (List.all_eq_true.mp h a ha) b hb
  simp only [decide_eq_true_eq] at this
  omega

theorem apart_base : apart BaseChar Names.Spec.Digit = true := by decide +kernel
theorem apart_ideo : apart Ideographic Names.Spec.Digit = true := by decide +kernel
theorem dig_under : apart [(95, 95)] Names.Spec.Digit = true := by decide +kernel

theorem start_not_dig {c : Char} (h : isStart c = true) : isDig c = false := by
  cases hd : isDig c with
  | false => rfl
  | true =>
    exfalso
    have h2 := (isDig_iff c).mp hd
    rw [isStart, Bool.or_eq_true] at h
    rcases h with h | h
    · exact not_both dig_under ⟨(95, 95), List.mem_cons_self, Nat.le_of_eq (eq_of_beq h).symm,
        Nat.le_of_eq (eq_of_beq h)⟩ h2
    · rcases (isLet_iff c).mp h with h | h
      · exact not_both apart_base h h2
      · exact not_both apart_ideo h h2

theorem start_name {c : Char} (h : isStart c = true) : isName c = true := by
  rw [isStart, Bool.or_eq_true] at h
  rw [isName]
  rcases h with h | h
  · rw [(misc_nat c).mpr (by rw [eq_of_beq h]; decide)]
    rfl
  · rw [h]
    cases inSet X c (.small 29) <;> rfl

/-! What follows a name -/

def nextParen (s : Str) : Bool :=
  match s.dropWhile isSp with
  | [] => false
  | c :: _ => c.toNat == 40

def nextColons (s : Str) : Bool :=
  match s.dropWhile isSp with
  | a :: b :: _ => a.toNat == 58 && b.toNat == 58
  | _ => false

theorem scan_beforeParen (s : Str) :
    scan X beforeParen s = if nextParen s then some s else none := by
  have h : scan X (spaces (.lit 40 .success)) s = scan X (.lit 40 .success) (s.dropWhile isSp) :=
    scan_rep0 (scan_set X spaceSet) s (.inl fun c cs h => by
      rw [scan, if_neg]
      intro h'
      exact absurd h (by rw [show inSet X c spaceSet = isSp c from rfl,
        not_sp h' (by decide +kernel)]; nofun))
  have e : scan X beforeParen s = match scan X (spaces (.lit 40 .success)) s with
    | none => none
    | some _ => some s := rfl
  rw [e, h, nextParen]
  cases s.dropWhile isSp with
  | nil => rfl
  | cons c cs =>
    rw [scan]
    by_cases hc : c.toNat = 40 <;> simp [hc, scan]

theorem scan_beforeColons (s : Str) :
    scan X beforeColons s = if nextColons s then some s else none := by
  have h : scan X (spaces (.lit 58 (.lit 58 .success))) s =
      scan X (.lit 58 (.lit 58 .success)) (s.dropWhile isSp) :=
    scan_rep0 (scan_set X spaceSet) s (.inl fun c cs h => by
      rw [scan, if_neg]
      intro h'
      exact absurd h (by rw [show inSet X c spaceSet = isSp c from rfl,
        not_sp h' (by decide +kernel)]; nofun))
  have e : scan X beforeColons s = match scan X (spaces (.lit 58 (.lit 58 .success))) s with
    | none => none
    | some _ => some s := rfl
  rw [e, h, nextColons]
  match s.dropWhile isSp with
  | [] => rfl
  | [a] =>
    rw [scan]
    by_cases hc : a.toNat = 58 <;> simp [hc, scan]
  | a :: b :: cs =>
    rw [scan]
    by_cases hc : a.toNat = 58 <;> by_cases hd : b.toNat = 58 <;> simp [hc, hd, scan]

theorem drop_name {c : Char} {cs : Str} (h : isName c = true) :
    (c :: cs).dropWhile isSp = c :: cs := by
  rw [List.dropWhile_cons]
  cases hs : isSp c with
  | false => rfl
  | true => rw [sp_not_name hs] at h; exact (nomatch h)

theorem name_no_paren {c : Char} {cs : Str} (h : isName c = true) :
    nextParen (c :: cs) = false := by
  rw [nextParen, drop_name h]
  dsimp only
  cases hc : c.toNat == 40 with
  | false => rfl
  | true => rw [not_name (eq_of_beq hc) (by decide +kernel)] at h; exact (nomatch h)

theorem name_no_colons {c : Char} {cs : Str} (h : isName c = true) :
    nextColons (c :: cs) = false := by
  rw [nextColons, drop_name h]
  cases cs with
  | nil => rfl
  | cons b cs =>
    dsimp only
    cases hc : c.toNat == 58 with
    | false => rfl
    | true => rw [not_name (eq_of_beq hc) (by decide +kernel)] at h; exact (nomatch h)

theorem not_paren_colons {s : Str} (h : nextParen s = true) : nextColons s = false := by
  rw [nextParen] at h
  rw [nextColons]
  match s.dropWhile isSp, h with
  | [a], _ => rfl
  | a :: b :: cs, h =>
    have h : (a.toNat == 40) = true := h
    dsimp only
    rw [eq_of_beq h]
    rfl

/-! Names -/

theorem scan_axis (s : Str) : scan X pAxisName s =
    (afterName s).bind fun r => if nextColons r then some r else none := by
  rw [pAxisName, scan_ncName s (.inl fun c cs h => by
    rw [scan_beforeColons, name_no_colons h]; rfl)]
  congr 1
  funext r
  exact scan_beforeColons r

/-- After `NCName ':'` -/
def afterPrefix (s : Str) : Option Str := (afterName s).bind (scan X (.lit 58 .success))

/-- After the longest QName; a name with a colon and no local part is none. -/
def afterQName (s : Str) : Option Str :=
  match afterPrefix s with
  | none => afterName s
  | some s' => afterName s'

theorem scan_qName {k : Prog} (s : Str)
    (hk : (∀ c cs, isName c = true → scan X k (c :: cs) = none) ∨ ∀ s, scan X k s ≠ none) :
    scan X (qName k) s = (afterQName s).bind (scan X k) := by
  rw [qName, scan_opt, scan_ncName s (.inl fun c cs h => by
    rw [scan, if_neg]
    intro h'
    rw [not_name h' (by decide +kernel)] at h
    exact (nomatch h))]
  rw [show (afterName s).bind (scan X (.lit 58 .success)) = afterPrefix s from rfl, afterQName]
  cases afterPrefix s with
  | none => exact scan_ncName s hk
  | some s' => exact scan_ncName s' hk

theorem scan_function (s : Str) : scan X pFunction s =
    (afterQName s).bind fun r => if nextParen r then some r else none := by
  rw [pFunction, scan_qName s (.inl fun c cs h => by
    rw [scan_beforeParen, name_no_paren h]; rfl)]
  congr 1
  funext r
  exact scan_beforeParen r

theorem scan_success (s : Str) : scan X .success s = some s := rfl

theorem bind_success (a : Option Str) : a.bind (scan X .success) = a := by cases a <;> rfl

theorem scan_variable (s : Str) : scan X pVariable s = match s with
    | [] => none
    | c :: cs => if c.toNat = 36 then afterQName cs else none := by
  cases s with
  | nil => rfl
  | cons c cs =>
    rw [pVariable, scan]
    dsimp only
    rw [scan_qName cs (.inr fun s => by rw [scan_success]; nofun), bind_success]

theorem scan_branch_success (ps : Progs) (s : Str) :
    scan X (.branch ps .success) s = longest X ps s := by
  rw [scan]
  cases longest X ps s <;> rfl

theorem scan_nameTest (s : Str) : scan X pNameTest s =
    longer (scan X (.lit 42 .success) s)
      (longer ((afterName s).bind (scan X (.lit 58 (.lit 42 .success)))) (afterQName s)) := by
  have e : scan X pNameTest s = longest X (.cons (word ['*'] .success)
      (.cons (ncName (word [':', '*'] .success)) (.cons (qName .success) .nil))) s :=
    scan_branch_success _ s
  rw [e, longest, longest, longest, longest, longer_none]
  rw [scan_qName s (.inr fun s => by rw [scan_success]; nofun), bind_success]
  rw [scan_ncName s (.inl fun c cs h => by
    rw [word, scan, if_neg]
    intro h'
    rw [not_name h' (by decide +kernel)] at h
    exact (nomatch h))]
  rfl

/-! Numbers -/

theorem scan_optDigits (s : Str) : scan X (.range 0 1 (digits .success) .success) s =
    some (s.dropWhile isDig) := by
  rw [scan_opt]
  cases s with
  | nil =>
    rw [digits, scan_rep1_nil (scan_set X (.big 2))]
    rfl
  | cons c cs =>
    rw [digits, scan_rep1 (scan_set X (.big 2)) c cs (.inr (by rw [scan_success]; nofun))]
    rw [show inSet X c (.big 2) = isDig c from rfl, List.dropWhile_cons]
    cases isDig c <;> rfl

/-- After the digits of a number: a fraction -/
def afterDigits (s : Str) : Str :=
  match s with
  | [] => []
  | c :: cs => if c.toNat = 46 then cs.dropWhile isDig else c :: cs

/-- After one digit or more -/
def afterSome (s : Str) : Option Str :=
  match s with
  | [] => none
  | d :: ds => if isDig d then some (ds.dropWhile isDig) else none

theorem scan_digits (s : Str) : scan X (digits .success) s = afterSome s := by
  cases s with
  | nil => rw [digits, scan_rep1_nil (scan_set X (.big 2))]; rfl
  | cons d ds =>
    rw [digits, scan_rep1 (scan_set X (.big 2)) d ds (.inr (by rw [scan_success]; nofun))]
    rfl

def afterNumber (s : Str) : Option Str :=
  match s with
  | [] => none
  | c :: cs =>
    if isDig c then some (afterDigits (cs.dropWhile isDig))
    else if c.toNat = 46 then afterSome cs else none

theorem scan_fraction (s : Str) :
    scan X (.range 0 1 (.lit 46 (.range 0 1 (digits .success) .success)) .success) s =
      some (afterDigits s) := by
  rw [scan_opt]
  cases s with
  | nil => rfl
  | cons c cs =>
    have e : scan X (.lit 46 (.range 0 1 (digits .success) .success)) (c :: cs) =
      if c.toNat = 46 then scan X (.range 0 1 (digits .success) .success) cs else none := rfl
    rw [e, scan_optDigits, afterDigits]
    by_cases h : c.toNat = 46 <;> simp [h, scan]

theorem scan_number (s : Str) : scan X pNumber s = afterNumber s := by
  have e : scan X pNumber s = longest X (.cons (digits (.range 0 1 (.lit 46 (.range 0 1
      (digits .success) .success)) .success)) (.cons (.lit 46 (digits .success)) .nil)) s :=
    scan_branch_success _ s
  rw [e, longest, longest, longest, longer_none]
  cases s with
  | nil => rw [digits, scan_rep1_nil (scan_set X (.big 2))]; rfl
  | cons c cs =>
    rw [digits, scan_rep1 (scan_set X (.big 2)) c cs (.inr (by rw [scan_fraction]; nofun)),
      scan_fraction, scan, afterNumber.eq_def]
    dsimp only
    rw [show inSet X c (.big 2) = isDig c from rfl,
      show (fun c => inSet X c (.big 2)) = isDig from rfl]
    rw [scan_digits]
    cases hc : isDig c with
    | true =>
      have : c.toNat ≠ 46 := fun h => by
        rw [not_dig h (by decide +kernel)] at hc
        exact (nomatch hc)
      rw [if_neg this]
      rfl
    | false =>
      by_cases h : c.toNat = 46
      · rw [if_pos h]
        simp only [Bool.false_eq_true, if_false]
        rfl
      · rw [if_neg h]
        simp only [Bool.false_eq_true, if_false]
        rfl

/-! Literals -/

theorem scan_quoted (n : Nat) (s : Str) :
    scan X (.rep 0 (.notLit n .success) (.lit n .success)) s =
      scan X (.lit n .success) (s.dropWhile fun c => c.toNat != n) :=
  scan_rep0 (scan_notLit X n) s (.inl fun c cs h => by
    rw [scan, if_neg (by simpa using h)])

theorem scan_literal (s : Str) : scan X pLiteral s = match s with
    | [] => none
    | c :: cs => if c.toNat = 39 then scan X (.lit 39 .success) (cs.dropWhile fun c => c.toNat != 39)
      else if c.toNat = 34 then scan X (.lit 34 .success) (cs.dropWhile fun c => c.toNat != 34)
      else none := by
  have e : scan X pLiteral s = longest X (.cons (.lit 39 (.rep 0 (.notLit 39 .success)
      (.lit 39 .success))) (.cons (.lit 34 (.rep 0 (.notLit 34 .success) (.lit 34 .success)))
      .nil)) s := scan_branch_success _ s
  rw [e, longest, longest, longest, longer_none]
  cases s with
  | nil => rfl
  | cons c cs =>
    rw [scan, scan, scan_quoted, scan_quoted]
    dsimp only
    by_cases h : c.toNat = 39
    · rw [if_pos h, if_neg (by omega), longer_none, if_pos h]
    · rw [if_neg h, if_neg h]
      rfl

/-! Spaces -/

theorem scan_space (c : Char) (s : Str) :
    scan X pSpace (c :: s) = if isSp c then some (s.dropWhile isSp) else none :=
  scan_rep1 (scan_set X spaceSet) c s (.inr (by rw [scan_success]; nofun))

end Verif.Parse
