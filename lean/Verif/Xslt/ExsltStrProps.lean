import Verif.Xslt.ExsltStrUnique

/-
C76: the EXSLT functions for strings.
-/
namespace Verif.Xslt.ExsltStr
open Verif Verif.Py Spec
open Verif.XPath (Dbl)

/-! ## align -/

/-- str:align puts the target string where the third argument says.  What is missing: aligning an empty string
to the right. -/
theorem C76_align_partial (target padding : Str) (a : Option Str)
    (h : target ≠ [] ∨ padding = [] ∨ a ≠ some (s!! "right")) :
    Aligned (alignment a) target padding (align target padding a) := by
  unfold align
  split
  · rename_i hl
    exact Or.inl ⟨hl, rfl⟩
  · rename_i hl
    have hl : target.length ≤ padding.length := by omega
    right
    split
    · rename_i ha
      subst ha
      have hal : alignment (some (s!! "right")) = .right := rfl
      have hup : upTo padding (-(target.length : Int)) = padding.take (padding.length - target.length) := by
        unfold upTo
        split
        · congr 2; omega
        · rename_i h0
          have h0 : target.length = 0 := by omega
          have h0 : target = [] := List.length_eq_zero_iff.mp h0
          rcases h with h | h | h
          · exact absurd h0 h
          · simp [h]
          · exact absurd rfl h
      rw [hal, hup]
      refine ⟨padding.take (padding.length - target.length), padding.drop (padding.length - target.length), [], ?_, ?_, ?_, ?_⟩
      · simp
      · simp; omega
      · rfl
      · simp
    · rename_i ha
      split
      · rename_i hc
        subst hc
        have hal : alignment (some (s!! "center")) = .center := rfl
        rw [hal]
        generalize hn : (padding.length - target.length) / 2 = l
        refine ⟨padding.take l, (padding.drop l).take target.length, padding.drop (l + target.length), ?_, ?_, ?_, rfl⟩
        · rw [← List.drop_drop, List.append_assoc, List.take_append_drop, List.take_append_drop]
        · simp; omega
        · show (padding.take l).length = (padding.drop (l + target.length)).length ∨
            (padding.take l).length + 1 = (padding.drop (l + target.length)).length
          simp only [List.length_take, List.length_drop]
          omega
      · rename_i hc
        have hal : alignment a = .left := by
          cases a with
          | none => rfl
          | some a =>
            rw [alignment, if_neg (fun e => ha (by rw [e])), if_neg (fun e => hc (by rw [e]))]
        rw [hal]
        exact ⟨[], padding.take target.length, padding.drop target.length, by simp, by simp; omega, rfl, by simp⟩

/-- The result has the length of the padding string. -/
theorem C76_align_length {a : Alignment} {target padding result : Str} (h : Aligned a target padding result) :
    result.length = padding.length := by
  rcases h with ⟨h, rfl⟩ | ⟨l, x, r, rfl, h, -, rfl⟩
  · simp; omega
  · simp [h]

/-- The padding is lost if an empty string is aligned to the right. -/
theorem C76_refuted_align : ¬ Aligned (alignment (some (s!! "right"))) [] (s!! "----")
    (align [] (s!! "----") (some (s!! "right"))) := by
  intro h
  have := C76_align_length h
  exact absurd this (by decide)

example : align (s!! "ab") (s!! "12345") (some (s!! "center")) = s!! "1ab45" := by decide
example : align (s!! "ab") (s!! "12345") (some (s!! "right")) = s!! "123ab" := by decide
example : align (s!! "ab") (s!! "12345") (some (s!! "centre")) = s!! "ab345" := by decide
example : align (s!! "abcdef") (s!! "123") none = s!! "abc" := by decide

/-! ## concat and padding -/

/-- str:concat returns the string-values of the nodes, one after the other. -/
theorem C76_concat {N : Type} (string : N → Str) (a : List N) (n : N) (b : List N) :
    concat string [] = [] ∧ concat string (a ++ n :: b) = concat string a ++ string n ++ concat string b := by
  simp [concat]

theorem times_get (s : Str) (n i : Nat) (h : i < n * s.length) : (times s n)[i]? = s[i % s.length]? := by
  induction n generalizing i with
  | zero => simp at h
  | succ n ih =>
    rw [times]
    by_cases hi : i < s.length
    · rw [List.getElem?_append_left hi, Nat.mod_eq_of_lt hi]
    · have hi : s.length ≤ i := by omega
      rw [List.getElem?_append_right hi, ih (i - s.length) (by rw [Nat.succ_mul] at h; omega),
        ← Nat.mod_eq_sub_mod hi]

theorem times_length (s : Str) (n : Nat) : (times s n).length = n * s.length := by
  induction n with
  | zero => simp [times]
  | succ n ih => rw [times, List.length_append, ih, Nat.succ_mul, Nat.add_comm]

theorem padding_nat (d : Dbl) (n : Nat) (chars : Option Str) (h : pyInt d = .ok (n : Int)) :
    padding d chars = .ok ((times (chars.getD [' ']) n).take n) := by
  simp only [padding, h]
  unfold upTo
  rw [if_neg (by omega)]
  simp

/-- str:padding returns a string of the length that is asked for (without what is behind the decimal point),
in which the characters of the second argument, or spaces, are repeated. -/
theorem C76_padding (q : Rat) (n : Nat) (chars : Option Str) (hne : chars ≠ some [])
    (h0 : (n : Rat) ≤ q) (h1 : q < (n : Rat) + 1) :
    ∃ r, padding (.fin q) chars = .ok r ∧ r.length = n ∧
      ∀ i < n, r[i]? = (chars.getD [' '])[i % (chars.getD [' ']).length]? := by
  have hfl : q.floor = (n : Int) := by
    have h2 : (n : Int) ≤ q.floor := Rat.le_floor_iff.mpr (by rw [Rat.intCast_natCast]; exact h0)
    have h3 : q.floor < (n : Int) + 1 := Rat.floor_lt_iff.mpr (by rw [Rat.intCast_add, Rat.intCast_natCast]; simpa using h1)
    omega
  have hq : 0 ≤ q := by
    have : (0 : Rat) ≤ (n : Rat) := by exact_mod_cast Nat.zero_le n
    exact Rat.le_trans this h0
  have hp : pyInt (.fin q) = .ok (n : Int) := by simp [pyInt, hq, hfl]
  have hlen : 0 < (chars.getD [' ']).length := by
    cases chars with
    | none => simp
    | some s =>
      cases s with
      | nil => exact absurd rfl hne
      | cons => simp
  generalize hs : chars.getD [' '] = s at hlen
  have hge : n ≤ n * s.length := Nat.le_mul_of_pos_right n hlen
  refine ⟨_, padding_nat _ n chars hp, ?_, ?_⟩
  · rw [hs, List.length_take, times_length]; omega
  · intro i hi
    rw [hs, List.getElem?_take_of_lt hi, times_get s n i (by omega)]

/-- str:padding returns the empty string for numbers below one, if they are not infinite, and if the second
argument is empty. -/
theorem C76_padding_empty (q : Rat) (chars : Option Str) (h : q < 1 ∨ chars = some []) :
    padding (.fin q) chars = .ok [] := by
  have htimes : ∀ n, times [] n = [] := by
    intro n; induction n with
    | zero => rfl
    | succ n ih => simp [times, ih]
  rcases h with h | rfl
  · have hle : (if 0 ≤ q then q.floor else q.ceil) ≤ 0 := by
      split
      · have : q.floor < 0 + 1 := Rat.floor_lt_iff.mpr (by simpa using h)
        omega
      · rename_i h0
        exact Rat.ceil_le_iff.mpr (by simpa using Rat.le_of_lt (Rat.not_le.mp h0))
    simp only [padding, pyInt]
    rw [Int.toNat_eq_zero.mpr hle]
    simp [times, upTo]
  · simp only [padding, pyInt, Option.getD_some, htimes]
    simp [upTo]

/-- What is no number has no length. -/
theorem C76_padding_fails (d : Dbl) (chars : Option Str) :
    (∃ e, padding d chars = .error e) ↔ d = .nan ∨ d = .pinf ∨ d = .ninf := by
  cases d <;> simp [padding, pyInt]

example : padding (.fin (mkRat 15 2)) (some (s!! "abc")) = .ok (s!! "abcabca") := by decide +kernel
example : padding (.fin 3) none = .ok (s!! "   ") := by decide +kernel

/-! ## split and tokenize -/

/-- str:split splits the string at the occurrences of the pattern, which is a space if there is none. -/
theorem C76_split (string : Str) (pattern : Option Str) (h : pattern ≠ some []) :
    Splits (pattern.getD [' ']) string (split string pattern) := by
  have hne : pattern.getD [' '] ≠ [] := by
    cases pattern with
    | none => simp
    | some s => intro e; exact h (by simpa using e)
  unfold split
  simp only
  rw [if_pos hne]
  exact splits_of_splitOn hne string

/-- What lies between the tokens is the pattern. -/
theorem C76_split_join {sep s : Str} {ts : List Str} (h : Splits sep s ts) : join sep ts = s := by
  induction h with
  | last => rfl
  | @cut t r ts _ hr ih =>
    cases ts with
    | nil => exact absurd rfl (splits_ne_nil hr)
    | cons t' ts => rw [join, ih]

/-- str:tokenize splits the string at the delimiters, which are the space characters of XML if there are
none. -/
theorem C76_tokenize (string : Str) (delimiters : Option Str) (h : delimiters ≠ some []) :
    Tokens (delimiters.getD [' ', '\n', '\t', '\r']) string (tokenize string delimiters) := by
  unfold tokenize
  cases delimiters with
  | none =>
    simp only [Option.getD_none]
    rw [if_pos (by simp)]
    have hmem : ∀ c, c ∈ ['\t', '\n', '\r', ' '] ↔ c ∈ [' ', '\n', '\t', '\r'] := by
      intro c; simp only [List.mem_cons, List.not_mem_nil, or_false]
      constructor
      · rintro (h | h | h | h) <;> simp [h]
      · rintro (h | h | h | h) <;> simp [h]
    have hgo : ∀ {s ts}, Tokens ['\t', '\n', '\r', ' '] s ts → Tokens [' ', '\n', '\t', '\r'] s ts := by
      intro s ts h
      induction h with
      | last h => exact Tokens.last (fun c hc hd => h c hc ((hmem c).mpr hd))
      | cut h hd _ ih => exact Tokens.cut (fun c hc hd => h c hc ((hmem c).mpr hd)) ((hmem _).mp hd) ih
    exact hgo (tokens_reSplit _ _)
  | some ds =>
    have : ds ≠ [] := fun e => h (by rw [e])
    simp only [Option.getD_some]
    rw [if_pos this]
    exact tokens_reSplit ds string

/-- No token has a delimiter, and there is one token more than there are delimiters in the string. -/
theorem C76_tokenize_tokens {ds s : Str} {ts : List Str} (h : Tokens ds s ts) :
    (∀ t ∈ ts, ∀ c ∈ t, c ∉ ds) ∧ ts.length = s.countP (· ∈ ds) + 1 ∧
      ts.flatten = s.filter (· ∉ ds) := by
  have hz : ∀ {t : Str}, (∀ c ∈ t, c ∉ ds) → t.countP (· ∈ ds) = 0 ∧ t.filter (· ∉ ds) = t := by
    intro t ht
    exact ⟨List.countP_eq_zero.mpr (by simpa using ht), List.filter_eq_self.mpr (by simpa using ht)⟩
  induction h with
  | last h =>
    obtain ⟨h1, h2⟩ := hz h
    exact ⟨by simpa using h, by simp only [h1]; rfl, by simp only [h2]; simp⟩
  | @cut t r d ts h hd hr ih =>
    obtain ⟨i1, i2, i3⟩ := ih
    obtain ⟨h1, h2⟩ := hz h
    refine ⟨?_, ?_, ?_⟩
    · intro t' ht'
      rcases List.mem_cons.mp ht' with rfl | ht'
      · exact h
      · exact i1 t' ht'
    · rw [List.countP_append, h1, List.countP_cons]
      simp [hd, i2]
    · rw [List.filter_append, h2, List.filter_cons]
      simp [hd, i3]

/-- With an empty second argument there is a token for every character. -/
theorem C76_characters (string : Str) :
    split string (some []) = string.map ([·]) ∧ tokenize string (some []) = string.map ([·]) := by
  simp [split, tokenize]

example : split (s!! "aaabaa") (some (s!! "aa")) = [[], s!! "ab", []] := by decide
example : tokenize (s!! "2001-06-03T11:40") (some (s!! "-T:")) =
    [s!! "2001", s!! "06", s!! "03", s!! "11", s!! "40"] := by decide
example : tokenize (s!! "a,b^c]d") (some (s!! "],-^")) = [s!! "a", s!! "b", s!! "c", s!! "d"] := by decide

/-! ## replace -/

/-- str:replace replaces every occurrence of a search string by its node: longer search strings first, and then
in the order of the second argument; what is replaced is not looked at again. -/
theorem C76_replace {M : Type} (string : Str) (search : Arg Str) (repl : Arg (Repl M)) :
    Replaced string search repl (replace string search repl).1 :=
  replaced_replace string search repl

theorem normal_unique {M : Type} : ∀ (a b : List (Ev M)), Normal a → Normal b → flat a = flat b → a = b
  | [], [], _, _, _ => rfl
  | [], .node _ :: _, _, _, h => by simp [flat] at h
  | .node _ :: _, [], _, _, h => by simp [flat] at h
  | [], [.text s], _, hb, h => by simp [flat] at h; exact absurd h hb
  | [], .text s :: .node _ :: _, _, hb, h => by simp [flat] at h
  | _, .text _ :: .text _ :: _, _, hb, _ => absurd hb (by simp [Normal])
  | .text _ :: .text _ :: _, _, ha, _, _ => absurd ha (by simp [Normal])
  | [.text s], [], ha, _, h => by simp [flat] at h; exact absurd h ha
  | .text s :: .node _ :: _, [], ha, hb, h => by simp [flat] at h
  | .node m :: a, .node m' :: b, ha, hb, h => by
      simp only [flat, List.cons.injEq, Sum.inr.injEq] at h
      rw [h.1, normal_unique a b (by simpa [Normal] using ha) (by simpa [Normal] using hb) h.2]
  | [.text s], .node m :: b, ha, _, h => by
      cases s with
      | nil => exact absurd rfl ha
      | cons => simp [flat] at h
  | .text s :: .node _ :: _, .node m :: b, ha, _, h => by
      cases s with
      | nil => exact absurd rfl ha.1
      | cons => simp [flat] at h
  | .node m :: b, [.text s], _, ha, h => by
      cases s with
      | nil => exact absurd rfl ha
      | cons => simp [flat] at h
  | .node m :: b, .text s :: .node _ :: _, _, ha, h => by
      cases s with
      | nil => exact absurd rfl ha.1
      | cons => simp [flat] at h
  | [.text s], [.text t], _, _, h => by
      simp only [flat, List.append_nil] at h
      have := List.map_inj_right (f := (Sum.inl : Char → Char ⊕ M)) (by simp) |>.mp h
      rw [this]
  | .text s :: .node m :: a, .text t :: l, ha, hb, h => by
      have key : ∀ (s t : Str) (x : Flat M) (y : Flat M), s.map .inl ++ .inr m :: x = t.map .inl ++ y →
          (∀ c y', y ≠ .inl c :: y') → s = t ∧ .inr m :: x = y := by
        intro s
        induction s with
        | nil =>
          intro t x y e hy
          cases t with
          | nil => exact ⟨rfl, e⟩
          | cons c t => simp at e
        | cons c s ih =>
          intro t x y e hy
          cases t with
          | nil => exact absurd e.symm (hy c _)
          | cons d t =>
            simp only [List.map_cons, List.cons_append, List.cons.injEq, Sum.inl.injEq] at e
            obtain ⟨h1, h2⟩ := ih t x y e.2 hy
            exact ⟨by rw [e.1, h1], h2⟩
      have hl : ∀ c y', flat l ≠ Sum.inl c :: y' := by
        intro c y'
        cases l with
        | nil => simp [flat]
        | cons e l =>
          cases e with
          | text => exact absurd hb (by simp [Normal])
          | node => simp [flat]
      obtain ⟨h1, h2⟩ := key s t (flat a) (flat l) (by simpa [flat] using h) hl
      cases l with
      | nil => simp [flat] at h2
      | cons e l =>
        cases e with
        | text => exact absurd hb (by simp [Normal])
        | node m' =>
          simp only [flat, List.cons.injEq, Sum.inr.injEq] at h2
          rw [h1, h2.1, normal_unique a l ha.2 hb.2 h2.2]
  | [.text s], .text t :: .node m :: a, hb, ha, h => by
      have key : ∀ (s t : Str) (x : Flat M), t.map .inl ++ .inr m :: x ≠ s.map .inl := by
        intro s t x e
        have : (Sum.inr m : Char ⊕ M) ∈ s.map Sum.inl := by rw [← e]; simp
        simp at this
      exact absurd (by simpa [flat] using h.symm) (key s t (flat a))

/-- This determines the result. -/
theorem C76_replace_unique {M : Type} {string : Str} {search : Arg Str} {repl : Arg (Repl M)} {r r' : List (Ev M)}
    (h : Replaced string search repl r) (h' : Replaced string search repl r') : r = r' := by
  obtain ⟨ps, g, hd, hg, hn, hf⟩ := h
  obtain ⟨ps', g', hd', hg', hn', hf'⟩ := h'
  have hps := divided_unique hd hd'
  subst hps
  have : g = g' := by
    rcases hg with ⟨h1, h2⟩ | ⟨i, h1, h2, h3⟩ <;> rcases hg' with ⟨h1', h2'⟩ | ⟨i', h1', h2', h3'⟩
    · rw [h2, h2']
    · exact absurd rfl (h1 [] (List.mem_of_getElem? h1'))
    · exact absurd rfl (h1' [] (List.mem_of_getElem? h1))
    · have : i = i' := by
        rcases Nat.lt_trichotomy i i' with h | h | h
        · exact absurd h1 (h2' i h)
        · exact h
        · exact absurd h1' (h2 i' h)
      rw [h3, h3', this]
  subst this
  exact normal_unique r r' hn hn' (hf.trans hf'.symm)

/-- If no search string occurs in the string, it is returned as it is. -/
theorem C76_replace_none {M : Type} (string : Str) (search : Arg Str) (repl : Arg (Repl M))
    (h : ∀ w ∈ strings search, w ≠ [] ∧ ∀ k, ¬ IsAt w string k) (hs : string ≠ []) :
    (replace string search repl).1 = [.text string] := by
  refine C76_replace_unique (C76_replace string search repl) ⟨string.map .kept, [], ⟨?_, ?_, ?_⟩, ?_, hs, ?_⟩
  · exact source_kept _ _
  · intro i hi; simp at hi
  · intro j w k hj _ hk
    exact absurd hk ((h w (List.mem_of_getElem? hj)).2 k)
  · exact Or.inl ⟨fun w hw => (h w hw).1, rfl⟩
  · rw [replaced_kept]; simp [flat]

/-- The third argument is not changed if there are no attributes and namespace nodes in it. -/
theorem C76_argument_partial {M : Type} (string : Str) (search : Arg Str) (repl : Arg (Repl M))
    (h : ∀ l, repl = .nodes l → ∀ r ∈ l, r.outside = false) : (replace string search repl).2 = repl := by
  cases repl with
  | other s => rfl
  | nodes l =>
    have h := h l rfl
    show Arg.nodes (overwrite l) = Arg.nodes l
    congr 1
    induction l with
    | nil => rfl
    | cons r l ih =>
      rw [overwrite, if_neg (by simp [h r List.mem_cons_self]), ih (fun l' e r hr => h r ?_)]
      · intro r' hr'; exact h r' (List.mem_cons_of_mem _ hr')
      · cases e; exact List.mem_cons_of_mem _ hr

/-- Attributes in the node-set of a variable are replaced in the value of the variable. -/
theorem C76_refuted_argument : ∃ (string : Str) (search : Arg Str) (repl : Arg (Repl Nat)),
    (replace string search repl).2 ≠ repl :=
  ⟨s!! "abc", .other (s!! "b"), .nodes [{ copy := [.node 7], outside := true }], by decide⟩

example : (replace (s!! "xaabaay") (.nodes [s!! "a", s!! "aab", s!! "y"])
    (.nodes [{ copy := [.node 1], outside := false }, { copy := [.text (s!! "Z")], outside := false }])).1 =
    [.text (s!! "xZ"), .node 1, .node 1] := by decide
example : (replace (M := Nat) (s!! "abc") (.other []) (.other (s!! "-"))).1 = [.text (s!! "a-b-c")] := by decide
example : (∀ w ∈ strings (.other (s!! "b")), w ≠ [] ∧ ∀ k, ¬ IsAt w (s!! "acd") k) := by
  intro w hw
  simp only [strings, List.mem_singleton] at hw
  subst hw
  refine ⟨by simp, ?_⟩
  rintro k ⟨a, b, h, -⟩
  have : 'b' ∈ (s!! "acd") := by rw [h]; simp
  exact absurd this (by decide)

/-! ## encode-uri and decode-uri -/

/-- str:encode-uri and str:decode-uri fail for all arguments. -/
theorem C76_refuted_uri (uri : Str) (b : Bool) (e : Option Str) :
    encodeUri uri b e = .error .nameError ∧ decodeUri uri e = .error .nameError := ⟨rfl, rfl⟩

end Verif.Xslt.ExsltStr
