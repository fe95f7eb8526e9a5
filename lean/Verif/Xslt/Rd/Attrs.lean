import Verif.Xslt.Rd.Spec
/-
The attributes of an element: what the reader accepts is what the specification calls valid.
-/
namespace Verif.Xslt.Rd
open Verif.Content
open Verif.Write (UStr)
open Verif.Names (isQName splitQName)

variable {N : Type}

theorem find_eq {K V : Type} [DecidableEq K] (k : K) (l : List (K × V)) : Spec.find k l = lookup k l := by
  induction l with
  | nil => rfl
  | cons x l ih => 
    obtain ⟨a, v⟩ := x
    by_cases h : k = a
    · subst h; simp [Spec.find, lookup]
    · have h' : ¬ a = k := fun e => h e.symm
      simp [Spec.find, lookup, h, h', ih]

def IsOk {ε α : Type} (x : Except ε α) : Prop := ∃ a, x = .ok a

@[simp] theorem isOk_ok {ε α : Type} (a : α) : IsOk (.ok a : Except ε α) := ⟨a, rfl⟩
@[simp] theorem isOk_error {ε α : Type} (e : ε) : ¬ IsOk (.error e : Except ε α) := fun ⟨_, h⟩ => nomatch h

theorem prepareAll_ok {α : Type} {f : UStr → Except Err α} {p : UStr → Bool} (h : ∀ w, IsOk (f w) ↔ p w = true)
    (ws : List UStr) : IsOk (prepareAll f ws) ↔ ws.all p = true := by
  induction ws with
  | nil => simp [prepareAll]
  | cons w ws ih =>
    rw [prepareAll, List.all_cons, Bool.and_eq_true, ← ih, ← h]
    cases hf : f w with
    | error e => simp
    | ok a =>
      cases hg : prepareAll f ws with
      | error e => simp
      | ok as => simp

theorem preparePrefix_ok (w : UStr) : IsOk (preparePrefix w) ↔ Spec.isPrefix w = true := by
  unfold preparePrefix Spec.isPrefix
  split
  · simp_all
  · split
    · simp_all
    · split <;> simp_all

theorem preparePrefix_eq {w : UStr} {p : Option UStr} (h : preparePrefix w = .ok p) : p = Spec.prefixOf w := by
  unfold preparePrefix at h
  unfold Spec.prefixOf
  split at h
  · cases h
  · split at h
    · cases h
    · split at h
      · rename_i h'; cases h; simp [h']
      · rename_i h'; cases h; simp [h']

theorem prepareAll_eq {α : Type} {f : UStr → Except Err α} {g : UStr → α} (h : ∀ w a, f w = .ok a → a = g w)
    {ws : List UStr} {as : List α} (ha : prepareAll f ws = .ok as) : as = ws.map g := by
  induction ws generalizing as with
  | nil => cases ha; rfl
  | cons w ws ih =>
    rw [prepareAll] at ha
    cases hf : f w with
    | error e => rw [hf] at ha; cases ha
    | ok a =>
      rw [hf] at ha
      cases hg : prepareAll f ws with
      | error e => rw [hg] at ha; cases ha
      | ok bs => rw [hg] at ha; cases ha; rw [ih hg, h w a hf]; rfl

theorem prepareQName_ok (nss : Nss) (w : UStr) : IsOk (prepareQName nss w) ↔ Spec.boundQName nss w = true := by
  unfold prepareQName Spec.boundQName
  cases hq : isQName w with
  | false => simp
  | true =>
    generalize splitQName w = s
    obtain ⟨p, l⟩ := s
    cases p with
    | none => simp
    | some p =>
      simp only [find_eq]
      cases hl : lookup (some p) nss with
      | none => simp [hl]
      | some u => simp [hl]

theorem beforeLastColon_eq (w : UStr) : beforeLastColon w =
    if ':'.toNat ∈ w then some (w.reverse.dropWhile (· ≠ ':'.toNat)).tail.reverse else none := by
  unfold beforeLastColon
  cases h : w.reverse.dropWhile (· ≠ ':'.toNat) with
  | nil =>
    rw [if_neg]
    intro hm
    have h2 : ∀ l : List Nat, ':'.toNat ∈ l → l.dropWhile (· ≠ ':'.toNat) ≠ [] := by
      intro l
      induction l with
      | nil => intro h; exact absurd h (by simp)
      | cons a l ih =>
        intro hm
        by_cases ha : a = ':'.toNat
        · rw [List.dropWhile_cons, if_neg (by simp [ha])]; simp
        · rw [List.dropWhile_cons, if_pos (by simpa using ha)]
          exact ih ((List.mem_cons.1 hm).resolve_left (fun e => ha e.symm))
    exact h2 _ (List.mem_reverse.2 hm) h
  | cons a r =>
    rw [if_pos]
    · rfl
    · have h1 : a ∈ w := by
        have : a ∈ w.reverse.dropWhile (· ≠ ':'.toNat) := by rw [h]; simp
        exact List.mem_reverse.1 ((List.dropWhile_sublist _).mem this)
      have h2 := List.head?_dropWhile_not (p := (· ≠ ':'.toNat)) (l := w.reverse)
      rw [h] at h2
      simp at h2
      show (58 : Nat) ∈ w
      rw [← h2]; exact h1

theorem prepareToken_ok (nss : Nss) (w : UStr) : IsOk (prepareToken nss w) ↔ Spec.boundToken nss w = true := by
  unfold prepareToken Spec.boundToken
  rw [beforeLastColon_eq]
  by_cases h : ':'.toNat ∈ w
  · simp only [h, if_true, find_eq]
    generalize (List.dropWhile (fun x => decide (x ≠ ':'.toNat)) w.reverse).tail.reverse = p
    cases hl : lookup (some p) nss with
    | none => simp
    | some u => simp
  · simp only [h, if_false]
    simp

/-- The values that are accepted are the valid ones. -/
theorem prepareStr_ok (H : Hooks N) (nss : Nss) (t : AttrType) (v : UStr) :
    IsOk (prepareStr H nss t v) ↔ Spec.valid H nss t v = true := by
  induction t with
  | id => unfold prepareStr Spec.valid; split <;> simp_all
  | «prefix» => 
    simp only [prepareStr, Spec.valid, ← preparePrefix_ok]
    cases preparePrefix v <;> simp
  | prefixes =>
    simp only [prepareStr, Spec.valid, ← prepareAll_ok preparePrefix_ok]
    cases prepareAll preparePrefix (H.words v) <;> simp
  | number =>
    simp only [prepareStr, Spec.valid]
    cases H.float v <;> simp
  | qname =>
    simp only [prepareStr, Spec.valid, ← prepareQName_ok]
    cases prepareQName nss v <;> simp
  | qnames =>
    simp only [prepareStr, Spec.valid, ← prepareAll_ok (prepareQName_ok nss)]
    cases prepareAll (prepareQName nss) (H.words v) <;> simp
  | rawQname => simp only [prepareStr, Spec.valid]; split <;> simp_all
  | tokens =>
    simp only [prepareStr, Spec.valid, ← prepareAll_ok (prepareToken_ok nss)]
    cases prepareAll (prepareToken nss) (H.words v) <;> simp
  | uri => simp [prepareStr, Spec.valid]
  | namespaceUri =>
    simp only [prepareStr, Spec.valid]
    by_cases h1 : v = xmlNs <;> by_cases h2 : v = xmlnsNs <;> simp [h1, h2]
  | expression => simp only [prepareStr, Spec.valid]; split <;> simp_all
  | pattern => simp only [prepareStr, Spec.valid]; split <;> simp_all
  | string => simp [prepareStr, Spec.valid]
  | char => 
    simp only [prepareStr, Spec.valid]
    split
    · simp; omega
    · simp; omega
  | nmtoken => simp only [prepareStr, Spec.valid]; split <;> simp_all
  | ncname => 
    simp only [prepareStr, Spec.valid]
    by_cases h1 : v = [] <;> by_cases h2 : ':'.toNat ∈ v <;> simp only [h1, h2] <;> simp [h1]
  | yesno => simp only [prepareStr, Spec.valid]; split <;> simp_all
  | choice vs => simp only [prepareStr, Spec.valid]; split <;> simp_all
  | avt t ih =>
    simp only [prepareStr, Spec.valid]
    by_cases h : '{'.toNat ∈ v ∨ '}'.toNat ∈ v
    · rw [if_pos h, if_pos (show (decide _ || decide _) = true by simpa using h)]
      cases H.avt v <;> simp
    · rw [if_neg h, if_neg (show ¬ (decide _ || decide _) = true by simpa using h)]
      exact ih

/-- A default that needs no parsing, or the expression `.`. -/
def plainDefault (i : AttrInfo) : Bool :=
  i.default.isNone || (match i.type with
    | .expression => i.default = some (u!! ".")
    | .pattern | .qname | .rawQname | .avt .expression | .avt .pattern | .avt .qname | .avt .rawQname | .avt (.avt _) => false
    | _ => true)

theorem prepareDefault_ok (H : Hooks N) (hd : H.expression (u!! ".") = true) (nss : Nss) (i : AttrInfo)
    (h : plainDefault i = true) : IsOk (prepareDefault H nss i.type i.default) := by
  have none_ok : ∀ t, IsOk (prepareDefault H nss t none) := by
    intro t
    induction t with
    | avt t ih => exact ih
    | _ => simp [prepareDefault]
  obtain ⟨t, r, d⟩ := i
  cases d with
  | none => exact none_ok t
  | some d =>
    cases t with
    | expression =>
      simp [plainDefault] at h
      subst h
      simp [prepareDefault, prepareStr, hd]
    | avt t => cases t <;> simp_all [plainDefault, prepareDefault]
    | _ => simp_all [plainDefault, prepareDefault]

/-- The prefixes of an attribute value. -/
theorem prefixUris_ok (nss : Nss) (ps : List (Option UStr)) :
    IsOk (prefixUris nss ps) ↔ ps.all (fun p => (lookup p nss).isSome) = true := by
  induction ps with
  | nil => simp [prefixUris]
  | cons p ps ih =>
    rw [prefixUris, List.all_cons, Bool.and_eq_true, ← ih]
    cases lookup p nss with
    | none => simp
    | some u => cases prefixUris nss ps <;> simp

theorem prefixUris_eq {nss : Nss} {ps us : List (Option UStr)} (h : prefixUris nss ps = .ok us) :
    us = ps.filterMap (fun p => lookup p nss) := by
  induction ps generalizing us with
  | nil => cases h; rfl
  | cons p ps ih =>
    rw [prefixUris] at h
    cases hl : lookup p nss with
    | none => rw [hl] at h; cases h
    | some u =>
      rw [hl] at h
      cases hp : prefixUris nss ps with
      | error e => rw [hp] at h; cases h
      | ok vs => rw [hp] at h; cases h; rw [List.filterMap_cons_some (f := fun p => lookup p nss) hl, ih hp]

end Verif.Xslt.Rd
