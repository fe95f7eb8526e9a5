import Verif.Parse.XPathLang
/-
How the two dialects of the grammar are related.
-/
namespace Verif.Parse
open Spec

/-- A more permissive dialect has more phrases. -/
theorem phrase_mono {d d' : Dialect} (ha1 : d.minusMinus = true → d'.minusMinus = true)
    (ha2 : d.anyLiteral = true → d'.anyLiteral = true) {s : Sym} {w : List Tok}
    (h : Phrase d s w) : Phrase d' s w := by
  induction h with
  | p1a h1 i1 => exact .p1a i1
  | p1b h1 i1 => exact .p1b i1
  | p2a h1 => exact .p2a h1
  | p2b h1 h2 i2 => exact .p2b h1 i2
  | p2c h1 i1 => exact .p2c i1
  | p3a h1 i1 => exact .p3a i1
  | p3b h1 h2 h3 i1 i3 => exact .p3b i1 h2 i3
  | p3c h1 i1 => exact .p3c i1
  | p4a h1 h2 h3 i1 i2 i3 => exact .p4a i1 i2 i3
  | p4b h1 i1 => exact .p4b i1
  | none => exact .none
  | some h1 h2 i1 i2 => exact .some i1 i2
  | p5a h1 h2 => exact .p5a h1 h2
  | p5b h1 i1 => exact .p5b i1
  | p7a h1 => exact .p7a h1
  | p7b h1 h2 h3 => exact .p7b h1 h2 h3
  | p7c h1 ha h2 h3 h4 => exact .p7c h1 (ha.imp ha2 id) h2 h3 h4
  | p8 h1 h2 h3 i2 => exact .p8 h1 i2 h3
  | p9 h1 i1 => exact .p9 i1
  | p10 h1 h2 i2 => exact .p10 h1 i2
  | p11 h1 h2 h3 i1 i3 => exact .p11 i1 h2 i3
  | p12a h1 => exact .p12a h1
  | p12b h1 => exact .p12b h1
  | p13a h1 => exact .p13a h1
  | p13b => exact .p13b
  | p14 h1 i1 => exact .p14 i1
  | p15a h1 => exact .p15a h1
  | p15b h1 h2 h3 i2 => exact .p15b h1 i2 h3
  | p15c h1 => exact .p15c h1
  | p15d h1 => exact .p15d h1
  | p15e h1 i1 => exact .p15e i1
  | p16a h1 h2 h3 => exact .p16a h1 h2 h3
  | p16b h1 h2 h3 h4 i3 => exact .p16b h1 h2 i3 h4
  | one h1 i1 => exact .one i1
  | more h1 h2 h3 i1 i3 => exact .more i1 h2 i3
  | p17 h1 i1 => exact .p17 i1
  | p18a h1 i1 => exact .p18a i1
  | p18b h1 h2 h3 i1 i3 => exact .p18b i1 h2 i3
  | p19a h1 i1 => exact .p19a i1
  | p19b h1 i1 => exact .p19b i1
  | p19c h1 h2 h3 i1 i3 => exact .p19c i1 h2 i3
  | p19d h1 h2 h3 i1 i3 => exact .p19d i1 h2 i3
  | p20a h1 i1 => exact .p20a i1
  | p20b h1 h2 i1 i2 => exact .p20b i1 i2
  | p21a h1 i1 => exact .p21a i1
  | p21b h1 h2 h3 i1 i3 => exact .p21b i1 h2 i3
  | p22a h1 i1 => exact .p22a i1
  | p22b h1 h2 h3 i1 i3 => exact .p22b i1 h2 i3
  | p23a h1 i1 => exact .p23a i1
  | p23b h1 h2 h3 i1 i3 => exact .p23b i1 h2 i3
  | p24a h1 i1 => exact .p24a i1
  | p24b h1 h2 h3 i1 i3 => exact .p24b i1 h2 i3
  | p25a h1 i1 => exact .p25a i1
  | p25b h1 h2 h3 i1 i3 => exact .p25b i1 h2 i3
  | p25c h1 h2 h3 i1 i3 => exact .p25c i1 h2 i3
  | p26a h1 i1 => exact .p26a i1
  | p26b h1 h2 h3 i1 i3 => exact .p26b i1 h2 i3
  | p27a h1 i1 => exact .p27a i1
  | p27b ha h1 h2 i2 => exact .p27b (ha1 ha) h1 i2
  | p27c h1 h2 i2 => exact .p27c h1 i2

namespace Spec

/-- The two tokens after every node type are there, and the second is a literal
only after `processing-instruction`. -/
def Told (w : List Tok) : Prop :=
  ∀ a t b, w = a ++ t :: b → Is .nodeType t →
    ∃ l x b', b = l :: x :: b' ∧ (Is .literal x → t.text = piName)

end Spec

theorem told_nil : Told [] := by
  intro a t b h
  cases a <;> exact (nomatch h)

theorem Spec.Told.append {u v : List Tok} (hu : Told u) (hv : Told v) : Told (u ++ v) := by
  intro a t b h ht
  rcases List.append_eq_append_iff.mp h with ⟨c, rfl, e⟩ | ⟨c, rfl, e⟩
  · exact hv c t b e ht
  · cases c with
    | nil => exact hv [] t b e.symm ht
    | cons x c =>
      injection e with e1 e2
      subst e1
      obtain ⟨l, y, b', rfl, h'⟩ := hu a t c rfl ht
      exact ⟨l, y, b' ++ v, e2, h'⟩

theorem told_one {t : Tok} {k : Term} (h : Is k t) (hk : k.num ≠ 8) : Told [t] := by
  intro a x b e hx
  cases a with
  | nil =>
    injection e with e1 e2
    subst e1
    exact absurd ((show t.kind = k.num from h).symm.trans hx) hk
  | cons _ a => cases a <;> injection e with _ e <;> exact (nomatch e)

theorem told_three {t l r : Tok} (_ : Is .nodeType t) (hl : Is .lparen l)
    (hr : Is .rparen r) : Told [t, l, r] := by
  have : Told ([l] ++ [r]) := (told_one hl nofun).append (told_one hr nofun)
  intro a x b e hx
  cases a with
  | nil =>
    injection e with e1 e2
    subst e1 e2
    exact ⟨l, r, [], rfl, fun h => nomatch (show r.kind = 20 from hr).symm.trans h⟩
  | cons _ a =>
    injection e with _ e
    exact this a x b e hx

theorem told_four {t l x r : Tok} (_ : Is .nodeType t) (hp : t.text = piName)
    (hl : Is .lparen l) (hx : Is .literal x) (hr : Is .rparen r) : Told [t, l, x, r] := by
  have : Told ([l] ++ ([x] ++ [r])) :=
    (told_one hl nofun).append ((told_one hx nofun).append (told_one hr nofun))
  intro a y b e hy
  cases a with
  | nil =>
    injection e with e1 e2
    subst e1 e2
    exact ⟨l, x, [r], rfl, fun _ => hp⟩
  | cons _ a =>
    injection e with _ e
    exact this a y b e hy

/-- Phrases of the recommendation are told. -/
theorem phrase_told {d : Dialect} (hd : d.anyLiteral = false) {s : Sym} {w : List Tok}
    (h : Phrase d s w) : Told w := by
  induction h with
  | p1a h1 i1 => simpa using i1
  | p1b h1 i1 => simpa using i1
  | p2a h1 => simpa using (told_one h1 nofun)
  | p2b h1 h2 i2 => simpa using ((told_one h1 nofun).append i2)
  | p2c h1 i1 => simpa using i1
  | p3a h1 i1 => simpa using i1
  | p3b h1 h2 h3 i1 i3 => simpa using (i1.append ((told_one h2 nofun).append i3))
  | p3c h1 i1 => simpa using i1
  | p4a h1 h2 h3 i1 i2 i3 => simpa using ((i1.append i2).append i3)
  | p4b h1 i1 => simpa using i1
  | none => simpa using told_nil
  | some h1 h2 i1 i2 => simpa using (i1.append i2)
  | p5a h1 h2 => simpa using ((told_one h1 nofun).append (told_one h2 nofun))
  | p5b h1 i1 => simpa using i1
  | p7a h1 => simpa using (told_one h1 nofun)
  | p7b h1 h2 h3 => exact told_three h1 h2 h3
  | p7c h1 ha h2 h3 h4 =>
    exact told_four h1 (ha.resolve_left (by rw [hd]; nofun)) h2 h3 h4
  | p8 h1 h2 h3 i2 => simpa using ((told_one h1 nofun).append (i2.append (told_one h3 nofun)))
  | p9 h1 i1 => simpa using i1
  | p10 h1 h2 i2 => simpa using ((told_one h1 nofun).append i2)
  | p11 h1 h2 h3 i1 i3 => simpa using (i1.append ((told_one h2 nofun).append i3))
  | p12a h1 => simpa using (told_one h1 nofun)
  | p12b h1 => simpa using (told_one h1 nofun)
  | p13a h1 => simpa using (told_one h1 nofun)
  | p13b => simpa using told_nil
  | p14 h1 i1 => simpa using i1
  | p15a h1 => simpa using (told_one h1 nofun)
  | p15b h1 h2 h3 i2 => simpa using ((told_one h1 nofun).append (i2.append (told_one h3 nofun)))
  | p15c h1 => simpa using (told_one h1 nofun)
  | p15d h1 => simpa using (told_one h1 nofun)
  | p15e h1 i1 => simpa using i1
  | p16a h1 h2 h3 => simpa using ((told_one h1 nofun).append ((told_one h2 nofun).append (told_one h3 nofun)))
  | p16b h1 h2 h3 h4 i3 => simpa using ((told_one h1 nofun).append ((told_one h2 nofun).append (i3.append (told_one h4 nofun))))
  | one h1 i1 => simpa using i1
  | more h1 h2 h3 i1 i3 => simpa using (i1.append ((told_one h2 nofun).append i3))
  | p17 h1 i1 => simpa using i1
  | p18a h1 i1 => simpa using i1
  | p18b h1 h2 h3 i1 i3 => simpa using (i1.append ((told_one h2 nofun).append i3))
  | p19a h1 i1 => simpa using i1
  | p19b h1 i1 => simpa using i1
  | p19c h1 h2 h3 i1 i3 => simpa using (i1.append ((told_one h2 nofun).append i3))
  | p19d h1 h2 h3 i1 i3 => simpa using (i1.append ((told_one h2 nofun).append i3))
  | p20a h1 i1 => simpa using i1
  | p20b h1 h2 i1 i2 => simpa using (i1.append i2)
  | p21a h1 i1 => simpa using i1
  | p21b h1 h2 h3 i1 i3 => simpa using (i1.append ((told_one h2 nofun).append i3))
  | p22a h1 i1 => simpa using i1
  | p22b h1 h2 h3 i1 i3 => simpa using (i1.append ((told_one h2 nofun).append i3))
  | p23a h1 i1 => simpa using i1
  | p23b h1 h2 h3 i1 i3 => simpa using (i1.append ((told_one h2 nofun).append i3))
  | p24a h1 i1 => simpa using i1
  | p24b h1 h2 h3 i1 i3 => simpa using (i1.append ((told_one h2 nofun).append i3))
  | p25a h1 i1 => simpa using i1
  | p25b h1 h2 h3 i1 i3 => simpa using (i1.append ((told_one h2 nofun).append i3))
  | p25c h1 h2 h3 i1 i3 => simpa using (i1.append ((told_one h2 nofun).append i3))
  | p26a h1 i1 => simpa using i1
  | p26b h1 h2 h3 i1 i3 => simpa using (i1.append ((told_one h2 nofun).append i3))
  | p27a h1 i1 => simpa using i1
  | p27b _ h1 h2 i2 => simpa using ((told_one h1 nofun).append i2)
  | p27c h1 h2 i2 => simpa using ((told_one h1 nofun).append i2)

namespace Spec

/-- Only `processing-instruction` is followed by a parenthesis and a literal. -/
def PiOnly (w : List Tok) : Prop :=
  ∀ a t l x b, w = a ++ t :: l :: x :: b → Is .nodeType t → Is .literal x → t.text = piName

end Spec

theorem Spec.Told.piOnly {w : List Tok} (h : Told w) : PiOnly w := by
  intro a t l x b e ht hx
  obtain ⟨l', x', b', e', h'⟩ := h a t _ e ht
  injection e' with _ e'
  injection e' with e' _
  exact h' (e' ▸ hx)

theorem Spec.PiOnly.part {w u v v' : List Tok} (h : PiOnly w) (e : w = v ++ (u ++ v')) :
    PiOnly u := by
  subst e
  intro a t l x b e ht hx
  subst e
  exact h (v ++ a) t l x (b ++ v') (by simp) ht hx

theorem Spec.PiOnly.left {u v : List Tok} (h : PiOnly (u ++ v)) : PiOnly u :=
  h.part (v := []) (v' := v) rfl

theorem Spec.PiOnly.right {u v : List Tok} (h : PiOnly (u ++ v)) : PiOnly v :=
  h.part (v := u) (v' := []) (by simp)

theorem Spec.PiOnly.tail {t : Tok} {v : List Tok} (h : PiOnly (t :: v)) : PiOnly v :=
  Spec.PiOnly.right (u := [t]) h

theorem phrase_piOnly {m : Bool} {s : Sym} {w : List Tok} (h : Phrase ⟨m, true⟩ s w)
    (ht : PiOnly w) : Phrase ⟨m, false⟩ s w := by
  induction h with
  | p1a h1 i1 => exact .p1a (i1 ht)
  | p1b h1 i1 => exact .p1b (i1 ht)
  | p2a h1 => exact .p2a h1
  | p2b h1 h2 i2 => exact .p2b h1 (i2 ht.tail)
  | p2c h1 i1 => exact .p2c (i1 ht)
  | p3a h1 i1 => exact .p3a (i1 ht)
  | p3b h1 h2 h3 i1 i3 => exact .p3b (i1 ht.left) h2 (i3 ht.right.tail)
  | p3c h1 i1 => exact .p3c (i1 ht)
  | p4a h1 h2 h3 i1 i2 i3 => exact .p4a (i1 ht.left.left) (i2 ht.left.right) (i3 ht.right)
  | p4b h1 i1 => exact .p4b (i1 ht)
  | none => exact .none
  | some h1 h2 i1 i2 => exact .some (i1 ht.left) (i2 ht.right)
  | p5a h1 h2 => exact .p5a h1 h2
  | p5b h1 i1 => exact .p5b (i1 ht)
  | p7a h1 => exact .p7a h1
  | p7b h1 h2 h3 => exact .p7b h1 h2 h3
  | p7c h1 ha h2 h3 h4 => exact .p7c h1 (.inr (ht [] _ _ _ _ rfl h1 h3)) h2 h3 h4
  | p8 h1 h2 h3 i2 => exact .p8 h1 (i2 (ht.left (u := _ :: _)).tail) h3
  | p9 h1 i1 => exact .p9 (i1 ht)
  | p10 h1 h2 i2 => exact .p10 h1 (i2 ht.tail)
  | p11 h1 h2 h3 i1 i3 => exact .p11 (i1 ht.left) h2 (i3 ht.right.tail)
  | p12a h1 => exact .p12a h1
  | p12b h1 => exact .p12b h1
  | p13a h1 => exact .p13a h1
  | p13b => exact .p13b
  | p14 h1 i1 => exact .p14 (i1 ht)
  | p15a h1 => exact .p15a h1
  | p15b h1 h2 h3 i2 => exact .p15b h1 (i2 (ht.left (u := _ :: _)).tail) h3
  | p15c h1 => exact .p15c h1
  | p15d h1 => exact .p15d h1
  | p15e h1 i1 => exact .p15e (i1 ht)
  | p16a h1 h2 h3 => exact .p16a h1 h2 h3
  | p16b h1 h2 h3 h4 i3 => exact .p16b h1 h2 (i3 (ht.left (u := _ :: _ :: _)).tail.tail) h4
  | one h1 i1 => exact .one (i1 ht)
  | more h1 h2 h3 i1 i3 => exact .more (i1 ht.left) h2 (i3 ht.right.tail)
  | p17 h1 i1 => exact .p17 (i1 ht)
  | p18a h1 i1 => exact .p18a (i1 ht)
  | p18b h1 h2 h3 i1 i3 => exact .p18b (i1 ht.left) h2 (i3 ht.right.tail)
  | p19a h1 i1 => exact .p19a (i1 ht)
  | p19b h1 i1 => exact .p19b (i1 ht)
  | p19c h1 h2 h3 i1 i3 => exact .p19c (i1 ht.left) h2 (i3 ht.right.tail)
  | p19d h1 h2 h3 i1 i3 => exact .p19d (i1 ht.left) h2 (i3 ht.right.tail)
  | p20a h1 i1 => exact .p20a (i1 ht)
  | p20b h1 h2 i1 i2 => exact .p20b (i1 ht.left) (i2 ht.right)
  | p21a h1 i1 => exact .p21a (i1 ht)
  | p21b h1 h2 h3 i1 i3 => exact .p21b (i1 ht.left) h2 (i3 ht.right.tail)
  | p22a h1 i1 => exact .p22a (i1 ht)
  | p22b h1 h2 h3 i1 i3 => exact .p22b (i1 ht.left) h2 (i3 ht.right.tail)
  | p23a h1 i1 => exact .p23a (i1 ht)
  | p23b h1 h2 h3 i1 i3 => exact .p23b (i1 ht.left) h2 (i3 ht.right.tail)
  | p24a h1 i1 => exact .p24a (i1 ht)
  | p24b h1 h2 h3 i1 i3 => exact .p24b (i1 ht.left) h2 (i3 ht.right.tail)
  | p25a h1 i1 => exact .p25a (i1 ht)
  | p25b h1 h2 h3 i1 i3 => exact .p25b (i1 ht.left) h2 (i3 ht.right.tail)
  | p25c h1 h2 h3 i1 i3 => exact .p25c (i1 ht.left) h2 (i3 ht.right.tail)
  | p26a h1 i1 => exact .p26a (i1 ht)
  | p26b h1 h2 h3 i1 i3 => exact .p26b (i1 ht.left) h2 (i3 ht.right.tail)
  | p27a h1 i1 => exact .p27a (i1 ht)
  | p27b ha h1 h2 i2 => exact .p27b ha h1 (i2 ht.tail)
  | p27c h1 h2 i2 => exact .p27c h1 (i2 ht.tail)

/-- The one difference is told by the tokens alone. -/
theorem phrase_iff {m : Bool} {s : Sym} {w : List Tok} :
    Phrase ⟨m, false⟩ s w ↔ Phrase ⟨m, true⟩ s w ∧ PiOnly w :=
  ⟨fun h => ⟨phrase_mono (d := ⟨m, false⟩) (d' := ⟨m, true⟩) id (fun _ => rfl) h, (phrase_told rfl h).piOnly⟩,
    fun h => phrase_piOnly h.1 h.2⟩

end Verif.Parse
