import Verif.Content.Model
/-
What a content model means: the regular language it denotes.
-/
namespace Verif.Content.Spec
open Verif.Content
variable {A : Type}

abbrev Lang (A : Type) := List A → Prop

/-- Zero or more words of `L`, one after the other. -/
inductive Star (L : Lang A) : Lang A
  | nil : Star L []
  | cons {u v : List A} : L u → Star L v → Star L (u ++ v)

def opt (L : Lang A) : Lang A := fun w => w = [] ∨ L w
def plus (L : Lang A) : Lang A := fun w => ∃ u v, w = u ++ v ∧ L u ∧ Star L v

def quantify : Quant → Lang A → Lang A
  | .none, L => L
  | .opt, L => opt L
  | .rep, L => Star L
  | .plus, L => plus L

mutual
/-- The language of a content model: a name stands for itself, a sequence for concatenation, an alternative for
union, and `?`, `*`, `+` for optional, repeated, and repeated at least once. -/
def lang : Content A → Lang A
  | .name e q => quantify q (fun w => w = [e])
  | .seq l q => quantify q (langSeq l)
  | .alt l q => quantify q (langAlt l)
def langSeq : List (Content A) → Lang A
  | [] => fun w => w = []
  | c :: cs => fun w => ∃ u v, w = u ++ v ∧ lang c u ∧ langSeq cs v
def langAlt : List (Content A) → Lang A
  | [] => fun _ => False
  | c :: cs => fun w => lang c w ∨ langAlt cs w
end

mutual
/-- No sequence inside the content model is empty. -/
def NoEmptySeq : Content A → Prop
  | .name _ _ => True
  | .seq l _ => l ≠ [] ∧ NoEmptySeqs l
  | .alt l _ => NoEmptySeqs l
def NoEmptySeqs : List (Content A) → Prop
  | [] => True
  | c :: cs => NoEmptySeq c ∧ NoEmptySeqs cs
end

mutual
/-- No alternative inside the content model is without choices. -/
def NoEmptyAlt : Content A → Prop
  | .name _ _ => True
  | .seq l _ => NoEmptyAlts l
  | .alt l _ => l ≠ [] ∧ NoEmptyAlts l
def NoEmptyAlts : List (Content A) → Prop
  | [] => True
  | c :: cs => NoEmptyAlt c ∧ NoEmptyAlts cs
end

mutual
/-- The events named in a content model. -/
def Names : Content A → List A
  | .name e _ => [e]
  | .seq l _ => NamesL l
  | .alt l _ => NamesL l
def NamesL : List (Content A) → List A
  | [] => []
  | c :: cs => Names c ++ NamesL cs
end

end Verif.Content.Spec
