import Verif.Parse.AstProps
/-
Attribute value templates by XSLT 1.0, section 7.6.2, independently of the
parser for them.
-/
namespace Verif.Parse.Spec

/-- A character, or an expression with its text. -/
inductive Piece where
  | char (c : Char)
  | expr (text : Str) (e : Ast)

/-- A text as a template: characters other than braces and doubled braces stand
for themselves, a brace and an expression (a text that `parse` of
lib/xpath/parser compiles) and a closing brace for the expression. -/
inductive Template : Str → List Piece → Prop where
  | nil : Template [] []
  | char {c s ps} : c ≠ '{' → c ≠ '}' → Template s ps → Template (c :: s) (.char c :: ps)
  | left {s ps} : Template s ps → Template ('{' :: '{' :: s) (.char '{' :: ps)
  | right {s ps} : Template s ps → Template ('}' :: '}' :: s) (.char '}' :: ps)
  | expr {e a s ps} : compileExpr e = .ok a → Template s ps →
      Template ('{' :: (e ++ '}' :: s)) (.expr e a :: ps)

/-- The value of a template: the characters and the values of the expressions, in
their order; the expressions are evaluated from left to right until one of them
raises an exception. -/
def value {σ ε : Type} (ev : Ast → σ → Except ε Str × σ) : List Piece → σ → Except ε Str × σ
  | [], c => (.ok [], c)
  | .char x :: ps, c =>
    match value ev ps c with
    | (.ok s, c') => (.ok (x :: s), c')
    | (.error e, c') => (.error e, c')
  | .expr _ a :: ps, c =>
    match ev a c with
    | (.error e, c') => (.error e, c')
    | (.ok v, c') =>
      match value ev ps c' with
      | (.ok s, c'') => (.ok (v ++ s), c'')
      | (.error e, c'') => (.error e, c'')

end Verif.Parse.Spec
