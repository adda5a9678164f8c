import Verif.Model.Types
import Verif.Model.Config
/-
Specification: the expressions on which the undefined-variable shortcut is right.  Conditions on the expression as written.
-/
namespace BeTree.Spec
open BeTree

/-- the attribute names a predicate mentions -/
def predNames : Pred → List Str
  | .compare _ v _ => [v.attr]
  | .equality _ v _ => [v.attr]
  | .boolVar v => [v.attr]
  | .boolLit _ => []
  | .set _ l r =>
    (match l with | .var v => [v.attr] | _ => []) ++ (match r with | .var v => [v.attr] | _ => [])
  | .list _ v _ => [v.attr]
  | .freq f => [f.attr.attr, f.now.attr]
  | .segment s => [s.attr.attr, s.now.attr]
  | .geo g => [g.latVar.attr, g.lonVar.attr]
  | .str s => [s.attr.attr]
  | .isNull _ v => [v.attr]

/-- the attribute names an expression mentions -/
def exprNames : Expr → List Str
  | .leaf p => predNames p
  | .not e => exprNames e
  | .and l r => exprNames l ++ exprNames r
  | .or l r => exprNames l ++ exprNames r

/-- a declared attribute that events may leave undefined -/
def Optional (decls : List (Str × Decl × Bool)) (name : Str) : Prop :=
  ∃ d ∈ decls, d.1 = name.map Char.toLower ∧ d.2.2 = true

/-- no `not` and no `is null` inside -/
def Positive : Expr → Prop
  | .leaf (.isNull .isNull _) => False
  | .leaf _ => True
  | .not _ => False
  | .and l r => Positive l ∧ Positive r
  | .or l r => Positive l ∧ Positive r

/-- Where the shortcut agrees with evaluation.  `odd`: below an odd number of `not`s.
* `within_frequency_cap` below an even number of `not`s: the clock attribute is mandatory;
* below an odd number of `not`s, the operands of an `or` mention no optional attribute, and those of an `and` mention none
  or are positive.
Without these conditions the code is wrong: `C09_*` counter-examples. -/
def ShortSafe (opt : Str → Prop) : Bool → Expr → Prop
  | odd, .leaf (.freq f) => odd = false → ¬ opt f.now.attr
  | _, .leaf _ => True
  | odd, .not e => ShortSafe opt (!odd) e
  | odd, .and l r =>
    ShortSafe opt odd l ∧ ShortSafe opt odd r ∧
      (odd = true → (Positive l ∧ Positive r) ∨ ∀ n ∈ exprNames l ++ exprNames r, ¬ opt n)
  | odd, .or l r =>
    ShortSafe opt odd l ∧ ShortSafe opt odd r ∧ (odd = true → ∀ n ∈ exprNames l ++ exprNames r, ¬ opt n)

end BeTree.Spec
