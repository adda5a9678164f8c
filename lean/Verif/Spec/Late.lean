import Verif.Model.Late
import Verif.Spec.Short
/-
Specification: histories in which variables are declared between the other calls, and the same history with all declarations
first.
-/
namespace BeTree.Spec
open BeTree

/-- the names a predicate must have declared for an expression to be taken (the position of a geo function is not looked at) -/
def requiredPred : Pred → List Str
  | .geo _ => []
  | .set _ (.var v) _ => [v.attr]
  | .set _ _ (.var v) => [v.attr]
  | p => predNames p

/-- the same for an expression -/
def required : Expr → List Str
  | .leaf p => requiredPred p
  | .not e => required e
  | .and l r => required l ++ required r
  | .or l r => required l ++ required r

/-- the names of a call -/
def opNames : Op → List Str
  | .insert q => exprNames q.expr
  | .makeSub q => exprNames q.expr
  | .insertSub _ => []
  | .changeBoundaries e => exprNames e

/-- the names a call is refused without -/
def opRequired : Op → List Str
  | .insert q => required q.expr
  | .makeSub q => required q.expr
  | .insertSub _ => []
  | .changeBoundaries _ => []

/-- the declarations of a history, in order -/
def declarations : List LateOp → List (Str × Decl × Bool)
  | [] => []
  | .declare name d u :: os => (name, d, u) :: declarations os
  | .op _ :: os => declarations os

/-- every name of the call is declared (names are looked up in lower case), and none of its exact spellings is the name of a
later declaration unless it is declared already -/
def AllDeclared (names later : List Str) (o : Op) : Prop :=
  ∀ x ∈ opNames o, x.map Char.toLower ∈ names ∧ (x ∈ names ∨ x ∉ later)

instance (names later : List Str) (o : Op) : Decidable (AllDeclared names later o) := by unfold AllDeclared; infer_instance

/-- the call is refused: a name it requires is not declared -/
def LacksDeclaration (names : List Str) (o : Op) : Prop :=
  ∃ x ∈ opRequired o, x.map Char.toLower ∉ names

instance (names : List Str) (o : Op) : Decidable (LacksDeclaration names o) := by unfold LacksDeclaration; infer_instance

/-- At every call, either all its names are declared or it is refused for want of a declaration.  `names`: declared so far. -/
def Timely : List Str → List LateOp → Prop
  | _, [] => True
  | names, .declare name _ _ :: os => Timely (names ++ [name]) os
  | names, .op o :: os => (AllDeclared names ((declarations os).map (·.1)) o ∨ LacksDeclaration names o) ∧ Timely names os

instance decTimely : (names : List Str) → (ls : List LateOp) → Decidable (Timely names ls)
  | _, [] => isTrue trivial
  | names, .declare name _ _ :: os => decTimely (names ++ [name]) os
  | names, .op _ :: os =>
    have := decTimely names os
    instDecidableAnd

/-- the calls of a history that were not refused for want of a declaration -/
def accepted : List Str → List LateOp → List Op
  | _, [] => []
  | names, .declare name _ _ :: os => accepted (names ++ [name]) os
  | names, .op o :: os => if LacksDeclaration names o then accepted names os else o :: accepted names os

end BeTree.Spec
