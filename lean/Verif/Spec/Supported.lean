import Verif.Spec.Range
import Verif.Spec.Same
import Verif.Spec.Short
import Verif.Model.History
/-
Specification: the requests for which the verdicts of the code are claimed to be right.  Conditions on what the caller wrote.
-/
namespace BeTree.Spec
open BeTree

/-- a request free of the constructions on which the code is wrong about a single expression (see the parts) -/
structure Supported (decls : List (Str × Decl × Bool)) (q : Req) : Prop where
  inRange : Expr.InRange q.expr
  consts : ConstantsInRange q.consts
  clocked : Clocked q.expr
  short : ShortSafe (Optional decls) false q.expr

end BeTree.Spec
