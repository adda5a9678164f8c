import Verif.Spec.Ordinary
/-
Specification: trees that are taught the constants first (`betree_change_boundaries`, `betree_make_sub`), and then filled.
-/
namespace BeTree.Spec
open BeTree

/-- the requests built by `betree_make_sub`, in order -/
def built : List Op → List Req
  | [] => []
  | .makeSub q :: os => q :: built os
  | _ :: os => built os

/-- The requests put into the tree, in order, when the ones in `b` have been built: those given to `betree_insert`, and for
`betree_insert_sub` the subscription built under that number. -/
def placedFrom (b : List Req) : List Op → List Req
  | [] => []
  | .insert q :: os => q :: placedFrom b os
  | .makeSub q :: os => placedFrom (b ++ [q]) os
  | .insertSub k :: os => (b[k]?).toList ++ placedFrom b os
  | .changeBoundaries _ :: os => placedFrom b os

/-- the requests put into the tree by the calls, in order -/
def placed (ops : List Op) : List Req := placedFrom [] ops

/-- the expressions the calls teach to the tree -/
def taught : List Op → List Expr
  | [] => []
  | .makeSub q :: os => q.expr :: taught os
  | .changeBoundaries e :: os => e :: taught os
  | _ :: os => taught os

/-- each constant of the expression was taught: it occurs, for the same attribute, in one of these expressions -/
structure TaughtBy (es : List Expr) (e : Expr) : Prop where
  strs : ∀ c ∈ strConsts e, ∃ e' ∈ es, ∃ c' ∈ strConsts e', c'.1.map Char.toLower = c.1.map Char.toLower ∧ c'.2 = c.2
  ints : ∀ c ∈ enumConsts e, ∃ e' ∈ es, ∃ c' ∈ enumConsts e', c'.1.map Char.toLower = c.1.map Char.toLower ∧ c'.2 = c.2

/-- A request: as `Ordinary`, but without float attributes, and with the condition on `and`s below an odd number of `not`s for all
attributes, as teaching may give limits to attributes that have none. -/
structure TrainedReq (decls : List (Str × Decl × Bool)) (ds : List Domain) (q : Req) : Prop where
  fitting : Fitting ds q.expr
  special : SpecialTyped ds q.expr
  supplied : ∀ f ∈ caps q.expr, ∃ i, supplied q.consts f.type = some i
  noFloat : NoFloat ds q.expr
  supported : Supported decls q
  safe : BoundSafe (fun _ => True) false q.expr
  lower : LowerStrs q.expr

/-- A call: its request is as above; those that teach have integers of at most 61 bits, and no float attributes. -/
def TrainedOp (decls : List (Str × Decl × Bool)) (ds : List Domain) : Op → Prop
  | .insert q => TrainedReq decls ds q
  | .makeSub q => TrainedReq decls ds q ∧ Mid q.expr
  | .insertSub _ => True
  | .changeBoundaries e => Fitting ds e ∧ SpecialTyped ds e ∧ Mid e ∧ LowerStrs e ∧ NoFloat ds e

/-- Plain insertions come after the calls that teach their constants. -/
def TaughtFirst (ops : List Op) : Prop :=
  ∀ pre q post, ops = pre ++ .insert q :: post → TaughtBy (taught pre) q.expr

end BeTree.Spec
