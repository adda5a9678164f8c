import Verif.Model.MemWorld
import Verif.Spec.Memory
import Verif.Spec.Caps
/-
Which sequences of calls give back all their memory.
-/
namespace BeTree
open Spec

/-- the ids under which subscriptions are made -/
def newIds : List MemOp → List Nat
  | [] => []
  | .call (.insert q) :: os => q.id :: newIds os
  | .call (.makeSub q) :: os => q.id :: newIds os
  | _ :: os => newIds os

/-- which of the subscriptions built with `betree_make_sub` are inserted -/
def insertedSubs : List MemOp → List Nat
  | [] => []
  | .call (.insertSub k) :: os => k :: insertedSubs os
  | _ :: os => insertedSubs os

/-- the text of the call parses; and for an insertion in one step, the constants that its frequency caps need are given -/
def Clean : MemOp → Prop
  | .call (.insert q) => ∃ e, parseText q.text = .ok (some e) ∧ ∀ f ∈ caps e, ∃ i, supplied q.consts f.type = some i
  | .call (.makeSub q) => ∃ e, parseText q.text = .ok (some e)
  | .call (.changeBoundaries text) => ∃ e, parseText text = .ok (some e)
  | _ => True

/-- the insertion of a built subscription, if this call is one -/
def doneBy (w : TextWorld) : MemOp → List Nat
  | .call (.insertSub k) => if k < w.pool.length then [k] else []
  | _ => []

/-- which of the built subscriptions are inserted by these calls -/
def doneIn (R : Rounding) (w : TextWorld) : List MemOp → List Nat
  | [] => []
  | o :: os =>
    match w.plainStep R o with
    | .error _ => []
    | .ok w' => doneBy w o ++ doneIn R w' os

/-- all blocks of a subscription -/
def SubImg.blocks (s : SubImg) : List Nat := s.sub :: s.attrVars :: s.pass :: s.fail :: s.expr.blocks

end BeTree
