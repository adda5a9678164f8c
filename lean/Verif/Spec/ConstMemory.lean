import Verif.Model.ConstMemory
import Verif.Spec.ObjMemory
/-
What calls with constants mean: the same calls with the names and values of the constants, which then need no memory.
-/
namespace BeTree

/-- the constants with these numbers; `none` if one was not made or is freed -/
def givenConsts (shelf : List (Option Constant)) : List Nat → Option (List Constant)
  | [] => some []
  | k :: ks =>
    match shelf[k]?, givenConsts shelf ks with
    | some (some c), some cs => some (c :: cs)
    | _, _ => none

/-- the same calls with names and values in place of constants, and the constants that are not freed at the end; `none` if a constant is used or
freed that was not made or is freed already -/
def asValues : List (Option Constant) → List ConstOp → Option (List EventOp × List (Option Constant))
  | shelf, [] => some ([], shelf)
  | shelf, .make name value :: os => asValues (shelf ++ [some ⟨name, .int value⟩]) os
  | shelf, .free k :: os =>
    match shelf[k]? with
    | some (some _) => asValues (shelf.set k none) os
    | _ => none
  | shelf, .insert id ks text :: os =>
    match givenConsts shelf ks, asValues shelf os with
    | some cs, some (evs, left) => some (.user (.tree (.call (.insert ⟨id, cs, text⟩))) :: evs, left)
    | _, _ => none
  | shelf, .makeSub id ks text :: os =>
    match givenConsts shelf ks, asValues shelf os with
    | some cs, some (evs, left) => some (.user (.tree (.call (.makeSub ⟨id, cs, text⟩))) :: evs, left)
    | _, _ => none
  | shelf, .call o :: os =>
    match asValues shelf os with
    | some (evs, left) => some (o :: evs, left)
    | none => none

/-- the blocks of constants that are not freed -/
def constBlocks (consts : List (Option ConstMem)) : List Nat :=
  consts.flatMap fun c => match c with
    | none => []
    | some c => [c.obj, c.text]

end BeTree
