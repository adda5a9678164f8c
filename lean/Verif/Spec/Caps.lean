import Verif.Spec.Range
/-
Specification: the frequency caps an expression uses.
-/
namespace BeTree.Spec
open BeTree

/-- the `within_frequency_cap` calls of an expression, from left to right -/
def caps : Expr → List Frequency
  | .leaf (.freq f) => [f]
  | .leaf _ => []
  | .not e => caps e
  | .and l r => caps l ++ caps r
  | .or l r => caps l ++ caps r

/-- the integer supplied for a type of cap: the value of the first constant with the name that the type needs -/
def supplied (cs : List Constant) (t : FreqType) : Option Int :=
  match constName t with
  | none => none
  | some n =>
    match cs.find? (fun c => c.name == n.toList) with
    | some ⟨_, .int i⟩ => some i
    | _ => none

/-- what a cap says: type, id, namespace, limit, length -/
structure CapText where
  type : FreqType
  id : Int
  ns : Str
  value : Int
  length : Nat
  deriving DecidableEq

/-- what a cap with a given id says -/
def capText (id : Int) (f : Frequency) : CapText := ⟨f.type, id, f.ns.string, f.value, f.length⟩

end BeTree.Spec
