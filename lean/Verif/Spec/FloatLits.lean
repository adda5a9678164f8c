import Verif.Model.Config
/-
Specification: writing the integer literals of float attributes as floats.
-/
namespace BeTree.Spec
open BeTree

/-- the declared type of a name: that of the first declaration of its lower-case form -/
def declaredType (ds : List Domain) (name : Str) : Option VType :=
  (ds.find? (fun d => d.attr.attr = name.map Char.toLower)).map (fun d => d.bound.ty)

/-- in a predicate -/
def predFloatLits (ds : List Domain) : Pred → Pred
  | .compare op v (.int k) => .compare op v (if declaredType ds v.attr = some .float then .float (rnd k) else .int k)
  | .equality op v (.int k) => .equality op v (if declaredType ds v.attr = some .float then .float (rnd k) else .int k)
  | p => p

/-- the expression with `3` written `3.0` wherever it is compared with a float attribute -/
def floatLits (ds : List Domain) : Expr → Expr
  | .leaf p => .leaf (predFloatLits ds p)
  | .not e => .not (floatLits ds e)
  | .and l r => .and (floatLits ds l) (floatLits ds r)
  | .or l r => .or (floatLits ds l) (floatLits ds r)

end BeTree.Spec
