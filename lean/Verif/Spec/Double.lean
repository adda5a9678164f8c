import Verif.Model.Types
import Mathlib.Algebra.Order.Field.Power
import Mathlib.Data.Rat.Defs
/-
What numbers a `double` can hold, and which ranges of them can be halved.
-/
namespace BeTree

/-- a number with at most 53 binary digits, none of them beyond 2^-1074 (`double` without infinities; large exponents are allowed) -/
def IsDouble (q : Rat) : Prop := ∃ m e : Int, m.natAbs < 2 ^ 53 ∧ -1074 ≤ e ∧ q = m * (2 : Rat) ^ e

namespace Spec

/-- Where the tree cuts the range of a float attribute, in the arithmetic of `double`: ranges wider than 2 near their middle, those of
width 2 in their middle, those of width 1 into their ends, others not at all. -/
def cut (a b : Rat) : Option (Rat × Rat) :=
  if 2 < (rnd (b - a)).abs then some (rnd (a + (rnd (rnd (b - a) / 2)).ceil), rnd (a + (rnd (rnd (b - a) / 2)).ceil))
  else if (rnd ((rnd (b - a)).abs - 2)).abs < dblEps then some (rnd (a + 1), rnd (a + 1))
  else if (rnd ((rnd (b - a)).abs - 1)).abs < dblEps then some (a, b)
  else none

/-- The range from `a` to `b` can be cut, and its parts again, until no part can be: every part is smaller than the range it is part of. -/
inductive Halves : Rat → Rat → Prop
  | mk {a b : Rat} (inside : ∀ m n, cut a b = some (m, n) → a ≤ m ∧ m < b ∧ a < n ∧ n ≤ b)
      (left : ∀ m n, cut a b = some (m, n) → Halves a m) (right : ∀ m n, cut a b = some (m, n) → Halves n b) : Halves a b

/-- The float attributes of a tree (their names in lower case), and numbers that may become limits of their ranges: not huge, and the range
between any two of them can be halved to the end.  (Binary fractions with few digits are such numbers, see `coarseFloats`; there are
decimal fractions that are not, see `C22_float_stuck`.) -/
class Floats where
  attr : Str → Prop
  limit : Rat → Prop
  halves : ∀ a b, limit a → limit b → a ≤ b → Halves a b
  small : ∀ a, limit a → -(2 ^ 1000 : Rat) < a ∧ a < (2 ^ 1000 : Rat)

/-- a number with at most 20 binary digits after the point, of magnitude at most 2^30 -/
def Coarse (x : Rat) : Prop := ∃ n : Int, n.natAbs ≤ 2 ^ 50 ∧ x = n / 2 ^ 20

end Spec
end BeTree
