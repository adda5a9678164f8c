/-
Arithmetic of `double` (IEEE 754 binary64, rounding to nearest, ties to even).  A `double` is modelled by the rational number it stands
for.  Not modelled: infinities, NaN and the sign of zero; a result beyond `DBL_MAX` keeps its 53 binary digits and a larger exponent.
-/
namespace BeTree

/-- 2^e (the exponents of `double`, as in utils.c:40) -/
def pow2 (e : Int) : Rat := if 0 ≤ e then (2 : Rat) ^ e.toNat else 1 / (2 : Rat) ^ (-e).toNat

/-- the exponent of a number other than zero: 2^e ≤ |q| < 2^(e+1) (rounding of `a - b` at utils.c:40) -/
def expo (q : Rat) : Int :=
  let e : Int := (Nat.log2 q.num.natAbs : Int) - (Nat.log2 q.den : Int)
  if pow2 e ≤ q.abs then e else e - 1

/-- the nearest whole number, and of two the even one (rounding of `a - b` at utils.c:40) -/
def nearestInt (q : Rat) : Int :=
  if q - q.floor < 1 / 2 then q.floor
  else if 1 / 2 < q - q.floor then q.floor + 1
  else if q.floor % 2 = 0 then q.floor
  else q.floor + 1

/-- the distance between neighbouring doubles around `q`: 53 binary digits, and none beyond 2^-1074 (rounding of `a - b` at utils.c:40) -/
def ulp (q : Rat) : Rat := pow2 (max (expo q - 52) (-1074))

/-- The result of an operation on doubles, or of reading or converting a number, given the exact result (utils.c:40, ast.c:1726,
betree.c:202, tree.c:363, 933, lexer.l:13). -/
def rnd (q : Rat) : Rat := if q = 0 then 0 else (nearestInt (q / ulp q) : Rat) * ulp q

end BeTree
