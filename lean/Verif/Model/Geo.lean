import Mathlib.Analysis.SpecialFunctions.Trigonometric.Inverse
import Verif.Model.Eval
/-
special.c: the test of distance, over the real numbers.  Simplification: `double` arithmetic and libm's `sin`, `cos`, `asin`, `sqrt` are
exact here.
-/
namespace BeTree

/-- `EARTH_RADIUS` (special.c:72) -/
noncomputable def earthRadius : ℝ := 6372.8

/-- `TO_RAD` (special.c:73) -/
noncomputable def toRad : ℝ := 3.1415926536 / 180

/-- the vector `(dx, dy, dz)` of special.c:77-83 -/
noncomputable def geoDelta (lat1 lon1 lat2 lon2 : ℝ) : ℝ × ℝ × ℝ :=
  let lon1 := lon1 - lon2
  let lon1 := lon1 * toRad
  let lat1 := lat1 * toRad
  let lat2 := lat2 * toRad
  (Real.cos lon1 * Real.cos lat1 - Real.cos lat2, Real.sin lon1 * Real.cos lat1, Real.sin lat1 - Real.sin lat2)

/-- the argument of `asin` (special.c:85) -/
noncomputable def geoHalfChord (lat1 lon1 lat2 lon2 : ℝ) : ℝ :=
  let d := geoDelta lat1 lon1 lat2 lon2
  Real.sqrt (d.1 * d.1 + d.2.1 * d.2.1 + d.2.2 * d.2.2) / 2

/-- the distance computed at special.c:85.  (Outside [-1, 1] `asin` is NaN in C; see `C57_asin_defined`.) -/
noncomputable def geoDistance (lat1 lon1 lat2 lon2 : ℝ) : ℝ :=
  Real.arcsin (geoHalfChord lat1 lon1 lat2 lon2) * 2 * earthRadius

/-- `geo_within_radius` (special.c:75-86) -/
def geoWithinRadius (lat1 lon1 lat2 lon2 distance : ℝ) : Prop := geoDistance lat1 lon1 lat2 lon2 ≤ distance

open Classical in
/-- `geo_within_radius` (special.c:75-86) as the evaluation calls it (ast.c:562-563), on the values of the model -/
noncomputable def earthTest : GeoTest := fun lat1 lon1 lat2 lon2 distance =>
  decide (geoWithinRadius (lat1 : ℝ) (lon1 : ℝ) (lat2 : ℝ) (lon2 : ℝ) (distance : ℝ))

end BeTree
