import Mathlib.Analysis.InnerProductSpace.PiL2
import Mathlib.Geometry.Euclidean.Angle.Unoriented.Basic
/-
Specification: distances on a sphere.
-/
namespace BeTree.Spec

/-- the point of the unit sphere at a latitude and a longitude, when `unit` is one degree in radians -/
noncomputable def place (unit lat lon : ℝ) : EuclideanSpace ℝ (Fin 3) :=
  !₂[Real.cos (lat * unit) * Real.cos (lon * unit), Real.cos (lat * unit) * Real.sin (lon * unit), Real.sin (lat * unit)]

/-- the length of the great-circle arc between two points of a sphere of radius 6372.8 (km) -/
noncomputable def greatCircle (unit lat1 lon1 lat2 lon2 : ℝ) : ℝ :=
  6372.8 * InnerProductGeometry.angle (place unit lat1 lon1) (place unit lat2 lon2)

/-- the same with one degree equal to `π / 180` -/
noncomputable def earthDistance (lat1 lon1 lat2 lon2 : ℝ) : ℝ := greatCircle (Real.pi / 180) lat1 lon1 lat2 lon2

end BeTree.Spec
