import Verif.Model.Geo
import Verif.Spec.Geo
import Mathlib.Geometry.Euclidean.Angle.Unoriented.TriangleInequality
import Mathlib.Analysis.Real.Pi.Bounds
import Mathlib.Tactic.Linarith
import Mathlib.Tactic.Ring
/-
Great-circle arithmetic for C57.
-/
namespace BeTree
open Spec InnerProductGeometry

/-- the cosine of the angle between two places -/
noncomputable def cosArc (u lat1 lon1 lat2 lon2 : ℝ) : ℝ :=
  Real.cos ((lon1 - lon2) * u) * Real.cos (lat1 * u) * Real.cos (lat2 * u) + Real.sin (lat1 * u) * Real.sin (lat2 * u)

theorem place_inner (u lat1 lon1 lat2 lon2 : ℝ) : inner ℝ (place u lat1 lon1) (place u lat2 lon2) = cosArc u lat1 lon1 lat2 lon2 := by
  have h : (lon1 - lon2) * u = lon1 * u - lon2 * u := by ring
  rw [cosArc, h, Real.cos_sub]
  simp [place, PiLp.inner_apply, Fin.sum_univ_three]
  ring

theorem place_norm (u lat lon : ℝ) : ‖place u lat lon‖ = 1 := by
  have h : ‖place u lat lon‖ ^ 2 = 1 := by
    rw [← real_inner_self_eq_norm_sq, place_inner, cosArc]
    simp
    nlinarith [Real.sin_sq_add_cos_sq (lat * u)]
  have h0 := norm_nonneg (place u lat lon)
  nlinarith

theorem arc_eq (u lat1 lon1 lat2 lon2 : ℝ) : angle (place u lat1 lon1) (place u lat2 lon2) = Real.arccos (cosArc u lat1 lon1 lat2 lon2) := by
  rw [angle, place_norm, place_norm, place_inner]
  simp

theorem cosArc_bounds (u lat1 lon1 lat2 lon2 : ℝ) : -1 ≤ cosArc u lat1 lon1 lat2 lon2 ∧ cosArc u lat1 lon1 lat2 lon2 ≤ 1 := by
  rw [← place_inner]
  have := abs_real_inner_le_norm (place u lat1 lon1) (place u lat2 lon2)
  rw [place_norm, place_norm, mul_one] at this
  exact abs_le.1 this

theorem halfChord_eq (lat1 lon1 lat2 lon2 : ℝ) :
    geoHalfChord lat1 lon1 lat2 lon2 = Real.sin (Real.arccos (cosArc toRad lat1 lon1 lat2 lon2) / 2) := by
  have hb := cosArc_bounds toRad lat1 lon1 lat2 lon2
  have hc := Real.cos_arccos hb.1 hb.2
  have h0 := Real.arccos_nonneg (cosArc toRad lat1 lon1 lat2 lon2)
  have h1 := Real.arccos_le_pi (cosArc toRad lat1 lon1 lat2 lon2)
  have hs : 0 ≤ Real.sin (Real.arccos (cosArc toRad lat1 lon1 lat2 lon2) / 2) := Real.sin_nonneg_of_nonneg_of_le_pi (by linarith) (by linarith)
  have hd : (2 * Real.sin (Real.arccos (cosArc toRad lat1 lon1 lat2 lon2) / 2)) ^ 2 = 2 - 2 * cosArc toRad lat1 lon1 lat2 lon2 := by
    have := Real.cos_sq' (Real.arccos (cosArc toRad lat1 lon1 lat2 lon2) / 2)
    have h2 := Real.cos_sq (Real.arccos (cosArc toRad lat1 lon1 lat2 lon2) / 2)
    rw [mul_div_cancel₀ _ (by norm_num : (2 : ℝ) ≠ 0), hc] at h2
    nlinarith
  have he : ∀ a b c : ℝ, (Real.cos c * Real.cos a - Real.cos b) * (Real.cos c * Real.cos a - Real.cos b) +
      Real.sin c * Real.cos a * (Real.sin c * Real.cos a) + (Real.sin a - Real.sin b) * (Real.sin a - Real.sin b) =
      2 - 2 * (Real.cos c * Real.cos a * Real.cos b + Real.sin a * Real.sin b) := by
    intro a b c
    have h1 := Real.sin_sq_add_cos_sq a
    have h2 := Real.sin_sq_add_cos_sq b
    have h3 : Real.sin c ^ 2 = 1 - Real.cos c ^ 2 := Real.sin_sq c
    have : Real.sin c * Real.cos a * (Real.sin c * Real.cos a) = (1 - Real.cos c ^ 2) * Real.cos a ^ 2 := by rw [← h3]; ring
    rw [this]
    linear_combination h1 + h2
  simp only [geoHalfChord, geoDelta]
  rw [he]
  have : 2 - 2 * (Real.cos ((lon1 - lon2) * toRad) * Real.cos (lat1 * toRad) * Real.cos (lat2 * toRad) +
      Real.sin (lat1 * toRad) * Real.sin (lat2 * toRad)) = (2 * Real.sin (Real.arccos (cosArc toRad lat1 lon1 lat2 lon2) / 2)) ^ 2 := by
    rw [hd, cosArc]
  rw [this, Real.sqrt_sq (by linarith)]
  ring

theorem geoDistance_eq (lat1 lon1 lat2 lon2 : ℝ) : geoDistance lat1 lon1 lat2 lon2 = greatCircle toRad lat1 lon1 lat2 lon2 := by
  have h0 := Real.arccos_nonneg (cosArc toRad lat1 lon1 lat2 lon2)
  have h1 := Real.arccos_le_pi (cosArc toRad lat1 lon1 lat2 lon2)
  rw [geoDistance, greatCircle, arc_eq, halfChord_eq, Real.arcsin_sin (by linarith) (by linarith), earthRadius]
  ring

theorem place_unit (u lat lon : ℝ) : place u lat lon = place 1 (lat * u) (lon * u) := by simp [place]

/-- moving along a meridian by `d` radians is an arc of at most `d` -/
theorem arc_lat_le (a b l : ℝ) : angle (place 1 a l) (place 1 b l) ≤ |a - b| := by
  by_cases hp : |a - b| ≤ Real.pi
  · rw [arc_eq]
    have : cosArc 1 a l b l = Real.cos |a - b| := by
      rw [Real.cos_abs, Real.cos_sub, cosArc]
      simp
    rw [this, Real.arccos_cos (abs_nonneg _) hp]
  · exact (angle_le_pi _ _).trans (le_of_lt (not_le.1 hp))

/-- moving along a parallel by `d` radians is an arc of at most `d` -/
theorem arc_lon_le (a l m : ℝ) : angle (place 1 a l) (place 1 a m) ≤ |l - m| := by
  by_cases hp : |l - m| ≤ Real.pi
  · rw [arc_eq]
    have : Real.cos |l - m| ≤ cosArc 1 a l a m := by
      rw [Real.cos_abs, cosArc, mul_one, mul_one]
      have h1 := Real.sin_sq_add_cos_sq a
      have h2 := Real.cos_le_one (l - m)
      nlinarith [sq_nonneg (Real.sin a), sq_nonneg (Real.cos a)]
    calc Real.arccos _ ≤ Real.arccos (Real.cos |l - m|) := Real.arccos_le_arccos this
      _ = |l - m| := Real.arccos_cos (abs_nonneg _) hp
  · exact (angle_le_pi _ _).trans (le_of_lt (not_le.1 hp))

theorem arc_le (a l b m : ℝ) : angle (place 1 a l) (place 1 b m) ≤ |a - b| + |l - m| :=
  (angle_le_angle_add_angle _ (place 1 b l) _).trans (add_le_add (arc_lat_le a b l) (arc_lon_le b l m))

/-- a place with another unit -/
theorem arc_units (u v lat lon : ℝ) : angle (place u lat lon) (place v lat lon) ≤ (|lat| + |lon|) * |u - v| := by
  rw [place_unit u, place_unit v]
  refine (arc_le _ _ _ _).trans (le_of_eq ?_)
  rw [← mul_sub, ← mul_sub, abs_mul, abs_mul]
  ring

theorem toRad_close : |toRad - Real.pi / 180| ≤ 6e-14 := by
  have h1 := Real.pi_gt_d20
  have h2 := Real.pi_lt_d20
  rw [abs_le, toRad]
  constructor <;> linarith

theorem greatCircle_units (u v lat1 lon1 lat2 lon2 : ℝ) :
    |greatCircle u lat1 lon1 lat2 lon2 - greatCircle v lat1 lon1 lat2 lon2| ≤ 6372.8 * ((|lat1| + |lon1| + |lat2| + |lon2|) * |u - v|) := by
  have h1 := arc_units u v lat1 lon1
  have h2 := arc_units u v lat2 lon2
  have t1 := angle_le_angle_add_angle (place u lat1 lon1) (place v lat1 lon1) (place u lat2 lon2)
  have t2 := angle_le_angle_add_angle (place v lat1 lon1) (place v lat2 lon2) (place u lat2 lon2)
  have t3 := angle_le_angle_add_angle (place v lat1 lon1) (place u lat1 lon1) (place v lat2 lon2)
  have t4 := angle_le_angle_add_angle (place u lat1 lon1) (place u lat2 lon2) (place v lat2 lon2)
  have s1 := angle_comm (place v lat1 lon1) (place u lat1 lon1)
  have s2 := angle_comm (place v lat2 lon2) (place u lat2 lon2)
  rw [greatCircle, greatCircle, ← mul_sub, abs_mul, abs_of_pos (by norm_num : (0 : ℝ) < 6372.8)]
  refine mul_le_mul_of_nonneg_left (abs_le.2 ⟨?_, ?_⟩) (by norm_num) <;> nlinarith

end BeTree
