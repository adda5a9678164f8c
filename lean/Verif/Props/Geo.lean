import Verif.Lemmas.Geo
import Verif.Spec.Sat
import Verif.Props.Ordinary
import Mathlib.Tactic.Positivity
/-
C57: `geo_within_radius` tests the great-circle distance.
-/
namespace BeTree
open Spec InnerProductGeometry

/-- a latitude and a longitude in degrees -/
def OnEarth (lat lon : ℝ) : Prop := |lat| ≤ 90 ∧ |lon| ≤ 180

/-- `asin` is only applied to numbers from 0 to 1 (in exact arithmetic): its result is a number. -/
theorem C57_asin_defined (lat1 lon1 lat2 lon2 : ℝ) : 0 ≤ geoHalfChord lat1 lon1 lat2 lon2 ∧ geoHalfChord lat1 lon1 lat2 lon2 ≤ 1 := by
  constructor
  · exact div_nonneg (Real.sqrt_nonneg _) (by norm_num)
  · rw [halfChord_eq]; exact Real.sin_le_one _

/-- **C57**: the distance the test uses is the great-circle distance on a sphere of radius 6372.8 km, up to 0.3 mm. -/
theorem C57_distance (lat1 lon1 lat2 lon2 : ℝ) (h1 : OnEarth lat1 lon1) (h2 : OnEarth lat2 lon2) :
    |geoDistance lat1 lon1 lat2 lon2 - earthDistance lat1 lon1 lat2 lon2| ≤ 3e-7 := by
  rw [geoDistance_eq, earthDistance]
  refine (greatCircle_units _ _ _ _ _ _).trans ?_
  have hs : |lat1| + |lon1| + |lat2| + |lon2| ≤ 540 := by linarith [h1.1, h1.2, h2.1, h2.2]
  have hm : (|lat1| + |lon1| + |lat2| + |lon2|) * |toRad - Real.pi / 180| ≤ 540 * 6e-14 :=
    mul_le_mul hs toRad_close (abs_nonneg _) (by norm_num)
  have := mul_le_mul_of_nonneg_left hm (by norm_num : (0 : ℝ) ≤ 6372.8)
  refine this.trans (by norm_num)

theorem earthTest_iff (a b c d r : ℚ) : earthTest a b c d r = true ↔ geoWithinRadius (a : ℝ) b c d r := by
  simp [earthTest]

/-- What `geo_within_radius(lat, lon, radius)` says of an event at a position on earth: true when the great-circle distance is at least
0.3 mm smaller than the radius, false when it is more than 0.3 mm larger. -/
theorem C57_geo_meaning (cs : Constants) (ev : Event) (g : Geo) (lat lon : ℚ) (hg : OnEarth g.latitude g.longitude) (he : OnEarth lat lon)
    (hlat : ev.get g.latVar = some (.float lat)) (hlon : ev.get g.lonVar = some (.float lon)) :
    (earthDistance g.latitude g.longitude lat lon + 3e-7 ≤ g.radius → sat earthTest cs ev (.leaf (.geo g))) ∧
    (g.radius + 3e-7 < earthDistance g.latitude g.longitude lat lon → ¬ sat earthTest cs ev (.leaf (.geo g))) := by
  have h := abs_le.1 (C57_distance g.latitude g.longitude lat lon hg he)
  constructor
  · intro hr
    refine ⟨lat, lon, hlat, hlon, ?_⟩
    rw [earthTest_iff, geoWithinRadius]
    linarith [h.2]
  · rintro hr ⟨a, b, ha, hb, ht⟩
    rw [hlat] at ha
    rw [hlon] at hb
    cases ha
    cases hb
    rw [earthTest_iff, geoWithinRadius] at ht
    linarith [h.1]

/-- From the request to the report, for ordinary use (C47): the request `geo_within_radius(lat, lon, radius)` is reported when the event's
position is nearer than the radius by 0.3 mm, and not when it is farther by more than that. -/
theorem C57_search [Floats] (R : Rounding) (hR : Sane R) (cap min : Nat) (decls : List (Str × Decl × Bool))
    (qs : List Req) (hcap : cap % 256 ≠ 0) (hd : ∀ d ∈ decls, OrdinaryDecl d) (hnames : (decls.map (·.1)).Nodup)
    (hsize : decls.length + opsConstants (qs.map Op.insert) < 2 ^ 64 - 1)
    (hq : ∀ q ∈ qs, Ordinary decls (makeTree cap min decls).cfg.domains q) (he : Enough decls qs) (hids : (qs.map Req.id).Nodup)
    (ev : List EventVar) (hev : WellTyped (makeTree cap min decls).cfg.domains ev) (hrange : EventInRange ev)
    (hclear : ∀ q ∈ qs, Clear (makeTree cap min decls).cfg.domains ev q) (hman : ∀ d ∈ decls, d.2.2 = false → sets ev d.1)
    (q : Req) (hm : q ∈ qs) (g : Geo) (hg : q.expr = .leaf (.geo g)) (lat lon : ℚ) (hge : OnEarth g.latitude g.longitude)
    (hee : OnEarth lat lon) (hlat : (eventOf ev).get g.latVar = some (.float lat)) (hlon : (eventOf ev).get g.lonVar = some (.float lon)) :
    ∃ w rep, (World.init (makeTree cap min decls)).run R (qs.map Op.insert) = .ok w ∧ w.tree.search earthTest ev .empty = .ok (some rep) ∧
      (earthDistance g.latitude g.longitude lat lon + 3e-7 ≤ g.radius → q.id ∈ rep.subs) ∧
      (g.radius + 3e-7 < earthDistance g.latitude g.longitude lat lon → q.id ∉ rep.subs) := by
  obtain ⟨w, hw, _, hall⟩ := C47_ordinary_use_correct earthTest R hR cap min decls qs hcap hd hnames hsize hq he hids
  obtain ⟨rep, ids, h1, h2, _, h4⟩ := (hall ev hev hrange hclear .empty).2 hman
  have hsub : rep.subs = ids := by rw [h2]; rfl
  obtain ⟨a, b⟩ := C57_geo_meaning (constants q.consts) (eventOf ev) g lat lon hge hee hlat hlon
  refine ⟨w, rep, hw, h1, fun hr => ?_, fun hr hmem => ?_⟩
  · rw [hsub, h4]
    exact ⟨q, hm, rfl, by rw [hg]; exact a hr⟩
  · rw [hsub, h4] at hmem
    obtain ⟨q', hm', hid, hs⟩ := hmem
    have : q' = q := List.inj_on_of_nodup_map hids hm' hm hid
    rw [this, hg] at hs
    exact b hr hs

/-- The test is one of distance: a place is within any radius of itself, the places can be exchanged, a larger radius includes a smaller
one, two tests in a row add up, and half the circumference reaches every place.  Here for all numbers, on earth or not. -/
theorem C57_metric (lat1 lon1 lat2 lon2 lat3 lon3 r s : ℝ) :
    (0 ≤ r → geoWithinRadius lat1 lon1 lat1 lon1 r) ∧
    (geoWithinRadius lat1 lon1 lat2 lon2 r ↔ geoWithinRadius lat2 lon2 lat1 lon1 r) ∧
    (geoWithinRadius lat1 lon1 lat2 lon2 r → r ≤ s → geoWithinRadius lat1 lon1 lat2 lon2 s) ∧
    (geoWithinRadius lat1 lon1 lat2 lon2 r → geoWithinRadius lat2 lon2 lat3 lon3 s → geoWithinRadius lat1 lon1 lat3 lon3 (r + s)) ∧
    (Real.pi * 6372.8 ≤ r → geoWithinRadius lat1 lon1 lat2 lon2 r) ∧ (r < 0 → ¬ geoWithinRadius lat1 lon1 lat2 lon2 r) := by
  simp only [geoWithinRadius, geoDistance_eq, greatCircle]
  refine ⟨fun h => ?_, ?_, fun h hs => h.trans hs, fun h1 h2 => ?_, fun h => ?_, fun h hc => ?_⟩
  · have hn : place toRad lat1 lon1 ≠ 0 := fun h0 => by have := place_norm toRad lat1 lon1; rw [h0, norm_zero] at this; norm_num at this
    rw [angle_self hn, mul_zero]
    exact h
  · rw [angle_comm]
  · have := angle_le_angle_add_angle (place toRad lat1 lon1) (place toRad lat2 lon2) (place toRad lat3 lon3)
    nlinarith
  · have := angle_le_pi (place toRad lat1 lon1) (place toRad lat2 lon2)
    nlinarith
  · have := angle_nonneg (place toRad lat1 lon1) (place toRad lat2 lon2)
    nlinarith

/-- The great-circle distance itself is what one expects along a meridian and along the equator. -/
theorem C57_meridian (lat1 lat2 lon : ℝ) (h1 : |lat1| ≤ 90) (h2 : |lat2| ≤ 90) :
    earthDistance lat1 lon lat2 lon = 6372.8 * (|lat1 - lat2| * (Real.pi / 180)) := by
  have hp := Real.pi_pos
  have a1 := abs_le.1 h1
  have a2 := abs_le.1 h2
  have hd : |lat1 - lat2| ≤ 180 := abs_le.2 ⟨by linarith, by linarith⟩
  have hq : |lat1 - lat2| * (Real.pi / 180) = |(lat1 - lat2) * (Real.pi / 180)| := by
    rw [abs_mul, abs_of_pos (by positivity : (0 : ℝ) < Real.pi / 180)]
  have hle : |lat1 - lat2| * (Real.pi / 180) ≤ Real.pi := by nlinarith
  rw [earthDistance, greatCircle, arc_eq]
  have : cosArc (Real.pi / 180) lat1 lon lat2 lon = Real.cos (|lat1 - lat2| * (Real.pi / 180)) := by
    rw [hq, Real.cos_abs, sub_mul, Real.cos_sub, cosArc]
    simp
  rw [this, Real.arccos_cos (by positivity) hle]

/-- Why not exactly: 180° east and 180° west are the same place, but the test does not find one within radius 0 of the other (`TO_RAD` has
ten decimals of π). -/
theorem C57_antimeridian : earthDistance 0 180 0 (-180) = 0 ∧ ¬ geoWithinRadius 0 180 0 (-180) 0 := by
  have h1 := Real.pi_gt_d20
  have h2 := Real.pi_lt_d20
  constructor
  · rw [earthDistance, greatCircle, arc_eq, cosArc]
    have : (180 - -180 : ℝ) * (Real.pi / 180) = 2 * Real.pi := by ring
    rw [this, Real.cos_two_pi]
    simp
  · rw [geoWithinRadius, geoDistance_eq, greatCircle, arc_eq, cosArc]
    have : Real.cos ((180 - -180 : ℝ) * toRad) = Real.cos ((180 - -180 : ℝ) * toRad - 2 * Real.pi) := (Real.cos_sub_two_pi _).symm
    rw [this]
    have hx : 0 < (180 - -180 : ℝ) * toRad - 2 * Real.pi := by rw [toRad]; linarith
    have hy : (180 - -180 : ℝ) * toRad - 2 * Real.pi ≤ Real.pi := by rw [toRad]; linarith
    simp only [zero_mul, Real.cos_zero, Real.sin_zero, mul_one, add_zero, not_le]
    rw [Real.arccos_cos hx.le hy]
    linarith

/-! ### a concrete case: one degree of latitude is 111.2 km -/

/-- the hypotheses of `C57_distance` and `C57_geo_meaning` are met, and both cases occur -/
example : OnEarth 45 7 ∧ OnEarth 46 7 ∧ geoWithinRadius 45 7 46 7 112 ∧ ¬ geoWithinRadius 45 7 46 7 111 := by
  have h1 : OnEarth 45 7 := by constructor <;> norm_num [abs_le]
  have h2 : OnEarth 46 7 := by constructor <;> norm_num [abs_le]
  have hd := abs_le.1 (C57_distance 45 7 46 7 h1 h2)
  have hm := C57_meridian 45 46 7 h1.1 h2.1
  have e1 : |(45 : ℝ) - 46| = 1 := by norm_num
  rw [e1, one_mul] at hm
  have p1 := Real.pi_gt_d20
  have p2 := Real.pi_lt_d20
  refine ⟨h1, h2, ?_, ?_⟩
  · rw [geoWithinRadius]; linarith [hd.2]
  · rw [geoWithinRadius, not_le]; linarith [hd.1]

def geoReqs : List Req := [⟨1, [], mkGeo 45 7 112⟩, ⟨2, [], mkGeo 45 7 111⟩]
def geoEvent : List EventVar :=
  [⟨"latitude".toList, .float 46⟩, ⟨"i".toList, .int 3⟩, ⟨"longitude".toList, .float 7⟩, ⟨"now".toList, .int 1⟩]

theorem geoReqs_ordinary : ∀ q ∈ geoReqs, Ordinary plainDecls plainDomains q := by
  have dla : declaredType plainDomains ['l', 'a', 't', 'i', 't', 'u', 'd', 'e'] = some .float := by decide +kernel
  have dlo : declaredType plainDomains ['l', 'o', 'n', 'g', 'i', 't', 'u', 'd', 'e'] = some .float := by decide +kernel
  have hff := plain_floatFit
  generalize plainDomains = D at *
  intro q hq
  simp only [geoReqs, List.mem_cons, List.not_mem_nil, or_false] at hq
  rcases hq with rfl | rfl <;>
    refine ⟨?_, ?_, ?_, hff _, ⟨?_, ?_, ?_, ?_⟩, ?_, ?_⟩ <;>
    simp [fitting_iff, mkGeo, makeAttrVar, Accepts, AcceptsPred, Is, Known, Usable, UsablePred, Moderate, SpecialTyped, SpecialTypedPred, caps,
      Expr.InRange, Pred.InRange, ConstantsInRange, Clocked, ShortSafe, BoundSafe, LowerStrs, strAttrs, predStrAttrs, dla, dlo]

/-- for the examples: the limits are binary fractions with few digits -/
local instance geoFloats : Floats := coarseFloats fun _ => True

/-- `C57_search` applied to requests for the places within 112 km and within 111 km of 45° N 7° E, and an event at 46° N 7° E: only the
first is reported. -/
example : ∃ w rep, (World.init (makeTree 1 0 plainDecls)).run exactRounding (geoReqs.map Op.insert) = .ok w ∧
    w.tree.search earthTest geoEvent .empty = .ok (some rep) ∧ 1 ∈ rep.subs ∧ 2 ∉ rep.subs := by
  have h1 : OnEarth (45 : ℝ) 7 := by constructor <;> norm_num [abs_le]
  have h2 : OnEarth (46 : ℝ) 7 := by constructor <;> norm_num [abs_le]
  have hm := C57_meridian 45 46 7 h1.1 h2.1
  have e1 : |(45 : ℝ) - 46| = 1 := by norm_num
  rw [e1, one_mul] at hm
  have p1 := Real.pi_gt_d20
  have p2 := Real.pi_lt_d20
  have hwt : WellTyped plainDomains geoEvent := by
    intro v hv
    simp only [geoEvent, List.mem_cons, List.not_mem_nil, or_false] at hv
    rcases hv with rfl | rfl | rfl | rfl
    · exact ⟨.float, by decide +kernel, trivial⟩
    · exact ⟨.int, by decide +kernel, trivial⟩
    · exact ⟨.float, by decide +kernel, trivial⟩
    · exact ⟨.int, by decide +kernel, trivial⟩
  have hir : EventInRange geoEvent := by
    intro v hv l hl
    simp only [geoEvent, List.mem_cons, List.not_mem_nil, or_false] at hv
    rcases hv with rfl | rfl | rfl | rfl <;> cases hl
  have hman : ∀ d ∈ plainDecls, d.2.2 = false → sets geoEvent d.1 := by
    intro d hd hm
    simp only [plainDecls, List.mem_cons, List.not_mem_nil, or_false] at hd
    rcases hd with rfl | rfl | rfl | rfl | rfl | rfl | rfl | rfl | rfl | rfl | rfl <;>
      first | (cases hm; done) | (simp [sets, geoEvent]; decide)
  have hlat : (eventOf geoEvent).get (makeAttrVar "latitude".toList) = some (.float 46) := by decide +kernel
  have hlon : (eventOf geoEvent).get (makeAttrVar "longitude".toList) = some (.float 7) := by decide +kernel
  have key := fun q hq g hg hge => C57_search exactRounding exactRounding_sane 1 0 plainDecls geoReqs (by decide) plainDecls_ordinary
    (by decide +kernel) (by decide +kernel) geoReqs_ordinary (enough_of_check (by decide +kernel)) (by decide) geoEvent hwt hir (fun q _ => plain_clear hwt q) hman
    q hq g hg 46 7 hge (by push_cast; exact h2)
  obtain ⟨w, rep, a1, a2, a3, _⟩ := key ⟨1, [], mkGeo 45 7 112⟩ (by simp [geoReqs]) _ rfl (by push_cast; exact h1) hlat hlon
  obtain ⟨w', rep', b1, b2, _, b4⟩ := key ⟨2, [], mkGeo 45 7 111⟩ (by simp [geoReqs]) _ rfl (by push_cast; exact h1) hlat hlon
  rw [a1] at b1
  cases b1
  rw [a2] at b2
  cases b2
  refine ⟨w, rep, a1, a2, a3 ?_, b4 ?_⟩
  · push_cast; linarith
  · push_cast; linarith

end BeTree
