import Verif.Lemmas.Edge
import Verif.Props.Ordinary
/-
C60: what comparing a float attribute with a number means.
-/
namespace BeTree
open Spec

/-! ### doubles near each other -/

theorem two_zpow_neg (n : Nat) : (2 : Rat) ^ (-(n : Int)) = 1 / 2 ^ n := by rw [zpow_neg, zpow_natCast, one_div]

theorem expo_of {q : Rat} (hq : q ≠ 0) {e : Int} (h1 : (2 : Rat) ^ e ≤ |q|) (h2 : |q| < 2 ^ (e + 1)) : expo q = e := by
  have es := expo_spec hq
  have a : e < expo q + 1 := pow2_lt_iff.1 (lt_of_le_of_lt h1 es.2)
  have b : expo q < e + 1 := pow2_lt_iff.1 (lt_of_le_of_lt es.1 h2)
  omega

/-- a double of magnitude 2^e or more is a multiple of 2^(e-52) -/
theorem multiple_above {d : Rat} (hd : IsDouble d) {e : Int} (he : -1022 ≤ e) (h : (2 : Rat) ^ e ≤ |d|) :
    ∃ n : Int, d = n * (2 : Rat) ^ (e - 52) := by
  have hp : (0 : Rat) < 2 ^ e := pow2_pos e
  have hx : expo ((2 : Rat) ^ e) = e :=
    expo_of hp.ne' (le_abs_self _) (by rw [abs_of_pos hp, pow2_succ]; linarith)
  have := double_multiple (q := (2 : Rat) ^ e) hd (by rw [hx]; exact h)
  rwa [ulp, pow2_eq, hx, max_eq_left (by omega)] at this

theorem eps_zpow : dblEps = (2 : Rat) ^ (-52 : Int) := by rw [eps_eq, show (-52 : Int) = -((52 : Nat) : Int) from rfl, two_zpow_neg]

/-- two doubles, one of magnitude above 1, are equal or at least 2^-52 apart -/
theorem double_gap {x k : Rat} (hx : IsDouble x) (hk : IsDouble k) (h : 1 < |k|) (hne : x ≠ k) : 1 / 2 ^ 52 ≤ |x - k| := by
  have e1 : (1 : Rat) / 2 ^ 52 = (2 : Rat) ^ ((0 : Int) - 52) := by rw [← eps_eq, eps_zpow]; norm_num
  obtain ⟨m, hm⟩ := multiple_above hk (e := 0) (by norm_num) (by rw [zpow_zero]; exact h.le)
  rw [← e1] at hm
  have hu : (0 : Rat) < 1 / 2 ^ 52 := by positivity
  have key : ∀ n : Int, n ≠ 0 → 1 / 2 ^ 52 ≤ |(n : Rat) * (1 / 2 ^ 52)| := by
    intro n hn
    rw [abs_mul, abs_of_pos hu]
    have : (1 : Rat) ≤ |(n : Rat)| := by exact_mod_cast Int.one_le_abs hn
    nlinarith
  by_cases h1 : 1 ≤ |x|
  · obtain ⟨n, hn⟩ := multiple_above hx (e := 0) (by norm_num) (by rw [zpow_zero]; exact h1)
    rw [← e1] at hn
    have e2 : x - k = ((n - m : Int) : Rat) * (1 / 2 ^ 52) := by rw [hn, hm]; push_cast; ring
    rw [e2]
    refine key _ fun h0 => hne ?_
    have : n = m := by omega
    rw [hn, hm, this]
  · have h1 := not_le.1 h1
    have hk1 : 1 + 1 / 2 ^ 52 ≤ |k| := by
      have e3 : |k| = ((|m| : Int) : Rat) * (1 / 2 ^ 52) := by rw [hm, abs_mul, abs_of_pos hu]; push_cast; rfl
      have h3 : (2 ^ 52 : Int) < |m| := by
        have : ((2 ^ 52 : Int) : Rat) < ((|m| : Int) : Rat) := by
          rw [e3] at h
          have h' : (2 : Rat) ^ 52 * (1 / 2 ^ 52) < ((|m| : Int) : Rat) * (1 / 2 ^ 52) := by
            rw [show (2 : Rat) ^ 52 * (1 / 2 ^ 52) = 1 by norm_num]; exact h
          have := lt_of_mul_lt_mul_right h' hu.le
          exact_mod_cast this
        exact_mod_cast this
      have h4 : ((2 ^ 52 + 1 : Int) : Rat) ≤ ((|m| : Int) : Rat) := by exact_mod_cast h3
      rw [e3]
      push_cast at h4 ⊢
      nlinarith
    have := abs_sub_abs_le_abs_sub k x
    rw [abs_sub_comm] at this
    linarith

/-- what is taken as equal is nearer than 2^-52 -/
theorem closeTo_near {x k : Rat} (h : closeTo x k) : |x - k| < 1 / 2 ^ 52 := by
  by_contra hc
  have hc := not_lt.1 hc
  unfold closeTo at h
  rw [rat_abs_eq, eps_eq] at h
  have he : rnd (1 / 2 ^ 52) = 1 / 2 ^ 52 := by rw [← eps_eq]; exact rnd_eps
  rcases le_total 0 (x - k) with h0 | h0
  · rw [abs_of_nonneg h0] at hc
    have h1 := rnd_mono hc
    rw [he] at h1
    exact absurd (le_trans h1 (le_abs_self _)) (not_le.2 h)
  · rw [abs_of_nonpos h0] at hc
    have h1 := rnd_mono hc
    rw [he, rnd_neg] at h1
    exact absurd (le_trans h1 (neg_le_abs _)) (not_le.2 h)

/-- two doubles that near have a difference that is a double, unless they are tiny -/
theorem near_closeTo {x k : Rat} (hx : IsDouble x) (hk : IsDouble k) (hs : k = 0 ∨ 1 / 2 ^ 51 ≤ |k|) (h : |x - k| < 1 / 2 ^ 52) :
    closeTo x k := by
  have hd : IsDouble (x - k) := by
    rcases hs with rfl | hs
    · rwa [sub_zero]
    · have hxa : 1 / 2 ^ 52 ≤ |x| := by
        have := abs_sub_abs_le_abs_sub k x
        rw [abs_sub_comm] at this
        have e : (1 : Rat) / 2 ^ 51 = 1 / 2 ^ 52 + 1 / 2 ^ 52 := by norm_num
        linarith
      have e1 : (2 : Rat) ^ (-52 : Int) = 1 / 2 ^ 52 := by rw [← eps_zpow, eps_eq]
      obtain ⟨n, hn⟩ := multiple_above hx (e := -52) (by norm_num) (by rw [e1]; exact hxa)
      obtain ⟨m, hm⟩ := multiple_above hk (e := -52) (by norm_num) (by
        rw [e1]
        have : (1 : Rat) / 2 ^ 52 ≤ 1 / 2 ^ 51 := by norm_num
        linarith)
      have e2 : x - k = ((n - m : Int) : Rat) * (2 : Rat) ^ (-52 - 52 : Int) := by rw [hn, hm]; push_cast; ring
      refine ⟨n - m, _, ?_, by norm_num, e2⟩
      have hu : (0 : Rat) < (2 : Rat) ^ (-52 - 52 : Int) := pow2_pos _
      rw [e2, abs_mul, abs_of_pos hu, ← e1] at h
      have e3 : (2 : Rat) ^ (-52 : Int) = 2 ^ 52 * (2 : Rat) ^ (-52 - 52 : Int) := by
        rw [← zpow_natCast, ← zpow_add₀ (by norm_num)]; norm_num
      rw [e3] at h
      have := lt_of_mul_lt_mul_right h hu.le
      have h5 : |n - m| < 2 ^ 52 := by exact_mod_cast this
      rw [Int.abs_eq_natAbs] at h5
      omega
  unfold closeTo
  rw [rnd_of_double hd, rat_abs_eq, eps_eq]
  exact h

/-! ### the property -/

/-- C60: `rnd`, by which the other theorems say what the code computes with doubles, is rounding to the nearest double: a number that is a
double is kept, others become a double such that none is nearer, in order. -/
theorem C60_rounding (q : Rat) : IsDouble (rnd q) ∧ (∀ d, IsDouble d → |rnd q - q| ≤ |d - q|) ∧ (IsDouble q → rnd q = q) ∧
    ∀ p, q ≤ p → rnd q ≤ rnd p :=
  ⟨rnd_isDouble q, fun _ h => rnd_near q h, rnd_of_double, fun _ h => rnd_mono h⟩


theorem nearestInt_tie {t : Rat} {n : Int} (hne : n ≠ nearestInt t) (h : |(nearestInt t : Rat) - t| = |(n : Rat) - t|) :
    nearestInt t % 2 = 0 ∧ (n = nearestInt t + 1 ∨ n = nearestInt t - 1) := by
  have he := nearestInt_err t
  have hn : (n : Rat) - t = t - (nearestInt t : Rat) := by
    rcases abs_eq_abs.1 h with h | h
    · exact absurd (by exact_mod_cast (show (n : Rat) = (nearestInt t : Rat) by linarith)) hne
    · linarith
  have hd : |((n - nearestInt t : Int) : Rat)| ≤ 1 := by
    have e : ((n - nearestInt t : Int) : Rat) = -2 * ((nearestInt t : Rat) - t) := by push_cast; linarith
    rw [e, abs_mul]
    norm_num
    linarith
  have hd' : |n - nearestInt t| ≤ 1 := by exact_mod_cast hd
  have hor : n = nearestInt t + 1 ∨ n = nearestInt t - 1 := by
    have := abs_le.1 hd'
    omega
  refine ⟨?_, hor⟩
  have hhalf : |(nearestInt t : Rat) - t| = 1 / 2 := by
    rcases hor with h | h <;> rw [h] at hn <;> push_cast at hn
    · rw [abs_of_nonpos (by linarith)]; linarith
    · rw [abs_of_nonneg (by linarith)]; linarith
  have h1 := Rat.floor_le t
  have h2 := Rat.lt_floor_add_one t
  push_cast at h2
  clear hn hd hd' hor h hne he
  unfold nearestInt at hhalf ⊢
  split at hhalf
  · rw [abs_of_nonpos (by linarith)] at hhalf; linarith
  · split at hhalf
    · push_cast at hhalf; rw [abs_of_nonneg (by linarith)] at hhalf; linarith
    · rename_i ha hb
      rw [if_neg ha, if_neg hb]
      split <;> omega

/-- C60: ties go to the even one: if another double is as near, it is a neighbour of the result, and in the unit that separates them the
result is even. -/
theorem C60_ties_to_even (q d : Rat) (hd : IsDouble d) (hne : d ≠ rnd q) (h : |rnd q - q| = |d - q|) :
    ∃ (m e : Int), -1074 ≤ e ∧ rnd q = m * (2 : Rat) ^ e ∧ m % 2 = 0 ∧ (d = (m + 1 : Int) * (2 : Rat) ^ e ∨ d = (m - 1 : Int) * (2 : Rat) ^ e) := by
  have hq : q ≠ 0 := by
    rintro rfl
    rw [rnd_zero, sub_self, abs_zero, sub_zero] at h
    rw [rnd_zero] at hne
    exact hne (abs_eq_zero.1 h.symm)
  have hu := ulp_pos q
  -- both are multiples of the unit
  have hmul : ∃ n : Int, d = n * ulp q := by
    by_cases hl : expo q - 52 ≤ -1074
    · exact double_multiple_low hl hd
    · by_cases hb : (2 : Rat) ^ expo q ≤ |d|
      · exact double_multiple hd hb
      · exfalso
        have es := expo_spec hq
        have hp : IsDouble ((2 : Rat) ^ expo q) := ⟨1, expo q, by norm_num, by omega, by norm_num⟩
        rcases lt_or_gt_of_ne hq with h0 | h0
        · have h1 := rnd_near q (isDouble_neg hp)
          rw [abs_of_neg h0] at es
          have h3 := (abs_lt.1 (not_le.1 hb)).1
          rw [h, abs_of_nonneg (by linarith), abs_of_nonneg (by linarith)] at h1
          linarith
        · have h1 := rnd_near q hp
          rw [abs_of_pos h0] at es
          have h3 := (abs_lt.1 (not_le.1 hb)).2
          rw [h, abs_of_nonpos (by linarith), abs_of_nonpos (by linarith)] at h1
          linarith
  obtain ⟨n, rfl⟩ := hmul
  have hr : rnd q = nearestInt (q / ulp q) * ulp q := by rw [rnd, if_neg hq]
  have hne' : n ≠ nearestInt (q / ulp q) := fun e => hne (by rw [hr, e])
  have hh : |(nearestInt (q / ulp q) : Rat) - q / ulp q| = |(n : Rat) - q / ulp q| := by
    have e : ∀ x : Rat, x - q / ulp q = (x * ulp q - q) / ulp q := by
      intro x; rw [sub_div, mul_div_assoc, div_self hu.ne', mul_one]
    rw [e, e, abs_div, abs_div, ← hr, h]
  obtain ⟨h1, h2⟩ := nearestInt_tie hne' hh
  refine ⟨nearestInt (q / ulp q), max (expo q - 52) (-1074), le_max_right _ _, ?_, h1, ?_⟩
  · rw [hr, ulp, pow2_eq]
  · rw [ulp, pow2_eq]
    rcases h2 with h2 | h2
    · left; rw [h2, ulp, pow2_eq]
    · right; rw [h2, ulp, pow2_eq]

/-- 2^53 + 1 is not a double, and as near to 2^53 as to 2^53 + 2; the result is 2^53, an even number of units 2 -/
example : rnd (2 ^ 53 + 1) = 2 ^ 53 ∧ IsDouble (2 ^ 53 + 2) ∧ (2 ^ 53 + 2 : Rat) ≠ rnd (2 ^ 53 + 1) ∧
    |rnd (2 ^ 53 + 1) - (2 ^ 53 + 1)| = |(2 ^ 53 + 2 : Rat) - (2 ^ 53 + 1)| := by
  have h : rnd (2 ^ 53 + 1) = 2 ^ 53 := by decide +kernel
  rw [h]
  exact ⟨rfl, isDouble_iff.2 (by decide +kernel), by norm_num, by norm_num⟩

/-- C60: `f = k` on the value `x`.  True only if they differ by less than 2^-52 (about 2.2e-16).  For `k` above 1 in magnitude it is true
exactly if `x` is `k`; for `k` that is 0 or not tiny, exactly if they differ by less than 2^-52.  `f <> k` is its opposite. -/
theorem C60_equality (geo : GeoTest) (cs : Constants) (ev : Event) (v : AttrVar) (x k : Rat) (hx : IsDouble x) (hk : IsDouble k)
    (hget : ev.get v = some (.float x)) :
    (sat geo cs ev (.leaf (.equality .eq v (.float k))) → |x - k| < 1 / 2 ^ 52) ∧
    (1 < |k| → (sat geo cs ev (.leaf (.equality .eq v (.float k))) ↔ x = k)) ∧
    (k = 0 ∨ 1 / 2 ^ 51 ≤ |k| → (sat geo cs ev (.leaf (.equality .eq v (.float k))) ↔ |x - k| < 1 / 2 ^ 52)) ∧
    (sat geo cs ev (.leaf (.equality .ne v (.float k))) ↔ ¬ sat geo cs ev (.leaf (.equality .eq v (.float k)))) := by
  have e : sat geo cs ev (.leaf (.equality .eq v (.float k))) ↔ closeTo x k := by
    simp [sat, satPred, hget, polar, EqOp.positive]
  have e' : sat geo cs ev (.leaf (.equality .ne v (.float k))) ↔ ¬ closeTo x k := by
    simp [sat, satPred, hget, polar, EqOp.positive]
  rw [e, e']
  refine ⟨closeTo_near, fun h1 => ⟨fun h => ?_, fun h => ?_⟩, fun hs => ⟨closeTo_near, near_closeTo hx hk hs⟩, Iff.rfl⟩
  · by_contra hne
    exact absurd (closeTo_near h) (not_lt.2 (double_gap hx hk h1 hne))
  · rw [h]; exact closeTo_self k

/-- C60: whole numbers up to 2^53 are doubles: `f < 3` and `f < 3.0` are the same test -/
theorem C60_integers (n : Int) (h : n.natAbs ≤ 2 ^ 53) : rnd n = n := by
  refine rnd_of_double ?_
  by_cases hlt : n.natAbs < 2 ^ 53
  · exact ⟨n, 0, hlt, by norm_num, by simp⟩
  · rcases Int.natAbs_eq n with e | e
    · refine ⟨1, 53, by simp, by norm_num, ?_⟩
      rw [e, show n.natAbs = 2 ^ 53 by omega]; norm_num
    · refine ⟨-1, 53, by simp, by norm_num, ?_⟩
      rw [e, show n.natAbs = 2 ^ 53 by omega]; norm_num

/-- a test of a float attribute against a number -/
inductive NumberTest where
  | cmp (op : CmpOp)
  | eq
  | ne

/-- the expression `v op k` -/
def NumberTest.expr (t : NumberTest) (v : AttrVar) (k : Rat) : Expr :=
  match t with
  | .cmp op => .leaf (.compare op v (.float k))
  | .eq => .leaf (.equality .eq v (.float k))
  | .ne => .leaf (.equality .ne v (.float k))

/-- the expression `v op n` with a whole number -/
def NumberTest.intExpr (t : NumberTest) (v : AttrVar) (n : Int) : Expr :=
  match t with
  | .cmp op => .leaf (.compare op v (.int n))
  | .eq => .leaf (.equality .eq v (.int n))
  | .ne => .leaf (.equality .ne v (.int n))

/-- what one expects of the test: the order of numbers, and equality up to less than 2^-52 -/
def NumberTest.Holds (t : NumberTest) (x k : Rat) : Prop :=
  match t with
  | .cmp .lt => x < k
  | .cmp .le => x ≤ k
  | .cmp .gt => k < x
  | .cmp .ge => k ≤ x
  | .eq => |x - k| < 1 / 2 ^ 52
  | .ne => 1 / 2 ^ 52 ≤ |x - k|

/-- the same with equality of numbers -/
def NumberTest.HoldsExactly (t : NumberTest) (x k : Rat) : Prop :=
  match t with
  | .cmp .lt => x < k
  | .cmp .le => x ≤ k
  | .cmp .gt => k < x
  | .cmp .ge => k ≤ x
  | .eq => x = k
  | .ne => x ≠ k

theorem numberTest_sat {geo : GeoTest} {cs : Constants} {ev : Event} (t : NumberTest) {v : AttrVar} {x k : Rat} (hx : IsDouble x)
    (hk : IsDouble k) (hs : k = 0 ∨ 1 / 2 ^ 51 ≤ |k|) (hget : ev.get v = some (.float x)) : sat geo cs ev (t.expr v k) ↔ t.Holds x k := by
  obtain ⟨_, _, h3, h4⟩ := C60_equality geo cs ev v x k hx hk hget
  cases t with
  | cmp op => cases op <;> simp [NumberTest.expr, NumberTest.Holds, sat, satPred, hget, cmpRat]
  | eq => exact h3 hs
  | ne => simp only [NumberTest.expr, NumberTest.Holds]; rw [h4, h3 hs, not_lt]

theorem numberTest_exact {t : NumberTest} {x k : Rat} (hx : IsDouble x) (hk : IsDouble k) (h1 : 1 < |k|) :
    t.Holds x k ↔ t.HoldsExactly x k := by
  have key : |x - k| < 1 / 2 ^ 52 ↔ x = k := by
    refine ⟨fun h => ?_, fun h => ?_⟩
    · by_contra hne
      exact absurd h (not_lt.2 (double_gap hx hk h1 hne))
    · rw [h, sub_self, abs_zero]; positivity
  cases t with
  | cmp op => cases op <;> rfl
  | eq => exact key
  | ne => simp only [NumberTest.Holds, NumberTest.HoldsExactly]; rw [← not_lt, key]

theorem numberTest_int {geo : GeoTest} {cs : Constants} {ev : Event} (t : NumberTest) {v : AttrVar} {x : Rat} {n : Int}
    (hn : n.natAbs ≤ 2 ^ 53) (hget : ev.get v = some (.float x)) : sat geo cs ev (t.intExpr v n) ↔ sat geo cs ev (t.expr v n) := by
  have e := C60_integers n hn
  cases t <;> simp [NumberTest.expr, NumberTest.intExpr, sat, satPred, hget, asInt, e]

/-- **C60**, from the request to the report, for ordinary use (C47): a request that tests a float attribute against a number is reported
exactly when the test holds of the event's value: orders are those of the numbers; equality is equality for numbers above 1 in magnitude,
and up to less than 2^-52 for others (tiny ones excepted).  Whole numbers up to 2^53 are taken as they are. -/
theorem C60_search [Floats] (geo : GeoTest) (R : Rounding) (hR : Sane R) (cap min : Nat) (decls : List (Str × Decl × Bool))
    (qs : List Req) (hcap : cap % 256 ≠ 0) (hd : ∀ d ∈ decls, OrdinaryDecl d) (hnames : (decls.map (·.1)).Nodup)
    (hsize : decls.length + opsConstants (qs.map Op.insert) < 2 ^ 64 - 1)
    (hq : ∀ q ∈ qs, Ordinary decls (makeTree cap min decls).cfg.domains q) (he : Enough decls qs) (hids : (qs.map Req.id).Nodup)
    (ev : List EventVar) (hev : WellTyped (makeTree cap min decls).cfg.domains ev) (hrange : EventInRange ev)
    (hclear : ∀ q ∈ qs, Clear (makeTree cap min decls).cfg.domains ev q) (hman : ∀ d ∈ decls, d.2.2 = false → sets ev d.1) :
    ∃ w rep, (World.init (makeTree cap min decls)).run R (qs.map Op.insert) = .ok w ∧ w.tree.search geo ev .empty = .ok (some rep) ∧
      ∀ q ∈ qs, ∀ (t : NumberTest) (v : AttrVar) (x k : Rat), IsDouble x → (eventOf ev).get v = some (.float x) →
        (q.expr = t.expr v k ∧ IsDouble k ∨ ∃ n : Int, q.expr = t.intExpr v n ∧ n.natAbs ≤ 2 ^ 53 ∧ k = n) →
        (1 < |k| → (q.id ∈ rep.subs ↔ t.HoldsExactly x k)) ∧
        (k = 0 ∨ 1 / 2 ^ 51 ≤ |k| → (q.id ∈ rep.subs ↔ t.Holds x k)) := by
  obtain ⟨w, hw, _, hall⟩ := C47_ordinary_use_correct geo R hR cap min decls qs hcap hd hnames hsize hq he hids
  obtain ⟨rep, ids, h1, h2, _, h4⟩ := (hall ev hev hrange hclear .empty).2 hman
  have hsub : rep.subs = ids := by rw [h2]; rfl
  refine ⟨w, rep, hw, h1, fun q hm t v x k hx hget hexp => ?_⟩
  have hk : IsDouble k := by
    rcases hexp with ⟨_, h⟩ | ⟨n, _, h, rfl⟩
    · exact h
    · exact isDouble_iff.2 (C60_integers n h)
  have hrep : q.id ∈ rep.subs ↔ sat geo (constants q.consts) (eventOf ev) q.expr := by
    rw [hsub, h4]
    constructor
    · rintro ⟨q', hm', hid, hs⟩
      have : q' = q := List.inj_on_of_nodup_map hids hm' hm hid
      rw [← this]; exact hs
    · exact fun h => ⟨q, hm, rfl, h⟩
  have hs : sat geo (constants q.consts) (eventOf ev) q.expr ↔ sat geo (constants q.consts) (eventOf ev) (t.expr v k) := by
    rcases hexp with ⟨h, _⟩ | ⟨n, h, hn, rfl⟩
    · rw [h]
    · rw [h]; exact numberTest_int t hn hget
  rw [hrep, hs]
  constructor
  · intro hk1
    have hbig : k = 0 ∨ 1 / 2 ^ 51 ≤ |k| := Or.inr (le_trans (by norm_num) hk1.le)
    rw [numberTest_sat t hx hk hbig hget, numberTest_exact hx hk hk1]
  · intro hs
    exact numberTest_sat t hx hk hs hget

/-! ### concrete requests -/

/-- `f = 2.5`, `f >= 0.1`, `f <> 3`, `f < 1`, `f = 1` -/
def numberReqs : List Req :=
  [⟨1, [], NumberTest.eq.expr ⟨"f".toList, 0⟩ (5 / 2)⟩, ⟨2, [], (NumberTest.cmp .ge).expr ⟨"f".toList, 0⟩ (rnd (1 / 10))⟩,
   ⟨3, [], NumberTest.ne.intExpr ⟨"f".toList, 0⟩ 3⟩, ⟨4, [], (NumberTest.cmp .lt).intExpr ⟨"f".toList, 0⟩ 1⟩,
   ⟨5, [], NumberTest.eq.intExpr ⟨"f".toList, 0⟩ 1⟩]

/-- `f` is the largest double below 1 -/
def numberEvent : List EventVar := [⟨"i".toList, .int 3⟩, ⟨"f".toList, .float (1 - 1 / 2 ^ 53)⟩, ⟨"now".toList, .int 1⟩]

/-- for the examples: the limits are binary fractions with few digits -/
local instance doubleFloats : Floats := coarseFloats fun _ => True

theorem numberReqs_ordinary : ∀ q ∈ numberReqs, Ordinary plainDecls plainDomains q := by
  have df : declaredType plainDomains ['f'] = some .float := by decide +kernel
  have hff := plain_floatFit
  generalize plainDomains = D at *
  intro q hq
  simp only [numberReqs, List.mem_cons, List.not_mem_nil, or_false] at hq
  rcases hq with rfl | rfl | rfl | rfl | rfl <;>
    refine ⟨?_, ?_, ?_, hff _, ⟨?_, ?_, ?_, ?_⟩, ?_, ?_⟩ <;>
    simp [NumberTest.expr, NumberTest.intExpr, fitting_iff, Accepts, AcceptsPred, Is, Usable, UsablePred, Moderate, ModInt, int64Min,
      int64Max, SpecialTyped, SpecialTypedPred, caps, Expr.InRange, Pred.InRange, ConstantsInRange, Clocked, ShortSafe, BoundSafe, LowerStrs,
      strAttrs, predStrAttrs, df]

/-- `C60_search` applied: of the five, 2 to 5 are reported.  The value is below 1, and taken as equal to 1. -/
example : ∃ w rep, (World.init (makeTree 1 0 plainDecls)).run exactRounding (numberReqs.map Op.insert) = .ok w ∧
    w.tree.search exGeo numberEvent .empty = .ok (some rep) ∧ 1 ∉ rep.subs ∧ 2 ∈ rep.subs ∧ 3 ∈ rep.subs ∧ 4 ∈ rep.subs ∧ 5 ∈ rep.subs := by
  have hwt : WellTyped plainDomains numberEvent := by
    intro v hv
    simp only [numberEvent, List.mem_cons, List.not_mem_nil, or_false] at hv
    rcases hv with rfl | rfl | rfl
    · exact ⟨.int, by decide +kernel, trivial⟩
    · exact ⟨.float, by decide +kernel, trivial⟩
    · exact ⟨.int, by decide +kernel, trivial⟩
  have hir : EventInRange numberEvent := by
    intro v hv l hl
    simp only [numberEvent, List.mem_cons, List.not_mem_nil, or_false] at hv
    rcases hv with rfl | rfl | rfl <;> cases hl
  have hman : ∀ d ∈ plainDecls, d.2.2 = false → sets numberEvent d.1 := by
    intro d hd hm
    simp only [plainDecls, List.mem_cons, List.not_mem_nil, or_false] at hd
    rcases hd with rfl | rfl | rfl | rfl | rfl | rfl | rfl | rfl | rfl | rfl | rfl <;>
      first | (cases hm; done) | (simp [sets, numberEvent]; decide)
  have hget : (eventOf numberEvent).get ⟨"f".toList, 0⟩ = some (.float (1 - 1 / 2 ^ 53)) := by decide +kernel
  have hx : IsDouble (1 - 1 / 2 ^ 53) := isDouble_iff.2 (by decide +kernel)
  obtain ⟨w, rep, a1, a2, a3⟩ := C60_search exGeo exactRounding exactRounding_sane 1 0 plainDecls numberReqs (by decide) plainDecls_ordinary
    (by decide +kernel) (by decide +kernel) numberReqs_ordinary (enough_of_check (by decide +kernel)) (by decide) numberEvent hwt hir (fun q _ => plain_clear hwt q) hman
  refine ⟨w, rep, a1, a2, ?_, ?_, ?_, ?_, ?_⟩
  · refine fun h => absurd (((a3 _ (.head _) .eq _ _ (5 / 2) hx hget
      (.inl ⟨rfl, isDouble_iff.2 (by decide +kernel)⟩)).1 ?_).1 h) ?_
    · rw [abs_of_pos (by norm_num)]; norm_num
    · simp only [NumberTest.HoldsExactly]; norm_num
  · refine ((a3 _ (.tail _ (.head _)) (.cmp .ge) _ _ (rnd (1 / 10)) hx hget (.inl ⟨rfl, rnd_isDouble _⟩)).2 ?_).2 ?_
    · right
      have h : (1 : Rat) / 2 ^ 51 ≤ rnd (1 / 10) := by decide +kernel
      exact le_trans h (le_abs_self _)
    · simp only [NumberTest.Holds]; decide +kernel
  · refine ((a3 _ (.tail _ (.tail _ (.head _))) .ne _ _ 3 hx hget (.inr ⟨3, rfl, by norm_num, by norm_num⟩)).1 ?_).2 ?_
    · rw [abs_of_pos (by norm_num)]; norm_num
    · simp only [NumberTest.HoldsExactly]; norm_num
  · refine ((a3 _ (.tail _ (.tail _ (.tail _ (.head _)))) (.cmp .lt) _ _ 1 hx hget (.inr ⟨1, rfl, by norm_num, by norm_num⟩)).2 ?_).2 ?_
    · right; rw [abs_of_pos (by norm_num)]; norm_num
    · simp only [NumberTest.Holds]; norm_num
  · refine ((a3 _ (.tail _ (.tail _ (.tail _ (.tail _ (.head _))))) .eq _ _ 1 hx hget (.inr ⟨1, rfl, by norm_num, by norm_num⟩)).2 ?_).2 ?_
    · right; rw [abs_of_pos (by norm_num)]; norm_num
    · simp only [NumberTest.Holds]; rw [abs_of_neg (by norm_num)]; norm_num

/-! ### what one might expect and is not so -/

/-- the test `f op k` on the value `x` -/
abbrev onValue (t : NumberTest) (x k : Rat) : Prop := sat exGeo [] (eventOf [⟨"f".toList, .float x⟩]) (t.expr ⟨"f".toList, 0⟩ k)

theorem onValue_iff {t : NumberTest} {x k : Rat} (hx : IsDouble x) (hk : IsDouble k) (hs : k = 0 ∨ 1 / 2 ^ 51 ≤ |k|) :
    onValue t x k ↔ t.Holds x k := numberTest_sat t hx hk hs (by rfl)

/-- C60: `f < k` and `f = k` can both be true, and `f <= k and f >= k` is not `f = k`. -/
theorem C60_below_and_equal : ∃ x k, IsDouble x ∧ IsDouble k ∧ onValue (.cmp .lt) x k ∧ onValue .eq x k ∧ ¬ onValue (.cmp .ge) x k := by
  have hx : IsDouble (1 - 1 / 2 ^ 53) := isDouble_iff.2 (by decide +kernel)
  have hk : IsDouble 1 := isDouble_iff.2 (by decide +kernel)
  have hs : (1 : Rat) = 0 ∨ 1 / 2 ^ 51 ≤ |(1 : Rat)| := by right; rw [abs_one]; norm_num
  refine ⟨1 - 1 / 2 ^ 53, 1, hx, hk, ?_, ?_, ?_⟩ <;> rw [onValue_iff hx hk hs] <;> simp only [NumberTest.Holds]
  · norm_num
  · rw [abs_of_neg (by norm_num)]; norm_num
  · norm_num

/-- C60: equality is not transitive: `a = b` and `b = c` are true and `a = c` is not. -/
theorem C60_not_transitive : ∃ a b c, IsDouble a ∧ IsDouble b ∧ IsDouble c ∧ onValue .eq a b ∧ onValue .eq b c ∧ ¬ onValue .eq a c := by
  have ha : IsDouble (1 / 2) := isDouble_iff.2 (by decide +kernel)
  have hb : IsDouble (1 / 2 + 1 / 2 ^ 53) := isDouble_iff.2 (by decide +kernel)
  have hc : IsDouble (1 / 2 + 1 / 2 ^ 52) := isDouble_iff.2 (by decide +kernel)
  have hs : ∀ d : Rat, 0 ≤ d → (1 / 2 + d : Rat) = 0 ∨ 1 / 2 ^ 51 ≤ |1 / 2 + d| := by
    intro d hd
    right; rw [abs_of_nonneg (by linarith)]
    have : (1 : Rat) / 2 ^ 51 ≤ 1 / 2 := by norm_num
    linarith
  refine ⟨1 / 2, 1 / 2 + 1 / 2 ^ 53, 1 / 2 + 1 / 2 ^ 52, ha, hb, hc, ?_, ?_, ?_⟩
  · rw [onValue_iff ha hb (hs _ (by positivity))]; simp only [NumberTest.Holds]; rw [abs_of_neg (by norm_num)]; norm_num
  · rw [onValue_iff hb hc (hs _ (by positivity))]; simp only [NumberTest.Holds]; rw [abs_of_neg (by norm_num)]; norm_num
  · rw [onValue_iff ha hc (hs _ (by positivity))]; simp only [NumberTest.Holds]; rw [abs_of_neg (by norm_num)]; norm_num

/-- C60: whole numbers above 2^53 are rounded: the test against 9007199254740993 is true on 9007199254740992. -/
theorem C60_large_integer : sat exGeo [] (eventOf [⟨"f".toList, .float 9007199254740992⟩])
    (NumberTest.eq.intExpr ⟨"f".toList, 0⟩ 9007199254740993) := by
  have h : rnd ((9007199254740993 : Int) : Rat) = 9007199254740992 := by decide +kernel
  have hg : (eventOf [⟨"f".toList, .float 9007199254740992⟩]).get ⟨"f".toList, 0⟩ = some (.float 9007199254740992) := by decide +kernel
  simp only [NumberTest.intExpr, sat, satPred, hg, h]
  right
  exact ⟨_, rfl, closeTo_self _⟩

end BeTree
