import Verif.Spec.Double
import Mathlib.Tactic.Linarith
import Mathlib.Tactic.Ring
import Mathlib.Tactic.FieldSimp
import Mathlib.Tactic.Positivity
import Mathlib.Data.Rat.Floor
import Mathlib.Algebra.Order.Ring.Abs
/-
Rounding to nearest: the result is a double, no double is nearer, so the rounding is monotone and keeps doubles.
-/
namespace BeTree

theorem rat_abs_eq (q : Rat) : q.abs = |q| := by
  rcases le_total 0 q with h | h
  · rw [Rat.abs_of_nonneg h, abs_of_nonneg h]
  · rw [Rat.abs_of_nonpos h, abs_of_nonpos h]

theorem pow2_eq (e : Int) : pow2 e = (2 : Rat) ^ e := by
  unfold pow2
  split
  · rename_i h
    obtain ⟨n, rfl⟩ := Int.eq_ofNat_of_zero_le h
    simp
  · rename_i h
    obtain ⟨n, hn⟩ := Int.eq_ofNat_of_zero_le (a := -e) (by omega)
    obtain rfl : e = -(n : Int) := by omega
    simp

theorem pow2_pos (e : Int) : (0 : Rat) < 2 ^ e := by positivity

theorem pow2_le {a b : Int} (h : a ≤ b) : (2 : Rat) ^ a ≤ 2 ^ b := zpow_le_zpow_right₀ (by norm_num) h

theorem pow2_lt_iff {a b : Int} : (2 : Rat) ^ a < 2 ^ b ↔ a < b := zpow_lt_zpow_iff_right₀ (by norm_num)

theorem pow2_succ (e : Int) : (2 : Rat) ^ (e + 1) = 2 * 2 ^ e := by rw [zpow_add_one₀ (by norm_num)]; ring

/-- the exponent is that of the leading binary digit -/
theorem expo_spec {q : Rat} (hq : q ≠ 0) : (2 : Rat) ^ expo q ≤ |q| ∧ |q| < 2 ^ (expo q + 1) := by
  have hn : q.num.natAbs ≠ 0 := by simpa using hq
  have hd : q.den ≠ 0 := q.den_nz
  have n1 : (2 : Rat) ^ ((Nat.log2 q.num.natAbs : Nat) : Int) ≤ (q.num.natAbs : Rat) := by
    rw [zpow_natCast]; exact_mod_cast (Nat.le_log2 hn).1 le_rfl
  have n2 : (q.num.natAbs : Rat) < 2 ^ (((Nat.log2 q.num.natAbs : Nat) : Int) + 1) := by
    have := (Nat.log2_lt hn).1 (Nat.lt_succ_self _)
    have h2 : (((Nat.log2 q.num.natAbs : Nat) : Int) + 1) = ((Nat.log2 q.num.natAbs + 1 : Nat) : Int) := by push_cast; rfl
    rw [h2, zpow_natCast]; exact_mod_cast this
  have d1 : (2 : Rat) ^ ((Nat.log2 q.den : Nat) : Int) ≤ (q.den : Rat) := by
    rw [zpow_natCast]; exact_mod_cast (Nat.le_log2 hd).1 le_rfl
  have d2 : (q.den : Rat) < 2 ^ (((Nat.log2 q.den : Nat) : Int) + 1) := by
    have := (Nat.log2_lt hd).1 (Nat.lt_succ_self _)
    have h2 : (((Nat.log2 q.den : Nat) : Int) + 1) = ((Nat.log2 q.den + 1 : Nat) : Int) := by push_cast; rfl
    rw [h2, zpow_natCast]; exact_mod_cast this
  have hdp : (0 : Rat) < q.den := by exact_mod_cast Nat.pos_of_ne_zero hd
  have habs : |q| = (q.num.natAbs : Rat) / q.den := by
    conv_lhs => rw [← Rat.num_div_den q]
    rw [abs_div, abs_of_pos hdp, Nat.cast_natAbs, Int.cast_abs]
  generalize hN : ((Nat.log2 q.num.natAbs : Nat) : Int) = N at *
  generalize hD : ((Nat.log2 q.den : Nat) : Int) = D at *
  have up : |q| < 2 ^ (N - D + 1) := by
    rw [habs, div_lt_iff₀ hdp]
    calc (q.num.natAbs : Rat) < 2 ^ (N + 1) := n2
      _ = 2 ^ (N - D + 1) * 2 ^ D := by rw [← zpow_add₀ (by norm_num)]; congr 1; ring
      _ ≤ _ := mul_le_mul_of_nonneg_left d1 (pow2_pos _).le
  have lo : 2 ^ (N - D - 1) ≤ |q| := by
    rw [habs, le_div_iff₀ hdp]
    calc (2 : Rat) ^ (N - D - 1) * q.den ≤ 2 ^ (N - D - 1) * 2 ^ (D + 1) := mul_le_mul_of_nonneg_left d2.le (pow2_pos _).le
      _ = 2 ^ N := by rw [← zpow_add₀ (by norm_num)]; congr 1; ring
      _ ≤ _ := n1
  unfold expo
  dsimp only
  rw [hN, hD, rat_abs_eq, pow2_eq]
  split
  · rename_i h; exact ⟨h, up⟩
  · rename_i h
    refine ⟨lo, ?_⟩
    rw [show N - D - 1 + 1 = N - D by ring]
    exact not_le.mp h

theorem nearestInt_err (q : Rat) : |(nearestInt q : Rat) - q| ≤ 1 / 2 := by
  have h1 := Rat.floor_le q
  have h2 := Rat.lt_floor_add_one q
  push_cast at h2
  unfold nearestInt
  rw [abs_le]
  split
  · constructor <;> linarith
  · split
    · push_cast; constructor <;> linarith
    · split
      · constructor <;> linarith
      · push_cast; constructor <;> linarith

/-- no whole number is nearer -/
theorem nearestInt_near (q : Rat) (n : Int) : |(nearestInt q : Rat) - q| ≤ |(n : Rat) - q| := by
  by_cases h : n = nearestInt q
  · rw [h]
  · have he := nearestInt_err q
    have h1 : (1 : Rat) ≤ |(n : Rat) - nearestInt q| := by
      have : (1 : Int) ≤ |n - nearestInt q| := Int.one_le_abs (sub_ne_zero.mpr h)
      exact_mod_cast this
    have h2 : |(n : Rat) - nearestInt q| ≤ |(n : Rat) - q| + |(nearestInt q : Rat) - q| := by
      rw [abs_sub_comm (nearestInt q : Rat) q]
      exact abs_sub_le _ _ _
    linarith

theorem nearestInt_int (n : Int) : nearestInt (n : Rat) = n := by
  simp [nearestInt]

theorem nearestInt_neg (q : Rat) : nearestInt (-q) = -nearestInt q := by
  have h1 := Rat.floor_le q
  have h2 := Rat.lt_floor_add_one q
  push_cast at h2
  by_cases hi : (q.floor : Rat) = q
  · rw [← hi, ← Int.cast_neg, nearestInt_int, nearestInt_int]
  · have hlt : (q.floor : Rat) < q := lt_of_le_of_ne h1 hi
    have hf : (-q).floor = -q.floor - 1 := by
      have a := Rat.floor_le (-q)
      have b := Rat.lt_floor_add_one (-q)
      push_cast at b
      have c1 : ((-q).floor : Rat) < ((-q.floor : Int) : Rat) := by push_cast; linarith
      have c2 : (((-q.floor - 2 : Int)) : Rat) < ((-q).floor : Rat) := by push_cast; linarith
      have c1' : (-q).floor < -q.floor := by exact_mod_cast c1
      have c2' : -q.floor - 2 < (-q).floor := by exact_mod_cast c2
      omega
    unfold nearestInt
    rw [hf]
    push_cast
    split <;> split <;> (try split) <;> (try split) <;> (try split) <;> first | (exfalso; linarith) | omega

theorem ulp_pos (q : Rat) : 0 < ulp q := by rw [ulp, pow2_eq]; exact pow2_pos _

theorem expo_neg (q : Rat) : expo (-q) = expo q := by
  unfold expo
  simp [rat_abs_eq]

theorem ulp_neg (q : Rat) : ulp (-q) = ulp q := by unfold ulp; rw [expo_neg]

theorem rnd_zero : rnd 0 = 0 := by simp [rnd]

theorem rnd_neg (q : Rat) : rnd (-q) = -rnd q := by
  unfold rnd
  simp only [neg_eq_zero, ulp_neg, neg_div, nearestInt_neg]
  split
  · simp
  · push_cast; ring

theorem isDouble_zero : IsDouble 0 := ⟨0, 0, by simp, by simp, by simp⟩

theorem isDouble_neg {q : Rat} (h : IsDouble q) : IsDouble (-q) := by
  obtain ⟨m, e, h1, h2, rfl⟩ := h
  exact ⟨-m, e, by simpa using h1, h2, by push_cast; ring⟩

/-- a double at least as large as the leading digit of `q` is a multiple of the last digit kept for `q` -/
theorem double_multiple {q d : Rat} (hd : IsDouble d) (h : (2 : Rat) ^ expo q ≤ |d|) : ∃ n : Int, d = n * ulp q := by
  obtain ⟨m, e, h1, h2, rfl⟩ := hd
  have hk : max (expo q - 52) (-1074) ≤ e := by
    refine max_le ?_ h2
    have hm : |(m : Rat)| < 2 ^ (53 : Int) := by
      rw [← Int.cast_abs, Int.abs_eq_natAbs]
      norm_cast
    rw [abs_mul, abs_of_pos (pow2_pos e)] at h
    have : (2 : Rat) ^ expo q < 2 ^ (53 + e) := by
      rw [zpow_add₀ (by norm_num)]
      exact lt_of_le_of_lt h (mul_lt_mul_of_pos_right hm (pow2_pos e))
    rw [pow2_lt_iff] at this
    omega
  obtain ⟨k, hk⟩ := Int.eq_ofNat_of_zero_le (a := e - max (expo q - 52) (-1074)) (by omega)
  refine ⟨m * 2 ^ k, ?_⟩
  rw [ulp, pow2_eq]
  push_cast
  rw [mul_assoc]
  congr 1
  rw [← zpow_natCast, ← zpow_add₀ (by norm_num)]
  congr 1
  omega

/-- with the least exponent every double is a multiple -/
theorem double_multiple_low {q d : Rat} (hl : expo q - 52 ≤ -1074) (hd : IsDouble d) : ∃ n : Int, d = n * ulp q := by
  obtain ⟨m, e, h1, h2, rfl⟩ := hd
  obtain ⟨k, hk⟩ := Int.eq_ofNat_of_zero_le (a := e + 1074) (by omega)
  refine ⟨m * 2 ^ k, ?_⟩
  rw [ulp, pow2_eq, max_eq_right hl]
  push_cast
  rw [mul_assoc]
  congr 1
  rw [← zpow_natCast, ← zpow_add₀ (by norm_num)]
  congr 1
  omega

theorem rnd_near_multiple (q : Rat) (n : Int) (hq : q ≠ 0) : |rnd q - q| ≤ |(n : Rat) * ulp q - q| := by
  have hu := ulp_pos q
  have key := nearestInt_near (q / ulp q) n
  have e : ∀ x : Rat, x * ulp q - q = (x - q / ulp q) * ulp q := by
    intro x; field_simp
  rw [rnd, if_neg hq, e, e, abs_mul, abs_mul]
  exact mul_le_mul_of_nonneg_right key (abs_nonneg _)

theorem expo_multiple (q : Rat) (h : -1074 ≤ expo q - 52) : ∃ n : Int, (2 : Rat) ^ expo q = n * ulp q := by
  refine ⟨2 ^ 52, ?_⟩
  rw [ulp, pow2_eq, max_eq_left h]
  have : ((2 ^ 52 : Int) : Rat) = (2 : Rat) ^ (52 : Int) := by norm_num
  rw [this, ← zpow_add₀ (by norm_num)]
  congr 1
  omega

/-- no double is nearer than the result -/
theorem rnd_near (q : Rat) {d : Rat} (hd : IsDouble d) : |rnd q - q| ≤ |d - q| := by
  have pos : ∀ {q d : Rat}, 0 < q → IsDouble d → |rnd q - q| ≤ |d - q| := by
    intro q d hq0 hd
    have hq : q ≠ 0 := hq0.ne'
    by_cases hl : expo q - 52 ≤ -1074
    · obtain ⟨n, rfl⟩ := double_multiple_low hl hd
      exact rnd_near_multiple q n hq
    · have es := expo_spec hq
      rw [abs_of_pos hq0] at es
      by_cases hb : (2 : Rat) ^ expo q ≤ |d|
      · obtain ⟨n, rfl⟩ := double_multiple hd hb
        exact rnd_near_multiple q n hq
      · obtain ⟨n, hn⟩ := expo_multiple q (by omega)
        refine le_trans (rnd_near_multiple q n hq) ?_
        rw [← hn]
        have h1 : d < (2 : Rat) ^ expo q := lt_of_le_of_lt (le_abs_self d) (not_le.mp hb)
        rw [abs_of_nonpos (by linarith), abs_of_nonpos (by linarith)]
        linarith
  rcases lt_trichotomy q 0 with h | rfl | h
  · have := pos (neg_pos.mpr h) (isDouble_neg hd)
    rw [rnd_neg] at this
    rwa [show -rnd q - -q = -(rnd q - q) by ring, show -d - -q = -(d - q) by ring, abs_neg, abs_neg] at this
  · simp [rnd_zero]
  · exact pos h hd

/-- the result is a double -/
theorem rnd_isDouble (q : Rat) : IsDouble (rnd q) := by
  by_cases hq : q = 0
  · rw [hq, rnd_zero]; exact isDouble_zero
  · have es := expo_spec hq
    have hu := ulp_pos q
    have herr := nearestInt_err (q / ulp q)
    have hm : |(nearestInt (q / ulp q) : Rat)| ≤ 2 ^ 53 := by
      have hb : |q / ulp q| < 2 ^ 53 := by
        rw [abs_div, abs_of_pos hu, div_lt_iff₀ hu]
        refine lt_of_lt_of_le es.2 ?_
        rw [ulp, pow2_eq, ← zpow_natCast, ← zpow_add₀ (by norm_num)]
        apply pow2_le
        push_cast
        omega
      have hint : |nearestInt (q / ulp q)| < 2 ^ 53 + 1 := by
        have h3 : |(nearestInt (q / ulp q) : Rat)| < 2 ^ 53 + 1 := by
          have := abs_sub_abs_le_abs_sub (nearestInt (q / ulp q) : Rat) (q / ulp q)
          linarith
        exact_mod_cast h3
      have : |nearestInt (q / ulp q)| ≤ 2 ^ 53 := by omega
      exact_mod_cast this
    rw [rnd, if_neg hq]
    generalize nearestInt (q / ulp q) = n at *
    have hn : n.natAbs ≤ 2 ^ 53 := by
      have : |n| ≤ 2 ^ 53 := by exact_mod_cast hm
      rw [Int.abs_eq_natAbs] at this
      exact_mod_cast this
    rw [ulp, pow2_eq]
    by_cases hlt : n.natAbs < 2 ^ 53
    · exact ⟨n, _, hlt, le_max_right _ _, rfl⟩
    · rcases Int.natAbs_eq n with h | h
      · refine ⟨1, 53 + max (expo q - 52) (-1074), by simp, by omega, ?_⟩
        rw [h, show n.natAbs = 2 ^ 53 by omega, zpow_add₀ (by norm_num)]
        push_cast
        norm_num
      · refine ⟨-1, 53 + max (expo q - 52) (-1074), by simp, by omega, ?_⟩
        rw [h, show n.natAbs = 2 ^ 53 by omega, zpow_add₀ (by norm_num)]
        push_cast
        norm_num

theorem rnd_of_double {q : Rat} (h : IsDouble q) : rnd q = q := by
  have := rnd_near q h
  rw [sub_self, abs_zero] at this
  exact sub_eq_zero.mp (abs_nonpos_iff.mp this)

theorem isDouble_iff {q : Rat} : IsDouble q ↔ rnd q = q :=
  ⟨rnd_of_double, fun h => h ▸ rnd_isDouble q⟩

theorem rnd_rnd (q : Rat) : rnd (rnd q) = rnd q := rnd_of_double (rnd_isDouble q)

theorem rnd_mono {a b : Rat} (h : a ≤ b) : rnd a ≤ rnd b := by
  by_contra hc
  have hc := not_le.mp hc
  have h1 := rnd_near a (rnd_isDouble b)
  have h2 := rnd_near b (rnd_isDouble a)
  rcases eq_or_lt_of_le h with rfl | hlt
  · exact lt_irrefl _ hc
  · have ha : rnd a + rnd b ≤ 2 * a := by
      rw [← sq_le_sq] at h1
      nlinarith
    have hb : 2 * b ≤ rnd a + rnd b := by
      rw [← sq_le_sq] at h2
      nlinarith
    linarith

end BeTree
