import Verif.Lemmas.Double
import Verif.Spec.Bound
/-
The limits that declarations and float constants give an attribute, and what splitting makes of them.
-/
namespace BeTree
open Spec

theorem eps_eq : dblEps = 1 / 2 ^ 52 := by unfold dblEps; decide +kernel
theorem eps_pos : 0 < dblEps := by rw [eps_eq]; positivity

theorem nearestInt_even {n : Int} (hn : n % 2 = 0) {f : Rat} (hf : |f| ≤ 1 / 2) : nearestInt (n + f) = n := by
  have h1 := abs_le.mp hf
  by_cases h0 : 0 ≤ f
  · have hfl : ((n : Rat) + f).floor = n := by
      apply le_antisymm
      · have : ((n : Rat) + f).floor < n + 1 := Rat.floor_lt_iff.2 (by push_cast; linarith)
        omega
      · exact Rat.le_floor_iff.2 (by linarith)
    unfold nearestInt
    rw [hfl]
    split
    · rfl
    · split
      · exfalso; linarith
      · simp
  · have hfl : ((n : Rat) + f).floor = n - 1 := by
      apply le_antisymm
      · have : ((n : Rat) + f).floor < n := Rat.floor_lt_iff.2 (by linarith)
        omega
      · exact Rat.le_floor_iff.2 (by push_cast; linarith)
    unfold nearestInt
    rw [hfl]
    push_cast
    split
    · exfalso; linarith
    · split
      · omega
      · have h2 : ¬ (n - 1) % 2 = 0 := by omega
        simp [h2]

theorem coarse_double {c : Rat} (h : Coarse c) : IsDouble c := by
  obtain ⟨n, hn, rfl⟩ := h
  refine ⟨n, -20, lt_of_le_of_lt hn (by norm_num), by norm_num, ?_⟩
  rw [div_eq_mul_inv]
  congr 1

theorem coarse_le {c : Rat} (h : Coarse c) : |c| ≤ 2 ^ 30 := by
  obtain ⟨n, hn, rfl⟩ := h
  rw [abs_div, abs_of_pos (show (0 : Rat) < 2 ^ 20 by positivity), div_le_iff₀ (by positivity)]
  have : |n| ≤ 2 ^ 50 := by rw [Int.abs_eq_natAbs]; exact_mod_cast hn
  have h2 : |(n : Rat)| ≤ 2 ^ 50 := by exact_mod_cast this
  linarith

theorem coarse_neg {c : Rat} (h : Coarse c) : Coarse (-c) := by
  obtain ⟨n, hn, rfl⟩ := h
  exact ⟨-n, by simpa using hn, by push_cast; ring⟩

/-- rounding keeps the distance of `DBL_EPSILON` from a coarse number, or drops it -/
theorem rnd_coarse_add {c : Rat} (h : Coarse c) : rnd (c + dblEps) = c ∨ rnd (c + dblEps) = c + dblEps := by
  have hd := coarse_double h
  have hc := coarse_le h
  obtain ⟨n, hn, rfl⟩ := h
  by_cases hs : (n * 2 ^ 32 + 1).natAbs < 2 ^ 53
  · right
    apply rnd_of_double
    refine ⟨n * 2 ^ 32 + 1, -52, hs, by norm_num, ?_⟩
    rw [eps_eq]
    push_cast
    rw [show (2 : Rat) ^ (-52 : Int) = 1 / 2 ^ 52 by norm_num]
    ring
  · left
    have hbig : (2 : Rat) < |(n : Rat) / 2 ^ 20 + dblEps| := by
      have e : (n : Rat) / 2 ^ 20 + dblEps = ((n * 2 ^ 32 + 1 : Int) : Rat) / 2 ^ 52 := by
        rw [eps_eq]; push_cast; ring
      have h1 : (2 : Int) ^ 53 < |n * 2 ^ 32 + 1| := by rw [Int.abs_eq_natAbs]; omega
      have h2 : (2 : Rat) ^ 53 < |((n * 2 ^ 32 + 1 : Int) : Rat)| := by exact_mod_cast h1
      rw [e, abs_div, abs_of_pos (show (0 : Rat) < 2 ^ 52 by positivity), lt_div_iff₀ (by positivity)]
      linarith
    have hq : (n : Rat) / 2 ^ 20 + dblEps ≠ 0 := by
      intro h0; rw [h0] at hbig; norm_num at hbig
    have es := expo_spec hq
    generalize hE : expo ((n : Rat) / 2 ^ 20 + dblEps) = E at *
    have hE1 : 1 ≤ E := by
      have : (2 : Rat) ^ (1 : Int) < 2 ^ (E + 1) := lt_of_le_of_lt (by norm_num) (hbig.trans es.2)
      rw [pow2_lt_iff] at this
      omega
    have hE2 : E ≤ 30 := by
      have h1 : |(n : Rat) / 2 ^ 20 + dblEps| < 2 ^ (31 : Int) := by
        have := abs_add_le ((n : Rat) / 2 ^ 20) dblEps
        rw [abs_of_pos eps_pos, eps_eq] at this
        rw [eps_eq]
        have h31 : (2 : Rat) ^ (31 : Int) = 2147483648 := by norm_num
        rw [h31]
        norm_num at hc this ⊢
        linarith
      have := lt_of_le_of_lt es.1 h1
      rw [pow2_lt_iff] at this
      omega
    have hu : ulp ((n : Rat) / 2 ^ 20 + dblEps) = 2 ^ (E - 52) := by
      rw [ulp, pow2_eq, hE, max_eq_left (by omega)]
    rw [rnd, if_neg hq, hu]
    obtain ⟨k, hk⟩ := Int.eq_ofNat_of_zero_le (a := 31 - E) (by omega)
    have hsplit : ((n : Rat) / 2 ^ 20 + dblEps) / 2 ^ (E - 52) = ((n * (2 * 2 ^ k) : Int) : Rat) + 2 ^ (-E) := by
      have e1 : E = 31 - k := by omega
      rw [add_div, eps_eq]
      congr 1
      · push_cast
        rw [e1, show (31 - (k : Int) - 52) = -(21 + k) by ring, zpow_neg, zpow_add₀ (by norm_num), zpow_natCast]
        have : (2 : Rat) ^ (21 : Int) = 2 * 2 ^ 20 := by norm_num
        rw [this]
        field_simp
      · rw [zpow_sub₀ (by norm_num), zpow_neg]
        have : (2 : Rat) ^ (52 : Int) = 2 ^ 52 := by norm_num
        rw [this]
        field_simp
    rw [hsplit, nearestInt_even (by rw [← mul_assoc, mul_comm n 2, mul_assoc]; exact Int.mul_emod_right 2 _)]
    · rw [Int.cast_mul]
      have e1 : E = 31 - k := by omega
      rw [e1, show (31 - (k : Int) - 52) = -(21 + k) by ring, zpow_neg, zpow_add₀ (by norm_num), zpow_natCast]
      have : (2 : Rat) ^ (21 : Int) = 2 * 2 ^ 20 := by norm_num
      rw [this]
      push_cast
      field_simp
    · rw [abs_of_pos (pow2_pos _)]
      calc (2 : Rat) ^ (-E) ≤ 2 ^ (-1 : Int) := pow2_le (by omega)
        _ = 1 / 2 := by norm_num

theorem rnd_coarse_sub {c : Rat} (h : Coarse c) : rnd (c - dblEps) = c ∨ rnd (c - dblEps) = c - dblEps := by
  have := rnd_coarse_add (coarse_neg h)
  rw [show -c + dblEps = -(c - dblEps) by ring, rnd_neg] at this
  rcases this with h | h
  · left; linarith
  · right; linarith

/-- a coarse number, or one at a distance of `DBL_EPSILON` from it -/
def Edge (x : Rat) : Prop := IsDouble x ∧ ∃ c t, Coarse c ∧ (t = 0 ∨ t = dblEps ∨ t = -dblEps) ∧ x = c + t

theorem coarse_edge {c : Rat} (h : Coarse c) : Edge c := ⟨coarse_double h, c, 0, h, Or.inl rfl, by ring⟩

theorem rnd_edge_at {c t : Rat} (h : Coarse c) (ht : t = 0 ∨ t = dblEps ∨ t = -dblEps) :
    rnd (c + t) = c ∨ rnd (c + t) = c + t := by
  rcases ht with rfl | rfl | rfl
  · left; rw [add_zero]; exact rnd_of_double (coarse_double h)
  · exact rnd_coarse_add h
  · rw [← sub_eq_add_neg]; exact rnd_coarse_sub h

theorem rnd_edge {c t : Rat} (h : Coarse c) (ht : t = 0 ∨ t = dblEps ∨ t = -dblEps) : Edge (rnd (c + t)) := by
  refine ⟨rnd_isDouble _, ?_⟩
  rcases rnd_edge_at h ht with e | e <;> rw [e]
  · exact ⟨c, 0, h, Or.inl rfl, by ring⟩
  · exact ⟨c, t, h, ht, rfl⟩

theorem coarse_between {a b c : Rat} {m : Int} (ha : Coarse a) (hb : Coarse b) (hc : c = a + m) (h1 : a ≤ c) (h2 : c ≤ b) :
    Coarse c := by
  obtain ⟨n, hn, rfl⟩ := ha
  obtain ⟨k, hk, rfl⟩ := hb
  have e : c = ((n + m * 2 ^ 20 : Int) : Rat) / 2 ^ 20 := by rw [hc]; push_cast; ring
  refine ⟨n + m * 2 ^ 20, ?_, e⟩
  rw [e, div_le_div_iff_of_pos_right (by positivity)] at h1 h2
  have h3 : n ≤ n + m * 2 ^ 20 := by exact_mod_cast h1
  have h4 : n + m * 2 ^ 20 ≤ k := by exact_mod_cast h2
  omega

/-- the differences of coarse numbers are doubles, and so are their halves -/
theorem coarse_diff {a b : Rat} (ha : Coarse a) (hb : Coarse b) : ∃ g : Int, b - a = g / 2 ^ 20 ∧ IsDouble (b - a) ∧ IsDouble ((b - a) / 2) := by
  obtain ⟨n, hn, rfl⟩ := ha
  obtain ⟨k, hk, rfl⟩ := hb
  refine ⟨k - n, by push_cast; ring, ⟨k - n, -20, by omega, by norm_num, ?_⟩, ⟨k - n, -21, by omega, by norm_num, ?_⟩⟩
  · rw [zpow_neg, show (2 : Rat) ^ (20 : Int) = 2 ^ 20 by norm_num]; push_cast; field_simp
  · rw [zpow_neg, show (2 : Rat) ^ (21 : Int) = 2 ^ 20 * 2 by norm_num]; push_cast; field_simp

theorem rnd_two_eps : rnd (2 + dblEps) = 2 := by unfold dblEps; decide +kernel
theorem rnd_two_eps2 : rnd (2 + 2 * dblEps) = 2 + 2 * dblEps := by unfold dblEps; decide +kernel
theorem rnd_two_sub : rnd (2 - dblEps) = 2 - dblEps := by unfold dblEps; decide +kernel
theorem rnd_one_eps : rnd ((2 + 2 * dblEps) / 2) = 1 + dblEps := by unfold dblEps; decide +kernel
theorem ceil_one_eps : (1 + dblEps).ceil = 2 := by unfold dblEps; decide +kernel
theorem rnd_one : rnd 1 = 1 := by decide +kernel
theorem rnd_two : rnd 2 = 2 := by decide +kernel
theorem rnd_eps : rnd dblEps = dblEps := by unfold dblEps; decide +kernel

theorem rnd_lt {a b : Rat} (h : rnd a < rnd b) : a < b := by
  by_contra hn
  exact absurd (rnd_mono (not_lt.1 hn)) (not_le.2 h)

theorem rnd_nonneg {a : Rat} (h : 0 ≤ a) : 0 ≤ rnd a := by have := rnd_mono h; rwa [rnd_zero] at this

/-- cutting a range between edges: inside, and again at edges -/
theorem edge_cut {a b m n : Rat} (ha : Edge a) (hb : Edge b) (hab : a ≤ b) (h : cut a b = some (m, n)) :
    (a ≤ m ∧ m < b ∧ a < n ∧ n ≤ b) ∧ Edge m ∧ Edge n := by
  obtain ⟨da, ca, ta, hca, hta, ea⟩ := ha
  obtain ⟨db, cb, tb, hcb, htb, eb⟩ := hb
  have he := eps_pos
  have heu : dblEps = 1 / 2 ^ 52 := eps_eq
  have tta : -dblEps ≤ ta ∧ ta ≤ dblEps := by rcases hta with rfl | rfl | rfl <;> constructor <;> linarith
  have ttb : -dblEps ≤ tb ∧ tb ≤ dblEps := by rcases htb with rfl | rfl | rfl <;> constructor <;> linarith
  obtain ⟨g, hg, dg, dg2⟩ := coarse_diff hca hcb
  have hd0 : 0 ≤ rnd (b - a) := rnd_nonneg (by linarith)
  have habs : (rnd (b - a)).abs = rnd (b - a) := Rat.abs_of_nonneg hd0
  -- a point `k` whole steps from the start, with room up to the end
  have point : ∀ k : Int, 1 ≤ k → (k : Rat) ≤ cb - ca → (k : Rat) < cb - ca ∨ (ta = -dblEps ∧ tb = dblEps) →
      a ≤ rnd (a + k) ∧ rnd (a + k) < b ∧ a < rnd (a + k) ∧ Edge (rnd (a + k)) := by
    intro k hk hle hlt
    have hk' : (1 : Rat) ≤ k := by exact_mod_cast hk
    have hcm : Coarse (ca + k) := coarse_between hca hcb rfl (by linarith) (by linarith)
    have e : a + k = (ca + k) + ta := by rw [ea]; ring
    have hat := rnd_edge_at hcm hta
    rw [← e] at hat
    have hmore : ca + k + dblEps < b ∨ (ta = -dblEps ∧ tb = dblEps) := by
      rcases hlt with hlt | hlt
      · left
        rw [hg, lt_div_iff₀ (by positivity)] at hlt
        have h1 : k * 2 ^ 20 + 1 ≤ g := by
          have : k * 2 ^ 20 < g := by exact_mod_cast hlt
          omega
        have h2 : ((k : Rat) * 2 ^ 20 + 1) ≤ g := by exact_mod_cast h1
        have h3 : (k : Rat) + 1 / 2 ^ 20 ≤ cb - ca := by
          rw [hg, le_div_iff₀ (by positivity)]
          have : ((k : Rat) + 1 / 2 ^ 20) * 2 ^ 20 = k * 2 ^ 20 + 1 := by ring
          rw [this]; exact h2
        have h4 : 2 * dblEps < 1 / 2 ^ 20 := by rw [heu]; norm_num
        rw [eb]; linarith
      · exact Or.inr hlt
    have hsmall : dblEps < 1 / 4 := by rw [heu]; norm_num
    have hb' : rnd (a + k) < b := by
      rcases hmore with h1 | ⟨h1, h2⟩
      · rcases hat with e | e <;> rw [e] <;> linarith
      · rcases hat with e | e <;> rw [e, eb, h2] <;> linarith
    have ha' : a < rnd (a + k) := by
      rcases hat with e | e <;> rw [e] <;> linarith
    refine ⟨ha'.le, hb', ha', ?_⟩
    rw [e]; exact rnd_edge hcm hta
  simp only [cut, habs] at h
  split at h
  · rename_i hgt
    simp only [Option.some.injEq, Prod.mk.injEq] at h
    obtain ⟨rfl, rfl⟩ := h
    -- the cut is at least 1 from the start
    have hk1 : 1 ≤ (rnd (rnd (b - a) / 2)).ceil := by
      have : (1 : Rat) ≤ rnd (rnd (b - a) / 2) := by
        have := rnd_mono (show (1 : Rat) ≤ rnd (b - a) / 2 by linarith)
        rwa [rnd_one] at this
      have h1 := this.trans (Rat.le_ceil (x := rnd (rnd (b - a) / 2)))
      exact_mod_cast h1
    have hexp : b - a = (cb - ca) + (tb - ta) := by rw [ea, eb]; ring
    have hba : 2 < b - a := rnd_lt (by rw [rnd_two]; exact hgt)
    have hg2 : 2 ≤ cb - ca := by
      by_contra hn
      push Not at hn
      rw [hg, div_lt_iff₀ (by positivity)] at hn
      have h1 : g + 1 ≤ 2 * 2 ^ 20 := by
        have : g < 2 * 2 ^ 20 := by exact_mod_cast hn
        omega
      have h2 : (g : Rat) + 1 ≤ 2 * 2 ^ 20 := by exact_mod_cast h1
      have h3 : cb - ca ≤ 2 - 1 / 2 ^ 20 := by
        rw [hg, div_le_iff₀ (by positivity)]
        calc (g : Rat) ≤ 2 * 2 ^ 20 - 1 := by linarith
          _ = (2 - 1 / 2 ^ 20) * 2 ^ 20 := by norm_num
      have h4 : 2 * dblEps < 1 / 2 ^ 20 := by rw [heu]; norm_num
      linarith
    have key : ((rnd (rnd (b - a) / 2)).ceil : Rat) ≤ cb - ca ∧
        (((rnd (rnd (b - a) / 2)).ceil : Rat) < cb - ca ∨ (ta = -dblEps ∧ tb = dblEps)) := by
      rcases eq_or_lt_of_le hg2 with h2 | h2
      · have h3 : tb = dblEps ∧ ta = -dblEps := by
          by_contra hn
          have h5 : tb - ta ≤ dblEps := by
            rcases hta with rfl | rfl | rfl <;> rcases htb with rfl | rfl | rfl <;> first | (exact absurd ⟨rfl, rfl⟩ hn) | linarith
          have h6 : rnd (b - a) ≤ rnd (2 + dblEps) := rnd_mono (by rw [hexp]; linarith)
          rw [rnd_two_eps] at h6
          linarith
        have h7 : b - a = 2 + 2 * dblEps := by rw [hexp, h3.1, h3.2]; linarith
        rw [h7, rnd_two_eps2, rnd_one_eps, ceil_one_eps, ← h2]
        exact ⟨by norm_num, Or.inr ⟨h3.2, h3.1⟩⟩
      · have h3 : |rnd (b - a) - (b - a)| ≤ |(cb - ca) - (b - a)| := rnd_near _ dg
        have h4 : |(cb - ca) - (b - a)| ≤ 2 * dblEps := by
          rw [hexp, abs_le]; constructor <;> linarith
        have h5 := abs_le.1 (h3.trans h4)
        have h6 : |rnd (rnd (b - a) / 2) - rnd (b - a) / 2| ≤ |(cb - ca) / 2 - rnd (b - a) / 2| := rnd_near _ dg2
        have h7 : |(cb - ca) / 2 - rnd (b - a) / 2| ≤ 2 * dblEps := by
          rw [abs_le]; constructor <;> linarith
        have h8 := abs_le.1 (h6.trans h7)
        have h9 : ((rnd (rnd (b - a) / 2)).ceil : Rat) < rnd (rnd (b - a) / 2) + 1 := Rat.ceil_lt
        rw [hg, lt_div_iff₀ (by positivity)] at h2
        have h10 : 2 * 2 ^ 20 + 1 ≤ g := by
          have : 2 * 2 ^ 20 < g := by exact_mod_cast h2
          omega
        have h11 : (2 : Rat) * 2 ^ 20 + 1 ≤ g := by exact_mod_cast h10
        have h12 : 2 + 1 / 2 ^ 20 ≤ cb - ca := by
          rw [hg, le_div_iff₀ (by positivity)]
          have : ((2 : Rat) + 1 / 2 ^ 20) * 2 ^ 20 = 2 * 2 ^ 20 + 1 := by norm_num
          rw [this]; exact h11
        have h13 : 8 * dblEps < 1 / 2 ^ 21 := by rw [heu]; norm_num
        have h14 : (1 : Rat) / 2 ^ 20 = 2 * (1 / 2 ^ 21) := by norm_num
        have : ((rnd (rnd (b - a) / 2)).ceil : Rat) < cb - ca := by linarith
        exact ⟨this.le, Or.inl this⟩
    obtain ⟨p1, p2, p3, p4⟩ := point _ hk1 key.1 key.2
    exact ⟨⟨p1, p2, p3, p2.le⟩, p4, p4⟩
  · have close : ∀ r : Rat, (rnd (rnd (b - a) - r)).abs < dblEps → r - dblEps < rnd (b - a) := by
      intro r hr
      by_contra hn
      push Not at hn
      have h1 : rnd (rnd (b - a) - r) ≤ rnd (-dblEps) := rnd_mono (by linarith)
      rw [rnd_neg, rnd_eps] at h1
      rw [rat_abs_eq, abs_lt] at hr
      linarith [hr.1]
    split at h
    · rename_i hf
      simp only [Option.some.injEq, Prod.mk.injEq] at h
      obtain ⟨rfl, rfl⟩ := h
      have h1 := close 2 hf
      have h2 : 2 - dblEps < b - a := by
        apply rnd_lt
        rw [rnd_two_sub]; exact h1
      have hg1 : 1 < cb - ca := by
        have : dblEps < 1 / 4 := by rw [heu]; norm_num
        have : b - a = (cb - ca) + (tb - ta) := by rw [ea, eb]; ring
        linarith
      obtain ⟨p1, p2, p3, p4⟩ := point 1 le_rfl (by push_cast; exact hg1.le) (by push_cast; exact Or.inl hg1)
      push_cast at p1 p2 p3 p4
      exact ⟨⟨p1, p2, p3, p2.le⟩, p4, p4⟩
    · split at h
      · rename_i hf
        simp only [Option.some.injEq, Prod.mk.injEq] at h
        obtain ⟨rfl, rfl⟩ := h
        have h1 := close 1 hf
        have hlt : a < b := by
          rcases eq_or_lt_of_le hab with h2 | h2
          · exfalso
            rw [h2, sub_self, rnd_zero] at h1
            have : dblEps < 1 / 4 := by rw [heu]; norm_num
            linarith
          · exact h2
        exact ⟨⟨le_rfl, hlt, hlt, le_rfl⟩, ⟨da, ca, ta, hca, hta, ea⟩, ⟨db, cb, tb, hcb, htb, eb⟩⟩
      · cases h

theorem edge_multiple {x : Rat} (h : Edge x) : ∃ n : Int, x = n * dblEps := by
  obtain ⟨-, c, t, ⟨n, _, rfl⟩, ht, rfl⟩ := h
  have e : (n : Rat) / 2 ^ 20 = ((n * 2 ^ 32 : Int) : Rat) * dblEps := by rw [eps_eq]; push_cast; ring
  rcases ht with rfl | rfl | rfl
  · exact ⟨n * 2 ^ 32, by rw [e]; ring⟩
  · exact ⟨n * 2 ^ 32 + 1, by rw [e]; push_cast; ring⟩
  · exact ⟨n * 2 ^ 32 - 1, by rw [e]; push_cast; ring⟩

theorem edge_halves {a b : Rat} (ha : Edge a) (hb : Edge b) (hab : a ≤ b) : Halves a b := by
  obtain ⟨i, hi⟩ := edge_multiple ha
  obtain ⟨j, hj⟩ := edge_multiple hb
  generalize hN : (j - i).toNat = N
  have he := eps_pos
  induction N using Nat.strong_induction_on generalizing a b i j with
  | _ N ih =>
    have less : ∀ {x y : Rat} {p q : Int}, x = p * dblEps → y = q * dblEps → (x ≤ y ↔ p ≤ q) ∧ (x < y ↔ p < q) := by
      rintro x y p q rfl rfl
      rw [mul_le_mul_iff_left₀ he, mul_lt_mul_iff_left₀ he]
      exact ⟨by exact_mod_cast Iff.rfl, by exact_mod_cast Iff.rfl⟩
    refine .mk (fun m n h => (edge_cut ha hb hab h).1) (fun m n h => ?_) (fun m n h => ?_)
    · obtain ⟨⟨h1, h2, h3, h4⟩, h5, h6⟩ := edge_cut ha hb hab h
      obtain ⟨k, hk⟩ := edge_multiple h5
      have g1 := (less hi hk).1.1 h1
      have g2 := (less hk hj).2.1 h2
      exact ih (k - i).toNat (by omega) ha h5 h1 i hi k hk rfl
    · obtain ⟨⟨h1, h2, h3, h4⟩, h5, h6⟩ := edge_cut ha hb hab h
      obtain ⟨k, hk⟩ := edge_multiple h6
      have g1 := (less hi hk).2.1 h3
      have g2 := (less hk hj).1.1 h4
      exact ih (j - k).toNat (by omega) h6 hb h4 k hk j hj rfl

theorem edge_small {x : Rat} (h : Edge x) : -(2 ^ 1000 : Rat) < x ∧ x < (2 ^ 1000 : Rat) := by
  obtain ⟨-, c, t, hc, ht, rfl⟩ := h
  have h1 := abs_le.1 (coarse_le hc)
  have he := eps_pos
  have h2 : dblEps < 1 := by rw [eps_eq]; norm_num
  have h3 : (2 : Rat) ^ 30 + 1 < 2 ^ 1000 := by decide +kernel
  generalize (2 : Rat) ^ 1000 = A at *
  rcases ht with rfl | rfl | rfl <;> constructor <;> linarith

/-- coarse numbers as limits of the given float attributes -/
@[reducible] def coarseFloats (attr : Str → Prop) : Floats := ⟨attr, Edge, fun _ _ ha hb h => edge_halves ha hb h, fun _ h => edge_small h⟩

theorem coarse_mayLimit {attr : Str → Prop} {k : Rat} (h : Coarse k) : @MayLimit (coarseFloats attr) k :=
  ⟨coarse_edge h, by rw [sub_eq_add_neg]; exact rnd_edge h (Or.inr (Or.inr rfl)), rnd_edge h (Or.inr (Or.inl rfl))⟩

theorem coarse_int {k : Int} (h : k.natAbs ≤ 2 ^ 30) : Coarse k := ⟨k * 2 ^ 20, by omega, by push_cast; ring⟩

/-- a check for `Coarse` -/
def coarseB (x : Rat) : Bool := (x * 2 ^ 20).den == 1 && decide ((x * 2 ^ 20).num.natAbs ≤ 2 ^ 50)

theorem coarse_of_check {x : Rat} (h : coarseB x = true) : Coarse x := by
  simp only [coarseB, Bool.and_eq_true, beq_iff_eq, decide_eq_true_eq] at h
  refine ⟨(x * 2 ^ 20).num, h.2, ?_⟩
  have := Rat.num_div_den (x * 2 ^ 20)
  rw [h.1] at this
  rw [← div_eq_iff (by norm_num)] at this
  rw [← this]; simp

/-- every number a comparison or equality of the expression has is coarse -/
def fewDigits : Expr → Bool
  | .leaf (.compare _ _ (.int k)) => coarseB k
  | .leaf (.compare _ _ (.float k)) => coarseB k
  | .leaf (.equality _ _ (.int k)) => coarseB k
  | .leaf (.equality _ _ (.float k)) => coarseB k
  | .leaf _ => true
  | .not e => fewDigits e
  | .and l r => fewDigits l && fewDigits r
  | .or l r => fewDigits l && fewDigits r

theorem fit_of_check {attr : Str → Prop} {fl : AttrVar → Prop} : ∀ {e : Expr}, fewDigits e = true → @FloatsFit (coarseFloats attr) fl e
  | .leaf p, h => by
    unfold FloatsFit
    split <;> first | trivial | skip
    all_goals
      rename_i e; cases e
      replace h := coarse_of_check h
    · intro _; rw [rnd_of_double (coarse_double h)]; exact coarse_mayLimit h
    · exact coarse_mayLimit h
    · intro _; rw [rnd_of_double (coarse_double h)]; exact coarse_mayLimit h
    · exact coarse_mayLimit h
  | .not e, h => by unfold FloatsFit; exact fit_of_check (e := e) h
  | .and l r, h => by
    unfold FloatsFit; simp only [fewDigits, Bool.and_eq_true] at h
    exact ⟨fit_of_check h.1, fit_of_check h.2⟩
  | .or l r, h => by
    unfold FloatsFit; simp only [fewDigits, Bool.and_eq_true] at h
    exact ⟨fit_of_check h.1, fit_of_check h.2⟩

theorem proper_float {attr : Str → Prop} {name : Str} {a b : Rat} (hn : attr name) (h : a ≤ b)
    (ha : a = -dblMax ∨ coarseB a = true) (hb : b = dblMax ∨ coarseB b = true) : @ProperDecl (coarseFloats attr) name (.float a b) :=
  ⟨hn, h, ha.imp_right fun h => coarse_edge (coarse_of_check h), hb.imp_right fun h => coarse_edge (coarse_of_check h)⟩

end BeTree
