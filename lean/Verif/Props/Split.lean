import Verif.Model.Tree
import Verif.Lemmas.Edge
import Mathlib.Algebra.Order.Floor.Ring
import Mathlib.Data.Rat.Floor
/-
C22: splitting a range.
-/
namespace BeTree

/-- a bound whose ends are of its type's kind, not empty, and representable -/
def Bound.Proper (b : Bound) : Prop :=
  match b.ty.kind, b.lo, b.hi with
  | .b, .b lo, .b hi => lo ≤ hi
  | .i, .i lo, .i hi => lo ≤ hi ∧ hi - lo ≤ int64Max
  | .s, .s lo, .s hi => lo ≤ hi ∧ hi < 2 ^ 64
  | .f, .f lo, .f hi => lo ≤ hi
  | _, _, _ => False

/-- `x` is in the range -/
def Bound.Has (b : Bound) (x : Scalar) : Prop := b.lo.le x = true ∧ x.le b.hi = true

theorem wrap_sub {lo hi : Nat} (h : lo ≤ hi) (hh : hi < 2 ^ 64) : (hi + (2 ^ 64 - lo % 2 ^ 64)) % 2 ^ 64 = hi - lo := by
  omega

/-- C22: a boolean, integer, string or enum range that is not a single point splits into a lower and an upper part which
together contain exactly its elements, and each of which misses an end (so is strictly smaller). -/
theorem C22_split_covers (b : Bound) (hp : b.Proper) (hty : b.ty ≠ .segments ∧ b.ty ≠ .freq ∧ b.ty ≠ .float) (hna : isAtomic b = .ok false) :
    ∃ bl br, splitBound b = .ok (bl, br) ∧ bl.ty = b.ty ∧ br.ty = b.ty ∧
      (∀ x, b.Has x ↔ bl.Has x ∨ br.Has x) ∧
      bl.lo = b.lo ∧ br.hi = b.hi ∧ b.hi.le bl.hi = false ∧ br.lo.le b.lo = false ∧ bl.Proper ∧ br.Proper := by
  obtain ⟨ty, lo, hi⟩ := b
  obtain ⟨h1, h2, h3⟩ := hty
  dsimp only at h1 h2 h3
  have hk : ty.kind ≠ .f := by cases ty <;> simp_all [VType.kind]
  have split_i : ∀ a c : Int, a < c → c - a ≤ int64Max → ty.kind = .i →
      ∃ m1 m2 : Int, splitBound ⟨ty, .i a, .i c⟩ = .ok (⟨ty, .i a, .i m1⟩, ⟨ty, .i m2, .i c⟩) ∧ a ≤ m1 ∧ m1 ≤ m2 ∧ m2 ≤ m1 + 1 ∧ m2 ≤ c ∧
        m1 < c ∧ a < m2 := by
    intro a c hac hle hk
    have hd : intDiff a c = .ok (c - a).natAbs := by
      have h0 : int64Min ≤ c - a ∧ c - a ≤ int64Max := by simp only [int64Min, int64Max] at *; omega
      have h00 : c - a ≠ int64Min := by simp only [int64Min]; omega
      simp [intDiff, checkedInt, h0, h00]
    have hs : splitBound ⟨ty, .i a, .i c⟩ =
        (if (c - a).natAbs > 2 then
          .ok (⟨ty, .i a, .i (a + (c - a).tdiv 2)⟩, ⟨ty, .i (a + (c - a).tdiv 2), .i c⟩)
        else if (c - a).natAbs = 2 then .ok (⟨ty, .i a, .i (a + 1)⟩, ⟨ty, .i (a + 1), .i c⟩)
        else if (c - a).natAbs = 1 then .ok (⟨ty, .i a, .i a⟩, ⟨ty, .i c, .i c⟩)
        else .error .abort) := by
      simp only [splitBound, hd]
    rw [hs]
    have htd : (c - a).tdiv 2 = (c - a) / 2 := Int.tdiv_eq_ediv_of_nonneg (by omega)
    by_cases g2 : (c - a).natAbs > 2
    · rw [if_pos g2]; exact ⟨_, _, rfl, by omega, by omega, by omega, by omega, by omega, by omega⟩
    · rw [if_neg g2]
      by_cases e2 : (c - a).natAbs = 2
      · rw [if_pos e2]; exact ⟨_, _, rfl, by omega, by omega, by omega, by omega, by omega, by omega⟩
      · rw [if_neg e2, if_pos (by omega)]
        exact ⟨_, _, rfl, by omega, by omega, by omega, by omega, by omega, by omega⟩
  have split_s : ∀ a c : Nat, a < c → c < 2 ^ 64 → ty.kind = .s →
      ∃ m1 m2 : Nat, splitBound ⟨ty, .s a, .s c⟩ = .ok (⟨ty, .s a, .s m1⟩, ⟨ty, .s m2, .s c⟩) ∧ a ≤ m1 ∧ m1 ≤ m2 ∧ m2 ≤ m1 + 1 ∧ m2 ≤ c ∧
        m1 < c ∧ a < m2 := by
    intro a c hac hle hk
    have hs : splitBound ⟨ty, .s a, .s c⟩ =
        (if c - a > 2 then .ok (⟨ty, .s a, .s (a + (c - a) / 2)⟩, ⟨ty, .s (a + (c - a) / 2), .s c⟩)
        else if c - a = 2 then .ok (⟨ty, .s a, .s (a + 1)⟩, ⟨ty, .s (a + 1), .s c⟩)
        else if c - a = 1 then .ok (⟨ty, .s a, .s a⟩, ⟨ty, .s c, .s c⟩)
        else .error .abort) := by
      simp only [splitBound, wrap_sub (Nat.le_of_lt hac) hle]
    rw [hs]
    by_cases g2 : c - a > 2
    · rw [if_pos g2]; exact ⟨_, _, rfl, by omega, by omega, by omega, by omega, by omega, by omega⟩
    · rw [if_neg g2]
      by_cases e2 : c - a = 2
      · rw [if_pos e2]; exact ⟨_, _, rfl, by omega, by omega, by omega, by omega, by omega, by omega⟩
      · rw [if_neg e2, if_pos (by omega)]
        exact ⟨_, _, rfl, by omega, by omega, by omega, by omega, by omega, by omega⟩
  cases hkd : ty.kind
  · -- bool
    cases lo <;> cases hi <;> simp only [Bound.Proper, hkd] at hp
    rename_i x y
    have hs : splitBound ⟨ty, .b x, .b y⟩ = if x ≠ y then .ok (⟨ty, .b x, .b x⟩, ⟨ty, .b y, .b y⟩) else .error .abort := by
      simp only [splitBound]
    have hxy : x = false ∧ y = true := by
      have : isAtomic ⟨ty, .b x, .b y⟩ = .ok (decide (x = y)) := by
        simp only [isAtomic]
      rw [this] at hna
      revert hp hna; cases x <;> cases y <;> simp
    obtain ⟨rfl, rfl⟩ := hxy
    refine ⟨_, _, hs, rfl, rfl, ?_, rfl, rfl, rfl, rfl, ?_, ?_⟩
    · intro x; cases x <;> simp [Bound.Has, Scalar.le]
    · simp [Bound.Proper, hkd]
    · simp [Bound.Proper, hkd]
  · -- int
    cases lo <;> cases hi <;> simp only [Bound.Proper, hkd] at hp
    rename_i a c
    have hne : a ≠ c := by
      have : isAtomic ⟨ty, .i a, .i c⟩ = .ok (decide (a = c)) := by
        simp only [isAtomic]
      rw [this] at hna; simpa using hna
    obtain ⟨m1, m2, hs, q1, q2, q3, q4, q5, q6⟩ := split_i a c (by omega) hp.2 hkd
    refine ⟨_, _, hs, rfl, rfl, ?_, rfl, rfl, ?_, ?_, ?_, ?_⟩
    · intro x; cases x <;> simp [Bound.Has, Scalar.le]; omega
    · simp [Scalar.le]; omega
    · simp [Scalar.le]; omega
    · simp only [Bound.Proper, hkd]; omega
    · simp only [Bound.Proper, hkd]; omega
  · exact absurd hkd hk
  · -- strings
    cases lo <;> cases hi <;> simp only [Bound.Proper, hkd] at hp
    rename_i a c
    have hne : a ≠ c := by
      have : isAtomic ⟨ty, .s a, .s c⟩ = .ok (decide (a = c)) := by
        simp only [isAtomic]
      rw [this] at hna; simpa using hna
    obtain ⟨m1, m2, hs, q1, q2, q3, q4, q5, q6⟩ := split_s a c (by omega) hp.2 hkd
    refine ⟨_, _, hs, rfl, rfl, ?_, rfl, rfl, ?_, ?_, ?_, ?_⟩
    · intro x; cases x <;> simp [Bound.Has, Scalar.le]; omega
    · simp [Scalar.le]; omega
    · simp [Scalar.le]; omega
    · simp only [Bound.Proper, hkd]; omega
    · simp only [Bound.Proper, hkd]; omega

/-- an integer range and a string range -/
example : splitBound ⟨.int, .i (-3), .i 8⟩ = .ok (⟨.int, .i (-3), .i 2⟩, ⟨.int, .i 2, .i 8⟩) := by decide
example : Bound.Proper ⟨.int, .i (-3), .i 8⟩ ∧ isAtomic ⟨.int, .i (-3), .i 8⟩ = .ok false :=
  ⟨by simp [Bound.Proper, VType.kind, int64Max], by decide⟩
example : splitBound ⟨.string, .s 4, .s 5⟩ = .ok (⟨.string, .s 4, .s 4⟩, ⟨.string, .s 5, .s 5⟩) := by decide

/-- rounding moves a number of moderate size by at most 1/8 -/
theorem rnd_eighth {q : Rat} (h : |q| ≤ 2 ^ 50) : |rnd q - q| ≤ 1 / 8 := by
  have he := nearestInt_err (q * 4)
  have hb : |(nearestInt (q * 4) : Rat)| < 2 ^ 53 := by
    have h1 := abs_sub_abs_le_abs_sub (nearestInt (q * 4) : Rat) (q * 4)
    rw [abs_mul, abs_of_pos (show (0 : Rat) < 4 by norm_num)] at h1
    have : (2 : Rat) ^ 50 * 4 + 1 / 2 < 2 ^ 53 := by norm_num
    linarith
  have hn : (nearestInt (q * 4)).natAbs < 2 ^ 53 := by
    have : |nearestInt (q * 4)| < 2 ^ 53 := by exact_mod_cast hb
    rw [Int.abs_eq_natAbs] at this
    exact_mod_cast this
  have hd : IsDouble ((nearestInt (q * 4) : Rat) * (2 : Rat) ^ (-2 : Int)) := ⟨_, -2, hn, by norm_num, rfl⟩
  refine (rnd_near q hd).trans ?_
  have e : (nearestInt (q * 4) : Rat) * (2 : Rat) ^ (-2 : Int) - q = ((nearestInt (q * 4) : Rat) - q * 4) * (1 / 4) := by
    rw [show (2 : Rat) ^ (-2 : Int) = 1 / 4 by norm_num]; ring
  rw [e, abs_mul, abs_of_pos (show (0 : Rat) < 1 / 4 by norm_num)]
  linarith

/-- C22 on floats, partial: any range at least 3 wide between numbers up to 2^48 splits into two smaller ranges that cover it.  Missing:
narrower ranges (`C22_split_float_partial` for some, `C22_float_stuck`, `C22_float_gap`, `C22_float_abort` for others). -/
theorem C22_split_wide_float_partial (lo hi : Rat) (hlo : |lo| ≤ 2 ^ 48) (hhi : |hi| ≤ 2 ^ 48) (h : 3 ≤ hi - lo) :
    ∃ bl br, splitBound ⟨.float, .f lo, .f hi⟩ = .ok (bl, br) ∧
      (∀ x, Bound.Has ⟨.float, .f lo, .f hi⟩ x ↔ bl.Has x ∨ br.Has x) ∧
      bl.lo = .f lo ∧ br.hi = .f hi ∧ (Scalar.f hi).le bl.hi = false ∧ br.lo.le (.f lo) = false := by
  have a1 := abs_le.1 hlo
  have a2 := abs_le.1 hhi
  obtain ⟨d, hd⟩ : ∃ d, rnd (hi - lo) = d := ⟨_, rfl⟩
  have d1 : |d - (hi - lo)| ≤ 1 / 8 := by
    rw [← hd]; apply rnd_eighth; rw [abs_le]; constructor <;> linarith
  have d1' := abs_le.1 d1
  obtain ⟨e, he⟩ : ∃ e, rnd (d / 2) = e := ⟨_, rfl⟩
  have e1 := abs_le.1 (show |e - d / 2| ≤ 1 / 8 by
    rw [← he]; apply rnd_eighth; rw [abs_le]; constructor <;> linarith)
  have c1 : (e.ceil : Rat) < e + 1 := by
    have := Rat.ceil_lt (x := e); linarith
  have c2 : e ≤ (e.ceil : Rat) := Rat.le_ceil
  have c3 : (2 : Rat) ≤ e.ceil := by
    have : (1 : Int) < e.ceil := by
      have : ((1 : Int) : Rat) < (e.ceil : Rat) := by push_cast; linarith
      exact_mod_cast this
    have : (2 : Int) ≤ e.ceil := this
    exact_mod_cast this
  obtain ⟨m, hm⟩ : ∃ m, rnd (lo + e.ceil) = m := ⟨_, rfl⟩
  have m1 := abs_le.1 (show |m - (lo + e.ceil)| ≤ 1 / 8 by
    rw [← hm]; apply rnd_eighth; rw [abs_le]; constructor <;> linarith)
  have habs : (rnd (hi - lo)).abs > 2 := by
    rw [hd, Rat.abs_of_nonneg (by linarith)]; linarith
  refine ⟨⟨.float, .f lo, .f m⟩, ⟨.float, .f m, .f hi⟩, ?_, ?_, rfl, rfl, ?_, ?_⟩
  · simp only [splitBound, if_pos habs]; rw [hd, he, hm]
  · intro x; cases x <;> simp [Bound.Has, Scalar.le]
    constructor
    · rintro ⟨a, b⟩
      rename_i x
      by_cases hx : x ≤ m
      · exact Or.inl ⟨a, hx⟩
      · exact Or.inr ⟨by linarith, b⟩
    · rintro (⟨a, b⟩ | ⟨a, b⟩) <;> constructor <;> linarith
  · simp [Scalar.le]; linarith
  · simp [Scalar.le]; linarith

/-- decimal limits -/
example : splitBound ⟨.float, .f (rnd (1 / 10)), .f (rnd (99 / 10))⟩ =
    .ok (⟨.float, .f (rnd (1 / 10)), .f (rnd (51 / 10))⟩, ⟨.float, .f (rnd (51 / 10)), .f (rnd (99 / 10))⟩) := by decide +kernel
example : |rnd (1 / 10)| ≤ 2 ^ 48 ∧ |rnd (99 / 10)| ≤ 2 ^ 48 ∧ 3 ≤ rnd (99 / 10) - rnd (1 / 10) := by
  rw [← rat_abs_eq, ← rat_abs_eq]; decide +kernel

/-- C22 on floats, partial: a range wider than 2 whose ends are binary fractions of few digits splits like a range of integers.  Missing:
other ends (`C22_split_wide_float_partial`, `C22_float_stuck`) and width at most 2 (`C22_float_gap`, `C22_float_abort`). -/
theorem C22_split_float_partial (lo hi : Rat) (hlo : Spec.Coarse lo) (hhi : Spec.Coarse hi) (h : 2 < hi - lo) :
    ∃ bl br, splitBound ⟨.float, .f lo, .f hi⟩ = .ok (bl, br) ∧
      (∀ x, Bound.Has ⟨.float, .f lo, .f hi⟩ x ↔ bl.Has x ∨ br.Has x) ∧
      bl.lo = .f lo ∧ br.hi = .f hi ∧ (Scalar.f hi).le bl.hi = false ∧ br.lo.le (.f lo) = false := by
  obtain ⟨_, _, hd, _⟩ := coarse_diff hlo hhi
  have hr : rnd (hi - lo) = hi - lo := rnd_of_double hd
  have habs : (rnd (hi - lo)).abs > 2 := by
    rw [hr, Rat.abs_of_nonneg (by linarith)]; exact h
  obtain ⟨m, hm⟩ : ∃ m, rnd (lo + (rnd (rnd (hi - lo) / 2)).ceil) = m := ⟨_, rfl⟩
  have hc : Spec.cut lo hi = some (m, m) := by unfold Spec.cut; rw [if_pos habs, hm]
  obtain ⟨⟨p1, p2, p3, p4⟩, -⟩ := edge_cut (coarse_edge hlo) (coarse_edge hhi) (by linarith) hc
  refine ⟨⟨.float, .f lo, .f m⟩, ⟨.float, .f m, .f hi⟩, ?_, ?_, rfl, rfl, ?_, ?_⟩
  · simp only [splitBound, if_pos habs, hm]
  · intro x; cases x <;> simp [Bound.Has, Scalar.le]
    constructor
    · rintro ⟨a, b⟩
      rename_i x
      by_cases hx : x ≤ m
      · exact Or.inl ⟨a, hx⟩
      · exact Or.inr ⟨by linarith, b⟩
    · rintro (⟨a, b⟩ | ⟨a, b⟩) <;> constructor <;> linarith
  · simp [Scalar.le]; linarith
  · simp [Scalar.le]; linarith

example : splitBound ⟨.float, .f 0, .f 5⟩ = .ok (⟨.float, .f 0, .f 3⟩, ⟨.float, .f 3, .f 5⟩) := by decide +kernel
example : Spec.Coarse 0 ∧ Spec.Coarse 5 := ⟨⟨0, by norm_num, by norm_num⟩, ⟨5 * 2 ^ 20, by norm_num, by norm_num⟩⟩

/-- C22 fails in the code for floats: a range of width 1 splits into its two end points, losing everything between. -/
theorem C22_float_gap : ∃ bl br, splitBound ⟨.float, .f 0, .f 1⟩ = .ok (bl, br) ∧
    ∃ x, Bound.Has ⟨.float, .f 0, .f 1⟩ x ∧ ¬ bl.Has x ∧ ¬ br.Has x := by
  refine ⟨⟨.float, .f 0, .f 0⟩, ⟨.float, .f 1, .f 1⟩, by decide +kernel, .f (1/2), ?_⟩
  simp only [Bound.Has]
  decide +kernel

/-- C22 fails in the code for floats: a range of width 3/2 is not atomic and splitting it aborts. -/
theorem C22_float_abort : isAtomic ⟨.float, .f 0, .f (3/2)⟩ = .ok false ∧
    splitBound ⟨.float, .f 0, .f (3/2)⟩ = .error .abort := by
  constructor <;> decide +kernel

/-- C22 fails in the code for floats: the lower part of the range from 2.4 to 4.4 is the range itself (4.4 - 2.4 is 2.0000000000000004,
rounded up half of it is 2, and 2.4 + 2 is 4.4), so that splitting it again and again does not end. -/
theorem C22_float_stuck : ∃ b br, b.lo = .f (rnd (24 / 10)) ∧ b.hi = .f (rnd (44 / 10)) ∧ b.ty = .float ∧ isAtomic b = .ok false ∧
    splitBound b = .ok (b, br) :=
  ⟨⟨.float, .f (rnd (24 / 10)), .f (rnd (44 / 10))⟩, ⟨.float, .f (rnd (44 / 10)), .f (rnd (44 / 10))⟩, rfl, rfl, rfl, by decide +kernel,
    by decide +kernel⟩

end BeTree
