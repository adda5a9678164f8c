import Verif.Lemmas.Edge
import Verif.Lemmas.Shape
/-
Ranges that can be cut down to single numbers.
-/
namespace BeTree
open Spec

/-- limits with few binary digits that are a whole number apart -/
theorem cutsUp_whole : ∀ (n : Nat) {a b : Rat}, Coarse a → Coarse b → b = a + n → CutsUp n a b := by
  intro n
  induction n using Nat.strongRecOn with
  | ind n ih =>
    intro a b ha hb hab
    have hdiff : rnd (b - a) = n := by
      obtain ⟨_, _, h, _⟩ := coarse_diff ha hb
      rw [rnd_of_double h, hab]; ring
    have habs : (rnd (b - a)).abs = n := by rw [hdiff, rat_abs_eq]; exact abs_of_nonneg (by positivity)
    have hhalf : rnd (rnd (b - a) / 2) = (n : Rat) / 2 := by
      obtain ⟨_, _, _, h⟩ := coarse_diff ha hb
      have : b - a = n := by rw [hab]; ring
      rw [hdiff]
      rw [this] at h
      exact rnd_of_double h
    have hpoint : ∀ {k : Nat} {x : Rat}, CutsUp k x x := fun {k x} => .point (by rw [sub_self, rnd_zero]; simpa using eps_pos)
    rcases Nat.lt_or_ge n 3 with hn | hn
    · match n, hn with
      | 0, _ =>
        have : a = b := by rw [hab]; simp
        subst this
        exact hpoint
      | 1, _ =>
        refine .cut (m := a) (m' := b) ?_ hpoint hpoint
        unfold cut
        rw [habs]
        norm_num
        rw [rnd_neg, rnd_one, rnd_zero]
        have := eps_eq
        rw [this]
        norm_num [rat_abs_eq]
      | 2, _ =>
        have hm : Coarse (a + 1) := coarse_between (m := 1) ha hb (by push_cast; ring) (by linarith) (by rw [hab]; norm_num)
        have hr : rnd (a + 1) = a + 1 := rnd_of_double (coarse_double hm)
        refine .cut (m := a + 1) (m' := a + 1) ?_ (ih 1 (by decide) ha hm (by push_cast; ring)) (ih 1 (by decide) hm hb (by rw [hab]; push_cast; ring))
        unfold cut
        rw [habs, hr]
        norm_num
        rw [rnd_zero]
        have := eps_eq
        rw [this]
        norm_num [rat_abs_eq]
      | k + 3, h => omega
    · have hc : ((n : Rat) / 2).ceil = ((n + 1) / 2 : Nat) := by
        have h1 : ((n : Rat) / 2) ≤ ((n : Rat) / 2).ceil := Rat.le_ceil
        have h2 : ((((n : Rat) / 2).ceil : Int) : Rat) < (n : Rat) / 2 + 1 := Rat.ceil_lt
        generalize ((n : Rat) / 2).ceil = z at h1 h2
        have h3 : ((n : Int) : Rat) ≤ ((2 * z : Int) : Rat) := by push_cast; linarith
        have h4 : ((2 * z : Int) : Rat) < ((n + 2 : Int) : Rat) := by push_cast; linarith
        have h3 := Int.cast_le.1 h3
        have h4 := Int.cast_lt.1 h4
        omega
      have hle : (((n + 1) / 2 : Nat) : Rat) ≤ (n : Rat) := by exact_mod_cast (by omega : (n + 1) / 2 ≤ n)
      have hm : Coarse (a + ((n + 1) / 2 : Nat)) := coarse_between (m := ((n + 1) / 2 : Nat)) ha hb (by rw [Int.cast_natCast])
        (by have : (0 : Rat) ≤ ((n + 1) / 2 : Nat) := Nat.cast_nonneg _
            linarith) (by rw [hab]; linarith)
      have hr : rnd (a + ((n + 1) / 2 : Nat)) = a + ((n + 1) / 2 : Nat) := rnd_of_double (coarse_double hm)
      have hlt : (2 : Rat) < n := by exact_mod_cast (by omega : 2 < n)
      have hk : ((n - (n + 1) / 2 : Nat) : Rat) = (n : Rat) - ((n + 1) / 2 : Nat) := Nat.cast_sub (by omega)
      obtain ⟨k, rfl⟩ : ∃ k, n = k + 1 := ⟨n - 1, by omega⟩
      refine .cut (m := a + ((k + 1 + 1) / 2 : Nat)) (m' := a + ((k + 1 + 1) / 2 : Nat)) ?_
        (cutsUp_mono (ih _ (by omega) ha hm rfl) (by omega))
        (cutsUp_mono (ih (k + 1 - (k + 1 + 1) / 2) (by omega) hm hb (by rw [hab, hk]; ring)) (by omega))
      unfold cut
      rw [habs, if_pos hlt, hhalf, hc]
      simp only [Int.cast_natCast, hr]

/-- the tree can cope with limits of few binary digits that are a whole number apart -/
theorem copes_of_whole {a b : Rat} (n : Nat) (ha : Coarse a) (hb : Coarse b) (hab : b = a + n) : Copes a b := by
  have hdiff : rnd (b - a) = n := by
    obtain ⟨_, _, h, _⟩ := coarse_diff ha hb
    rw [rnd_of_double h, hab]; ring
  have habs : (rnd (b - a)).abs = n := by rw [hdiff, rat_abs_eq]; exact abs_of_nonneg (by positivity)
  unfold Copes
  rw [habs]
  constructor
  · have h1 := coarse_le ha
    have h2 := coarse_le hb
    have h3 := abs_sub_le b 0 a
    have h4 : |b - a| = n := by rw [hab]; simp
    simp only [sub_zero, zero_sub, abs_neg] at h3
    rw [h4] at h3
    have : (2 : Rat) ^ 30 + 2 ^ 30 < 2 ^ 64 := by norm_num
    linarith
  · intro h
    have : n < 1000 := by exact_mod_cast h
    exact cutsUp_mono (cutsUp_whole n ha hb hab) (by omega)

/-- a check that a range can be cut down to single numbers -/
def cutsB : Nat → Rat → Rat → Bool
  | 0, a, b => decide ((rnd (a - b)).abs < dblEps)
  | n + 1, a, b => decide ((rnd (a - b)).abs < dblEps) ||
    (match cut a b with
      | some (m, m') => cutsB n a m && cutsB n m' b
      | none => false)

theorem cutsUp_of_check : ∀ {n : Nat} {a b : Rat}, cutsB n a b = true → CutsUp n a b := by
  intro n
  induction n with
  | zero => intro a b h; exact .point (of_decide_eq_true h)
  | succ n ih =>
    intro a b h
    rw [cutsB, Bool.or_eq_true] at h
    rcases h with h | h
    · exact .point (of_decide_eq_true h)
    · split at h
      · rename_i m m' hc
        rw [Bool.and_eq_true] at h
        exact .cut hc (ih h.1) (ih h.2)
      · cases h

/-- the tree can cope with the decimal limits 0.1 and 3.1, rounded to `double`s (but not with 0.1 and 4.1) -/
example : Copes (rnd (1 / 10)) (rnd (31 / 10)) ∧ cutsB 12 (rnd (1 / 10)) (rnd (41 / 10)) = false :=
  ⟨⟨by decide +kernel, fun _ => cutsUp_mono (cutsUp_of_check (n := 10) (by decide +kernel)) (by decide)⟩, by decide +kernel⟩

end BeTree
