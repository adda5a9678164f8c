import Verif.Model.Bits
/-
C38: the bit arrays implement sets of indices.
-/
namespace BeTree

/-- single words: bit `i` of `1 << i` -/
theorem word_test (w : BitVec 64) (j : Nat) (hj : j < 64) :
    (w &&& (1#64 <<< j) != 0#64) = w.getLsbD j := by
  rw [Bool.eq_iff_iff, bne_iff_ne]
  constructor
  · intro h
    cases hb : w.getLsbD j with
    | true => rfl
    | false =>
      exfalso; apply h
      apply BitVec.eq_of_getLsbD_eq
      intro i hi
      simp only [BitVec.getLsbD_and, BitVec.getLsbD_shiftLeft, BitVec.getLsbD_zero, BitVec.getLsbD_one]
      by_cases hij : i = j
      · subst hij; simp [hb]
      · by_cases hlt : i < j
        · simp [hlt]
        · have h1 : i - j ≠ 0 := by omega
          simp [h1]
  · intro hb h
    have := congrArg (fun x => x.getLsbD j) h
    simp only [BitVec.getLsbD_and, hb, Bool.true_and, BitVec.getLsbD_shiftLeft, BitVec.getLsbD_one, hj, decide_true, Nat.lt_irrefl, decide_false, Bool.not_false, Nat.sub_self, BitVec.getLsbD_zero] at this
    exact absurd this (by decide)

theorem word_set (w : BitVec 64) (i j : Nat) (hi : i < 64) (hj : j < 64) :
    (w ||| (1#64 <<< i)).getLsbD j = (decide (j = i) || w.getLsbD j) := by
  simp only [BitVec.getLsbD_or, BitVec.getLsbD_shiftLeft, BitVec.getLsbD_one]
  by_cases hij : j = i
  · subst hij; simp [hj]
  · by_cases hlt : j < i
    · simp [hlt, hij]
    · have h1 : j - i ≠ 0 := by omega
      simp [h1, hij]

theorem word_clear (w : BitVec 64) (i j : Nat) (hi : i < 64) (hj : j < 64) :
    (w &&& ~~~(1#64 <<< i)).getLsbD j = (decide (j ≠ i) && w.getLsbD j) := by
  simp only [BitVec.getLsbD_and, BitVec.getLsbD_not, BitVec.getLsbD_shiftLeft, BitVec.getLsbD_one]
  by_cases hij : j = i
  · subst hij; simp [hj]
  · by_cases hlt : j < i
    · simp [hlt, hij, hj]
    · have h1 : j - i ≠ 0 := by omega
      simp [h1, hij, hj]

theorem testBit_ok (a : Bits) (j : Nat) (hj : j < 64 * a.length) :
    testBit a j = .ok ((a[j / 64]'(by omega)).getLsbD (j % 64)) := by
  have h : j / 64 < a.length := by omega
  simp only [testBit, List.getElem?_eq_getElem h]
  rw [word_test _ _ (Nat.mod_lt _ (by decide))]

theorem testBit_error (a : Bits) (j : Nat) (hj : 64 * a.length ≤ j) : testBit a j = .error .ub := by
  simp only [testBit]
  rw [List.getElem?_eq_none (by omega)]

/-- C38: `set_bit(A, k)` succeeds exactly within the array, keeps its size, and `test_bit` afterwards says `true` for
`k` and what it said before for every other index. -/
theorem C38_set_bit (a : Bits) (k : Nat) :
    (k < 64 * a.length → ∃ a', setBit a k = .ok a' ∧ a'.length = a.length ∧
      ∀ j, testBit a' j = if j = k then .ok true else testBit a j) ∧
    (64 * a.length ≤ k → setBit a k = .error .ub) := by
  constructor
  · intro hk
    have h : k / 64 < a.length := by omega
    refine ⟨a.set (k / 64) (a[k / 64] ||| (1#64 <<< (k % 64))), by simp only [setBit, List.getElem?_eq_getElem h], by simp, ?_⟩
    intro j
    by_cases hj : j < 64 * a.length
    · rw [testBit_ok _ _ (by simpa using hj)]
      rw [testBit_ok a j hj]
      have hw := word_set (a[k / 64]) (k % 64) (j % 64) (Nat.mod_lt _ (by decide)) (Nat.mod_lt _ (by decide))
      by_cases hq : k / 64 = j / 64
      · simp only [List.getElem_set, hq, if_true] at hw ⊢
        rw [hw]
        by_cases hjk : j = k
        · subst hjk; simp
        · have : j % 64 ≠ k % 64 := by omega
          simp [hjk, this]
      · have hjk : j ≠ k := by rintro rfl; exact hq rfl
        simp [List.getElem_set, hq, hjk]
    · have hjk : j ≠ k := by omega
      rw [if_neg hjk, testBit_error _ _ (by simp; omega), testBit_error _ _ (by omega)]
  · intro hk
    simp only [setBit]
    rw [List.getElem?_eq_none (by omega)]

/-- C38: `clear_bit(A, k)` removes exactly `k`. -/
theorem C38_clear_bit (a : Bits) (k : Nat) (hk : k < 64 * a.length) :
    ∃ a', clearBit a k = .ok a' ∧ a'.length = a.length ∧
      ∀ j, testBit a' j = if j = k then .ok false else testBit a j := by
  have h : k / 64 < a.length := by omega
  refine ⟨a.set (k / 64) (a[k / 64] &&& ~~~(1#64 <<< (k % 64))), by simp only [clearBit, List.getElem?_eq_getElem h], by simp, ?_⟩
  intro j
  by_cases hj : j < 64 * a.length
  · rw [testBit_ok _ _ (by simpa using hj)]
    rw [testBit_ok a j hj]
    have hw := word_clear (a[k / 64]) (k % 64) (j % 64) (Nat.mod_lt _ (by decide)) (Nat.mod_lt _ (by decide))
    by_cases hq : k / 64 = j / 64
    · simp only [List.getElem_set, hq, if_true] at hw ⊢
      rw [hw]
      by_cases hjk : j = k
      · subst hjk; simp
      · have : j % 64 ≠ k % 64 := by omega
        simp [hjk, this]
    · have hjk : j ≠ k := by rintro rfl; exact hq rfl
      simp [List.getElem_set, hq, hjk]
  · have hjk : j ≠ k := by omega
    rw [if_neg hjk, testBit_error _ _ (by simp; omega), testBit_error _ _ (by omega)]

/-- C38: a fresh array for `n` indices holds none of them and has room for all. -/
theorem C38_fresh (n j : Nat) (hj : j ≤ n) : testBit (makeBits n) j = .ok false := by
  rw [testBit_ok _ _ (by simp [makeBits]; omega)]
  simp [makeBits]

/-- two words, bits 3 and 70 -/
example : (do let a ← setBit (makeBits 100) 3; let a ← setBit a 70; let a ← clearBit a 3
              return ((← testBit a 70), (← testBit a 3), (← testBit a 6)) : Except Fault _) = .ok (true, false, false) := by
  rfl

example : (70 : Nat) < 64 * (makeBits 100).length := by decide

end BeTree
