import Verif.Model.Tree
/-
Specification: the leaf lists of a tree, each with the number of expressions it holds and the capacity it advertises.
-/
namespace BeTree

mutual
/-- the leaf lists at or below a cnode: (number of expressions held, capacity) -/
def CNode.leaves : CNode → List (Nat × Nat)
  | .mk subs max pns => (subs.length, max) :: pns.leaves
/-- the leaf lists below the partitions -/
def PNodes.leaves : PNodes → List (Nat × Nat)
  | .nil => []
  | .cons _ _ cd rest => cd.leaves ++ rest.leaves
/-- the leaf lists at or below a cdir -/
def CDir.leaves : CDir → List (Nat × Nat)
  | .leaf _ _ c => c.leaves
  | .node _ _ c l r => c.leaves ++ l.leaves ++ r.leaves
end

/-- A leaf list is within its capacity, and the capacity is a positive multiple of the configured one. -/
def Spec.LeafOK (cap : Nat) (leaf : Nat × Nat) : Prop :=
  leaf.1 ≤ leaf.2 ∧ ∃ k, 0 < k ∧ leaf.2 = k * cap

instance (cap : Nat) (leaf : Nat × Nat) : Decidable (Spec.LeafOK cap leaf) :=
  decidable_of_iff (leaf.1 ≤ leaf.2 ∧ cap ∣ leaf.2 ∧ (cap = 0 ∨ 0 < leaf.2) ∧ (cap = 0 → leaf.2 = 0)) <| by
    obtain ⟨n, m⟩ := leaf
    unfold Spec.LeafOK
    refine and_congr_right fun _ => ⟨?_, ?_⟩
    · rintro ⟨⟨k, rfl⟩, h, h0⟩
      rcases Nat.eq_zero_or_pos k with rfl | hk
      · rcases h with h | h
        · exact ⟨1, by decide, by simp [h]⟩
        · simp at h
      · exact ⟨k, hk, Nat.mul_comm _ _⟩
    · rintro ⟨k, hk, rfl⟩
      refine ⟨⟨k, Nat.mul_comm _ _⟩, ?_, by rintro rfl; simp⟩
      rcases Nat.eq_zero_or_pos cap with rfl | hc
      · exact Or.inl rfl
      · exact Or.inr (Nat.mul_pos hk hc)

end BeTree
