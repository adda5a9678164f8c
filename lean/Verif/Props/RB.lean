import Verif.Lemmas.ExprKey
import Mathlib.Data.List.Induction
/-
C39: the red-black tree of predicates.
-/
namespace BeTree
open RB

/-- a sequence of `jsw_rbinsert` calls on an empty tree -/
def rbInsertAll {α : Type} (cmp : α → α → Ordering) (xs : List α) : Except Fault (RB α) :=
  xs.foldlM (fun t x => RB.insert cmp x t) RB.nil

theorem rbInsertAll_snoc {α : Type} (cmp : α → α → Ordering) (xs : List α) (x : α) :
    rbInsertAll cmp (xs ++ [x]) = (rbInsertAll cmp xs).bind (RB.insert cmp x) := by
  unfold rbInsertAll
  rw [List.foldlM_append]
  simp [bind, Except.bind]
  cases List.foldlM (fun t x => RB.insert cmp x t) RB.nil xs with
  | error e => rfl
  | ok t => cases h : RB.insert cmp x t <;> simp [h, pure, Except.pure]

theorem rbInsertAll_main {α : Type} {cmp : α → α → Ordering} (ok : CmpOK cmp) (xs : List α) :
    ∃ t, rbInsertAll cmp xs = .ok t ∧ Valid cmp t ∧ (∀ y ∈ t.toList, y ∈ xs) ∧
      ∀ y, RB.find cmp y t = xs.find? (fun x => cmp x y == .eq) := by
  induction xs using List.reverseRecOn with
  | nil =>
    exact ⟨.nil, rfl, ⟨by simp [Ordered, toList], rfl, .nil, _, .nil⟩, by simp [toList], fun y => rfl⟩
  | append_singleton xs x ih =>
    obtain ⟨t, h1, h2, h3, h4⟩ := ih
    obtain ⟨t', h5, h6, h7⟩ := insert_valid ok (data := x) h2
    refine ⟨t', by rw [rbInsertAll_snoc, h1]; exact h5, h6, ?_, ?_⟩
    · intro y hy
      rcases h7 with ⟨h7, _⟩ | ⟨_, L, R, h7, h8⟩
      · exact List.mem_append_left _ (h3 y (h7 ▸ hy))
      · rw [h8] at hy
        simp only [List.mem_append, List.mem_cons] at hy
        rcases hy with hy | rfl | hy
        · exact List.mem_append_left _ (h3 y (by rw [h7]; simp [hy]))
        · simp
        · exact List.mem_append_left _ (h3 y (by rw [h7]; simp [hy]))
    · intro y
      rw [List.find?_append, ← h4 y]
      have find_eq : ∀ (o : Option α), (∀ z, o = some z ↔ z ∈ t'.toList ∧ cmp z y = .eq) → RB.find cmp y t' = o := by
        intro o ho
        apply Option.ext
        intro z
        rw [ho z, find_iff ok h6.ordered]
      apply find_eq
      intro z
      rcases h7 with ⟨h7, w, h8, h9⟩ | ⟨h8, L, R, h7, h9⟩
      · rw [h7, ← find_iff ok h2.ordered]
        cases hf : RB.find cmp y t with
        | some v => simp
        | none =>
          have hw := find_none ok h2.ordered hf w h8
          have : cmp x y ≠ .eq := by rw [← ok.congr w x y h9]; exact hw
          have hb : (cmp x y == .eq) = false := by simpa using this
          simp [List.find?, hb]
      · cases hf : RB.find cmp y t with
        | some v =>
          obtain ⟨hv1, hv2⟩ := find_some hf
          have hx : cmp x y ≠ .eq := by
            intro hx
            refine h8 v hv1 ?_
            rw [ok.congr v y x hv2]; exact ok.eq_comm hx
          have h10 := find_iff ok h2.ordered z (data := y)
          rw [hf] at h10
          simp only [Option.some_or]
          rw [h10, h7, h9]
          simp only [List.mem_append, List.mem_cons]
          constructor
          · rintro ⟨hz | hz, hz2⟩
            · exact ⟨Or.inl hz, hz2⟩
            · exact ⟨Or.inr (Or.inr hz), hz2⟩
          · rintro ⟨hz | rfl | hz, hz2⟩
            · exact ⟨Or.inl hz, hz2⟩
            · exact (hx hz2).elim
            · exact ⟨Or.inr hz, hz2⟩
        | none =>
          have hn := find_none ok h2.ordered hf
          rw [h7] at hn
          rw [h9]
          simp only [List.mem_append, List.mem_cons] at hn ⊢
          by_cases hx : cmp x y = .eq
          · simp only [List.find?, hx, Option.none_or]
            simp only [beq_self_eq_true, Option.some.injEq]
            constructor
            · rintro rfl; exact ⟨Or.inr (Or.inl rfl), hx⟩
            · rintro ⟨hz | rfl | hz, hz2⟩
              · exact (hn z (Or.inl hz) hz2).elim
              · rfl
              · exact (hn z (Or.inr hz) hz2).elim
          · have hb : (cmp x y == .eq) = false := by simpa using hx
            simp only [List.find?, hb, Option.none_or]
            constructor
            · intro h; cases h
            · rintro ⟨hz | rfl | hz, hz2⟩
              · exact (hn z (Or.inl hz) hz2).elim
              · exact (hx hz2).elim
              · exact (hn z (Or.inr hz) hz2).elim

/-- C39.  For every comparison that is a total preorder and every sequence of insertions: no insertion faults, the tree
is strictly ascending, its height is at most twice the logarithm of its size, and `jsw_rbfind` returns the first
inserted element that compares equal to the key, if there is one. -/
theorem C39_map_refines_set {α : Type} {cmp : α → α → Ordering} (ok : CmpOK cmp) (xs : List α) :
    ∃ t, rbInsertAll cmp xs = .ok t ∧
      (∀ y, RB.find cmp y t = xs.find? (fun x => cmp x y == .eq)) ∧
      t.toList.Pairwise (fun a b => cmp a b = .lt) ∧
      (∀ y ∈ t.toList, y ∈ xs) ∧
      t.height ≤ 2 * Nat.log2 (t.size + 1) := by
  obtain ⟨t, h1, h2, h3, h4⟩ := rbInsertAll_main ok xs
  exact ⟨t, h1, h4, h2.ordered, h3, h2.height_le⟩

/-- integers with their usual order satisfy the hypothesis -/
theorem natCmpOK : CmpOK (fun a b : Nat => compare a b) where
  refl := by intro a; simp
  trans := by intro a b c; simp only [Nat.compare_eq_lt]; omega
  swap := by intro a b; simp only [Nat.compare_eq_lt, Nat.compare_eq_gt]
  congr := by intro a b c h; rw [Nat.compare_eq_eq] at h; rw [h]

example : (rbInsertAll (fun a b : Nat => compare a b) [5, 1, 4, 2, 3, 9, 8, 7, 6, 5]).toOption.map RB.toList
    = some [1, 2, 3, 4, 5, 6, 7, 8, 9] := by decide +kernel

/-- C39 for the comparison the predicate table uses: `expr_cmp` is a total preorder. -/
theorem C39_expr_cmp_total_preorder : CmpOK exprCmp := exprCmpOK

/-- C39 for the predicate table. -/
theorem C39_predicates (xs : List AExpr) :
    ∃ t, rbInsertAll exprCmp xs = .ok t ∧ (∀ y, RB.find exprCmp y t = xs.find? (fun x => exprCmp x y == .eq)) ∧
      t.toList.Pairwise (fun a b => exprCmp a b = .lt) ∧ (∀ y ∈ t.toList, y ∈ xs) ∧
      t.height ≤ 2 * Nat.log2 (t.size + 1) :=
  C39_map_refines_set C39_expr_cmp_total_preorder xs

end BeTree
