import Verif.Props.RB
import Verif.Lemmas.RBErase
import Mathlib.Data.List.Perm.Basic
/-
C70: the red-black tree as an ordered set with insertion and erasure.
-/
namespace BeTree
open RB

/-- Specification.  The set is a list of items of which no two are equal; an insertion adds an item unless one equal to it is there, an erasure takes
away what is equal. -/
def setStep {α : Type} (cmp : α → α → Ordering) (s : List α) : RBOp α → List α
  | .insert x => if s.any (fun y => cmp y x == .eq) then s else s ++ [x]
  | .erase x => s.filter (fun y => cmp y x != .eq)

/-- Specification.  The set after a sequence of calls on an empty one. -/
def setAfter {α : Type} (cmp : α → α → Ordering) (ops : List (RBOp α)) : List α := ops.foldl (setStep cmp) []

/-- Specification.  Nothing is inserted that is there already, nothing is erased that is not there. -/
def Proper {α : Type} (cmp : α → α → Ordering) : List α → List (RBOp α) → Prop
  | _, [] => True
  | s, .insert x :: os => (∀ y ∈ s, cmp y x ≠ .eq) ∧ Proper cmp (setStep cmp s (.insert x)) os
  | s, .erase x :: os => (∃ y ∈ s, cmp y x = .eq) ∧ Proper cmp (setStep cmp s (.erase x)) os

theorem toList_size {α : Type} (t : RB α) : t.size = t.toList.length := by
  induction t with
  | nil => rfl
  | node c x l r ihl ihr => simp only [RB.size, toList, List.length_append, List.length_cons, ihl, ihr]; omega

theorem setStep_perm {α : Type} {cmp : α → α → Ordering} (ok : CmpOK cmp) {t : RBSet α} {s : List α} (hv : Valid cmp t.root)
    (hp : t.root.toList.Perm s) (o : RBOp α) :
    ∃ t', t.step cmp o = .ok t' ∧ Valid cmp t'.root ∧ t'.root.toList.Perm (setStep cmp s o) := by
  cases o with
  | insert x =>
    obtain ⟨r, h1, h2, h3⟩ := insert_valid ok (data := x) hv
    refine ⟨⟨r, (t.size + 1) % 2 ^ 64⟩, by simp only [RBSet.step, h1], h2, ?_⟩
    simp only [setStep]
    rcases h3 with ⟨h3, y, hy, he⟩ | ⟨h3, L, R, h4, h5⟩
    · rw [if_pos (List.any_eq_true.2 ⟨y, hp.subset hy, by simp [he]⟩), h3]
      exact hp
    · rw [if_neg, h5]
      · rw [h4] at hp
        exact (List.perm_middle.trans (hp.cons x)).trans (List.perm_append_singleton x s).symm
      · simp only [List.any_eq_true, not_exists, not_and]
        intro y hy he
        exact h3 y (hp.symm.subset hy) (by simpa using he)
  | erase x =>
    obtain ⟨root, size⟩ := t
    dsimp only at hv hp
    cases root with
    | nil =>
      refine ⟨⟨.nil, size⟩, rfl, hv, ?_⟩
      simp only [toList, List.nil_perm] at hp
      subst hp
      exact List.Perm.refl _
    | node c y l r =>
      refine ⟨_, rfl, erase_valid ok x hv, ?_⟩
      dsimp only
      rw [erase_toList ok x hv.ordered]
      exact hp.filter _

theorem run_perm {α : Type} {cmp : α → α → Ordering} (ok : CmpOK cmp) (ops : List (RBOp α)) :
    ∀ {t : RBSet α} {s : List α}, Valid cmp t.root → t.root.toList.Perm s →
      ∃ t', t.run cmp ops = .ok t' ∧ Valid cmp t'.root ∧ t'.root.toList.Perm (ops.foldl (setStep cmp) s) := by
  induction ops with
  | nil => intro t s hv hp; exact ⟨t, rfl, hv, hp⟩
  | cons o os ih =>
    intro t s hv hp
    obtain ⟨t', h1, h2, h3⟩ := setStep_perm ok hv hp o
    obtain ⟨t'', h4, h5, h6⟩ := ih h2 h3
    exact ⟨t'', by simp only [RBSet.run, h1]; exact h4, h5, h6⟩

theorem valid_nil {α : Type} (cmp : α → α → Ordering) : Valid cmp (RB.nil : RB α) :=
  ⟨by simp [Ordered, toList], rfl, .nil, _, .nil⟩

theorem find_perm {α : Type} {cmp : α → α → Ordering} (ok : CmpOK cmp) {t : RB α} {s : List α} (hv : Valid cmp t) (hp : t.toList.Perm s) (y : α) :
    RB.find cmp y t = s.find? (fun x => cmp x y == .eq) := by
  cases h : s.find? (fun x => cmp x y == .eq) with
  | none =>
    cases hf : RB.find cmp y t with
    | none => rfl
    | some z =>
      obtain ⟨h1, h2⟩ := find_some hf
      have := List.find?_eq_none.1 h z (hp.subset h1)
      simp [h2] at this
  | some z =>
    rw [find_iff ok hv.ordered]
    exact ⟨hp.symm.subset (List.mem_of_find?_eq_some h), by simpa using List.find?_some h⟩

/-- C70.  For every comparison that is a total preorder and every sequence of insertions and erasures on an empty tree, no call faults, `jsw_rbfind`
finds what the set of the specification has, the tree has as many nodes as the set items, it is strictly ascending, and its height is at most twice the
logarithm of its size. -/
theorem C70_set {α : Type} {cmp : α → α → Ordering} (ok : CmpOK cmp) (ops : List (RBOp α)) :
    ∃ t, RBSet.run cmp ⟨.nil, 0⟩ ops = .ok t ∧
      (∀ y, RB.find cmp y t.root = (setAfter cmp ops).find? (fun x => cmp x y == .eq)) ∧
      t.root.toList.Perm (setAfter cmp ops) ∧
      t.root.toList.Pairwise (fun a b => cmp a b = .lt) ∧
      t.root.height ≤ 2 * Nat.log2 ((setAfter cmp ops).length + 1) := by
  obtain ⟨t, h1, h2, h3⟩ := run_perm ok ops (t := ⟨.nil, 0⟩) (valid_nil cmp) (List.Perm.refl _)
  refine ⟨t, h1, find_perm ok h2 h3, h3, h2.ordered, ?_⟩
  have := h2.height_le
  rwa [toList_size, h3.length_eq] at this

/-- C70 for the comparison of the predicate table. -/
theorem C70_predicates (ops : List (RBOp AExpr)) :
    ∃ t, RBSet.run exprCmp ⟨.nil, 0⟩ ops = .ok t ∧
      (∀ y, RB.find exprCmp y t.root = (setAfter exprCmp ops).find? (fun x => exprCmp x y == .eq)) ∧
      t.root.toList.Perm (setAfter exprCmp ops) ∧ t.root.toList.Pairwise (fun a b => exprCmp a b = .lt) ∧
      t.root.height ≤ 2 * Nat.log2 ((setAfter exprCmp ops).length + 1) :=
  C70_set exprCmpOK ops

theorem run_size {α : Type} {cmp : α → α → Ordering} (ok : CmpOK cmp) (ops : List (RBOp α)) :
    ∀ {t : RBSet α} {s : List α}, Valid cmp t.root → t.root.toList.Perm s → t.size = s.length → s.length + ops.length < 2 ^ 64 →
      Proper cmp s ops → ∃ t', t.run cmp ops = .ok t' ∧ t'.size = (ops.foldl (setStep cmp) s).length := by
  induction ops with
  | nil => intro t s _ _ hs _ _; exact ⟨t, rfl, hs⟩
  | cons o os ih =>
    intro t s hv hp hs hb hpr
    obtain ⟨t', h1, h2, h3⟩ := setStep_perm ok hv hp o
    have key : t'.size = (setStep cmp s o).length ∧ (setStep cmp s o).length ≤ s.length + 1 ∧ Proper cmp (setStep cmp s o) os := by
      simp only [List.length_cons] at hb
      cases o with
      | insert x =>
        obtain ⟨p1, p2⟩ := hpr
        have e : setStep cmp s (.insert x) = s ++ [x] := by
          simp only [setStep]
          rw [if_neg]
          simp only [List.any_eq_true, not_exists, not_and]
          intro y hy he
          exact p1 y hy (by simpa using he)
        rw [e]
        refine ⟨?_, by simp, e ▸ p2⟩
        simp only [RBSet.step] at h1
        split at h1
        · cases h1
        · cases h1
          simp only [hs, List.length_append, List.length_singleton]
          exact Nat.mod_eq_of_lt (by omega)
      | erase x =>
        obtain ⟨⟨y, hy, he⟩, p2⟩ := hpr
        refine ⟨?_, Nat.le_succ_of_le (List.length_filter_le _ _), p2⟩
        have hlen : (setStep cmp s (.erase x)).length + 1 = s.length := by
          have e1 := h3.length_eq
          have hy' := hp.symm.subset hy
          obtain ⟨L, R, hLR⟩ := List.append_of_mem hy'
          have ho := hv.ordered
          rw [Ordered, hLR, List.pairwise_append, List.pairwise_cons] at ho
          have eL : L.filter (fun a => cmp a x != .eq) = L :=
            filter_all (o := .lt) (fun a ha => ok.lt_of_eq (ho.2.2 a ha y (by simp)) he) (by simp)
          have eR : R.filter (fun a => cmp a x != .eq) = R :=
            filter_all (o := .gt) (fun a ha => ok.gt_of_eq (ho.2.1.1 a ha) he) (by simp)
          have e2 : (t.root.toList.filter (fun a => cmp a x != .eq)).length + 1 = t.root.toList.length := by
            rw [hLR, List.filter_append, List.filter_cons, eL, eR]
            simp [he]
            omega
          simp only [setStep]
          rw [← (hp.filter _).length_eq, e2, hp.length_eq]
        simp only [RBSet.step] at h1
        split at h1
        · rename_i hr
          rw [hr] at hp
          simp only [toList, List.nil_perm] at hp
          subst hp
          cases hy
        · cases h1
          simp only [hs]
          have : sizeMax = 2 ^ 64 - 1 := rfl
          omega
    obtain ⟨k1, k2, k3⟩ := key
    simp only [List.length_cons] at hb
    obtain ⟨t'', h4, h5⟩ := ih h2 h3 k1 (by omega) k3
    exact ⟨t'', by simp only [RBSet.run, h1]; exact h4, h5⟩

/-- C70, what `jsw_rbsize` returns: the number of items, if nothing is inserted that is there and nothing erased that is not. -/
theorem C70_size_partial {α : Type} {cmp : α → α → Ordering} (ok : CmpOK cmp) (ops : List (RBOp α)) (hb : ops.length < 2 ^ 64) (hp : Proper cmp [] ops) :
    ∃ t, RBSet.run cmp ⟨.nil, 0⟩ ops = .ok t ∧ t.size = (setAfter cmp ops).length :=
  run_size ok ops (t := ⟨.nil, 0⟩) (s := []) (valid_nil cmp) (List.Perm.refl _) rfl (by simpa using hb) hp

/-- C70 fails for `jsw_rbsize`: after an item is inserted twice it counts two; after one is erased that is not there it counts none, and when then the
one that is there is erased, so that the tree is empty, the count is `SIZE_MAX`. -/
theorem C70_size_wrong :
    (∃ t, RBSet.run (fun a b : Nat => compare a b) ⟨.nil, 0⟩ [.insert 1, .insert 1] = .ok t ∧ t.root.toList = [1] ∧ t.size = 2) ∧
    (∃ t, RBSet.run (fun a b : Nat => compare a b) ⟨.nil, 0⟩ [.insert 1, .erase 2] = .ok t ∧ t.root.toList = [1] ∧ t.size = 0) ∧
    (∃ t, RBSet.run (fun a b : Nat => compare a b) ⟨.nil, 0⟩ [.insert 1, .erase 2, .erase 1] = .ok t ∧ t.root.toList = [] ∧ t.size = 2 ^ 64 - 1) := by
  refine ⟨⟨_, rfl, ?_, ?_⟩, ⟨_, rfl, ?_, ?_⟩, ⟨_, rfl, ?_, ?_⟩⟩ <;> decide +kernel

/-- a sequence of calls with rotations of every kind -/
def rbCalls : List (RBOp Nat) :=
  [5, 1, 4, 2, 3, 9, 8, 7, 6, 10, 12, 11, 14, 13].map .insert ++ [4, 9, 1, 13, 5, 99, 2].map .erase ++ [.insert 4, .erase 6]

example : (RBSet.run (fun a b : Nat => compare a b) ⟨.nil, 0⟩ rbCalls).toOption.map (fun t => (t.root.toList, t.root.height))
    = some ([3, 4, 7, 8, 10, 11, 12, 14], 4) := by decide +kernel
example : setAfter (fun a b : Nat => compare a b) rbCalls = [3, 8, 7, 10, 12, 11, 14, 4] := by decide +kernel
example : Proper (fun a b : Nat => compare a b) [] [.insert 1, .insert 2, .erase 1, .insert 1, .erase 2] := by
  simp [Proper, setStep]

end BeTree
