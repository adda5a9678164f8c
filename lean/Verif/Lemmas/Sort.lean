import Verif.Lemmas.Eval
import Verif.Model.Event
/-
Sorting and removal of adjacent duplicates.
-/
set_option linter.unusedSectionVars false
namespace BeTree

section
variable {α β : Type} [LT β] [DecidableLT β] [DecidableEq β] [LinLT β]

theorem insertBy_perm (key : α → β) (x : α) (l : List α) : (insertBy key x l).Perm (x :: l) := by
  induction l with
  | nil => exact List.Perm.refl _
  | cons y ys ih =>
    unfold insertBy
    split
    · exact (ih.cons y).trans (List.Perm.swap x y ys)
    · exact List.Perm.refl _

theorem sortBy_perm (key : α → β) (l : List α) : (sortBy key l).Perm l := by
  induction l with
  | nil => exact List.Perm.refl _
  | cons x xs ih => exact (insertBy_perm key x _).trans (ih.cons x)

theorem sortBy_mem (key : α → β) (l : List α) (x : α) : x ∈ sortBy key l ↔ x ∈ l := (sortBy_perm key l).mem_iff

theorem lin_not_lt_trans {a b c : β} (h1 : ¬ b < a) (h2 : ¬ c < b) : ¬ c < a := by
  intro h3
  rcases LinLT.tri a b with h | h | h
  · rcases LinLT.tri b c with h' | h' | h'
    · exact LinLT.irrefl a (LinLT.trans _ _ _ h (LinLT.trans _ _ _ h' h3))
    · subst h'; exact h1 h3
    · exact h2 h'
  · subst h; exact h2 h3
  · exact h1 h

theorem insertBy_ascending (key : α → β) (x : α) (l : List α) (h : Ascending (l.map key)) :
    Ascending ((insertBy key x l).map key) := by
  induction l with
  | nil => simp [insertBy, Ascending]
  | cons y ys ih =>
    unfold insertBy
    have h' := List.pairwise_cons.1 (show ((key y) :: ys.map key).Pairwise _ from h)
    split
    · rename_i hlt
      refine List.pairwise_cons.2 ⟨?_, ih h'.2⟩
      intro b hb
      obtain ⟨z, hz, rfl⟩ := List.mem_map.1 hb
      rcases List.mem_cons.1 ((insertBy_perm key x ys).mem_iff.1 hz) with rfl | hz
      · exact fun hc => LinLT.irrefl _ (LinLT.trans _ _ _ hlt hc)
      · exact h'.1 _ (List.mem_map_of_mem hz)
    · rename_i hlt
      refine List.pairwise_cons.2 ⟨?_, h⟩
      intro b hb
      rcases List.mem_cons.1 (show b ∈ key y :: ys.map key from hb) with rfl | hb
      · exact hlt
      · exact lin_not_lt_trans hlt (h'.1 _ hb)

theorem sortBy_ascending (key : α → β) (l : List α) : Ascending ((sortBy key l).map key) := by
  induction l with
  | nil => exact List.Pairwise.nil
  | cons x xs ih => exact insertBy_ascending key x _ ih

theorem dedupFrom_sublist (key : α → β) (x : α) (l : List α) : (dedupFrom key x l).Sublist l := by
  induction l generalizing x with
  | nil => exact List.Sublist.refl _
  | cons y rest ih =>
    unfold dedupFrom
    split
    · exact (ih x).cons y
    · exact (ih y).cons_cons y

theorem dedupBy_sublist (key : α → β) (l : List α) : (dedupBy key l).Sublist l := by
  cases l with
  | nil => exact List.Sublist.refl _
  | cons x rest => exact (dedupFrom_sublist key x rest).cons_cons x

theorem dedupFrom_keys (key : α → β) (x : α) (l : List α) (k : β) :
    k ∈ key x :: (dedupFrom key x l).map key ↔ k ∈ key x :: l.map key := by
  induction l generalizing x with
  | nil => rfl
  | cons y rest ih =>
    unfold dedupFrom
    split
    · rename_i h
      rw [ih x]
      simp only [List.map_cons, List.mem_cons, h]
      tauto
    · have := ih y
      simp only [List.map_cons, List.mem_cons] at this ⊢
      tauto

theorem dedupBy_keys (key : α → β) (l : List α) (k : β) : k ∈ (dedupBy key l).map key ↔ k ∈ l.map key := by
  cases l with
  | nil => rfl
  | cons x rest => exact dedupFrom_keys key x rest k

theorem dedupFrom_strict (key : α → β) (x : α) (l : List α) (h : Ascending ((x :: l).map key)) :
    StrictAsc ((x :: dedupFrom key x l).map key) := by
  induction l generalizing x with
  | nil => simp [dedupFrom, StrictAsc]
  | cons y rest ih =>
    have h1 := List.pairwise_cons.1 (show (key x :: key y :: rest.map key).Pairwise _ from h)
    have h2 := List.pairwise_cons.1 h1.2
    unfold dedupFrom
    split
    · refine ih x (List.pairwise_cons.2 ⟨?_, h2.2⟩)
      intro b hb
      exact h1.1 b (List.mem_cons_of_mem _ hb)
    · rename_i hk
      refine List.pairwise_cons.2 ⟨?_, ih y h1.2⟩
      intro b hb
      have hb' : b ∈ key y :: rest.map key := (dedupFrom_keys key y rest b).1 hb
      have hxy : key x < key y := by
        rcases LinLT.tri (key x) (key y) with h | h | h
        · exact h
        · exact absurd h hk
        · exact absurd h (h1.1 _ (by simp))
      rcases List.mem_cons.1 hb' with rfl | hb
      · exact hxy
      · rcases LinLT.tri (key y) b with h | h | h
        · exact LinLT.trans _ _ _ hxy h
        · exact h ▸ hxy
        · exact absurd h (h2.1 _ hb)

theorem dedupBy_strict (key : α → β) (l : List α) (h : Ascending (l.map key)) : StrictAsc ((dedupBy key l).map key) := by
  cases l with
  | nil => exact List.Pairwise.nil
  | cons x rest => exact dedupFrom_strict key x rest h

/-- strictly ascending lists with the same elements are equal -/
theorem strictAsc_ext {l l' : List β} (h : StrictAsc l) (h' : StrictAsc l') (hm : ∀ x, x ∈ l ↔ x ∈ l') : l = l' := by
  induction l generalizing l' with
  | nil =>
    cases l' with
    | nil => rfl
    | cons y ys => exact absurd ((hm y).2 (by simp)) (by simp)
  | cons x xs ih =>
    cases l' with
    | nil => exact absurd ((hm x).1 (by simp)) (by simp)
    | cons y ys =>
      have hx := List.pairwise_cons.1 h
      have hy := List.pairwise_cons.1 h'
      have hxy : x = y := by
        rcases List.mem_cons.1 ((hm x).1 (by simp)) with h1 | h1
        · exact h1
        · rcases List.mem_cons.1 ((hm y).2 (by simp)) with h2 | h2
          · exact h2.symm
          · exact absurd (LinLT.trans _ _ _ (hx.1 _ h2) (hy.1 _ h1)) (LinLT.irrefl _)
      subst hxy
      rw [ih hx.2 hy.2]
      intro z
      constructor
      · intro hz
        rcases List.mem_cons.1 ((hm z).1 (List.mem_cons_of_mem _ hz)) with h1 | h1
        · subst h1; exact absurd (hx.1 _ hz) (LinLT.irrefl _)
        · exact h1
      · intro hz
        rcases List.mem_cons.1 ((hm z).2 (List.mem_cons_of_mem _ hz)) with h1 | h1
        · subst h1; exact absurd (hy.1 _ hz) (LinLT.irrefl _)
        · exact h1

theorem dedup_sort_strict (key : α → β) (l : List α) : StrictAsc ((dedupBy key (sortBy key l)).map key) :=
  dedupBy_strict key _ (sortBy_ascending key l)

theorem dedup_sort_keys (key : α → β) (l : List α) (k : β) :
    k ∈ (dedupBy key (sortBy key l)).map key ↔ k ∈ l.map key := by
  rw [dedupBy_keys, List.mem_map, List.mem_map]
  simp only [sortBy_mem]

theorem dedup_sort_ext (key : α → β) {l l' : List α} (h : ∀ k, k ∈ l.map key ↔ k ∈ l'.map key) :
    (dedupBy key (sortBy key l)).map key = (dedupBy key (sortBy key l')).map key :=
  strictAsc_ext (dedup_sort_strict key l) (dedup_sort_strict key l') fun k => by
    rw [dedup_sort_keys, dedup_sort_keys, h]

theorem sort_perm_keys (key : α → β) {l l' : List α} (h : l.Perm l') : 
    (sortBy key l).map key = (sortBy key l').map key := by
  have hp : ((sortBy key l).map key).Perm ((sortBy key l').map key) :=
    (((sortBy_perm key l).trans h).trans (sortBy_perm key l').symm).map key
  refine List.Perm.eq_of_pairwise (le := fun a b : β => ¬ b < a) ?_ (sortBy_ascending key l) (sortBy_ascending key l') hp
  intro a b _ _ h1 h2
  rcases LinLT.tri a b with h | h | h
  · exact absurd h h2
  · exact h
  · exact absurd h h1

end
end BeTree
