import Verif.Lemmas.RBFail
/-
C72: the ordered set when memory runs out, while it is small.
-/
namespace BeTree
open RB

/-- C72 on small sets: while the set has fewer than seven items, an insertion that finds no memory loses nothing, whatever it returns: everything is
found as before.  (With seven an insertion may lose four: `C72_failed_insert_breaks`.) -/
theorem C72_small_sets_partial {α : Type} {cmp : α → α → Ordering} (ok : CmpOK cmp) (ops : List (RBOp α)) (x : α) (small : (setAfter cmp ops).length < 7) :
    ∃ s, RBSet.run cmp ⟨.nil, 0⟩ ops = .ok s ∧ ∃ t b, s.root.insertFail cmp x = .ok (t, b) ∧ t.toList = s.root.toList ∧
      ∀ y, RB.find cmp y t = (setAfter cmp ops).find? (fun a => cmp a y == .eq) := by
  obtain ⟨s, h1, h2, h3⟩ := run_perm ok ops (t := ⟨.nil, 0⟩) (valid_nil cmp) (List.Perm.refl _)
  replace h3 : s.root.toList.Perm (setAfter cmp ops) := h3
  obtain ⟨s', h1', t, b, f1, _, f3, _⟩ := C72_failed_insert_partial ok ops x
  rw [h1] at h1'
  cases h1'
  have e : t.toList = s.root.toList := by
    cases b with
    | true => exact f3 rfl
    | false => exact insertFail_small h2 (by rw [size_toList, h3.length_eq]; exact small) f1
  refine ⟨s, h1, t, b, f1, e, fun y => ?_⟩
  rw [← find_perm ok h2 h3]
  have ho : Ordered cmp t := by unfold Ordered; rw [e]; exact h2.ordered
  cases h : RB.find cmp y s.root with
  | some z =>
    obtain ⟨g1, g2⟩ := (find_iff ok h2.ordered z).1 h
    exact (find_iff ok ho z).2 ⟨e ▸ g1, g2⟩
  | none =>
    cases h' : RB.find cmp y t with
    | none => rfl
    | some z =>
      obtain ⟨g1, g2⟩ := find_some h'
      rw [(find_iff ok h2.ordered z).2 ⟨e ▸ g1, g2⟩] at h
      cases h

/-- six items, and a seventh that finds no memory -/
example : (setAfter (fun a b : Nat => compare a b) ([0, 2, 4, 6, 8, 10].map .insert)).length < 7 ∧
    ((RBSet.run (fun a b : Nat => compare a b) ⟨.nil, 0⟩ ([0, 2, 4, 6, 8, 10].map .insert)).bind
      (fun s => s.root.insertFail (fun a b : Nat => compare a b) 12)).toOption.map (fun r => (r.1.toList, r.2)) =
      some ([0, 2, 4, 6, 8, 10], false) := by decide +kernel

end BeTree
