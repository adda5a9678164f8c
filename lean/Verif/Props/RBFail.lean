import Verif.Model.RBFail
import Verif.Props.RBErase
/-
C72: the ordered set when memory runs out.
-/
namespace BeTree
namespace RB
variable {α : Type}

theorem zip_append (A B : List (Frame α)) (q : RB α) : zip (A ++ B) q = zip B (zip A q) := by
  induction A generalizing q with
  | nil => rfl
  | cons a A ih => simp only [List.cons_append, zip, ih]

theorem zip_take_infix (path : List (Frame α)) (k : Nat) (q : RB α) : (zip (path.take k) q).toList <:+: (zip path q).toList := by
  have h : zip path q = zip (path.drop k) (zip (path.take k) q) := by rw [← zip_append, List.take_append_drop]
  rw [h, zip_toList (path.drop k)]
  exact ⟨_, _, rfl⟩

theorem rotate_toList {q q' : RB α} {p g : Frame α} {rest path' : List (Frame α)} {c : Nat} (h : rotate q p g rest = .ok (q', path', c)) :
    (zip path' q').toList = (zip (p :: g :: rest) q).toList := by
  obtain ⟨pd, pc, px, po⟩ := p
  obtain ⟨gd, gc, gx, go⟩ := g
  unfold rotate at h
  cases pd <;> cases gd <;> cases q <;> simp at h <;> obtain ⟨rfl, rfl, rfl⟩ := h <;> simp [zip_toList, leftOf, rightOf, toList]

theorem rootAt_rotate {r : RootAt α} {q : RB α} {p g : Frame α} {rest : List (Frame α)}
    (hr : ∀ t, r = .beside t → t.toList <:+: (zip (p :: g :: rest) q).toList) (right : Bool) :
    ∀ t, r.rotate q p g rest right = .beside t → t.toList <:+: (zip (p :: g :: rest) q).toList := by
  intro t h
  cases r with
  | beside t' =>
    simp only [RootAt.rotate] at h
    exact hr t h
  | onPath n =>
    clear hr
    obtain ⟨pd, pc, px, po⟩ := p
    obtain ⟨gd, gc, gx, go⟩ := g
    simp only [RootAt.rotate] at h
    split at h
    · cases h
    · split at h
      · rename_i hd
        subst hd
        split at h
        · cases h
          cases pd
          · exact ⟨leftOf rest ++ q.toList ++ [px], rightOf rest, by simp [zip_toList, leftOf, rightOf, toList]⟩
          · exact ⟨leftOf rest, [px] ++ q.toList ++ rightOf rest, by simp [zip_toList, leftOf, rightOf, toList]⟩
        · cases h
      · rename_i hd
        cases q with
        | nil => cases h
        | node c x ql qr =>
          dsimp only at h
          split at h
          · split at h
            · cases h
              cases gd <;> cases pd <;> simp at hd
              · exact ⟨leftOf rest ++ po.toList ++ [px] ++ ql.toList ++ [x], rightOf rest, by simp [zip_toList, leftOf, rightOf, toList]⟩
              · exact ⟨leftOf rest, [x] ++ qr.toList ++ [px] ++ po.toList ++ rightOf rest, by simp [zip_toList, leftOf, rightOf, toList]⟩
            · cases h
          · split at h
            · split at h
              · cases h
              · cases h
                cases gd <;> cases pd <;> simp at hd
                · exact ⟨leftOf rest, [x] ++ qr.toList ++ [gx] ++ go.toList ++ rightOf rest, by simp [zip_toList, leftOf, rightOf, toList]⟩
                · exact ⟨leftOf rest ++ go.toList ++ [gx] ++ ql.toList ++ [x], rightOf rest, by simp [zip_toList, leftOf, rightOf, toList]⟩
            · cases h

/-- the step of the loop that both versions make -/
theorem failLoop_spec {cmp : α → α → Ordering} (refl : ∀ a, cmp a a = .eq) {data : α} (fuel : Nat) :
    ∀ (cool : Nat) (r : RootAt α) (q : RB α) (path : List (Frame α)) (T : RB α), insertLoop cmp data fuel cool q path = .ok T →
      (∀ t, r = .beside t → t.toList <:+: (zip path q).toList) →
      ∃ t b, failLoop cmp data fuel cool r q path = .ok (t, b) ∧
        (b = true → t = blacken T ∧ T.toList.length = (zip path q).toList.length) ∧
        (b = false → t.toList <:+: (zip path q).toList ∧ T.toList.length = (zip path q).toList.length + 1) := by
  induction fuel with
  | zero => intro cool r q path T h; cases h
  | succ fuel ih =>
    intro cool r q path T h hr
    cases q with
    | nil =>
      refine ⟨_, _, rfl, fun h => by (cases h), fun _ => ⟨?_, ?_⟩⟩
      · cases r with
        | onPath n => exact zip_take_infix path _ nil
        | beside t => exact hr t rfl
      · simp only [insertLoop] at h
        split at h
        · cases h
        · cases h
        · rename_i red x l rt path' cool' hrot
          have hW : (zip path' (node red x l rt)).toList = (zip path (node true data nil nil)).toList ∧ (cmp x data = .eq) := by
            split at hrot
            · split at hrot
              · cases hrot
              · split at hrot
                · rename_i p g rest _
                  refine ⟨rotate_toList hrot, ?_⟩
                  unfold rotate at hrot
                  split at hrot
                  · cases hrot; exact refl _
                  · simp only at hrot
                    split at hrot <;> cases hrot <;> exact refl _
                · cases hrot
            · cases hrot
              exact ⟨rfl, refl _⟩
          rw [hW.2] at h
          cases h
          rw [hW.1]
          simp [zip_toList, toList]
          omega
    | node c x l rt =>
      have hf : (zip path (flip (node c x l rt))).toList = (zip path (node c x l rt)).toList := by
        rw [zip_toList, zip_toList, flip_toList]
      rw [← hf] at hr ⊢
      simp only [insertLoop, failLoop] at h ⊢
      generalize flip (node c x l rt) = q at *
      by_cases hc : (q.isRed && topRed path) = true
      · rw [if_pos hc] at h ⊢
        by_cases hcool : cool > 0
        · rw [if_pos hcool] at h; cases h
        · rw [if_neg hcool] at h ⊢
          match path with
          | [] => cases h
          | [_] => cases h
          | p :: g :: rest =>
            dsimp only at h ⊢
            cases hrot : rotate q p g rest with
            | error e => rw [hrot] at h; cases h
            | ok v =>
              obtain ⟨q', path', cool'⟩ := v
              rw [hrot] at h
              dsimp only at h ⊢
              have hq := rotate_toList hrot
              have hrr := rootAt_rotate hr
              rw [← hq] at hrr ⊢
              cases q' with
              | nil => cases h
              | node red x l rt =>
                dsimp only at h ⊢
                cases hx : cmp x data with
                | eq =>
                  rw [hx] at h
                  cases h
                  exact ⟨_, _, rfl, fun _ => ⟨rfl, rfl⟩, fun h => by cases h⟩
                | lt =>
                  rw [hx] at h
                  exact ih _ _ _ _ _ h (hrr true)
                | gt =>
                  rw [hx] at h
                  exact ih _ _ _ _ _ h (hrr false)
      · rw [if_neg hc] at h ⊢
        cases q with
        | nil => cases h
        | node red x l rt =>
          dsimp only at h ⊢
          cases hx : cmp x data with
          | eq =>
            rw [hx] at h
            cases h
            exact ⟨_, _, rfl, fun _ => ⟨rfl, rfl⟩, fun h => by cases h⟩
          | lt =>
            rw [hx] at h
            exact ih _ _ _ _ _ h hr
          | gt =>
            rw [hx] at h
            exact ih _ _ _ _ _ h hr

end RB
open RB

/-- C72, what holds: on a set that calls with enough memory have made, an insertion that finds no memory does not fault; it returns 1 exactly if an
equal item is there, and then all items are still there.  If it returns 0, what can be found afterwards could be found before; the items that are left
are neighbours. -/
theorem C72_failed_insert_partial {α : Type} {cmp : α → α → Ordering} (ok : CmpOK cmp) (ops : List (RBOp α)) (x : α) :
    ∃ s, RBSet.run cmp ⟨.nil, 0⟩ ops = .ok s ∧ ∃ t b, s.root.insertFail cmp x = .ok (t, b) ∧
      (b = true ↔ ∃ y ∈ setAfter cmp ops, cmp y x = .eq) ∧
      (b = true → t.toList = s.root.toList) ∧
      t.toList <:+: s.root.toList ∧
      ∀ y z, RB.find cmp y t = some z → (setAfter cmp ops).find? (fun a => cmp a y == .eq) = some z := by
  obtain ⟨s, h1, h2, h3⟩ := run_perm ok ops (t := ⟨.nil, 0⟩) (valid_nil cmp) (List.Perm.refl _)
  replace h3 : s.root.toList.Perm (setAfter cmp ops) := h3
  refine ⟨s, h1, ?_⟩
  have main : ∃ t b, s.root.insertFail cmp x = .ok (t, b) ∧ (b = true ↔ ∃ y ∈ s.root.toList, cmp y x = .eq) ∧
      (b = true → t.toList = s.root.toList) ∧ t.toList <:+: s.root.toList := by
    generalize s.root = r at h2
    cases r with
    | nil => exact ⟨.nil, false, rfl, by simp [toList], fun h => absurd h (by simp), List.infix_refl _⟩
    | node c a l rt =>
      obtain ⟨T', i1, i2, i3⟩ := insert_valid ok (data := x) h2
      simp only [RB.insert] at i1
      split at i1
      · cases i1
      · rename_i T hT
        cases i1
        obtain ⟨t, b, f1, f2, f3⟩ := failLoop_spec ok.refl _ _ (.onPath 0) _ _ _ hT (by intro t h; cases h)
        simp only [zip] at f2 f3
        rw [blacken_toList] at i3
        refine ⟨t, b, f1, ?_, ?_, ?_⟩
        · rcases i3 with ⟨i3, i4⟩ | ⟨i3, L, R, i4, i5⟩
          · refine iff_of_true ?_ i4
            cases b with
            | true => rfl
            | false => have := (f3 rfl).2; rw [i3] at this; omega
          · refine iff_of_false ?_ (by rintro ⟨y, hy, he⟩; exact i3 y hy he)
            rintro rfl
            have := (f2 rfl).2
            rw [i4, i5] at this
            simp at this
        · rintro rfl
          obtain ⟨e, f⟩ := f2 rfl
          rw [e, blacken_toList]
          rcases i3 with ⟨i3, _⟩ | ⟨_, L, R, i4, i5⟩
          · exact i3
          · rw [i4, i5] at f
            simp at f
        · cases b with
          | false => exact (f3 rfl).1
          | true =>
            obtain ⟨e, f⟩ := f2 rfl
            rw [e, blacken_toList]
            rcases i3 with ⟨i3, _⟩ | ⟨_, L, R, i4, i5⟩
            · rw [i3]; exact List.infix_refl _
            · rw [i4, i5] at f
              simp at f
  obtain ⟨t, b, f1, f2, f3, f4⟩ := main
  refine ⟨t, b, f1, ?_, f3, f4, ?_⟩
  · rw [f2]
    constructor
    · rintro ⟨y, hy, he⟩; exact ⟨y, h3.subset hy, he⟩
    · rintro ⟨y, hy, he⟩; exact ⟨y, h3.symm.subset hy, he⟩
  · intro y z h
    rw [← find_perm ok h2 h3, find_iff ok h2.ordered]
    obtain ⟨g1, g2⟩ := find_some h
    exact ⟨f4.subset g1, g2⟩

/-- C72 fails.  Items are lost: after seven insertions an eighth, which finds no memory, returns 0 and leaves three items.  And the next insertion, with
memory again, may dereference NULL: the root was left red. -/
theorem C72_failed_insert_breaks :
    (∃ s t, RBSet.run (fun a b : Nat => compare a b) ⟨.nil, 0⟩ ([0, 2, 4, 6, 8, 10, 12].map .insert) = .ok s ∧
      s.root.insertFail (fun a b : Nat => compare a b) 14 = .ok (t, false) ∧ s.root.toList = [0, 2, 4, 6, 8, 10, 12] ∧ t.toList = [0, 2, 4]) ∧
    (∃ s t, RBSet.run (fun a b : Nat => compare a b) ⟨.nil, 0⟩ ([0, 33, 63, 58, 57, 7, 3, 12, 17].map .insert) = .ok s ∧
      s.root.insertFail (fun a b : Nat => compare a b) 27 = .ok (t, false) ∧
      RB.insert (fun a b : Nat => compare a b) 38 t = .error .ub) := by
  refine ⟨⟨_, _, rfl, rfl, ?_, ?_⟩, ⟨_, _, rfl, rfl, ?_⟩⟩ <;> decide +kernel

/-- a set of seven items; an equal item is there -/
example : ((RBSet.run (fun a b : Nat => compare a b) ⟨.nil, 0⟩ ([0, 2, 4, 6, 8, 10, 12].map .insert)).bind
    (fun s => s.root.insertFail (fun a b : Nat => compare a b) 8)).toOption.map (fun r => (r.1.toList, r.2)) =
      some ([0, 2, 4, 6, 8, 10, 12], true) := by decide +kernel

end BeTree
