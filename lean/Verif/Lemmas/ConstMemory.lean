import Verif.Spec.ConstMemory
import Verif.Lemmas.Session
import Verif.Lemmas.Phases
/-
Constants of the caller beside the memory of the tree.
-/
namespace BeTree

theorem makeConst_does {α : Type} {name : Str} {value : Int} {f : ConstMem → Mem α} {L : List Nat} {Q : α → List Nat → Prop}
    (H : ∀ o t, Does (f ⟨name, value, o, t⟩) (t :: o :: L) Q) : Does (makeConst name value >>= f) L Q := by
  unfold makeConst
  simp only [bind_assoc, pure_bind]
  exact Does.malloc fun o => Does.malloc fun t => H o t

theorem freeConst_does {α : Type} {c : ConstMem} {f : Unit → Mem α} {L L' : List Nat} {Q : α → List Nat → Prop} (hp : L.Perm (c.obj :: c.text :: L'))
    (H : Does (f ()) L' Q) : Does (freeConst c >>= f) L Q := by
  unfold freeConst
  simp only [bind_assoc]
  refine touch_one (hp.mem_iff.mpr (by simp)) ?_
  exact Does.free (L' := c.obj :: L') (hp.trans (.swap _ _ _)) (Does.free (.refl _) H)

theorem freeConsts_does (cs : List (Option ConstMem)) : Does (freeConsts cs) (constBlocks cs) (fun _ M => M = []) := by
  induction cs with
  | nil => exact Does.pure (.refl _) rfl
  | cons c cs ih =>
    cases c with
    | none => exact ih
    | some c => exact freeConst_does (L' := constBlocks cs) (.refl _) ih

theorem constBlocks_set {cs : List (Option ConstMem)} {k : Nat} {c : ConstMem} (h : cs[k]? = some (some c)) :
    (constBlocks cs).Perm (c.obj :: c.text :: constBlocks (cs.set k none)) := by
  induction cs generalizing k with
  | nil => cases h
  | cons x cs ih =>
    cases k with
    | zero =>
      simp only [List.getElem?_cons_zero, Option.some.injEq] at h
      subst h
      exact .refl _
    | succ k =>
      have := ih (by simpa using h)
      cases x with
      | none => exact this
      | some x =>
        show (x.obj :: x.text :: constBlocks cs).Perm (c.obj :: c.text :: x.obj :: x.text :: constBlocks (cs.set k none))
        refine (List.Perm.append_left [x.obj, x.text] this).trans ?_
        exact (List.perm_append_comm (l₁ := [x.obj, x.text]) (l₂ := [c.obj, c.text])).append_right (constBlocks (cs.set k none))

theorem heldConsts_given {cs : List (Option ConstMem)} : ∀ {ks : List Nat} {l : List Constant},
    givenConsts (cs.map (Option.map ConstMem.const)) ks = some l →
    ∃ ms, heldConsts cs ks = .ok ms ∧ ms.map ConstMem.const = l ∧ ∀ b ∈ ms.flatMap (fun c => [c.obj, c.text]), b ∈ constBlocks cs := by
  intro ks
  induction ks with
  | nil => intro l h; cases h; exact ⟨[], rfl, rfl, by simp⟩
  | cons k ks ih =>
    intro l h
    simp only [givenConsts, List.getElem?_map] at h
    cases hc : cs[k]? with
    | none => rw [hc] at h; cases h
    | some o =>
      cases o with
      | none => rw [hc] at h; cases h
      | some c =>
        rw [hc] at h
        cases hg : givenConsts (cs.map (Option.map ConstMem.const)) ks with
        | none => rw [hg] at h; cases h
        | some l' =>
          rw [hg] at h
          cases h
          obtain ⟨ms, k1, k2, k3⟩ := ih hg
          refine ⟨c :: ms, by simp only [heldConsts, hc, k1], by simp [k2], fun b hb => ?_⟩
          rcases List.mem_append.mp (List.flatMap_cons ▸ hb) with hb | hb
          · exact List.mem_flatMap.mpr ⟨some c, List.mem_of_getElem? hc, hb⟩
          · exact k3 b hb

theorem run_cons_plain {geo : GeoTest} {R : Rounding} {o : EventOp} {os : List EventOp} {w t : EventPlain} {as : List Answer}
    (h : w.run geo R (o :: os) = .ok (t, as)) :
    ∃ t1 a1 a2, w.run geo R [o] = .ok (t1, a1) ∧ t1.run geo R os = .ok (t, a2) ∧ as = a1 ++ a2 := by
  simp only [EventPlain.run] at h ⊢
  cases hs : w.step geo R o with
  | error x => rw [hs] at h; cases h
  | ok p =>
    obtain ⟨t1, a1⟩ := p
    rw [hs] at h
    dsimp only at h
    cases hs2 : t1.run geo R os with
    | error x => rw [hs2] at h; cases h
    | ok p2 =>
      obtain ⟨t2, a2⟩ := p2
      rw [hs2] at h
      cases h
      exact ⟨t1, a1, a2, by simp, hs2, rfl⟩

/-- what is known of calls with constants -/
def ConstRuns (H : Str → Nat) (geo : GeoTest) (R : Rounding) (os : List ConstOp) : Prop :=
  ∀ {s : ConstSession} {st wt gn : Objs} {dn L : List Nat} {t' : EventPlain} {as : List Answer} {evs : List EventOp} {left : List (Option Constant)},
    asValues (s.consts.map (Option.map ConstMem.const)) os = some (evs, left) →
    Agree H s.tree → Owned s.tree.subs.mem st wt gn dn → ObjsOk s.tree.subs.objs → Ahead s.tree.subs.mem wt (treeOps (userOps evs)) →
    s.tree.subs.plain.run geo R evs = .ok (t', as) →
    Does (s.run H geo R os) (Objs.flat (st ++ wt) ++ (heldBlocks s.tree.subs.objs ++ L) ++ s.tree.rest ++ constBlocks s.consts) (fun x M =>
      x.1.consts.map (Option.map ConstMem.const) = left ∧ x.1.tree.subs.plain = t' ∧ x.2 = as ∧ Agree H x.1.tree ∧
      ∃ st' wt' gn' L' dn', (∀ k, k ∈ dn' ↔ k ∈ doneIn R s.tree.subs.mem.world (treeOps (userOps evs))) ∧
      M.Perm (Objs.flat (st' ++ wt') ++ (heldBlocks x.1.tree.subs.objs ++ L') ++ x.1.tree.rest ++ constBlocks x.1.consts) ∧
      Owned x.1.tree.subs.mem st' wt' gn' (dn' ++ dn) ∧
      ((setAt evs).Nodup → Unset s.tree.subs.objs (setAt evs) → (∀ o' ∈ treeOps (userOps evs), Clean o') → (∀ o' ∈ evs, o'.MadeOnce) →
        (∀ a ∈ as, Answered a) → L' = L))

theorem treeOps_append (l l' : List EventOp) : treeOps (userOps (l ++ l')) = treeOps (userOps l) ++ treeOps (userOps l') := by
  induction l with
  | nil => rfl
  | cons x l ih =>
    cases x <;> simp only [List.cons_append, userOps, ih]
    rename_i u
    cases u <;> simp [treeOps, ih]

theorem setAt_append (l l' : List EventOp) : setAt (l ++ l') = setAt l ++ setAt l' := by
  induction l with
  | nil => rfl
  | cons x l ih => cases x <;> simp [setAt, ih]

/-- one call on the tree, and then the rest -/
theorem constCall_does {H : Str → Nat} {geo : GeoTest} {R : Rounding} {os : List ConstOp} (ih : ConstRuns H geo R os) {o : EventOp}
    {s : ConstSession} {st wt gn : Objs} {dn L : List Nat} {t' : EventPlain} {as : List Answer} {evs : List EventOp} {left : List (Option Constant)}
    (hv : asValues (s.consts.map (Option.map ConstMem.const)) os = some (evs, left))
    (hg : Agree H s.tree) (hw : Owned s.tree.subs.mem st wt gn dn) (hok : ObjsOk s.tree.subs.objs)
    (ha : Ahead s.tree.subs.mem wt (treeOps (userOps (o :: evs)))) (hr : s.tree.subs.plain.run geo R (o :: evs) = .ok (t', as)) :
    Does (do
      let a ← s.tree.run H geo R [o]
      let b ← ({ s with tree := a.1 } : ConstSession).run H geo R os
      pure (b.1, a.2 ++ b.2)) (Objs.flat (st ++ wt) ++ (heldBlocks s.tree.subs.objs ++ L) ++ s.tree.rest ++ constBlocks s.consts) (fun x M =>
      x.1.consts.map (Option.map ConstMem.const) = left ∧ x.1.tree.subs.plain = t' ∧ x.2 = as ∧ Agree H x.1.tree ∧
      ∃ st' wt' gn' L' dn', (∀ k, k ∈ dn' ↔ k ∈ doneIn R s.tree.subs.mem.world (treeOps (userOps (o :: evs)))) ∧
      M.Perm (Objs.flat (st' ++ wt') ++ (heldBlocks x.1.tree.subs.objs ++ L') ++ x.1.tree.rest ++ constBlocks x.1.consts) ∧
      Owned x.1.tree.subs.mem st' wt' gn' (dn' ++ dn) ∧
      ((setAt (o :: evs)).Nodup → Unset s.tree.subs.objs (setAt (o :: evs)) → (∀ o' ∈ treeOps (userOps (o :: evs)), Clean o') →
        (∀ o' ∈ o :: evs, o'.MadeOnce) → (∀ a ∈ as, Answered a) → L' = L)) := by
  obtain ⟨t1, a1, a2, r1, r2, rfl⟩ := run_cons_plain hr
  refine Does.seq (L' := constBlocks s.consts) (.refl _) (sessionRun_more [o] evs hg hw hok ha r1) ?_
  rintro ⟨s1, b1⟩ M ⟨rfl, rfl, hg1, st1, wt1, gn1, L1, dn1, hd1, hM1, hw1, hok1, ha1, hc1⟩
  dsimp only at hg1 hw1 hok1 ha1 hc1 r1 r2 hM1 ⊢
  refine Does.seq (L' := []) (by simpa using hM1.append_right (constBlocks s.consts)) (ih (s := ⟨s1, s.consts⟩) hv hg1 hw1 hok1 ha1 r2) ?_
  rintro ⟨s2, b2⟩ M2 ⟨e1, e2, rfl, hg2, st2, wt2, gn2, L2, dn2, hd2, hM2, hw2, hc2⟩
  refine Does.pure (.refl _) ⟨e1, e2, rfl, hg2, st2, wt2, gn2, L2, dn2 ++ dn1, fun k => ?_, by simpa using hM2, by rw [List.append_assoc]; exact hw2,
    fun n1 n2 n3 n4 n5 => ?_⟩
  · have := doneIn_append [o] evs r1 k
    rw [List.mem_append, hd2, hd1, Or.comm]
    exact this.symm
  · obtain ⟨u1, u2⟩ := hc1 n1 n2
    have n3' : ∀ o' ∈ treeOps (userOps [o]) ++ treeOps (userOps evs), Clean o' := by rw [← treeOps_append]; exact n3
    have n1' : (setAt [o] ++ setAt evs).Nodup := by rw [← setAt_append]; exact n1
    rw [hc2 (List.nodup_append.mp n1').2.1 u1 (fun o' ho => n3' o' (by simp [ho])) (fun o' ho => n4 o' (by simp [ho])) (fun a hx => n5 a (by simp [hx])),
      u2 (fun o' ho => n3' o' (by simp [ho])) (fun o' ho => n4 o' (by simpa using .inl (by simpa using ho))) (fun a hx => n5 a (by simp [hx]))]

theorem constRun_does {H : Str → Nat} {geo : GeoTest} {R : Rounding} (os : List ConstOp) : ConstRuns H geo R os := by
  induction os with
  | nil =>
    intro s st wt gn dn L t' as evs left hv hg hw hok ha hr
    cases hv
    cases hr
    exact Does.pure (.refl _) ⟨rfl, rfl, rfl, hg, st, wt, gn, L, [], by simp [userOps, treeOps, doneIn], .refl _, hw, fun _ _ _ _ _ => rfl⟩
  | cons o os ih =>
    intro s st wt gn dn L t' as evs left hv hg hw hok ha hr
    have stay : ∀ (s1 : ConstSession) {Q : ConstSession × List Answer → List Nat → Prop} {X : List Nat}, Does (s1.run H geo R os) X Q →
        Does (s1.run H geo R os >>= fun b => pure (b.1, [] ++ b.2)) X Q := by
      intro s1 Q X h
      have e : (fun b : ConstSession × List Answer => (pure (b.1, [] ++ b.2) : Mem (ConstSession × List Answer))) = pure := rfl
      rw [e, bind_pure]
      exact h
    unfold ConstSession.run
    cases o with
    | make name value =>
      simp only [ConstSession.step, bind_assoc, pure_bind]
      refine makeConst_does fun ob tx => ?_
      refine stay ⟨s.tree, s.consts ++ [some ⟨name, value, ob, tx⟩]⟩ ?_
      refine Does.perm (ih (s := ⟨s.tree, s.consts ++ [some ⟨name, value, ob, tx⟩]⟩) (L := L) (by simpa [asValues, ConstMem.const] using hv) hg hw hok ha hr) ?_
      have e : constBlocks (s.consts ++ [some ⟨name, value, ob, tx⟩]) = constBlocks s.consts ++ [ob, tx] := by simp [constBlocks]
      rw [e]
      blocks
    | free k =>
      simp only [asValues, List.getElem?_map] at hv
      cases hc : s.consts[k]? with
      | none => rw [hc] at hv; cases hv
      | some o =>
        cases o with
        | none => rw [hc] at hv; cases hv
        | some c =>
          rw [hc] at hv
          simp only [Option.map_some] at hv
          have hh : heldAt s.consts k = .ok c := by unfold heldAt; rw [hc]
          simp only [ConstSession.step, hh, bind_assoc, pure_bind, liftMem]
          refine freeConst_does (L' := Objs.flat (st ++ wt) ++ (heldBlocks s.tree.subs.objs ++ L) ++ s.tree.rest ++ constBlocks (s.consts.set k none)) ?_ ?_
          · refine (List.Perm.append_left _ (constBlocks_set hc)).trans ?_
            blocks
          · exact stay ⟨s.tree, s.consts.set k none⟩
              (ih (s := ⟨s.tree, s.consts.set k none⟩) (L := L) (by rw [List.map_set]; exact hv) hg hw hok ha hr)
    | insert id ks text =>
      simp only [asValues] at hv
      cases hg1 : givenConsts (s.consts.map (Option.map ConstMem.const)) ks with
      | none => rw [hg1] at hv; cases hv
      | some cs =>
        cases hv1 : asValues (s.consts.map (Option.map ConstMem.const)) os with
        | none => rw [hg1, hv1] at hv; cases hv
        | some p =>
          obtain ⟨evs', left'⟩ := p
          rw [hg1, hv1] at hv
          cases hv
          obtain ⟨ms, k1, rfl, k3⟩ := heldConsts_given hg1
          simp only [ConstSession.step, k1, bind_assoc, pure_bind, liftMem]
          refine Does.seq (P := _) (L' := []) (by simp) (touchAll_does (L := Objs.flat (st ++ wt) ++ (heldBlocks s.tree.subs.objs ++ L) ++ s.tree.rest ++
            constBlocks s.consts) fun b hb => List.mem_append_right _ (k3 b hb)) ?_
          rintro _ M rfl
          rw [List.append_nil]
          exact constCall_does ih hv1 hg hw hok ha hr
    | makeSub id ks text =>
      simp only [asValues] at hv
      cases hg1 : givenConsts (s.consts.map (Option.map ConstMem.const)) ks with
      | none => rw [hg1] at hv; cases hv
      | some cs =>
        cases hv1 : asValues (s.consts.map (Option.map ConstMem.const)) os with
        | none => rw [hg1, hv1] at hv; cases hv
        | some p =>
          obtain ⟨evs', left'⟩ := p
          rw [hg1, hv1] at hv
          cases hv
          obtain ⟨ms, k1, rfl, k3⟩ := heldConsts_given hg1
          simp only [ConstSession.step, k1, bind_assoc, pure_bind, liftMem]
          refine Does.seq (P := _) (L' := []) (by simp) (touchAll_does (L := Objs.flat (st ++ wt) ++ (heldBlocks s.tree.subs.objs ++ L) ++ s.tree.rest ++
            constBlocks s.consts) fun b hb => List.mem_append_right _ (k3 b hb)) ?_
          rintro _ M rfl
          rw [List.append_nil]
          exact constCall_does ih hv1 hg hw hok ha hr
    | call o =>
      simp only [asValues] at hv
      cases hv1 : asValues (s.consts.map (Option.map ConstMem.const)) os with
      | none => rw [hv1] at hv; cases hv
      | some p =>
        obtain ⟨evs', left'⟩ := p
        rw [hv1] at hv
        cases hv
        simp only [ConstSession.step, bind_assoc, pure_bind]
        exact constCall_does ih hv1 hg hw hok ha hr

/-! ### misuse -/

theorem mem_run_bind {α β : Type} {f : α → Mem β} (x : Mem α) : ∀ {h : Heap} {r : β × Heap}, Mem.run (x >>= f) h = .ok r →
    ∃ a h1, Mem.run x h = .ok (a, h1) ∧ Mem.run (f a) h1 = .ok r := by
  show ∀ {h : Heap} {r : β × Heap}, Mem.run (x.bind f) h = .ok r → ∃ a h1, Mem.run x h = .ok (a, h1) ∧ Mem.run (f a) h1 = .ok r
  induction x with
  | done a => intro h r e; exact ⟨a, h, rfl, e⟩
  | malloc k ih => intro h r e; exact ih _ e
  | free b k ih =>
    intro h r e
    simp only [Mem.bind, Mem.run] at e ⊢
    split at e
    · rename_i hb
      simpa [hb] using ih e
    · cases e
  | touch b k ih =>
    intro h r e
    simp only [Mem.bind, Mem.run] at e ⊢
    split at e
    · rename_i hb
      simpa [hb] using ih e
    · cases e
  | fault x => intro h r e; cases e

theorem liftMem_ok {α : Type} {x : Except Fault α} {h h1 : Heap} {a : α} (e : Mem.run (liftMem x) h = .ok (a, h1)) : x = .ok a := by
  cases x with
  | error x => cases e
  | ok b => cases e; rfl

theorem heldConsts_ok {cs : List (Option ConstMem)} : ∀ {ks : List Nat} {ms : List ConstMem}, heldConsts cs ks = .ok ms →
    givenConsts (cs.map (Option.map ConstMem.const)) ks = some (ms.map ConstMem.const) := by
  intro ks
  induction ks with
  | nil => intro ms h; cases h; rfl
  | cons k ks ih =>
    intro ms h
    simp only [heldConsts] at h
    split at h
    · rename_i c hc
      split at h
      · cases h
      · rename_i l hl
        cases h
        simp [givenConsts, hc, ih hl]
    · cases h

/-- calls that go well use no constant that is not held -/
theorem constRun_held {H : Str → Nat} {geo : GeoTest} {R : Rounding} (os : List ConstOp) : ∀ {s : ConstSession} {h h1 : Heap}
    {x : ConstSession × List Answer}, s.run H geo R os h = .ok (x, h1) →
    ∃ p, asValues (s.consts.map (Option.map ConstMem.const)) os = some p := by
  induction os with
  | nil => intro s h h1 x e; exact ⟨_, rfl⟩
  | cons o os ih =>
    intro s h h1 x e
    obtain ⟨a, ha, e1, e⟩ := mem_run_bind _ e
    obtain ⟨b, hb, e2, e⟩ := mem_run_bind _ e
    obtain ⟨⟨evs, left⟩, hp⟩ := ih e2
    cases o with
    | make name value =>
      obtain ⟨c, hc, k1, k2⟩ := mem_run_bind _ e1
      cases k1
      cases k2
      exact ⟨_, by simpa [asValues, ConstMem.const] using hp⟩
    | free k =>
      obtain ⟨c, hc, k1, k2⟩ := mem_run_bind _ e1
      obtain ⟨_, _, _, k2⟩ := mem_run_bind _ k2
      cases k2
      have := liftMem_ok k1
      unfold heldAt at this
      split at this
      · rename_i o ho
        rw [List.map_set] at hp
        exact ⟨_, by simpa [asValues, ho] using hp⟩
      · cases this
    | insert id ks text =>
      obtain ⟨c, hc, k1, k2⟩ := mem_run_bind _ e1
      obtain ⟨_, _, _, k2⟩ := mem_run_bind _ k2
      obtain ⟨_, _, _, k2⟩ := mem_run_bind _ k2
      cases k2
      dsimp only at hp
      rw [asValues, heldConsts_ok (liftMem_ok k1), hp]
      exact ⟨_, rfl⟩
    | makeSub id ks text =>
      obtain ⟨c, hc, k1, k2⟩ := mem_run_bind _ e1
      obtain ⟨_, _, _, k2⟩ := mem_run_bind _ k2
      obtain ⟨_, _, _, k2⟩ := mem_run_bind _ k2
      cases k2
      dsimp only at hp
      rw [asValues, heldConsts_ok (liftMem_ok k1), hp]
      exact ⟨_, rfl⟩
    | call o =>
      obtain ⟨_, _, _, k2⟩ := mem_run_bind _ e1
      cases k2
      dsimp only at hp
      rw [asValues, hp]
      exact ⟨_, rfl⟩

end BeTree
