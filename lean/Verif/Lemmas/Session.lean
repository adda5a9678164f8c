import Verif.Model.Session
import Verif.Lemmas.ObjMemory
import Verif.Lemmas.NodeMemory
import Verif.Lemmas.ConfigMemory
import Verif.Lemmas.Filled
/-
All memory of a tree in one heap.
-/
namespace BeTree
open Spec

theorem userStep_plain {geo : GeoTest} {R : Rounding} {w t : TextWorld} {o : UserOp} {as : List Answer}
    (h : w.userStep geo R o = .ok (t, as)) : w.plainStep R o.memOp = .ok t := by
  cases o with
  | tree o =>
    simp only [TextWorld.userStep] at h
    simp only [UserOp.memOp]
    split at h
    · cases h
    · rename_i e; cases h; exact e
  | search texts =>
    simp only [TextWorld.userStep] at h
    split at h
    · cases h
    · cases h; rfl
  | «exists» text =>
    simp only [TextWorld.userStep] at h
    split at h
    · cases h
    · cases h; rfl

theorem eventStep_plain {geo : GeoTest} {R : Rounding} {w t : EventPlain} {o : EventOp} {as : List Answer}
    (h : w.step geo R o = .ok (t, as)) : w.world.plainStep R o.memOp = .ok t.world := by
  cases o with
  | user o =>
    simp only [EventPlain.step] at h
    split at h
    · cases h
    rename_i hu
    cases h
    exact userStep_plain hu
  | search ks =>
    simp only [EventPlain.step] at h
    split at h
    · cases h
    rename_i hs
    cases h
    exact congrArg Except.ok (heldSearches_world ks hs).symm
  | _ =>
    simp only [EventPlain.step] at h
    repeat' split at h
    all_goals first | (cases h; done) | (cases h; rfl)

/-- the parts of a session have the same world and fit it -/
structure Agree (H : Str → Nat) (s : Session) : Prop where
  nodeWorld : s.nodes.world = s.subs.mem.world
  configWorld : s.config.world = s.subs.mem.world
  nodes : CImg.Fits s.subs.mem.world.tree.root s.nodes.root
  config : FitsCfg H s.subs.mem.world.tree.cfg s.config.img

/-- the blocks of a session apart from those of the subscriptions -/
def Session.rest (s : Session) : List Nat := s.tree :: (s.nodes.root.blocks ++ s.config.img.blocks)

theorem sessionRun_more {H : Str → Nat} {geo : GeoTest} {R : Rounding} (os more : List EventOp) :
    ∀ {s : Session} {st wt gn : Objs} {dn L : List Nat} {t' : EventPlain} {as : List Answer},
    Agree H s → Owned s.subs.mem st wt gn dn → ObjsOk s.subs.objs → Ahead s.subs.mem wt (treeOps (userOps (os ++ more))) →
    s.subs.plain.run geo R os = .ok (t', as) →
    Does (s.run H geo R os) (Objs.flat (st ++ wt) ++ (heldBlocks s.subs.objs ++ L) ++ s.rest) (fun x M => x.1.subs.plain = t' ∧ x.2 = as ∧
      Agree H x.1 ∧ ∃ st' wt' gn' L' dn', (∀ k, k ∈ dn' ↔ k ∈ doneIn R s.subs.mem.world (treeOps (userOps os))) ∧
      M.Perm (Objs.flat (st' ++ wt') ++ (heldBlocks x.1.subs.objs ++ L') ++ x.1.rest) ∧
      Owned x.1.subs.mem st' wt' gn' (dn' ++ dn) ∧ ObjsOk x.1.subs.objs ∧ Ahead x.1.subs.mem wt' (treeOps (userOps more)) ∧
      ((setAt (os ++ more)).Nodup → Unset s.subs.objs (setAt (os ++ more)) → Unset x.1.subs.objs (setAt more) ∧
        ((∀ o' ∈ treeOps (userOps os), Clean o') → (∀ o' ∈ os, o'.MadeOnce) → (∀ a ∈ as, Answered a) → L' = L))) := by
  induction os with
  | nil =>
    intro s st wt gn dn L t' as hg hw hok ha h
    cases h
    exact Does.pure (.refl _) ⟨rfl, rfl, hg, st, wt, gn, L, [], by simp [userOps, treeOps, doneIn], .refl _, hw, hok, ha, fun _ hu => ⟨hu, fun _ _ _ => rfl⟩⟩
  | cons o os ih =>
    intro s st wt gn dn L t' as hg hw hok ha h
    simp only [EventPlain.run] at h
    cases hs : s.subs.plain.step geo R o with
    | error x => rw [hs] at h; cases h
    | ok p =>
      obtain ⟨t1, a1⟩ := p
      rw [hs] at h
      dsimp only at h
      cases hs2 : t1.run geo R os with
      | error x => rw [hs2] at h; cases h
      | ok p2 =>
        obtain ⟨t2, a2⟩ := p2
        rw [hs2] at h
        cases h
        have hpl := eventStep_plain hs
        unfold Session.run Session.step
        simp only [bind_assoc]
        refine touch_one (by simp [Session.rest]) ?_
        refine Does.seq (P := Objs.flat (st ++ wt) ++ (heldBlocks s.subs.objs ++ L)) (L' := s.rest) (.refl _)
          (eventStep_does (os := os ++ more) hw hok ha hs) ?_
        rintro ⟨m1, b1⟩ M ⟨rfl, rfl, st1, wt1, gn1, L1, dn1, hd1, _, hM, hw1, hok1, ha1, hu1, hc1⟩
        dsimp only at hw1 ha1 hs2 hs hpl hu1 hok1 ⊢
        replace hpl : s.subs.mem.world.plainStep R o.memOp = .ok m1.mem.world := hpl
        refine Does.seq (P := s.nodes.root.blocks) (L' := Objs.flat (st1 ++ wt1) ++ (heldBlocks m1.objs ++ L1) ++ s.tree :: s.config.img.blocks)
          ?_ (nodeStep_does (t := m1.mem.world) (by rw [hg.nodeWorld]; exact hg.nodes) (by rw [hg.nodeWorld]; exact hpl)) ?_
        · refine (hM.append_right _).trans ?_
          simp only [Session.rest]
          blocks
        rintro n1 N ⟨hn1, rfl, hnf⟩
        refine Does.seq (P := s.config.img.blocks) (L' := Objs.flat (st1 ++ wt1) ++ (heldBlocks m1.objs ++ L1) ++ s.tree :: n1.root.blocks)
          (by blocks) (configStep_does (H := H) (t := m1.mem.world) (by rw [hg.configWorld]; exact hg.config) (by rw [hg.configWorld]; exact hpl)) ?_
        rintro c1 N ⟨hk1, rfl, hkf⟩
        rw [pure_bind]
        have hg1 : Agree H { s with subs := m1, nodes := n1, config := c1 } := ⟨hn1, hk1, hnf, hkf⟩
        refine Does.seq (P := Objs.flat (st1 ++ wt1) ++ (heldBlocks m1.objs ++ L1) ++ Session.rest { s with subs := m1, nodes := n1, config := c1 })
          (L' := []) (by simp only [Session.rest]; blocks) (ih hg1 hw1 hok1 ha1 hs2) ?_
        rintro ⟨s2, as2⟩ M2 ⟨e, rfl, hg2, st2, wt2, gn2, L2, dn2, hd2, hM2, hw2, hok2, ha2, hc2⟩
        refine Does.pure (.refl _) ⟨e, rfl, hg2, st2, wt2, gn2, L2, dn2 ++ dn1, ?_, by simpa using hM2,
          by rw [List.append_assoc]; exact hw2, hok2, ha2, fun hn hu => ?_⟩
        · intro k
          rw [List.mem_append, hd2, hd1, Or.comm]
          exact (eventStep_done hs os k).symm
        · have hn2 : (setAt (os ++ more)).Nodup := by
            cases o <;> simp only [List.cons_append, setAt] at hn <;> try exact hn
            exact (List.nodup_cons.mp hn).2
          obtain ⟨hu2, hc2⟩ := hc2 hn2 (hu1 hn hu)
          refine ⟨hu2, fun hc hone han => ?_⟩
          have hcl1 : ∀ o' ∈ treeOps (userOps [o]), Clean o' := by
            intro o' ho'
            refine hc o' ?_
            cases o <;> simp only [userOps, treeOps, List.not_mem_nil] at ho' ⊢
            rw [treeOps_user]
            exact List.mem_append_left _ ho'
          have hcl2 : ∀ o' ∈ treeOps (userOps os), Clean o' := by
            intro o' ho'
            refine hc o' ?_
            cases o <;> simp only [userOps] <;> try exact ho'
            rw [treeOps_user]
            exact List.mem_append_right _ ho'
          rw [hc2 hcl2 (fun o' ho' => hone o' (by simp [ho'])) (fun a hx => han a (by simp [hx])),
            hc1 hu hcl1 (hone o (by simp)) (fun a hx => han a (by simp [hx]))]

theorem sessionRun_does {H : Str → Nat} {geo : GeoTest} {R : Rounding} (os : List EventOp)
    {s : Session} {st wt gn : Objs} {dn L : List Nat} {t' : EventPlain} {as : List Answer}
    (hg : Agree H s) (hw : Owned s.subs.mem st wt gn dn) (hok : ObjsOk s.subs.objs) (ha : Ahead s.subs.mem wt (treeOps (userOps os)))
    (h : s.subs.plain.run geo R os = .ok (t', as)) :
    Does (s.run H geo R os) (Objs.flat (st ++ wt) ++ (heldBlocks s.subs.objs ++ L) ++ s.rest) (fun x M => x.1.subs.plain = t' ∧ x.2 = as ∧
      Agree H x.1 ∧ ∃ st' wt' gn' L' dn', (∀ k, k ∈ dn' ↔ k ∈ doneIn R s.subs.mem.world (treeOps (userOps os))) ∧
      M.Perm (Objs.flat (st' ++ wt') ++ (heldBlocks x.1.subs.objs ++ L') ++ x.1.rest) ∧
      Owned x.1.subs.mem st' wt' gn' (dn' ++ dn) ∧
      ((setAt os).Nodup → Unset s.subs.objs (setAt os) → (∀ o' ∈ treeOps (userOps os), Clean o') → (∀ o' ∈ os, o'.MadeOnce) →
        (∀ a ∈ as, Answered a) → L' = L)) := by
  refine Does.mono (sessionRun_more os [] hg hw hok (by rw [List.append_nil]; exact ha) h) ?_
  rintro x M ⟨a1, a2, a3, st', wt', gn', L', dn', b1, b2, b3, _, _, b4⟩
  rw [List.append_nil] at b4
  exact ⟨a1, a2, a3, st', wt', gn', L', dn', b1, b2, b3, fun c1 c2 => (b4 c1 c2).2⟩

theorem eventRun_plain {geo : GeoTest} {R : Rounding} : ∀ (os : List EventOp) {w t : EventPlain} {as : List Answer},
    w.run geo R os = .ok (t, as) → w.world.plainRun R (os.map EventOp.memOp) = .ok t.world := by
  intro os
  induction os with
  | nil => intro w t as h; cases h; rfl
  | cons o os ih =>
    intro w t as h
    simp only [EventPlain.run] at h
    cases hs : w.step geo R o with
    | error x => rw [hs] at h; cases h
    | ok p =>
      obtain ⟨t1, a1⟩ := p
      rw [hs] at h
      dsimp only at h
      cases hs2 : t1.run geo R os with
      | error x => rw [hs2] at h; cases h
      | ok p2 =>
        obtain ⟨t2, a2⟩ := p2
        rw [hs2] at h
        cases h
        simp only [List.map_cons, TextWorld.plainRun, eventStep_plain hs]
        exact ih hs2

theorem sessionInit_does (H : Str → Nat) (cap min : Nat) (decls : List (Str × Decl × Bool)) :
    Does (Session.init cap min decls) [] (fun s M => s.subs = ⟨MemWorld.init (makeTree cap min decls), []⟩ ∧ Agree H s ∧
      M.Perm s.rest) := by
  unfold Session.init
  refine Does.seq (P := []) (L' := []) (.refl _) (configInit_does H cap min decls) ?_
  rintro c M ⟨g1, rfl, g2⟩
  refine Does.malloc fun t => ?_
  unfold NodeWorld.init
  simp only [bind_assoc, pure_bind]
  refine makeCNodeMem_does fun c l => Does.pure (.refl _) ⟨rfl, ⟨rfl, g1, ⟨by simp, by simp, trivial⟩, g2⟩, ?_⟩
  simp only [Session.rest]
  simp only [CImg.blocks, PImgs.blocks, dirBlocks, Option.toList]
  blocks

theorem Session.free_does {H : Str → Nat} {s : Session} {st wt gn : Objs} {dn L : List Nat} (hg : Agree H s) (hw : Owned s.subs.mem st wt gn dn)
    (hc : Filled s.subs.mem.world.tree.cfg) : Does s.free (Objs.flat (st ++ wt) ++ L ++ s.rest) (fun _ M => M.Perm (Objs.flat wt ++ L)) := by
  unfold Session.free
  refine touch_one (by simp [Session.rest]) ?_
  refine Does.seq (P := Objs.flat st) (L' := Objs.flat wt ++ L ++ s.rest) (by rw [flat_append]; blocks) hw.free ?_
  rintro _ _ rfl
  refine Does.seq (P := s.nodes.root.blocks) (L' := Objs.flat wt ++ L ++ s.tree :: s.config.img.blocks) (by simp only [Session.rest]; blocks)
    (CImg.free_does s.nodes.root) ?_
  rintro _ _ rfl
  refine Does.seq (P := s.config.img.blocks) (L' := Objs.flat wt ++ L ++ [s.tree]) (by blocks)
    (CfgImg.free_does hg.config.domArr.mp hg.config.intArr.mp hg.config.strArr.mp (hg.config.maps hc)) ?_
  rintro _ _ rfl
  rw [← bind_pure (bfree s.tree)]
  exact Does.free (L' := Objs.flat wt ++ L) (by blocks) (Does.pure (List.Perm.refl _) (List.Perm.refl _))

end BeTree
