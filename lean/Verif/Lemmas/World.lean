import Verif.Lemmas.Resolve
import Verif.Lemmas.PredMap
import Verif.Model.History
/-
What every subscription in the world carries, over whole histories.
-/
namespace BeTree
open Spec

/-- a configuration later in the same history -/
structure Later (a b : Config) : Prop where
  ext : CfgExt a b
  pm : PMExt a.predMap b.predMap
  pmok : PMOK a.predMap → PMOK b.predMap

theorem Later.refl (a : Config) : Later a a := ⟨CfgExt.refl a, PMExt.refl _, fun h => h⟩
theorem Later.trans {a b c : Config} (h : Later a b) (k : Later b c) : Later a c :=
  ⟨h.ext.trans k.ext, h.pm.trans k.pm, fun x => k.pmok (h.pmok x)⟩

theorem Grow.later {a b : Config} (h : Grow a b) : Later a b :=
  ⟨h.ext, by rw [h.base.predMap]; exact PMExt.refl _, by rw [h.base.predMap]; exact fun h => h⟩

theorem changeBoundaries_later {cfg cfg' : Config} {e : Expr} (h : changeBoundaries cfg e = .ok cfg') : Later cfg cfg' := by
  have hp : cfg'.predMap = cfg.predMap := by
    unfold changeBoundaries at h
    split at h
    · cases h
    · cases h; rfl
  exact ⟨changeBoundaries_ext h, by rw [hp]; exact PMExt.refl _, by rw [hp]; exact fun h => h⟩

theorem fillShortCircuit_congr {e : Expr} {ds ds' : List Domain}
    (h : ds'.map (fun d => (d.attr, d.bound.ty, d.allowUndefined)) = ds.map (fun d => (d.attr, d.bound.ty, d.allowUndefined)))
    (i : Nat) (p f : Bits) : fillShortCircuit e ds' i p f = fillShortCircuit e ds i p f := by
  induction ds generalizing ds' i p f with
  | nil => cases ds' with
    | nil => rfl
    | cons d ds' => simp at h
  | cons d ds ih =>
    cases ds' with
    | nil => simp at h
    | cons d' ds' =>
      simp only [List.map_cons, List.cons.injEq, Prod.mk.injEq] at h
      obtain ⟨⟨h1, _, h2⟩, h3⟩ := h
      simp only [fillShortCircuit, h1, h2, ih h3]

/-- what a subscription built for the request `q` carries -/
structure Made (cfg : Config) (q : Req) (s : Sub) : Prop where
  id : s.id = q.id
  res : ExprRel (ResPred cfg q.consts) (parseBuild q.expr) s.expr.erase
  asg : Assigned cfg.predMap.m s.expr
  vars : s.attrVars = exprVars s.expr.erase
  sc : fillShortCircuit s.expr.erase cfg.domains 0 (makeBits cfg.domains.length) (makeBits cfg.domains.length)
    = .ok (s.pass, s.fail)

theorem Made.later {a b : Config} {q : Req} {s : Sub} (h : Made a q s) (k : Later a b) : Made b q s := by
  refine ⟨h.id, h.res.mono fun p p' hp => hp.ext k.ext, h.asg.mono k.pm.nodes, h.vars, ?_⟩
  have hl : b.domains.length = a.domains.length := by simpa using congrArg List.length k.ext.doms
  rw [fillShortCircuit_congr k.ext.doms, hl]
  exact h.sc

theorem finishSub_later {cfg cfg' : Config} {id : Nat} {e : Expr} {s : Sub} (hp : PMOK cfg.predMap)
    (h : finishSub cfg id e = .ok (s, cfg')) :
    Later cfg cfg' ∧ Assigned cfg'.predMap.m s.expr ∧ s.attrVars = exprVars s.expr.erase ∧
      fillShortCircuit s.expr.erase cfg'.domains 0 (makeBits cfg'.domains.length) (makeBits cfg'.domains.length)
        = .ok (s.pass, s.fail) := by
  obtain ⟨_, f2, f3, f4, f5, f6⟩ := finishSub_fields h
  obtain ⟨a, pm', h1, _, h3, h4, h5⟩ := assignPred_ok hp e
  rw [h1] at f6
  cases f6
  exact ⟨⟨finishSub_ext h, h4, fun _ => h3⟩, h5, by rw [f2, f3], by rw [f2, f5, f4]⟩

theorem prepareInsert_later {cfg cfg' : Config} {id : Nat} {cs : List Constant} {e : Expr} {o : Option Sub}
    (hp : PMOK cfg.predMap) (h : prepareInsert cfg id cs e = .ok (o, cfg')) : Later cfg cfg' ∧ ∀ s, o = some s →
      Assigned cfg'.predMap.m s.expr ∧ s.attrVars = exprVars s.expr.erase ∧
      fillShortCircuit s.expr.erase cfg'.domains 0 (makeBits cfg'.domains.length) (makeBits cfg'.domains.length)
        = .ok (s.pass, s.fail) := by
  unfold prepareInsert at h
  dsimp only at h
  split at h
  · cases h
  · cases h; exact ⟨Later.refl _, by intro s hs; cases hs⟩
  · split at h
    · cases h; exact ⟨Later.refl _, by intro s hs; cases hs⟩
    · split at h
      · cases h
      · rename_i h1
        split at h
        · cases h
        · rename_i h2
          split at h
          · cases h
          · split at h
            · cases h
            · rename_i h3
              cases h
              have l := (assignStr_grow h1).later.trans (assignIenum_grow h2).later
              obtain ⟨k, h4⟩ := finishSub_later (l.pmok hp) h3
              refine ⟨l.trans k, ?_⟩
              intro s hs; cases hs; exact h4

theorem makeSub_later {t t' : Tree} {id : Nat} {cs : List Constant} {e : Expr} {o : Option Sub}
    (hp : PMOK t.cfg.predMap) (h : t.makeSub id cs e = .ok (o, t')) : Later t.cfg t'.cfg ∧ ∀ s, o = some s →
      Assigned t'.cfg.predMap.m s.expr ∧ s.attrVars = exprVars s.expr.erase ∧
      fillShortCircuit s.expr.erase t'.cfg.domains 0 (makeBits t'.cfg.domains.length) (makeBits t'.cfg.domains.length)
        = .ok (s.pass, s.fail) := by
  unfold Tree.makeSub at h
  dsimp only at h
  split at h
  · cases h
  · cases h; exact ⟨Later.refl _, by intro s hs; cases hs⟩
  · split at h
    · cases h
    · rename_i h1
      split at h
      · cases h
      · rename_i h2
        have h12 := (assignStr_grow h1).later.trans (assignIenum_grow h2).later
        split at h
        · cases h
        · split at h
          · cases h
          · cases h; exact ⟨h12, by intro s hs; cases hs⟩
          · split at h
            · cases h; exact ⟨h12, by intro s hs; cases hs⟩
            · split at h
              · cases h
              · rename_i h3
                split at h
                · cases h
                · rename_i h4
                  cases h
                  have l := h12.trans (changeBoundaries_later h3)
                  obtain ⟨k, h5⟩ := finishSub_later (l.pmok hp) h4
                  refine ⟨l.trans k, ?_⟩
                  intro s hs; cases hs; exact h5

theorem changeBoundaries_api_later {t t' : Tree} {e : Expr} (h : t.changeBoundaries e = .ok t') : Later t.cfg t'.cfg := by
  unfold Tree.changeBoundaries at h
  split at h
  · cases h
  · rename_i h1
    split at h
    · cases h
    · rename_i h2
      split at h
      · cases h
      · split at h
        · cases h
        · rename_i h3
          cases h
          exact ((assignStr_grow h1).later.trans (assignIenum_grow h2).later).trans (changeBoundaries_later h3)

/-- Every subscription in the world, built but not inserted or stored, belongs to a request; the stored ones are exactly
those of the accepted requests. -/
structure World.Traced (w : World) : Prop where
  pm : PMOK w.tree.cfg.predMap
  pool : ∀ p ∈ w.pool, Made w.tree.cfg p.1 p.2
  stored : (w.live.map Req.id).Nodup → ∃ ps : List (Req × Sub), ps.map Prod.fst = w.live ∧
    w.tree.root.contents.Perm (ps.map Prod.snd) ∧ ∀ p ∈ ps, Made w.tree.cfg p.1 p.2

theorem World.Traced.later {w : World} (h : w.Traced) {t : Tree} (k : Later w.tree.cfg t.cfg)
    (hr : t.root = w.tree.root) : World.Traced { w with tree := t } := by
  refine ⟨k.pmok h.pm, fun p hp => (h.pool p hp).later k, fun hnd => ?_⟩
  obtain ⟨ps, h1, h2, h3⟩ := h.stored hnd
  exact ⟨ps, h1, by rw [hr]; exact h2, fun p hp => (h3 p hp).later k⟩

theorem World.Traced.add {R : Rounding} {w : World} (h : w.Traced) {cfg : Config} (k : Later w.tree.cfg cfg) {q : Req} {s : Sub}
    (hm : Made cfg q s) {root' : CNode} (hins : w.tree.root.insert R cfg s = .ok root') :
    World.Traced { w with tree := { cfg := cfg, root := root' }, live := q :: w.live } := by
  refine ⟨k.pmok h.pm, fun p hp => (h.pool p hp).later k, fun hnd => ?_⟩
  simp only [List.map_cons, List.nodup_cons] at hnd
  obtain ⟨ps, h1, h2, h3⟩ := h.stored hnd.2
  have hids : w.tree.root.contents.map Sub.id |>.Perm (w.live.map Req.id) := by
    rw [← h1, List.map_map]
    refine (h2.map Sub.id).trans ?_
    rw [List.map_map]
    apply List.Perm.of_eq
    exact List.map_congr_left fun p hp => (h3 p hp).id
  have hnd2 : ((s :: w.tree.root.contents).map Sub.id).Nodup := by
    rw [List.map_cons, List.nodup_cons, hm.id]
    exact ⟨fun hm => hnd.1 (hids.mem_iff.1 hm), hids.nodup_iff.2 hnd.2⟩
  refine ⟨(q, s) :: ps, by simp [h1], ?_, ?_⟩
  · exact (CNode.insert_contents hnd2 hins).trans (by simpa using h2.cons s)
  · intro p hp
    rcases List.mem_cons.1 hp with rfl | hp
    · exact hm
    · exact (h3 p hp).later k

theorem step_traced {R : Rounding} {w w' : World} {o : Op} (hw : w.Traced) (h : w.step R o = .ok w') :
    w'.Traced ∧ Later w.tree.cfg w'.tree.cfg := by
  cases o with
  | insert q =>
    simp only [World.step, Tree.insert] at h
    cases hprep : prepareInsert w.tree.cfg q.id q.consts (parseBuild q.expr) with
    | error x => simp only [hprep] at h; cases h
    | ok r =>
      obtain ⟨o, cfg⟩ := r
      obtain ⟨k, hs⟩ := prepareInsert_later hw.pm hprep
      cases o with
      | none =>
        simp only [hprep] at h
        cases h
        exact ⟨hw.later (t := { cfg := cfg, root := w.tree.root }) k rfl, k⟩
      | some s =>
        simp only [hprep] at h
        obtain ⟨s1, s2, s3⟩ := hs s rfl
        obtain ⟨r1, r2⟩ := prepareInsert_res hprep
        cases hins : w.tree.root.insert R cfg s with
        | error x => simp only [hins] at h; cases h
        | ok root' =>
          simp only [hins] at h
          cases h
          exact ⟨hw.add k ⟨r1, r2, s1, s2, s3⟩ hins, k⟩
  | makeSub q =>
    simp only [World.step] at h
    cases hm : w.tree.makeSub q.id q.consts (parseBuild q.expr) with
    | error x => simp only [hm] at h; cases h
    | ok r =>
      obtain ⟨o, t⟩ := r
      obtain ⟨k, hs⟩ := makeSub_later hw.pm hm
      have hw' := hw.later k (makeSub_api_root hm)
      cases o with
      | none =>
        simp only [hm] at h
        cases h
        exact ⟨hw', k⟩
      | some s =>
        simp only [hm] at h
        cases h
        obtain ⟨s1, s2, s3⟩ := hs s rfl
        obtain ⟨r1, r2⟩ := makeSub_res hm
        refine ⟨⟨hw'.pm, ?_, hw'.stored⟩, k⟩
        intro p hp
        rcases List.mem_append.1 hp with hp | hp
        · exact hw'.pool p hp
        · simp only [List.mem_singleton] at hp
          subst hp
          exact ⟨r1, r2, s1, s2, s3⟩
  | insertSub i =>
    simp only [World.step, Tree.insertSub] at h
    cases hk : w.pool[i]? with
    | none => simp only [hk] at h; cases h; exact ⟨hw, Later.refl _⟩
    | some p =>
      obtain ⟨q, s⟩ := p
      simp only [hk] at h
      cases hins : w.tree.root.insert R w.tree.cfg s with
      | error x => simp only [hins] at h; cases h
      | ok root' =>
        simp only [hins] at h
        cases h
        exact ⟨hw.add (Later.refl _) (hw.pool (q, s) (List.mem_of_getElem? hk)) hins, Later.refl _⟩
  | changeBoundaries e =>
    simp only [World.step] at h
    cases hc : w.tree.changeBoundaries (parseBuild e) with
    | error x => simp only [hc] at h; cases h
    | ok t =>
      simp only [hc] at h
      cases h
      have k := changeBoundaries_api_later hc
      exact ⟨hw.later k (changeBoundaries_root hc), k⟩

theorem run_traced {R : Rounding} {ops : List Op} : ∀ {w w' : World}, w.Traced → w.run R ops = .ok w' →
    w'.Traced ∧ Later w.tree.cfg w'.tree.cfg := by
  induction ops with
  | nil => intro w w' hw h; cases h; exact ⟨hw, Later.refl _⟩
  | cons o os ih =>
    intro w w' hw h
    simp only [World.run] at h
    split at h
    · cases h
    · rename_i w1 h1
      obtain ⟨h2, h3⟩ := step_traced hw h1
      obtain ⟨h4, h5⟩ := ih h2 h
      exact ⟨h4, h3.trans h5⟩

theorem makeTree_predMap (cap min : Nat) (decls : List (Str × Decl × Bool)) :
    (makeTree cap min decls).cfg.predMap = PredMap.empty := by
  suffices H : ∀ cfg : Config, cfg.predMap = PredMap.empty →
      (decls.foldl (fun cfg d => declare cfg d.1 d.2.1 d.2.2) cfg).predMap = PredMap.empty from H _ rfl
  induction decls with
  | nil => intro cfg h; exact h
  | cons d ds ih => intro cfg h; exact ih _ h

theorem init_traced (cap min : Nat) (decls : List (Str × Decl × Bool)) : (World.init (makeTree cap min decls)).Traced := by
  refine ⟨?_, by simp [World.init], fun _ => ⟨[], rfl, ?_, by simp⟩⟩
  · show PMOK (makeTree cap min decls).cfg.predMap
    rw [makeTree_predMap]; exact PMOK.empty
  · simp [World.init, makeTree, emptyCNode, CNode.contents, PNodes.contents]

end BeTree
