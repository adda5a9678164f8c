import Verif.Lemmas.TypedPred
import Verif.Props.Search
/-
C28: `betree_make_sub` answers.
-/
namespace BeTree
open Spec

theorem usable_all {ds : List Domain} {e : Expr} (h : Usable ds e) : e.All GoodForm ∧ e.All (GeoKnown ds) ∧ e.All FullList := by
  induction e with
  | leaf p =>
    replace h : UsablePred ds p := h
    show GoodForm p ∧ GeoKnown ds p ∧ FullList p
    cases p with
    | set op l r => cases l <;> cases r <;> first | exact h.elim | exact ⟨trivial, trivial, h⟩
    | list op v c => cases c <;> exact ⟨trivial, trivial, h⟩
    | geo g => exact ⟨trivial, h, trivial⟩
    | _ => exact ⟨trivial, trivial, trivial⟩
  | not e ih => exact ih h
  | and l r ihl ihr | or l r ihl ihr =>
    exact ⟨⟨(ihl h.1).1, (ihr h.2).1⟩, ⟨(ihl h.1).2.1, (ihr h.2).2.1⟩, ⟨(ihl h.1).2.2, (ihr h.2).2.2⟩⟩

theorem makeSub_total [Floats] {t : Tree} {id : Nat} {cs : List Constant} {e : Expr} (hlen : t.cfg.domains.length < invalidId)
    (hc : CfgOK t.cfg) (hp : PMOK t.cfg.predMap) (hu : e.All GoodForm ∧ e.All (GeoKnown t.cfg.domains) ∧ e.All FullList)
    (hm : Moderate e) : ∃ r, t.makeSub id cs e = .ok r := by
  obtain ⟨hg, hk, hf⟩ := hu
  unfold Tree.makeSub
  dsimp only
  obtain ⟨b, h0⟩ := varsInConfig_total (cfg := t.cfg) hg
  rw [h0]
  cases b with
  | false => exact ⟨_, rfl⟩
  | true =>
    have w0 := varsInConfig_wf hlen hg hk h0
    have f0 := assignVar_all (Q := FullList) (cfg := t.cfg) (fun p => assignVarPred_full) hf
    obtain ⟨⟨e1, c1⟩, h1⟩ := assignStr_total (al := true) hc w0 (Expr.All.mono (fun _ _ _ _ => .inl rfl) w0)
    have g1 := assignStr_grow h1
    have w1 : e1.All (WfPred t.cfg.domains) :=
      assignStr_all (fun a b p p' _ _ h hw => assignStrPred_wf h hw) g1.base.domains.symm (Grow.refl _) h1 w0
    have f1 : e1.All FullList :=
      assignStr_all (fun a b p p' _ _ h hw => assignStrPred_full h hw) g1.base.domains.symm (Grow.refl _) h1 f0
    have k1 := assignStr_inv CfgOK getIdForString_cfgOK hc h1
    obtain ⟨⟨e2, c2⟩, h2⟩ := assignIenum_total (al := true) (e := e1) k1 (by rw [g1.base.domains]; exact w1)
    have g2 := assignIenum_grow h2
    have w2 : e2.All (WfPred t.cfg.domains) :=
      assignIenum_all (fun a b p p' _ _ h hw => assignIenumPred_wf h hw) g2.base.domains.symm (Grow.refl _) h2 w1
    have f2 : e2.All FullList :=
      assignIenum_all (fun a b p p' _ _ h hw => assignIenumPred_full h hw) g2.base.domains.symm (Grow.refl _) h2 f1
    have k2 := assignIenum_inv CfgOK getIdForIenum_cfgOK k1 h2
    have d2 : c2.domains = t.cfg.domains := g2.base.domains.trans g1.base.domains
    obtain ⟨e3, h3⟩ := fixFloat_total (cfg := c2) (e := e2) (by rw [d2]; exact w2)
    have w3 : e3.All (WfPred c2.domains) := by
      rw [d2]; exact fixFloat_all (fun p p' h hw => fixFloatPred_wf h hw) h3 w2
    have f3 : e3.All FullList := fixFloat_all (fun p p' h hw => fixFloatPred_full h hw) h3 f2
    have m3 := (moderate_fixFloat (moderate_assignIenum (moderate_assignStr (moderate_assignVar (cfg := t.cfg) hm) h1) h2) h3).1
    simp only [h1, h2, h3]
    obtain ⟨b, h4⟩ := exprsValid_total w3
    rw [h4]
    cases b with
    | false => exact ⟨_, rfl⟩
    | true =>
      have t3 := exprsValid_typed w3 h4
      cases h5 : assignConstants cs e3 with
      | none => exact ⟨_, rfl⟩
      | some e5 =>
        have t5 : (sortLists e5).All (TypedPred c2) :=
          sortLists_all (fun p hp => sortListsPred_typed hp)
            (assignConstants_all (fun p p' h hw => assignConstantsPred_typed h hw) h5 t3)
        have f5 : (sortLists e5).All FullList :=
          sortLists_all (fun p hp => sortListsPred_full hp)
            (assignConstants_all (fun p p' h hw => assignConstantsPred_full h hw) h5 f3)
        obtain ⟨c6, h6⟩ := changeBoundaries_total k2 t5 f5 (moderate_sortLists (moderate_assignConstants m3 h5))
        have hpm : c6.predMap = t.cfg.predMap := by
          have : c6.predMap = c2.predMap := by
            unfold BeTree.changeBoundaries at h6
            split at h6
            · cases h6
            · cases h6; rfl
          rw [this, g2.base.predMap, g1.base.predMap]
        obtain ⟨s, c7, h7⟩ := finishSub_total (cfg := c6) (id := id) (e := sortLists e5) (by rw [hpm]; exact hp)
          (Expr.All.mono (fun p h => ((TypedPred.ext (changeBoundaries_ext h6) h).wf)) t5)
        simp only [h6, h7]
        exact ⟨_, rfl⟩

theorem usable_parse {ds : List Domain} {e : Expr} (h : Usable ds e) :
    (parseBuild e).All GoodForm ∧ (parseBuild e).All (GeoKnown ds) ∧ (parseBuild e).All FullList :=
  ⟨all_parse (usable_all h).1, all_parse (usable_all h).2.1, all_parse (usable_all h).2.2⟩

/-- C28: after any history, `betree_make_sub` answers: it does not abort or go astray, whatever the names and types. -/
theorem C28_make_sub_returns [Floats] (R : Rounding) (cap min : Nat) (decls : List (Str × Decl × Bool)) (ops : List Op) (w : World)
    (h : (World.init (makeTree cap min decls)).run R ops = .ok w) (hd : ∀ d ∈ decls, ProperDecl d.1 d.2.1)
    (ho : ∀ o ∈ ops, ModerateOp o) (hs : Small w.tree.cfg) (hlen : w.tree.cfg.domains.length < invalidId)
    (id : Nat) (cs : List Constant) (e : Expr) (hu : Usable w.tree.cfg.domains e) (hm : Moderate e) :
    ∃ r t', w.tree.makeSub id cs (parseBuild e) = .ok (r, t') := by
  have hp := (run_prune (makeTree_cfgOK hd) (makeTree_tablesOK cap min decls) hs ho h).1
  have ht := (run_traced (init_traced cap min decls) h).1
  obtain ⟨⟨r, t'⟩, hr⟩ := makeSub_total (t := w.tree) (id := id) (cs := cs) (e := parseBuild e) hlen hp.cfg ht.pm (usable_parse hu)
    (moderate_parse hm)
  exact ⟨r, t', hr⟩


/-! ### The hypotheses are met, and each is needed -/

/-- `i > 7 and il one of (3, 4)`, `s in ("x", "y")` over the ten-call history of C01 -/
def usableExpr : Expr :=
  .or (.and (exI .gt 7) (.leaf (.list .oneOf ⟨"il".toList, 0⟩ (.intList [3, 4]))))
    (.leaf (.set .isIn (.var ⟨"s".toList, 0⟩) (.strList [⟨"x".toList, 0, 0⟩, ⟨"y".toList, 0, 0⟩])))

example : Usable searchWorld.tree.cfg.domains usableExpr := by
  simp [usableExpr, Usable, UsablePred, exI]

example : Moderate usableExpr := by
  simp [usableExpr, Moderate, exI, ModInt, int64Min, int64Max]

example : searchWorld.tree.cfg.domains.length < invalidId := by decide +kernel

/-- accepted -/
example : (searchWorld.tree.makeSub 9 [] (parseBuild usableExpr)).toOption.map (fun r => r.1.isSome) = some true := by
  decide +kernel

/-- unknown attribute: refused -/
example : (searchWorld.tree.makeSub 9 [] (parseBuild (.and (exI .gt 7) (.leaf (.boolVar ⟨"zz".toList, 0⟩))))).toOption.map
    (fun r => r.1.isSome) = some false := by
  decide +kernel

/-- wrong type: refused -/
example : (searchWorld.tree.makeSub 9 [] (parseBuild (.leaf (.boolVar ⟨"i".toList, 0⟩)))).toOption.map
    (fun r => r.1.isSome) = some false := by
  decide +kernel

/-- The code's exceptions to C28: an `in` without an attribute (`1 in (1, 2)`, which parser.y accepts) stops the process. -/
theorem C28_in_without_attribute_aborts :
    searchWorld.tree.makeSub 9 [] (parseBuild (.leaf (.set .isIn (.int 1) (.intList [1, 2])))) = .error .abort := by
  have h : (match searchWorld.tree.makeSub 9 [] (parseBuild (.leaf (.set .isIn (.int 1) (.intList [1, 2])))) with
    | .error .abort => true | _ => false) = true := by decide +kernel
  split at h <;> simp_all

/-- Geo functions in a tree that declares neither `latitude` nor `longitude`: a read outside the domain table. -/
theorem C28_undeclared_position_faults :
    searchWorld.tree.makeSub 9 [] (parseBuild (.leaf (.geo ⟨true, 1, 2, 3, ⟨"latitude".toList, 0⟩, ⟨"longitude".toList, 0⟩⟩))) =
      .error .ub := by
  have h : (match searchWorld.tree.makeSub 9 [] (parseBuild (.leaf (.geo ⟨true, 1, 2, 3, ⟨"latitude".toList, 0⟩, ⟨"longitude".toList, 0⟩⟩))) with
    | .error .ub => true | _ => false) = true := by decide +kernel
  split at h <;> simp_all

/-- `i > 9223372036854775807` computes `INT64_MAX + 1`. -/
theorem C28_extreme_constant_overflows :
    searchWorld.tree.makeSub 9 [] (parseBuild (exI .gt int64Max)) = .error .ub := by
  have h : (match searchWorld.tree.makeSub 9 [] (parseBuild (exI .gt int64Max)) with
    | .error .ub => true | _ => false) = true := by decide +kernel
  split at h <;> simp_all

end BeTree
