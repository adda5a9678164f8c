import Verif.Lemmas.Mention
import Verif.Props.Bounds
import Verif.Props.Event
/-
C21: `betree_change_boundaries` and `betree_make_sub` never shrink a domain with limits, and cover the expression's constants.
-/
namespace BeTree
open Spec

/-! ### positions of the domains -/

theorem declare_doms (decls : List (Str × Decl × Bool)) : ∀ (cfg : Config),
    (∀ (v : Nat) (d : Domain), cfg.domains[v]? = some d → d.attr.var = v) →
    (∀ (v : Nat) (d : Domain), (decls.foldl (fun cfg d => declare cfg d.1 d.2.1 d.2.2) cfg).domains[v]? = some d → d.attr.var = v) ∧
    (decls.foldl (fun cfg d => declare cfg d.1 d.2.1 d.2.2) cfg).domains.map (fun d => d.attr.attr) =
      cfg.domains.map (fun d => d.attr.attr) ++ decls.map Prod.fst := by
  induction decls with
  | nil => intro cfg h; exact ⟨h, by simp⟩
  | cons x xs ih =>
    intro cfg h
    obtain ⟨h1, h2⟩ := ih (declare cfg x.1 x.2.1 x.2.2) (by
      intro v d hd
      simp only [declare, addDomain] at hd
      rw [List.getElem?_append] at hd
      split at hd
      · exact h v d hd
      · have h0 : v - cfg.domains.length = 0 := by
          have := (List.getElem?_eq_some_iff.1 hd).1
          simp at this; omega
        rw [h0] at hd
        simp only [List.getElem?_cons_zero, Option.some.injEq] at hd
        subst hd
        dsimp only; omega)
    refine ⟨h1, ?_⟩
    rw [List.foldl_cons, h2]
    simp [declare, addDomain]

theorem makeTree_doms (cap min : Nat) (decls : List (Str × Decl × Bool)) :
    (∀ (v : Nat) (d : Domain), (makeTree cap min decls).cfg.domains[v]? = some d → d.attr.var = v) ∧
    (makeTree cap min decls).cfg.domains.map (fun d => d.attr.attr) = decls.map Prod.fst := by
  obtain ⟨h1, h2⟩ := declare_doms decls (makeConfig cap min) (by intro v d hd; simp [makeConfig] at hd)
  refine ⟨h1, ?_⟩
  simp only [makeTree]
  rw [h2]
  simp [makeConfig]

theorem ext_doms {a b : Config} (h : CfgExt a b) (ha : ∀ (v : Nat) (d : Domain), a.domains[v]? = some d → d.attr.var = v) :
    (∀ (v : Nat) (d : Domain), b.domains[v]? = some d → d.attr.var = v) ∧
    b.domains.map (fun d => d.attr.attr) = a.domains.map (fun d => d.attr.attr) := by
  refine ⟨?_, ?_⟩
  · intro v d hd
    have h1 := congrArg (fun l => l[v]?) h.doms
    simp only [List.getElem?_map, hd, Option.map_some] at h1
    cases h2 : a.domains[v]? with
    | none => rw [h2] at h1; simp at h1
    | some d' =>
      rw [h2] at h1
      simp only [Option.map_some, Option.some.injEq, Prod.mk.injEq] at h1
      rw [h1.1]
      exact ha v d' h2
  · have := congrArg (List.map (fun x : AttrVar × VType × Bool => x.1.attr)) h.doms
    simpa [List.map_map, Function.comp_def] using this

theorem changeDomains_get {cfg : Config} {e : Expr} : ∀ {ds ds' : List Domain}, changeDomains cfg e ds = .ok ds' →
    ∀ {v : Nat} {d' : Domain}, ds'[v]? = some d' → ∃ d, ds[v]? = some d ∧ changeDomain cfg e d = .ok d' := by
  intro ds
  induction ds with
  | nil => intro ds' h v d' hd; cases h; simp at hd
  | cons x xs ih =>
    intro ds' h v d' hd
    rw [changeDomains] at h
    split at h
    · cases h
    · rename_i d1 h1
      split at h
      · cases h
      · rename_i ds1 h2
        cases h
        cases v with
        | zero =>
          simp only [List.getElem?_cons_zero, Option.some.injEq] at hd
          subst hd
          exact ⟨x, rfl, h1⟩
        | succ v => exact ih h2 hd

theorem changeBoundaries_room {cfg cfg' : Config} {e0 e1 : Expr} (ht : TablesOK cfg) (hs : Small cfg)
    (hvars : ∀ (v : Nat) (d : Domain), cfg.domains[v]? = some d → d.attr.var = v)
    (hnames : (cfg.domains.map (fun d => d.attr.attr)).Nodup) (hr : ExprRel (EdgeRel cfg) e0 e1)
    (h : changeBoundaries cfg (sortLists e1) = .ok cfg') {v : Nat} {d : Domain} (hd : cfg'.domains[v]? = some d) {m : Mention}
    (hm : m ∈ mentions d.attr.attr false e0) : Room (strTable cfg' v) (intTable cfg' v) d.bound m := by
  unfold changeBoundaries at h
  split at h
  · cases h
  · rename_i ds hds
    cases h
    obtain ⟨d0, h0, h1⟩ := changeDomains_get hds hd
    have hst := changeDomain_static h1
    have hv := hvars v d0 h0
    have hname : ∀ a, lowerKey a = d.attr.attr → tryGetIdForAttr cfg a = v := by
      intro a ha
      unfold tryGetIdForAttr
      rw [ha, hst.1, findAttr_of_nodup hnames h0]; omega
    obtain ⟨s, hs1, hs2⟩ := edges_rel hr h0 hname false m hm
    have hs3 := (edges_sortLists v e1 false s).2 hs1
    unfold changeDomain at h1
    have triv : ∀ {strs ints}, (d.bound.ty = .bool ∨ d.bound.ty = .segments ∨ d.bound.ty = .freq) → Room strs ints d.bound m := by
      intro strs ints hty
      unfold Room
      rcases hty with h | h | h <;> rw [h] <;> cases m <;> trivial
    split at h1
    · rename_i hty; cases h1; exact triv (Or.inl hty)
    · rename_i hty; cases h1; exact triv (Or.inr (Or.inl hty))
    · rename_i hty; cases h1; exact triv (Or.inr (Or.inr hty))
    · split at h1
      · cases h1
      · rename_i hb
        rw [hv] at hb
        obtain ⟨b, hb1, _⟩ := simpleBound_has (sortLists_sorted e1) hb s hs3
        cases hb1
      · rename_i b hb
        rw [hv] at hb
        obtain ⟨b', hb1, hb2⟩ := simpleBound_has (sortLists_sorted e1) hb s hs3
        cases hb1
        have := widenDomain_room ht hs (simpleBound_uniform hb) h1 hb2 (by rw [hv]; exact hs2)
        rw [hv] at this
        exact this

/-- C21, `betree_change_boundaries`: after any history, a call that returns leaves every domain with room for every constant the
expression, as written, compares its attribute with. -/
theorem C21_change_boundaries_covers (R : Rounding) (cap min : Nat) (decls : List (Str × Decl × Bool)) (ops : List Op)
    (w w' : World) (h : (World.init (makeTree cap min decls)).run R ops = .ok w) (e : Expr)
    (hstep : w.step R (.changeBoundaries e) = .ok w') (hnames : (decls.map Prod.fst).Nodup) (hsmall : Small w'.tree.cfg)
    (v : Nat) (d : Domain) (hd : w'.tree.cfg.domains[v]? = some d) (m : Mention) (hm : m ∈ mentions d.attr.attr false e) :
    Room (strTable w'.tree.cfg v) (intTable w'.tree.cfg v) d.bound m := by
  simp only [World.step] at hstep
  split at hstep
  · cases hstep
  · rename_i t ht
    cases hstep
    dsimp only at hsmall hd ⊢
    unfold Tree.changeBoundaries at ht
    split at ht
    · cases ht
    · rename_i e1 c1 h1
      split at ht
      · cases ht
      · rename_i e2 c2 h2
        split at ht
        · cases ht
        · rename_i e3 h3
          split at ht
          · cases ht
          · rename_i c4 h4
            cases ht
            dsimp only at hsmall hd ⊢
            obtain ⟨e4, h5, rfl⟩ := fix_sort_comm h3
            have x2 := (assignIenum_grow h2).ext
            have x1 := (assignStr_grow h1).ext.trans x2
            have xw := (run_ext h).trans x1
            obtain ⟨m1, m2⟩ := makeTree_doms cap min decls
            obtain ⟨m3, m4⟩ := ext_doms xw m1
            refine changeBoundaries_room (xw.ok (makeTree_tablesOK cap min decls)) (Small.of_ext (changeBoundaries_ext h4) hsmall)
              m3 (by rw [m4]; exact m2 ▸ hnames) ?_ h4 hd ((mentions_parse _ _ _ _).2 hm)
            refine ((((assignVar_rel w.tree.cfg (parseBuild e)).comp (assignStr_rel h1 x2)).comp
              (assignIenum_rel h2 (CfgExt.refl _))).comp (fixFloat_rel h5 (CfgExt.refl _))).mono ?_
            rintro p p' ⟨q4, ⟨q3, ⟨q2, rfl, r2⟩, r3⟩, r4⟩
            exact edge_leaf x1 r2 r3 r4

theorem finishSub_cfg {cfg cfg' : Config} {id : Nat} {e : Expr} {s : Sub} (h : finishSub cfg id e = .ok (s, cfg')) :
    ∃ pm, cfg' = { cfg with predMap := pm } := by
  unfold finishSub at h
  split at h
  · cases h
  · dsimp only at h
    split at h
    · cases h
    · cases h; exact ⟨_, rfl⟩

/-- C21, `betree_make_sub`: the same for a call that returns a subscription. -/
theorem C21_make_sub_covers (R : Rounding) (cap min : Nat) (decls : List (Str × Decl × Bool)) (ops : List Op)
    (w w' : World) (h : (World.init (makeTree cap min decls)).run R ops = .ok w) (q : Req)
    (hstep : w.step R (.makeSub q) = .ok w') (hmade : w'.pool ≠ w.pool) (hnames : (decls.map Prod.fst).Nodup)
    (hsmall : Small w'.tree.cfg) (v : Nat) (d : Domain) (hd : w'.tree.cfg.domains[v]? = some d) (m : Mention)
    (hm : m ∈ mentions d.attr.attr false q.expr) :
    Room (strTable w'.tree.cfg v) (intTable w'.tree.cfg v) d.bound m := by
  simp only [World.step] at hstep
  split at hstep
  · cases hstep
  · rename_i s t ht
    cases hstep
    dsimp only at hsmall hd ⊢
    unfold Tree.makeSub at ht
    dsimp only at ht
    split at ht
    · cases ht
    · cases ht
    · split at ht
      · cases ht
      · rename_i e1 c1 h1
        split at ht
        · cases ht
        · rename_i e2 c2 h2
          split at ht
          · cases ht
          · rename_i e3 h3
            split at ht
            · cases ht
            · cases ht
            · split at ht
              · cases ht
              · rename_i e4 h4
                split at ht
                · cases ht
                · rename_i c5 h5
                  split at ht
                  · cases ht
                  · rename_i sub c6 h6
                    cases ht
                    dsimp only at hsmall hd ⊢
                    obtain ⟨pm, rfl⟩ := finishSub_cfg h6
                    have x2 := (assignIenum_grow h2).ext
                    have x1 := (assignStr_grow h1).ext.trans x2
                    have xw := (run_ext h).trans x1
                    obtain ⟨m1, m2⟩ := makeTree_doms cap min decls
                    obtain ⟨m3, m4⟩ := ext_doms xw m1
                    have hsm : Small c5 := Small.of_ext (finishSub_ext h6) hsmall
                    refine changeBoundaries_room (xw.ok (makeTree_tablesOK cap min decls)) (Small.of_ext (changeBoundaries_ext h5) hsm)
                      m3 (by rw [m4]; exact m2 ▸ hnames) ?_ h5 hd ((mentions_parse _ _ _ _).2 hm)
                    refine (((((assignVar_rel w.tree.cfg (parseBuild q.expr)).comp (assignStr_rel h1 x2)).comp
                      (assignIenum_rel h2 (CfgExt.refl _))).comp (fixFloat_rel h3 (CfgExt.refl _))).comp (assignConstants_rel h4)).mono ?_
                    rintro p p' ⟨q5, ⟨q4, ⟨q3, ⟨q2, rfl, r2⟩, r3⟩, r4⟩, r5⟩
                    intro n inv m hm var d hd hvar
                    rw [predEdges_constants var r5]
                    exact edge_leaf x1 r2 r3 r4 n inv m hm var d hd hvar
  · cases hstep; exact absurd rfl hmade

/-- C21 (partial): whatever calls are made, a domain with limits never loses a value: it keeps its limits, and its interval
contains the interval it had.  Partial: for declarations with `min ≤ max` and calls whose numbers are not at the very ends of
their type; `C21_extreme_boundary_shrinks` shows that the code does shrink a domain otherwise. -/
theorem C21_never_shrinks_partial [Floats] (R : Rounding) (cap min : Nat) (decls : List (Str × Decl × Bool)) (ops ops' : List Op)
    (w w' : World) (h : (World.init (makeTree cap min decls)).run R ops = .ok w) (h' : w.run R ops' = .ok w')
    (hdecls : ∀ d ∈ decls, ProperDecl d.1 d.2.1) (hops : ∀ o ∈ ops ++ ops', ModerateOp o) (hsmall : Small w'.tree.cfg)
    (v : Nat) (d : Domain) (hd : w.tree.cfg.domains[v]? = some d) (hl : Limited d.bound) :
    ∃ d', w'.tree.cfg.domains[v]? = some d' ∧ d'.attr = d.attr ∧ d'.bound.ty = d.bound.ty ∧ Limited d'.bound ∧
      d'.bound.lo.le d.bound.lo = true ∧ d.bound.hi.le d'.bound.hi = true := by
  have hs1 : Small w.tree.cfg := Small.of_ext (run_ext h') hsmall
  obtain ⟨hp, _⟩ := run_prune (makeTree_cfgOK (cap := cap) (min := min) hdecls) (makeTree_tablesOK cap min decls) hs1
    (fun o ho => hops o (List.mem_append_left _ ho)) h
  obtain ⟨_, hw⟩ := run_prune hp (run_tablesOK h) hsmall (fun o ho => hops o (List.mem_append_right _ ho)) h'
  obtain ⟨d', h1, h2⟩ := hw v d hd
  obtain ⟨h3, h4, h5⟩ := h2.lim (hp.cfg.doms v d hd).ok hl
  exact ⟨d', h1, h2.attr, h2.ty, h3, h4, h5⟩

/-- the domains after a history -/
def historyDomains (decls : List (Str × Decl × Bool)) (ops : List Op) : Option (List (Scalar × Scalar)) :=
  match (World.init (makeTree 1 0 decls)).run exactRounding ops with
  | .error _ => none
  | .ok w => some (w.tree.cfg.domains.map fun d => (d.bound.lo, d.bound.hi))

/-- `betree_change_boundaries(i <= INT64_MAX)` makes the domain count as unlimited, and the next call shrinks it -/
theorem C21_extreme_boundary_shrinks :
    historyDomains [("i".toList, .int 0 10, false)] [] = some [(.i 0, .i 10)] ∧
    historyDomains [("i".toList, .int 0 10, false)] [.changeBoundaries (exI .le int64Max), .changeBoundaries (exI .lt 5)] =
      some [(.i 0, .i 4)] := by decide +kernel

/-- Read literally, "the domain contains the constant" is false of `<` and `>`: after `i < 100` the domain ends at 99. -/
theorem C21_constant_outside :
    historyDomains [("i".toList, .int 0 10, false)] [.changeBoundaries (exI .lt 100)] = some [(.i 0, .i 99)] := by decide +kernel

/-! ### a concrete case -/

/-- several attributes, connectives and negations at once -/
def wideExpr : Expr :=
  .and (.or (.not (exI .lt 40)) (exI .lt (-7))) (.and (.leaf (.set .isIn (.var ⟨"s".toList, 0⟩) (.strList [⟨"x".toList, 0, 0⟩, ⟨"y".toList, 0, 0⟩])))
    (.leaf (.compare .gt ⟨"f".toList, 0⟩ (.int 9))))

def wideDecls : List (Str × Decl × Bool) :=
  [("i".toList, .int 0 10, false), ("s".toList, .string 1, true), ("f".toList, .float 0 8, true)]

example : historyDomains wideDecls [.changeBoundaries wideExpr] =
    some [(.i (-8), .i 40), (.s 0, .s 1), (.f 0, .f 9)] := by decide +kernel

example : (mentions "i".toList false wideExpr).length = 2 ∧ (mentions "s".toList false wideExpr).length = 2 ∧
    (mentions "f".toList false wideExpr).length = 1 := by decide +kernel

/-- for the examples: the limits are binary fractions with few digits -/
local instance boundariesFloats : Floats := coarseFloats fun _ => True

example : (wideDecls.map Prod.fst).Nodup ∧ (∀ d ∈ wideDecls, ProperDecl d.1 d.2.1) := by
  refine ⟨by decide, ?_⟩
  intro d hd
  simp only [wideDecls, List.mem_cons, List.not_mem_nil, or_false] at hd
  rcases hd with rfl | rfl | rfl <;> first
    | exact proper_float trivial (by decide +kernel) (.inr (by decide +kernel)) (.inr (by decide +kernel))
    | simp [ProperDecl]

example : ModerateOp (.changeBoundaries wideExpr) := by
  simp [ModerateOp, MayWiden, wideExpr, Moderate, exI, ModInt, int64Min, int64Max]
  exact fit_of_check (by decide +kernel)

end BeTree
