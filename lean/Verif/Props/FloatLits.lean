import Verif.Spec.FloatLits
import Verif.Props.Search
/-
C32: integer literals on float attributes.
-/
namespace BeTree
open Spec

theorem findAttr_find (key : Str) : ∀ (ds : List Domain) (i : Nat) (d : Domain),
    ds.find? (fun d => d.attr.attr = key) = some d → ∃ j, findAttr key ds i = i + j ∧ ds[j]? = some d := by
  intro ds
  induction ds with
  | nil => intro i d h; cases h
  | cons a ds ih =>
    intro i d h
    unfold findAttr
    by_cases ha : a.attr.attr = key
    · rw [List.find?_cons_of_pos (by simpa using ha)] at h
      cases h
      exact ⟨0, by simp [ha], rfl⟩
    · rw [List.find?_cons_of_neg (by simpa using ha)] at h
      obtain ⟨j, h1, h2⟩ := ih (i + 1) d h
      exact ⟨j + 1, by rw [if_neg ha, h1]; omega, by simpa using h2⟩

/-- the declared type is that of the domain found for the name -/
theorem declaredType_domain {cfg : Config} {name : Str} {ty : VType} (h : declaredType cfg.domains name = some ty) :
    ∃ d, getDomain cfg (tryGetIdForAttr cfg name) = .ok d ∧ d.bound.ty = ty := by
  unfold declaredType at h
  obtain ⟨d, hd, rfl⟩ := Option.map_eq_some_iff.1 h
  obtain ⟨j, h1, h2⟩ := findAttr_find _ _ 0 d hd
  refine ⟨d, ?_, rfl⟩
  unfold getDomain tryGetIdForAttr
  have : findAttr (lowerKey name) cfg.domains 0 = j := by
    rw [show lowerKey name = name.map Char.toLower from rfl, h1]; omega
  rw [this, h2]

theorem domain_declaredType {cfg : Config} {name : Str} {d : Domain}
    (hlen : cfg.domains.length < invalidId)
    (h : getDomain cfg (tryGetIdForAttr cfg name) = .ok d) : declaredType cfg.domains name = some d.bound.ty := by
  unfold declaredType
  cases hf : cfg.domains.find? (fun d => d.attr.attr = name.map Char.toLower) with
  | some x =>
    have := declaredType_domain (cfg := cfg) (name := name) (ty := x.bound.ty) (by simp [declaredType, hf])
    obtain ⟨d', h1, h2⟩ := this
    rw [h] at h1
    cases h1
    simp [h2]
  | none =>
    exfalso
    have hinv : ∀ (ds : List Domain) (i : Nat), ds.find? (fun d => d.attr.attr = name.map Char.toLower) = none →
        findAttr (name.map Char.toLower) ds i = invalidId := by
      intro ds
      induction ds with
      | nil => intro i _; rfl
      | cons a ds ih =>
        intro i h
        rw [List.find?_cons] at h
        split at h
        · cases h
        · rename_i ha
          unfold findAttr
          rw [if_neg (by simpa using ha)]
          exact ih _ h
    have h3 : tryGetIdForAttr cfg name = invalidId := hinv _ 0 hf
    rw [h3] at h
    unfold getDomain at h
    rw [List.getElem?_eq_none (Nat.le_of_lt hlen)] at h
    cases h

/-! ### the passes -/

section
variable (ds : List Domain)

theorem score_floatLits (e : Expr) : scoreExpr (floatLits ds e) = scoreExpr e := by
  induction e with
  | leaf p =>
    cases p with
    | compare op v c => cases c <;> rfl
    | equality op v c => cases c <;> rfl
    | _ => rfl
  | not e ih => exact ih
  | and l r ihl ihr => simp only [floatLits, scoreExpr, ihl, ihr]
  | or l r ihl ihr => simp only [floatLits, scoreExpr, ihl, ihr]

theorem parseBuild_floatLits (e : Expr) : parseBuild (floatLits ds e) = floatLits ds (parseBuild e) := by
  induction e with
  | leaf p => rfl
  | not e ih => simp only [floatLits, parseBuild, ih]
  | and l r ihl ihr =>
    simp only [floatLits, parseBuild, mkAnd, ihl, ihr, score_floatLits]
    split <;> rfl
  | or l r ihl ihr =>
    simp only [floatLits, parseBuild, mkOr, ihl, ihr, score_floatLits]
    split <;> rfl

theorem assignVar_floatLits (cfg : Config) (e : Expr) :
    assignVar cfg (floatLits ds e) = floatLits ds (assignVar cfg e) := by
  induction e with
  | leaf p =>
    cases p with
    | compare op v c => cases c <;> rfl
    | equality op v c => cases c <;> rfl
    | _ => rfl
  | not e ih => simp only [floatLits, assignVar, ih]
  | and l r ihl ihr => simp only [floatLits, assignVar, ihl, ihr]
  | or l r ihl ihr => simp only [floatLits, assignVar, ihl, ihr]

theorem varsInConfig_floatLits (e : Expr) : varsInConfig (floatLits ds e) = varsInConfig e := by
  induction e with
  | leaf p =>
    cases p with
    | compare op v c => cases c <;> rfl
    | equality op v c => cases c <;> rfl
    | _ => rfl
  | not e ih => simp only [floatLits, varsInConfig, ih]
  | and l r ihl ihr => simp only [floatLits, varsInConfig, ihl, ihr]
  | or l r ihl ihr => simp only [floatLits, varsInConfig, ihl, ihr]

theorem boundedStrings_floatLits (cfg : Config) (e : Expr) :
    boundedStringsValid cfg (floatLits ds e) = boundedStringsValid cfg e := by
  induction e with
  | leaf p =>
    cases p with
    | compare op v c => cases c <;> rfl
    | equality op v c =>
      cases c with
      | int k => simp only [floatLits, predFloatLits, boundedStringsValid]; split <;> rfl
      | _ => rfl
    | _ => rfl
  | not e ih => simp only [floatLits, boundedStringsValid, ih]
  | and l r ihl ihr => simp only [floatLits, boundedStringsValid, ihl, ihr]
  | or l r ihl ihr => simp only [floatLits, boundedStringsValid, ihl, ihr]

theorem assignConstants_floatLits (cs : List Constant) (e : Expr) :
    assignConstants cs (floatLits ds e) = (assignConstants cs e).map (floatLits ds) := by
  induction e with
  | leaf p =>
    cases p with
    | compare op v c => cases c <;> rfl
    | equality op v c => cases c <;> rfl
    | freq f =>
      simp only [floatLits, predFloatLits, assignConstants, assignConstantsPred]
      split
      · rfl
      · split <;> rfl
    | _ => rfl
  | not e ih => simp only [floatLits, assignConstants, ih, Option.map_map]; rfl
  | and l r ihl ihr =>
    simp only [floatLits, assignConstants, ihl, ihr]
    cases assignConstants cs l <;> cases assignConstants cs r <;> rfl
  | or l r ihl ihr =>
    simp only [floatLits, assignConstants, ihl, ihr]
    cases assignConstants cs l <;> cases assignConstants cs r <;> rfl

theorem assignStr_floatLits (always : Bool) (e : Expr) (cfg : Config) :
    assignStr cfg always (floatLits ds e) = (assignStr cfg always e).map fun p => (floatLits ds p.1, p.2) := by
  induction e generalizing cfg with
  | leaf p =>
    simp only [floatLits, assignStr]
    cases p with
    | compare op v c => cases c <;> rfl
    | equality op v c =>
      cases c with
      | int k =>
        by_cases h : declaredType ds v.attr = some .float <;>
          simp [predFloatLits, assignStrPred, Except.map, floatLits, h]
      | string s =>
        simp only [predFloatLits, assignStrPred]
        cases getIdForString cfg v s.string always <;> rfl
      | _ => rfl
    | freq f =>
      simp only [predFloatLits, assignStrPred]
      cases getIdForString cfg f.attr f.ns.string always <;> rfl
    | list op v c =>
      cases c with
      | intList l => rfl
      | strList l =>
        simp only [predFloatLits, assignStrPred]
        cases assignStrList cfg v always l <;> rfl
    | set op l r =>
      cases l <;> cases r <;> simp only [predFloatLits, assignStrPred] <;> first
        | rfl
        | (cases assignStrList cfg _ always _ <;> rfl)
        | (cases getIdForString cfg _ _ always <;> rfl)
    | _ => rfl
  | not e ih =>
    simp only [floatLits, assignStr, ih]
    cases assignStr cfg always e <;> rfl
  | and l r ihl ihr =>
    simp only [floatLits, assignStr, ihl]
    cases assignStr cfg always l with
    | error x => rfl
    | ok p =>
      simp only [Except.map, ihr]
      cases assignStr p.2 always r <;> rfl
  | or l r ihl ihr =>
    simp only [floatLits, assignStr, ihl]
    cases assignStr cfg always l with
    | error x => rfl
    | ok p =>
      simp only [Except.map, ihr]
      cases assignStr p.2 always r <;> rfl

theorem sortLists_floatLits (e : Expr) : sortLists (floatLits ds e) = floatLits ds (sortLists e) := by
  induction e with
  | leaf p =>
    cases p with
    | compare op v c => cases c <;> rfl
    | equality op v c => cases c <;> rfl
    | list op v c => cases c <;> rfl
    | set op l r => cases l <;> cases r <;> rfl
    | _ => rfl
  | not e ih => simp only [floatLits, sortLists, ih]
  | and l r ihl ihr => simp only [floatLits, sortLists, ihl, ihr]
  | or l r ihl ihr => simp only [floatLits, sortLists, ihl, ihr]

end

/-- comparisons and equalities have got their variable id -/
def Resolved (ds : List Domain) : Expr → Prop
  | .leaf (.compare _ v _) => v.var = findAttr (lowerKey v.attr) ds 0
  | .leaf (.equality _ v _) => v.var = findAttr (lowerKey v.attr) ds 0
  | .leaf _ => True
  | .not e => Resolved ds e
  | .and l r => Resolved ds l ∧ Resolved ds r
  | .or l r => Resolved ds l ∧ Resolved ds r

theorem assignVar_resolved (cfg : Config) (e : Expr) : Resolved cfg.domains (assignVar cfg e) := by
  induction e with
  | leaf p => cases p <;> simp [assignVar, assignVarPred, Resolved, resolveVar, tryGetIdForAttr]
  | not e ih => exact ih
  | and l r ihl ihr => exact ⟨ihl, ihr⟩
  | or l r ihl ihr => exact ⟨ihl, ihr⟩

theorem ExprRel.resolved {ds : List Domain} {P : Pred → Pred → Prop}
    (hP : ∀ p p', P p p' → Resolved ds (.leaf p) → Resolved ds (.leaf p')) {e e' : Expr} (h : ExprRel P e e') :
    Resolved ds e → Resolved ds e' := by
  induction h with
  | leaf h => exact hP _ _ h
  | not _ ih => exact ih
  | and _ _ ihl ihr => exact fun h => ⟨ihl h.1, ihr h.2⟩
  | or _ _ ihl ihr => exact fun h => ⟨ihl h.1, ihr h.2⟩

theorem assignConstants_resolved {ds : List Domain} {cs : List Constant} {e e' : Expr} (h : assignConstants cs e = some e') :
    Resolved ds e → Resolved ds e' := by
  refine (assignConstants_rel h).resolved ?_
  intro p p' h
  cases p with
  | freq f =>
    simp only [assignConstantsPred] at h
    repeat' split at h
    all_goals first | (cases h; done) | (cases h; exact fun h => h)
  | _ => simp only [assignConstantsPred, Option.some.injEq] at h; subst h; exact fun h => h

theorem sortLists_resolved {ds : List Domain} {e : Expr} : Resolved ds e → Resolved ds (sortLists e) := by
  refine (sortLists_rel e).resolved ?_
  rintro p p' rfl
  cases p with
  | list op v c => cases c <;> exact fun h => h
  | set op l r => cases l <;> cases r <;> exact fun h => h
  | _ => exact fun h => h

theorem assignStr_resolved {ds : List Domain} {cfg cfg' : Config} {always : Bool} {e e' : Expr}
    (h : assignStr cfg always e = .ok (e', cfg')) : Resolved ds e → Resolved ds e' := by
  refine (assignStr_rel h (CfgExt.refl _)).resolved ?_
  rintro p p' ⟨c, c', h, _⟩
  unfold assignStrPred at h
  repeat' split at h
  all_goals first | (cases h; done) | (cases h; exact fun h => h)

theorem assignIenum_resolved {ds : List Domain} {cfg cfg' : Config} {always : Bool} {e e' : Expr}
    (h : assignIenum cfg always e = .ok (e', cfg')) : Resolved ds e → Resolved ds e' := by
  refine (assignIenum_rel h (CfgExt.refl _)).resolved ?_
  rintro p p' ⟨c, c', h, _⟩
  unfold assignIenumPred at h
  repeat' split at h
  all_goals first | (cases h; done) | (cases h; exact fun h => h)

theorem declared_float {cfg : Config} {v : AttrVar} (hv : v.var = findAttr (lowerKey v.attr) cfg.domains 0)
    (h : declaredType cfg.domains v.attr = some .float) : ∃ d, getDomain cfg v.var = .ok d ∧ d.bound.ty = .float := by
  rw [hv]; exact declaredType_domain h

theorem assignIenum_floatLits {ds : List Domain} (always : Bool) (e : Expr) : ∀ cfg : Config, cfg.domains = ds →
    Resolved ds e →
    assignIenum cfg always (floatLits ds e) = (assignIenum cfg always e).map fun p => (floatLits ds p.1, p.2) := by
  induction e with
  | leaf p =>
    intro cfg hds hr
    subst hds
    simp only [floatLits, assignIenum]
    cases p with
    | compare op v c => cases c <;> rfl
    | equality op v c =>
      cases c with
      | int k =>
        by_cases h : declaredType cfg.domains v.attr = some .float
        · obtain ⟨d, h1, h2⟩ := declared_float hr h
          simp [predFloatLits, assignIenumPred, Except.map, floatLits, h, h1, h2]
        · simp only [predFloatLits, assignIenumPred, h, if_false]
          cases getDomain cfg v.var with
          | error x => rfl
          | ok d =>
            dsimp only
            by_cases hd : d.bound.ty = .intEnum
            · simp only [hd, if_true]
              cases getIdForIenum cfg v k always <;> rfl
            · simp [hd, Except.map, floatLits, predFloatLits, h]
      | _ => rfl
    | _ => rfl
  | not e ih =>
    intro cfg hds hr
    simp only [floatLits, assignIenum, ih cfg hds hr]
    cases assignIenum cfg always e <;> rfl
  | and l r ihl ihr =>
    intro cfg hds hr
    simp only [floatLits, assignIenum, ihl cfg hds hr.1]
    cases h : assignIenum cfg always l with
    | error x => rfl
    | ok p =>
      simp only [Except.map, ihr p.2 ((assignIenum_grow h).base.domains.trans hds) hr.2]
      cases assignIenum p.2 always r <;> rfl
  | or l r ihl ihr =>
    intro cfg hds hr
    simp only [floatLits, assignIenum, ihl cfg hds hr.1]
    cases h : assignIenum cfg always l with
    | error x => rfl
    | ok p =>
      simp only [Except.map, ihr p.2 ((assignIenum_grow h).base.domains.trans hds) hr.2]
      cases assignIenum p.2 always r <;> rfl

theorem fixFloat_floatLits {cfg : Config} (e : Expr) (hr : Resolved cfg.domains e) :
    fixFloat cfg (floatLits cfg.domains e) = fixFloat cfg e := by
  induction e with
  | leaf p =>
    simp only [floatLits, fixFloat]
    cases p with
    | compare op v c =>
      cases c with
      | int k =>
        by_cases h : declaredType cfg.domains v.attr = some .float
        · obtain ⟨d, h1, h2⟩ := declared_float hr h
          simp [predFloatLits, fixFloatPred, h, h1, h2]
        · simp only [predFloatLits, h, if_false]
      | _ => rfl
    | equality op v c =>
      cases c with
      | int k =>
        by_cases h : declaredType cfg.domains v.attr = some .float
        · obtain ⟨d, h1, h2⟩ := declared_float hr h
          simp [predFloatLits, fixFloatPred, h, h1, h2]
        · simp only [predFloatLits, h, if_false]
      | _ => rfl
    | _ => rfl
  | not e ih => simp only [floatLits, fixFloat, ih hr]
  | and l r ihl ihr => simp only [floatLits, fixFloat, ihl hr.1, ihr hr.2]
  | or l r ihl ihr => simp only [floatLits, fixFloat, ihl hr.1, ihr hr.2]

/-! ### the calls -/

theorem insert_floatLits (R : Rounding) (t : Tree) (id : Nat) (cs : List Constant) (e : Expr) :
    t.insert R id cs (floatLits t.cfg.domains e) = t.insert R id cs e := by
  have h : prepareInsert t.cfg id cs (floatLits t.cfg.domains e) = prepareInsert t.cfg id cs e := by
    unfold prepareInsert
    simp only [assignVar_floatLits, isValid, varsInConfig_floatLits, boundedStrings_floatLits, assignConstants_floatLits]
    have r0 := assignVar_resolved t.cfg e
    generalize assignVar t.cfg e = e0 at r0 ⊢
    cases andThen (varsInConfig e0) (boundedStringsValid t.cfg e0) with
    | error x => rfl
    | ok b =>
      cases b with
      | false => rfl
      | true =>
        dsimp only
        cases h1 : assignConstants cs e0 with
        | none => rfl
        | some e1 =>
          have r1 := assignConstants_resolved h1 r0
          simp only [Option.map_some, assignStr_floatLits]
          cases h2 : assignStr t.cfg false e1 with
          | error x => rfl
          | ok p2 =>
            obtain ⟨e2, c2⟩ := p2
            have r2 := assignStr_resolved h2 r1
            have d2 := (assignStr_grow h2).base.domains
            simp only [Except.map, assignIenum_floatLits false e2 c2 d2 r2]
            cases h3 : assignIenum c2 false e2 with
            | error x => rfl
            | ok p3 =>
              obtain ⟨e3, c3⟩ := p3
              have r3 := sortLists_resolved (assignIenum_resolved h3 r2)
              have d3 := (assignIenum_grow h3).base.domains.trans d2
              simp only [sortLists_floatLits]
              rw [← d3] at r3 ⊢
              rw [fixFloat_floatLits _ r3]
  unfold Tree.insert
  rw [h]

theorem makeSub_floatLits (t : Tree) (id : Nat) (cs : List Constant) (e : Expr) :
    t.makeSub id cs (floatLits t.cfg.domains e) = t.makeSub id cs e := by
  unfold Tree.makeSub
  simp only [assignVar_floatLits, varsInConfig_floatLits]
  have r0 := assignVar_resolved t.cfg e
  generalize assignVar t.cfg e = e0 at r0 ⊢
  cases varsInConfig e0 with
  | error x => rfl
  | ok b =>
    cases b with
    | false => rfl
    | true =>
      simp only [assignStr_floatLits]
      cases h2 : assignStr t.cfg true e0 with
      | error x => rfl
      | ok p2 =>
        obtain ⟨e2, c2⟩ := p2
        have r2 := assignStr_resolved h2 r0
        have d2 := (assignStr_grow h2).base.domains
        simp only [Except.map, assignIenum_floatLits true e2 c2 d2 r2]
        cases h3 : assignIenum c2 true e2 with
        | error x => rfl
        | ok p3 =>
          obtain ⟨e3, c3⟩ := p3
          have r3 := assignIenum_resolved h3 r2
          have d3 := (assignIenum_grow h3).base.domains.trans d2
          dsimp only
          rw [← d3] at r3 ⊢
          rw [fixFloat_floatLits _ r3]

theorem changeBoundaries_floatLits (t : Tree) (e : Expr) :
    t.changeBoundaries (floatLits t.cfg.domains e) = t.changeBoundaries e := by
  unfold Tree.changeBoundaries
  simp only [assignVar_floatLits, assignStr_floatLits]
  have r0 := assignVar_resolved t.cfg e
  generalize assignVar t.cfg e = e0 at r0 ⊢
  cases h2 : assignStr t.cfg true e0 with
  | error x => rfl
  | ok p2 =>
    obtain ⟨e2, c2⟩ := p2
    have r2 := assignStr_resolved h2 r0
    have d2 := (assignStr_grow h2).base.domains
    simp only [Except.map, assignIenum_floatLits true e2 c2 d2 r2]
    cases h3 : assignIenum c2 true e2 with
    | error x => rfl
    | ok p3 =>
      obtain ⟨e3, c3⟩ := p3
      have r3 := sortLists_resolved (assignIenum_resolved h3 r2)
      have d3 := (assignIenum_grow h3).base.domains.trans d2
      simp only [sortLists_floatLits]
      rw [← d3] at r3 ⊢
      rw [fixFloat_floatLits _ r3]

/-- C32: two expressions that differ only in writing integer literals of float attributes with or without a fraction have
the same effect, whatever the tree: the same answer, the same stored subscription, the same tree. -/
theorem C32_insert_same (R : Rounding) (t : Tree) (id : Nat) (cs : List Constant) (e e' : Expr)
    (h : floatLits t.cfg.domains e = floatLits t.cfg.domains e') :
    t.insert R id cs (parseBuild e) = t.insert R id cs (parseBuild e') := by
  rw [← insert_floatLits R t id cs (parseBuild e), ← insert_floatLits R t id cs (parseBuild e'),
    ← parseBuild_floatLits, ← parseBuild_floatLits, h]

/-- C32 for `betree_make_sub`: the same subscription (or refusal) and the same tree. -/
theorem C32_make_sub_same (t : Tree) (id : Nat) (cs : List Constant) (e e' : Expr)
    (h : floatLits t.cfg.domains e = floatLits t.cfg.domains e') :
    t.makeSub id cs (parseBuild e) = t.makeSub id cs (parseBuild e') := by
  rw [← makeSub_floatLits t id cs (parseBuild e), ← makeSub_floatLits t id cs (parseBuild e'),
    ← parseBuild_floatLits, ← parseBuild_floatLits, h]

/-- C32 for `betree_change_boundaries`. -/
theorem C32_change_boundaries_same (t : Tree) (e e' : Expr)
    (h : floatLits t.cfg.domains e = floatLits t.cfg.domains e') :
    t.changeBoundaries (parseBuild e) = t.changeBoundaries (parseBuild e') := by
  rw [← changeBoundaries_floatLits t (parseBuild e), ← changeBoundaries_floatLits t (parseBuild e'),
    ← parseBuild_floatLits, ← parseBuild_floatLits, h]

/-- `F < 3 and not (f = 2.0 or i > 7)` and `F < 3.0 and not (f = 2 or i > 7)` -/
example :
    let a : Expr := .and (.leaf (.compare .lt ⟨"F".toList, 0⟩ (.int 3)))
      (.not (.or (.leaf (.equality .eq ⟨"f".toList, 0⟩ (.float 2))) (exI .gt 7)))
    let b : Expr := .and (.leaf (.compare .lt ⟨"F".toList, 0⟩ (.float 3)))
      (.not (.or (.leaf (.equality .eq ⟨"f".toList, 0⟩ (.int 2))) (exI .gt 7)))
    a ≠ b ∧ floatLits searchWorld.tree.cfg.domains a = floatLits searchWorld.tree.cfg.domains b ∧
      (searchWorld.tree.insert exactRounding 9 [] a).toOption.map (·.1) = some true := by decide +kernel

end BeTree
