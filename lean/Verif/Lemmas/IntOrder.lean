import Verif.Lemmas.Alike
/-
The passes over an expression do not look at the order of the integers in its lists.
-/
namespace BeTree
open Spec

/-- the lists of integers in ascending order -/
def normIntsPred : Pred → Pred
  | .set op (.var v) (.intList l) => .set op (.var v) (.intList (sortBy id l))
  | .list op v (.intList l) => .list op v (.intList (sortBy id l))
  | p => p

def normInts : Expr → Expr
  | .leaf p => .leaf (normIntsPred p)
  | .not e => .not (normInts e)
  | .and l r => .and (normInts l) (normInts r)
  | .or l r => .or (normInts l) (normInts r)

theorem normInts_like {e e' : Expr} (h : IntsReordered e e') : normInts e = normInts e' := by
  unfold IntsReordered at h
  induction h with
  | leaf h =>
    simp only [normInts]
    congr 1
    cases h with
    | setInts h h' => subst h; simp only [normIntsPred, sortInts_perm h']
    | listInts h h' => subst h; simp only [normIntsPred, sortInts_perm h']
    | eqStr h h' => subst h; subst h'; rfl
    | setStrs h h' => subst h; subst h'; rfl
    | inStrs h h' => subst h; subst h'; rfl
    | listStrs h h' => subst h; subst h'; rfl
    | freq h h' h'' => subst h; subst h'; subst h''; rfl
    | segment h h' => subst h; subst h'; rfl
    | geo h h' => subst h; subst h'; rfl
    | boolLit => rfl
    | str h => subst h; rfl
    | _ h => subst h; rfl
  | not _ ih => simp only [normInts, ih]
  | and _ _ ihl ihr => simp only [normInts, ihl, ihr]
  | or _ _ ihl ihr => simp only [normInts, ihl, ihr]

theorem score_norm (e : Expr) : scoreExpr (normInts e) = scoreExpr e := by
  induction e with
  | leaf p => simp only [normInts, scoreExpr]; unfold normIntsPred; split <;> rfl
  | not e ih => exact ih
  | and l r ihl ihr => simp only [normInts, scoreExpr, ihl, ihr]
  | or l r ihl ihr => simp only [normInts, scoreExpr, ihl, ihr]

theorem parse_norm (e : Expr) : parseBuild (normInts e) = normInts (parseBuild e) := by
  induction e with
  | leaf p => rfl
  | not e ih => simp only [normInts, parseBuild, ih]
  | and l r ihl ihr =>
    simp only [normInts, parseBuild, ihl, ihr, mkAnd, score_norm]
    split <;> rfl
  | or l r ihl ihr =>
    simp only [normInts, parseBuild, ihl, ihr, mkOr, score_norm]
    split <;> rfl

theorem assignVar_norm (cfg : Config) (e : Expr) : assignVar cfg (normInts e) = normInts (assignVar cfg e) := by
  induction e with
  | leaf p =>
    cases p with
    | set op l r => cases l <;> cases r <;> rfl
    | list op v c => cases c <;> rfl
    | _ => rfl
  | not e ih => simp only [normInts, assignVar, ih]
  | and l r ihl ihr => simp only [normInts, assignVar, ihl, ihr]
  | or l r ihl ihr => simp only [normInts, assignVar, ihl, ihr]

theorem varsInConfig_norm (e : Expr) : varsInConfig (normInts e) = varsInConfig e := by
  induction e with
  | leaf p =>
    cases p with
    | set op l r => cases l <;> cases r <;> rfl
    | list op v c => cases c <;> rfl
    | _ => rfl
  | not e ih => simp only [normInts, varsInConfig, ih]
  | and l r ihl ihr => simp only [normInts, varsInConfig, ihl, ihr]
  | or l r ihl ihr => simp only [normInts, varsInConfig, ihl, ihr]

theorem boundedStrings_norm (cfg : Config) (e : Expr) : boundedStringsValid cfg (normInts e) = boundedStringsValid cfg e := by
  induction e with
  | leaf p =>
    cases p with
    | set op l r => cases l <;> cases r <;> rfl
    | list op v c => cases c <;> rfl
    | _ => rfl
  | not e ih => simp only [normInts, boundedStringsValid, ih]
  | and l r ihl ihr => simp only [normInts, boundedStringsValid, ihl, ihr]
  | or l r ihl ihr => simp only [normInts, boundedStringsValid, ihl, ihr]

theorem exprsValid_norm (cfg : Config) (e : Expr) : exprsValid cfg (normInts e) = exprsValid cfg e := by
  induction e with
  | leaf p =>
    cases p with
    | set op l r => cases l <;> cases r <;> rfl
    | list op v c => cases c <;> rfl
    | _ => rfl
  | not e ih => simp only [normInts, exprsValid, ih]
  | and l r ihl ihr => simp only [normInts, exprsValid, ihl, ihr]
  | or l r ihl ihr => simp only [normInts, exprsValid, ihl, ihr]

theorem assignConstants_norm (cs : List Constant) (e : Expr) :
    assignConstants cs (normInts e) = (assignConstants cs e).map normInts := by
  induction e with
  | leaf p =>
    cases p with
    | set op l r => cases l <;> cases r <;> rfl
    | list op v c => cases c <;> rfl
    | freq f =>
      simp only [normInts, normIntsPred, assignConstants, assignConstantsPred]
      split
      · rfl
      · split <;> rfl
    | _ => rfl
  | not e ih => simp only [normInts, assignConstants, ih]; cases assignConstants cs e <;> rfl
  | and l r ihl ihr =>
    simp only [normInts, assignConstants, ihl, ihr]; cases assignConstants cs l <;> cases assignConstants cs r <;> rfl
  | or l r ihl ihr =>
    simp only [normInts, assignConstants, ihl, ihr]; cases assignConstants cs l <;> cases assignConstants cs r <;> rfl

/-- on the expression of a result -/
def normFst (r : Expr × Config) : Expr × Config := (normInts r.1, r.2)

theorem assignStr_norm (al : Bool) (e : Expr) : ∀ cfg : Config,
    assignStr cfg al (normInts e) = (assignStr cfg al e).map normFst := by
  induction e with
  | leaf p =>
    intro cfg
    simp only [normInts, assignStr]
    cases p with
    | set op l r =>
      cases l <;> cases r <;> simp only [normIntsPred, assignStrPred] <;> first | rfl | (split <;> rename_i h <;> first
          | rfl
          | (split at h <;> first | (cases h; done) | (cases h; rfl)))
    | list op v c =>
      cases c <;> simp only [normIntsPred, assignStrPred] <;> first | rfl | (split <;> rename_i h <;> first
          | rfl
          | (split at h <;> first | (cases h; done) | (cases h; rfl)))
    | freq f =>
      simp only [normIntsPred, assignStrPred]
      split <;> rename_i h <;> first
        | rfl
        | (split at h <;> first | (cases h; done) | (cases h; rfl))
    | equality op v c =>
      cases c <;> simp only [normIntsPred, assignStrPred] <;> first | rfl | (split <;> rename_i h <;> first
          | rfl
          | (split at h <;> first | (cases h; done) | (cases h; rfl)))
    | _ => rfl
  | not e ih =>
    intro cfg
    simp only [normInts, assignStr, ih cfg]
    cases assignStr cfg al e <;> rfl
  | and l r ihl ihr =>
    intro cfg
    simp only [normInts, assignStr, ihl cfg]
    cases assignStr cfg al l with
    | error x => rfl
    | ok a =>
      simp only [Except.map, normFst, ihr]
      cases assignStr a.2 al r <;> rfl
  | or l r ihl ihr =>
    intro cfg
    simp only [normInts, assignStr, ihl cfg]
    cases assignStr cfg al l with
    | error x => rfl
    | ok a =>
      simp only [Except.map, normFst, ihr]
      cases assignStr a.2 al r <;> rfl

theorem assignIenum_norm (al : Bool) (e : Expr) : ∀ cfg : Config,
    assignIenum cfg al (normInts e) = (assignIenum cfg al e).map normFst := by
  induction e with
  | leaf p =>
    intro cfg
    simp only [normInts, assignIenum]
    cases p with
    | set op l r => cases l <;> cases r <;> rfl
    | list op v c => cases c <;> rfl
    | equality op v c =>
      cases c with
      | int i =>
        simp only [normIntsPred]
        cases h : assignIenumPred cfg al (.equality op v (.int i)) with
        | error x => rfl
        | ok a =>
          obtain ⟨p, c⟩ := a
          simp only [Except.map, normFst, normInts]
          simp only [assignIenumPred] at h
          repeat' split at h
          all_goals first | (cases h; done) | (cases h; rfl)
      | _ => rfl
    | _ => rfl
  | not e ih =>
    intro cfg
    simp only [normInts, assignIenum, ih cfg]
    cases assignIenum cfg al e <;> rfl
  | and l r ihl ihr =>
    intro cfg
    simp only [normInts, assignIenum, ihl cfg]
    cases assignIenum cfg al l with
    | error x => rfl
    | ok a =>
      simp only [Except.map, normFst, ihr]
      cases assignIenum a.2 al r <;> rfl
  | or l r ihl ihr =>
    intro cfg
    simp only [normInts, assignIenum, ihl cfg]
    cases assignIenum cfg al l with
    | error x => rfl
    | ok a =>
      simp only [Except.map, normFst, ihr]
      cases assignIenum a.2 al r <;> rfl

theorem fixFloat_norm (cfg : Config) (e : Expr) : fixFloat cfg (normInts e) = (fixFloat cfg e).map normInts := by
  induction e with
  | leaf p =>
    simp only [normInts, fixFloat]
    cases p with
    | set op l r => cases l <;> cases r <;> rfl
    | list op v c => cases c <;> rfl
    | equality op v c =>
      simp only [normIntsPred]
      cases h : fixFloatPred cfg (.equality op v c) with
      | error x => rfl
      | ok p =>
        simp only [Except.map, normInts]
        simp only [fixFloatPred] at h
        repeat' split at h
        all_goals first | (cases h; done) | (cases h; rfl)
    | compare op v c =>
      simp only [normIntsPred]
      cases h : fixFloatPred cfg (.compare op v c) with
      | error x => rfl
      | ok p =>
        simp only [Except.map, normInts]
        simp only [fixFloatPred] at h
        repeat' split at h
        all_goals first | (cases h; done) | (cases h; rfl)
    | _ => rfl
  | not e ih =>
    simp only [normInts, fixFloat, ih]
    cases fixFloat cfg e <;> rfl
  | and l r ihl ihr =>
    simp only [normInts, fixFloat, ihl, ihr]
    cases fixFloat cfg l <;> cases fixFloat cfg r <;> rfl
  | or l r ihl ihr =>
    simp only [normInts, fixFloat, ihl, ihr]
    cases fixFloat cfg l <;> cases fixFloat cfg r <;> rfl

theorem sortLists_norm (e : Expr) : sortLists (normInts e) = sortLists e := by
  induction e with
  | leaf p =>
    cases p with
    | set op l r => cases l <;> cases r <;> simp only [normInts, normIntsPred, sortLists, sortListsPred, sortInts_perm (sortBy_perm id _)]
    | list op v c => cases c <;> simp only [normInts, normIntsPred, sortLists, sortListsPred, sortInts_perm (sortBy_perm id _)]
    | _ => rfl
  | not e ih => simp only [normInts, sortLists, ih]
  | and l r ihl ihr => simp only [normInts, sortLists, ihl, ihr]
  | or l r ihl ihr => simp only [normInts, sortLists, ihl, ihr]

theorem prepareInsert_norm (cfg : Config) (id : Nat) (cs : List Constant) (e : Expr) :
    prepareInsert cfg id cs (normInts e) = prepareInsert cfg id cs e := by
  simp only [prepareInsert, assignVar_norm, isValid, varsInConfig_norm, boundedStrings_norm, assignConstants_norm]
  split
  · rfl
  · rfl
  · cases assignConstants cs (assignVar cfg e) with
    | none => rfl
    | some e =>
      simp only [Option.map, assignStr_norm]
      cases assignStr cfg false e with
      | error x => rfl
      | ok a =>
        obtain ⟨e, cfg⟩ := a
        simp only [Except.map, normFst, assignIenum_norm]
        cases assignIenum cfg false e with
        | error x => rfl
        | ok a =>
          obtain ⟨e, cfg⟩ := a
          simp only [sortLists_norm]

theorem insert_norm (R : Rounding) (t : Tree) (id : Nat) (cs : List Constant) (e : Expr) :
    t.insert R id cs (normInts e) = t.insert R id cs e := by
  simp only [Tree.insert, prepareInsert_norm]

theorem makeSub_norm (t : Tree) (id : Nat) (cs : List Constant) (e : Expr) :
    t.makeSub id cs (normInts e) = t.makeSub id cs e := by
  simp only [Tree.makeSub, assignVar_norm, varsInConfig_norm]
  split
  · rfl
  · rfl
  · simp only [assignStr_norm]
    cases assignStr t.cfg true (assignVar t.cfg e) with
    | error x => rfl
    | ok a =>
      obtain ⟨e, cfg⟩ := a
      simp only [Except.map, normFst, assignIenum_norm]
      cases assignIenum cfg true e with
      | error x => rfl
      | ok a =>
        obtain ⟨e, cfg⟩ := a
        simp only [fixFloat_norm]
        cases fixFloat cfg e with
        | error x => rfl
        | ok e =>
          simp only [Except.map, exprsValid_norm, assignConstants_norm]
          split
          · rfl
          · rfl
          · cases assignConstants cs e with
            | none => rfl
            | some e => simp only [Option.map, sortLists_norm]

theorem changeBoundaries_norm (t : Tree) (e : Expr) : t.changeBoundaries (normInts e) = t.changeBoundaries e := by
  simp only [Tree.changeBoundaries, assignVar_norm, assignStr_norm]
  cases assignStr t.cfg true (assignVar t.cfg e) with
  | error x => rfl
  | ok a =>
    obtain ⟨e, cfg⟩ := a
    simp only [Except.map, normFst, assignIenum_norm]
    cases assignIenum cfg true e with
    | error x => rfl
    | ok a =>
      obtain ⟨e, cfg⟩ := a
      simp only [sortLists_norm]

end BeTree
