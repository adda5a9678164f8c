import Verif.Lemmas.World
import Verif.Lemmas.Event
import Verif.Lemmas.EvalSat
import Verif.Spec.Short
import Verif.Props.Bits
/-
The undefined-variable shortcut.
-/
namespace BeTree
open Spec

/-! ### one variable -/

/-- what a shortcut verdict claims about an evaluation, below `inv` negations -/
def SC.Says (r : SC) (inv b : Bool) : Prop := (r = .pass → b = !inv) ∧ (r = .fail → b = inv)

theorem scVar_none {id : Nat} {inv : Bool} {v : AttrVar} (h : v.var ≠ id) : scVar id inv v = .none := by
  unfold scVar; rw [if_neg (fun e => h e.symm)]

/-- a variable the shortcut decides on is the undefined one; the predicate is then false -/
theorem scVar_says {id : Nat} {inv : Bool} {v : AttrVar} {b : Bool} (hb : v.var = id → b = false) :
    SC.Says (scVar id inv v) inv b := by
  unfold scVar SC.Says
  by_cases h : id = v.var
  · rw [if_pos h, hb h.symm]; cases inv <;> simp
  · rw [if_neg h]; simp

theorem sc_pred {geo : GeoTest} {env : Env} {id : Nat} {inv : Bool} {p : Pred} {r : SC} {b : Bool}
    (hund : env[id]? = some none) (hfreq : ∀ f, p = .freq f → inv = false → f.now.var ≠ id)
    (hsc : scPred id inv p = .ok r) (hm : matchPred geo env p = .ok b) : r.Says inv b := by
  have hg : ∀ v : AttrVar, v.var = id → getVariable env v.var = .ok none := by
    intro v hv; rw [hv]; unfold getVariable; rw [hund]
  cases p with
  | compare op v c =>
    cases hsc
    refine scVar_says fun h => ?_
    simp only [matchPred, matchCompare, hg v h] at hm; cases hm; rfl
  | equality op v c =>
    cases hsc
    refine scVar_says fun h => ?_
    simp only [matchPred, matchEquality, hg v h] at hm; cases hm; rfl
  | boolVar v =>
    cases hsc
    refine scVar_says fun h => ?_
    simp only [matchPred, getBoolVar, hg v h] at hm; cases hm; rfl
  | boolLit b => cases hsc; simp [SC.Says]
  | set op l r =>
    simp only [matchPred] at hm
    cases l with
    | var v =>
      simp only [scPred, Except.ok.injEq] at hsc
      subst hsc
      refine scVar_says fun h => ?_
      cases r with
      | var w => simp [matchSet] at hm
      | intList l => simp only [matchSet, getIntVar, hg v h] at hm; cases hm; rfl
      | strList l => simp only [matchSet, getStringVar, hg v h] at hm; cases hm; rfl
    | int i =>
      cases r with
      | var w =>
        simp only [scPred, Except.ok.injEq] at hsc
        subst hsc
        refine scVar_says fun h => ?_
        simp only [matchSet, getIntListVar, hg w h] at hm; cases hm; rfl
      | intList l => simp [scPred] at hsc
      | strList l => simp [scPred] at hsc
    | string s =>
      cases r with
      | var w =>
        simp only [scPred, Except.ok.injEq] at hsc
        subst hsc
        refine scVar_says fun h => ?_
        simp only [matchSet, getStrListVar, hg w h] at hm; cases hm; rfl
      | intList l => simp [scPred] at hsc
      | strList l => simp [scPred] at hsc
  | list op v c =>
    cases hsc
    refine scVar_says fun h => ?_
    simp only [matchPred, matchList, hg v h] at hm; cases hm; rfl
  | str s =>
    cases hsc
    refine scVar_says fun h => ?_
    simp only [matchPred, matchStr, getStringVar, hg s.attr h] at hm; cases hm; rfl
  | isNull op v =>
    cases op with
    | isNull =>
      cases hsc
      unfold scVar SC.Says
      by_cases h : id = v.var
      · simp only [matchPred, matchIsNull, hg v h.symm] at hm
        cases hm
        rw [if_pos h]; cases inv <;> simp
      · rw [if_neg h]; simp
    | isNotNull =>
      cases hsc
      refine scVar_says fun h => ?_
      simp only [matchPred, matchIsNull, hg v h] at hm; cases hm; rfl
    | isEmpty =>
      cases hsc
      refine scVar_says fun h => ?_
      simp only [matchPred, matchIsNull, hg v h] at hm; cases hm; rfl
  | freq f =>
    cases hsc
    have hattr : f.attr.var = id → b = false := by
      intro h
      simp only [matchPred, matchFreq, getFreqVar, hg f.attr h] at hm; cases hm; rfl
    have h1 := scVar_says (inv := inv) hattr
    cases hi : inv with
    | false =>
      subst hi
      rw [scVar_none (hfreq f rfl rfl)]
      revert h1
      cases scVar id false f.attr <;> simp [SC.Says, scAnd]
    | true =>
      subst hi
      revert h1
      have h2 : scVar id true f.now ≠ .fail := by unfold scVar; split <;> simp
      have h3 : scVar id true f.attr ≠ .fail := by unfold scVar; split <;> simp
      revert h2 h3
      cases scVar id true f.attr <;> cases scVar id true f.now <;> simp [SC.Says, scAnd]
  | segment s =>
    cases hsc
    have hattr : s.attr.var = id → b = false := by
      intro h
      simp only [matchPred, matchSegment, getSegmentsVar, hg s.attr h] at hm; cases hm; rfl
    have hnow : s.now.var = id → b = false := by
      intro h
      simp only [matchPred, matchSegment, getIntVar, hg s.now h] at hm
      repeat' split at hm
      all_goals cases hm <;> rfl
    have h1 := scVar_says (inv := inv) hattr
    have h2 := scVar_says (inv := inv) hnow
    cases hi : inv with
    | false =>
      subst hi
      revert h1 h2
      cases scVar id false s.attr <;> cases scVar id false s.now <;> simp +contextual [SC.Says, scAnd]
    | true =>
      subst hi
      revert h1
      have h3 : scVar id true s.now ≠ .fail := by unfold scVar; split <;> simp
      have h4 : scVar id true s.attr ≠ .fail := by unfold scVar; split <;> simp
      revert h3 h4
      cases scVar id true s.attr <;> cases scVar id true s.now <;> simp +contextual [SC.Says, scAnd]
  | geo g =>
    cases hsc
    have hlat : g.latVar.var = id → b = false := by
      intro h
      simp only [matchPred, matchGeo, getFloatVar, hg g.latVar h] at hm
      repeat' split at hm
      all_goals cases hm <;> rfl
    have hlon : g.lonVar.var = id → b = false := by
      intro h
      simp only [matchPred, matchGeo, getFloatVar, hg g.lonVar h] at hm
      repeat' split at hm
      all_goals first
        | (cases hm; done)
        | (cases hm; rfl)
        | (rename_i e _ _ h5; cases h5)
        | skip
    have h1 := scVar_says (inv := inv) hlat
    have h2 := scVar_says (inv := inv) hlon
    cases hi : inv with
    | false =>
      subst hi
      revert h1 h2
      cases scVar id false g.latVar <;> cases scVar id false g.lonVar <;> simp +contextual [SC.Says, scAnd]
    | true =>
      subst hi
      revert h1
      have h3 : scVar id true g.lonVar ≠ .fail := by unfold scVar; split <;> simp
      have h4 : scVar id true g.latVar ≠ .fail := by unfold scVar; split <;> simp
      revert h3 h4
      cases scVar id true g.latVar <;> cases scVar id true g.lonVar <;> simp +contextual [SC.Says, scAnd]

/-! ### expressions -/

/-- an expression that does not mention the undefined variable is not decided -/
theorem sc_unmentioned {cfg : Config} {cs : List Constant} {e e' : Expr} (hr : ExprRel (ResPred cfg cs) e e') {id : Nat}
    (hn : ∀ n ∈ exprNames e, tryGetIdForAttr cfg n ≠ id) {inv : Bool} {r : SC} (h : scExpr id inv e' = .ok r) : r = .none := by
  induction hr generalizing inv r with
  | @leaf p p' hp =>
    have hv : ∀ {v v' : AttrVar} {inv : Bool}, ResVar cfg v v' → v.attr ∈ predNames p → scVar id inv v' = .none := by
      intro v v' inv h1 h2
      exact scVar_none (by rw [h1.var]; exact hn _ h2)
    simp only [scExpr] at h
    cases hp with
    | setBad hbad hl hr hgood =>
      rename_i op l r0 l' r'
      simp only [predNames] at hv
      cases l' with
      | var v' =>
        obtain ⟨v, rfl, hv1⟩ := hl v' rfl
        simp only [scPred, Except.ok.injEq] at h
        rw [hv hv1 (by simp)] at h
        exact h.symm
      | int i =>
        cases r' with
        | var v' =>
          obtain ⟨v, rfl, hv1⟩ := hr v' rfl
          simp only [scPred, Except.ok.injEq] at h
          rw [hv hv1 (by simp)] at h
          exact h.symm
        | _ => simp [scPred] at h
      | string i =>
        cases r' with
        | var v' =>
          obtain ⟨v, rfl, hv1⟩ := hr v' rfl
          simp only [scPred, Except.ok.injEq] at h
          rw [hv hv1 (by simp)] at h
          exact h.symm
        | _ => simp [scPred] at h
    | freq h1 h2 h3 h4 h5 =>
      simp only [scPred, Except.ok.injEq] at h
      rw [hv h1 (by simp [predNames]), hv h2 (by simp [predNames])] at h
      exact h.symm
    | segment h1 h2 =>
      simp only [scPred, Except.ok.injEq] at h
      rw [hv h1 (by simp [predNames]), hv h2 (by simp [predNames])] at h
      exact h.symm
    | geo h1 h2 =>
      simp only [scPred, Except.ok.injEq] at h
      rw [hv h1 (by simp [predNames]), hv h2 (by simp [predNames])] at h
      exact h.symm
    | boolLit => cases h; rfl
    | isNull h1 =>
      rename_i op v v'
      cases op <;>
      · simp only [scPred, Except.ok.injEq] at h
        rw [hv h1 (by simp [predNames])] at h
        exact h.symm
    | _ h1 =>
      simp only [scPred, Except.ok.injEq] at h
      rw [hv h1 (by simp [predNames])] at h
      exact h.symm
  | not _ ih => exact ih hn h
  | and _ _ ihl ihr =>
    simp only [scExpr] at h
    split at h
    · cases h
    · rename_i h1
      split at h
      · cases h
      · rename_i h2
        cases h
        rw [ihl (fun n m => hn n (List.mem_append.2 (Or.inl m))) h1, ihr (fun n m => hn n (List.mem_append.2 (Or.inr m))) h2]
        rfl
  | or _ _ ihl ihr =>
    simp only [scExpr] at h
    split at h
    · cases h
    · rename_i h1
      split at h
      · cases h
      · rename_i h2
        cases h
        rw [ihl (fun n m => hn n (List.mem_append.2 (Or.inl m))) h1, ihr (fun n m => hn n (List.mem_append.2 (Or.inr m))) h2]
        rfl

/-- below a `not`, a positive expression is never made to fail -/
theorem sc_positive {cfg : Config} {cs : List Constant} {e e' : Expr} (hr : ExprRel (ResPred cfg cs) e e') {id : Nat}
    (hpos : Positive e) {r : SC} (h : scExpr id true e' = .ok r) : r ≠ .fail := by
  have hv : ∀ v : AttrVar, scVar id true v ≠ .fail := by intro v; unfold scVar; split <;> simp
  have hv2 : ∀ v w : AttrVar, scAnd (scVar id true v) (scVar id true w) ≠ .fail := by
    intro v w; have k1 := hv v; have k2 := hv w; revert k1 k2
    cases scVar id true v <;> cases scVar id true w <;> simp [scAnd]
  induction hr generalizing r with
  | @leaf p p' hp =>
    simp only [scExpr] at h
    cases hp with
    | setBad hbad hl hr hgood =>
      rename_i op l r0 l' r'
      cases l' <;> cases r' <;> simp only [scPred, Except.ok.injEq, reduceCtorEq] at h <;> (rw [← h]; exact hv _)
    | boolLit => cases h; simp
    | isNull h1 =>
      rename_i op v v'
      cases op with
      | isNull => exact absurd hpos (by simp [Positive])
      | _ => simp only [scPred, Except.ok.injEq] at h; rw [← h]; exact hv _
    | freq _ _ _ _ _ => simp only [scPred, Except.ok.injEq] at h; rw [← h]; exact hv2 _ _
    | segment _ _ => simp only [scPred, Except.ok.injEq] at h; rw [← h]; exact hv2 _ _
    | geo _ _ => simp only [scPred, Except.ok.injEq] at h; rw [← h]; exact hv2 _ _
    | _ => simp only [scPred, Except.ok.injEq] at h; rw [← h]; exact hv _
  | not _ _ => exact absurd hpos (by simp [Positive])
  | and _ _ ihl ihr =>
    simp only [scExpr] at h
    split at h
    · cases h
    · rename_i a h1
      split at h
      · cases h
      · rename_i c h2
        cases h
        have k1 := ihl hpos.1 h1
        have k2 := ihr hpos.2 h2
        revert k1 k2
        cases a <;> cases c <;> simp [scAnd]
  | or _ _ ihl ihr =>
    simp only [scExpr] at h
    split at h
    · cases h
    · rename_i a h1
      split at h
      · cases h
      · rename_i c h2
        cases h
        have k1 := ihl hpos.1 h1
        have k2 := ihr hpos.2 h2
        revert k1 k2
        cases a <;> cases c <;> simp [scOr]

/-- the shortcut's verdict for an undefined variable is that of evaluation -/
theorem sc_sound {geo : GeoTest} {env : Env} {cfg : Config} {cs : List Constant} {e e' : Expr}
    (hr : ExprRel (ResPred cfg cs) e e') {id : Nat} {opt : Str → Prop} (hopt : ∀ n, tryGetIdForAttr cfg n = id → opt n)
    (hund : env[id]? = some none) {inv : Bool} (hsafe : ShortSafe opt inv e) {r : SC} {b : Bool}
    (hsc : scExpr id inv e' = .ok r) (hm : evalExpr geo env e' = .ok b) : r.Says inv b := by
  have hno : ∀ {l l' : Expr} {inv : Bool} {r : SC}, ExprRel (ResPred cfg cs) l l' → (∀ n ∈ exprNames l, ¬ opt n) →
      scExpr id inv l' = .ok r → r = .none := fun hl hn h =>
    sc_unmentioned hl (fun n m hc => hn n m (hopt n hc)) h
  induction hr generalizing inv r b with
  | @leaf p p' hp =>
    simp only [scExpr] at hsc
    simp only [evalExpr] at hm
    refine sc_pred hund ?_ hsc hm
    rintro f rfl rfl
    cases hp with
    | freq h1 h2 h3 h4 h5 =>
      intro hc
      have : opt _ := hopt _ (h2.var.symm.trans hc)
      exact hsafe rfl this
  | not _ ih =>
    simp only [evalExpr] at hm
    split at hm
    · cases hm
    · rename_i b' h1
      cases hm
      have := ih (inv := !inv) hsafe hsc h1
      revert this
      cases inv <;> cases b' <;> simp [SC.Says]
  | and hl hr ihl ihr =>
    simp only [scExpr] at hsc
    split at hsc
    · cases hsc
    · rename_i a h1
      split at hsc
      · cases hsc
      · rename_i c h2
        cases hsc
        have hside : inv = true → (a ≠ .fail ∧ c ≠ .fail) := by
          rintro rfl
          rcases hsafe.2.2 rfl with ⟨p1, p2⟩ | hn
          · exact ⟨sc_positive hl p1 h1, sc_positive hr p2 h2⟩
          · rw [hno hl (fun n m => hn n (List.mem_append.2 (Or.inl m))) h1,
              hno hr (fun n m => hn n (List.mem_append.2 (Or.inr m))) h2]
            simp
        simp only [evalExpr] at hm
        split at hm
        · cases hm
        · rename_i hx
          cases hm
          have := ihl hsafe.1 h1 hx
          revert this hside
          cases inv <;> cases a <;> cases c <;> simp [SC.Says, scAnd]
        · rename_i hx
          have k1 := ihl hsafe.1 h1 hx
          have k2 := ihr hsafe.2.1 h2 hm
          revert k1 k2 hside
          cases inv <;> cases a <;> cases c <;> simp [SC.Says, scAnd]
  | or hl hr ihl ihr =>
    simp only [scExpr] at hsc
    split at hsc
    · cases hsc
    · rename_i a h1
      split at hsc
      · cases hsc
      · rename_i c h2
        cases hsc
        have hside : inv = true → (a = .none ∧ c = .none) := by
          rintro rfl
          have hn := hsafe.2.2 rfl
          exact ⟨hno hl (fun n m => hn n (List.mem_append.2 (Or.inl m))) h1,
              hno hr (fun n m => hn n (List.mem_append.2 (Or.inr m))) h2⟩
        simp only [evalExpr] at hm
        split at hm
        · cases hm
        · rename_i hx
          cases hm
          have := ihl hsafe.1 h1 hx
          revert this hside
          cases inv <;> cases a <;> cases c <;> simp [SC.Says, scOr]
        · rename_i hx
          have k1 := ihl hsafe.1 h1 hx
          have k2 := ihr hsafe.2.1 h2 hm
          revert k1 k2 hside
          cases inv <;> cases a <;> cases c <;> simp [SC.Says, scOr]

/-! ### the bit sets -/

theorem testBit_true {a : Bits} {j : Nat} : testBit a j = .ok true ↔ ∃ w, a[j / 64]? = some w ∧ w.getLsbD (j % 64) = true := by
  unfold testBit
  cases h : a[j / 64]? with
  | none => simp
  | some w => simp [word_test w _ (Nat.mod_lt j (by decide : 0 < 64))]

theorem setBit_true {a a' : Bits} {k j : Nat} (h : setBit a k = .ok a') (ht : testBit a' j = .ok true) :
    j = k ∨ testBit a j = .ok true := by
  rcases Nat.lt_or_ge k (64 * a.length) with hk | hk
  · obtain ⟨b, hb, _, hj⟩ := (C38_set_bit a k).1 hk
    rw [h] at hb; cases hb
    rw [hj] at ht
    split at ht
    · exact Or.inl ‹_›
    · exact Or.inr ht
  · rw [(C38_set_bit a k).2 hk] at h; cases h

/-- a bit set by `fill_short_circuit` is that of an optional variable the expression is decided on -/
theorem fill_true {e : Expr} : ∀ {ds : List Domain} {i : Nat} {p f p' f' : Bits}, fillShortCircuit e ds i p f = .ok (p', f') →
    ∀ j, (testBit p' j = .ok true → testBit p j = .ok true ∨
        ∃ d, i ≤ j ∧ ds[j - i]? = some d ∧ d.allowUndefined = true ∧ scExpr d.attr.var false e = .ok .pass) ∧
      (testBit f' j = .ok true → testBit f j = .ok true ∨
        ∃ d, i ≤ j ∧ ds[j - i]? = some d ∧ d.allowUndefined = true ∧ scExpr d.attr.var false e = .ok .fail) := by
  intro ds
  induction ds with
  | nil => intro i p f p' f' h j; cases h; exact ⟨Or.inl, Or.inl⟩
  | cons d ds ih =>
    intro i p f p' f' h j
    have up : ∀ {P : Domain → Prop}, (∃ d, i + 1 ≤ j ∧ ds[j - (i + 1)]? = some d ∧ P d) →
        ∃ d', i ≤ j ∧ (d :: ds)[j - i]? = some d' ∧ P d' := by
      rintro P ⟨d', h1, h2, h3⟩
      refine ⟨d', by omega, ?_, h3⟩
      rw [show j - i = (j - (i + 1)) + 1 by omega]
      exact h2
    simp only [fillShortCircuit] at h
    split at h
    · rename_i hu
      split at h
      · cases h
      · rename_i hsc
        split at h
        · cases h
        · rename_i hb
          refine ⟨fun ht => ?_, fun ht => ((ih h j).2 ht).imp id up⟩
          rcases (ih h j).1 ht with ht | ht
          · rcases setBit_true hb ht with rfl | ht
            · exact Or.inr ⟨d, Nat.le_refl _, by simp, hu, hsc⟩
            · exact Or.inl ht
          · exact Or.inr (up ht)
      · rename_i hsc
        split at h
        · cases h
        · rename_i hb
          refine ⟨fun ht => ((ih h j).1 ht).imp id up, fun ht => ?_⟩
          rcases (ih h j).2 ht with ht | ht
          · rcases setBit_true hb ht with rfl | ht
            · exact Or.inr ⟨d, Nat.le_refl _, by simp, hu, hsc⟩
            · exact Or.inl ht
          · exact Or.inr (up ht)
      · exact ⟨fun ht => ((ih h j).1 ht).imp id up, fun ht => ((ih h j).2 ht).imp id up⟩
    · exact ⟨fun ht => ((ih h j).1 ht).imp id up, fun ht => ((ih h j).2 ht).imp id up⟩

theorem mark_true : ∀ {env : Env} {i : Nat} {b b' : Bits}, markUndefined env i b = .ok b' →
    ∀ j, testBit b' j = .ok true → testBit b j = .ok true ∨ (i ≤ j ∧ env[j - i]? = some none) := by
  intro env
  induction env with
  | nil => intro i b b' h j ht; cases h; exact Or.inl ht
  | cons v vs ih =>
    intro i b b' h j ht
    have up : (i + 1 ≤ j ∧ vs[j - (i + 1)]? = some none) → i ≤ j ∧ (v :: vs)[j - i]? = some none := by
      rintro ⟨h1, h2⟩
      refine ⟨by omega, ?_⟩
      rw [show j - i = (j - (i + 1)) + 1 by omega]
      exact h2
    cases v with
    | some x => exact (ih h j ht).imp id up
    | none =>
      simp only [markUndefined] at h
      split at h
      · cases h
      · rename_i hb
        rcases ih h j ht with h1 | h1
        · rcases setBit_true hb h1 with rfl | h1
          · exact Or.inr ⟨Nat.le_refl _, by simp⟩
          · exact Or.inl h1
        · exact Or.inr (up h1)

theorem fresh_false {n j : Nat} : testBit (makeBits n) j ≠ .ok true := by
  rw [Ne, testBit_true]
  rintro ⟨w, h1, h2⟩
  have : w = 0#64 := by
    have := List.mem_of_getElem? h1
    simpa [makeBits] using this
  subst this
  simp at h2

theorem and_ne_zero {a b : BitVec 64} (h : a &&& b ≠ 0#64) : ∃ i < 64, a.getLsbD i = true ∧ b.getLsbD i = true := by
  by_contra hc
  apply h
  apply BitVec.eq_of_getLsbD_eq
  intro i hi
  simp only [BitVec.getLsbD_and, BitVec.getLsbD_zero]
  cases ha : a.getLsbD i <;> cases hb : b.getLsbD i <;> simp
  exact hc ⟨i, hi, ha, hb⟩

theorem try_true : ∀ {p f u : Bits},
    (tryShortCircuit p f u = .pass → ∃ j, testBit p j = .ok true ∧ testBit u j = .ok true) ∧
    (tryShortCircuit p f u = .fail → ∃ j, testBit f j = .ok true ∧ testBit u j = .ok true) := by
  have bit : ∀ {p : BitVec 64} {ps : Bits} {i : Nat}, i < 64 → p.getLsbD i = true → testBit (p :: ps) i = .ok true := by
    intro p ps i hi h
    rw [testBit_true]
    rw [Nat.div_eq_of_lt hi, Nat.mod_eq_of_lt hi]
    exact ⟨p, rfl, h⟩
  have next : ∀ {p : BitVec 64} {ps : Bits} {j : Nat}, testBit ps j = .ok true → testBit (p :: ps) (j + 64) = .ok true := by
    intro p ps j h
    rw [testBit_true] at h ⊢
    rw [show (j + 64) / 64 = j / 64 + 1 by omega, show (j + 64) % 64 = j % 64 by omega]
    exact h
  intro p
  induction p with
  | nil => intro f u; simp [tryShortCircuit]
  | cons p ps ih =>
    intro f u
    cases f with
    | nil => simp [tryShortCircuit]
    | cons f fs =>
      cases u with
      | nil => simp [tryShortCircuit]
      | cons u us =>
        simp only [tryShortCircuit]
        split
        · rename_i h
          obtain ⟨i, hi, h1, h2⟩ := and_ne_zero h
          exact ⟨fun _ => ⟨i, bit hi h1, bit hi h2⟩, by simp⟩
        · split
          · rename_i h
            obtain ⟨i, hi, h1, h2⟩ := and_ne_zero h
            exact ⟨by simp, fun _ => ⟨i, bit hi h1, bit hi h2⟩⟩
          · exact ⟨fun h => let ⟨j, h1, h2⟩ := ih.1 h; ⟨j + 64, next h1, next h2⟩,
              fun h => let ⟨j, h1, h2⟩ := ih.2 h; ⟨j + 64, next h1, next h2⟩⟩

/-! ### declarations -/

/-- the domain of a declared variable -/
def declDomain (i : Nat) (d : Str × Decl × Bool) : Domain :=
  { attr := { attr := d.1, var := i }, bound := d.2.1.bound, allowUndefined := d.2.2 }

theorem foldl_declare (decls : List (Str × Decl × Bool)) (cfg : Config) :
    (decls.foldl (fun cfg d => declare cfg d.1 d.2.1 d.2.2) cfg).domains =
      cfg.domains ++ decls.mapIdx (fun i d => declDomain (cfg.domains.length + i) d) := by
  induction decls generalizing cfg with
  | nil => simp
  | cons d ds ih =>
    rw [List.foldl_cons, ih, List.mapIdx_cons]
    simp only [declare, addDomain, List.append_assoc, List.cons_append, List.nil_append, List.length_append,
      List.length_cons, List.length_nil]
    congr 2
    congr 1
    funext i x
    congr 1
    omega

theorem makeTree_domains (cap min : Nat) (decls : List (Str × Decl × Bool)) :
    (makeTree cap min decls).cfg.domains = decls.mapIdx declDomain := by
  have := foldl_declare decls (makeConfig cap min)
  simpa [makeTree, makeConfig] using this

/-- domains in a later configuration -/
theorem domain_later {cfg : Config} {cap min : Nat} {decls : List (Str × Decl × Bool)}
    (h : CfgExt (makeTree cap min decls).cfg cfg) {i : Nat} {d : Domain} (hd : cfg.domains[i]? = some d) :
    ∃ c, decls[i]? = some c ∧ d.attr = { attr := c.1, var := i } ∧ d.bound.ty = c.2.1.bound.ty ∧ d.allowUndefined = c.2.2 := by
  have := congrArg (fun l => l[i]?) h.doms
  simp only [List.getElem?_map, hd, Option.map_some, makeTree_domains, List.getElem?_mapIdx, Option.map_map] at this
  cases hc : decls[i]? with
  | none => rw [hc] at this; simp at this
  | some c =>
    rw [hc] at this
    simp only [Option.map_some, Option.some.injEq, Function.comp, declDomain, Prod.mk.injEq] at this
    exact ⟨c, rfl, this.1, this.2.1, this.2.2⟩

/-! ### parsing -/

theorem positive_mk {l r : Expr} (hl : Positive l) (hr : Positive r) : Positive (mkAnd l r) ∧ Positive (mkOr l r) := by
  unfold mkAnd mkOr
  constructor <;> split <;> first | exact ⟨hl, hr⟩ | exact ⟨hr, hl⟩

theorem positive_parse {e : Expr} (h : Positive e) : Positive (parseBuild e) := by
  induction e with
  | leaf p => exact h
  | not e ih => exact absurd h (by simp [Positive])
  | and l r ihl ihr => exact (positive_mk (ihl h.1) (ihr h.2)).1
  | or l r ihl ihr => exact (positive_mk (ihl h.1) (ihr h.2)).2

theorem names_parse (e : Expr) (n : Str) : n ∈ exprNames (parseBuild e) ↔ n ∈ exprNames e := by
  induction e with
  | leaf p => rfl
  | not e ih => exact ih
  | and l r ihl ihr =>
    simp only [parseBuild, mkAnd, exprNames, List.mem_append]
    split <;> simp only [exprNames, List.mem_append, ihl, ihr, Or.comm]
  | or l r ihl ihr =>
    simp only [parseBuild, mkOr, exprNames, List.mem_append]
    split <;> simp only [exprNames, List.mem_append, ihl, ihr, Or.comm]

theorem shortSafe_parse {opt : Str → Prop} {e : Expr} {odd : Bool} (h : ShortSafe opt odd e) :
    ShortSafe opt odd (parseBuild e) := by
  induction e generalizing odd with
  | leaf p => exact h
  | not e ih => exact ih (odd := !odd) h
  | and l r ihl ihr =>
    have k := h.2.2
    have key : odd = true → (Positive (parseBuild l) ∧ Positive (parseBuild r)) ∨
        ∀ n, (n ∈ exprNames (parseBuild l) ∨ n ∈ exprNames (parseBuild r)) → ¬ opt n := fun ho =>
      (k ho).imp (fun ⟨a, b⟩ => ⟨positive_parse a, positive_parse b⟩) (fun hn n hm =>
        hn n (List.mem_append.2 (hm.imp (names_parse l n).1 (names_parse r n).1)))
    simp only [parseBuild, mkAnd]
    split
    · refine ⟨ihr h.2.1, ihl h.1, fun ho => (key ho).imp And.symm (fun hn n hm => hn n (List.mem_append.1 hm).symm)⟩
    · refine ⟨ihl h.1, ihr h.2.1, fun ho => (key ho).imp id (fun hn n hm => hn n (List.mem_append.1 hm))⟩
  | or l r ihl ihr =>
    have k := h.2.2
    have key : odd = true → ∀ n, (n ∈ exprNames (parseBuild l) ∨ n ∈ exprNames (parseBuild r)) → ¬ opt n := fun ho n hm =>
      k ho n (List.mem_append.2 (hm.imp (names_parse l n).1 (names_parse r n).1))
    simp only [parseBuild, mkOr]
    split
    · exact ⟨ihr h.2.1, ihl h.1, fun ho n hm => key ho n (List.mem_append.1 hm).symm⟩
    · exact ⟨ihl h.1, ihr h.2.1, fun ho n hm => key ho n (List.mem_append.1 hm)⟩

/-! ### a stored subscription -/

/-- the shortcut on a stored subscription gives the verdict of evaluation -/
theorem Made.short {geo : GeoTest} {env : Env} {cfg : Config} {q : Req} {s : Sub} (hm : Made cfg q s)
    {cap min : Nat} {decls : List (Str × Decl × Bool)} (hx : CfgExt (makeTree cap min decls).cfg cfg)
    (hsafe : ShortSafe (Optional decls) false q.expr) (hlen : decls.length ≤ invalidId) {undef : Bits}
    (hu : makeUndefined env = .ok undef) {b : Bool} (hb : evalExpr geo env s.expr.erase = .ok b) :
    (tryShortCircuit s.pass s.fail undef).Says false b := by
  have und : ∀ {j : Nat}, testBit undef j = .ok true → env[j]? = some none := by
    intro j hj
    rcases mark_true hu j hj with h | ⟨_, h⟩
    · exact absurd h fresh_false
    · simpa using h
  have one : ∀ {j : Nat} {d : Domain} {r : SC}, cfg.domains[j]? = some d → d.allowUndefined = true →
      scExpr d.attr.var false s.expr.erase = .ok r → testBit undef j = .ok true → r.Says false b := by
    intro j d r h1 h2 h3 h4
    obtain ⟨c, hc, ha, _, hau⟩ := domain_later hx h1
    have hj : j < decls.length := by
      rcases Nat.lt_or_ge j decls.length with h | h
      · exact h
      · rw [List.getElem?_eq_none h] at hc; cases hc
    have hvar : d.attr.var = j := by rw [ha]
    rw [hvar] at h3
    refine sc_sound hm.res (opt := Optional decls) ?_ (und h4) (shortSafe_parse hsafe) h3 hb
    intro n hn
    obtain ⟨_, d', h5, h6⟩ := tryGetId_lt (a := n) (cfg := cfg) (by rw [hn]; omega)
    rw [hn, h1] at h5
    cases h5
    refine ⟨c, List.mem_of_getElem? hc, ?_, by rw [← hau, h2]⟩
    rw [ha] at h6
    exact h6
  constructor
  · intro h
    obtain ⟨j, h1, h2⟩ := try_true.1 h
    rcases (fill_true hm.sc j).1 h1 with h3 | ⟨d, _, h3, h4, h5⟩
    · exact absurd h3 fresh_false
    · exact (one h3 h4 h5 h2).1 rfl
  · intro h
    obtain ⟨j, h1, h2⟩ := try_true.2 h
    rcases (fill_true hm.sc j).2 h1 with h3 | ⟨d, _, h3, h4, h5⟩
    · exact absurd h3 fresh_false
    · exact (one h3 h4 h5 h2).2 rfl

end BeTree

namespace BeTree
open Spec

/-! ### the shortcut against the specification

The same soundness with `Spec.sat` in place of evaluation: no evaluation takes place when the shortcut decides, so this
holds whether or not evaluating the expression would fault. -/

/-- what a shortcut verdict claims about a truth value, below `inv` negations -/
def SC.SaysP (r : SC) (inv : Bool) (P : Prop) : Prop := (r = .pass → (P ↔ inv = false)) ∧ (r = .fail → (P ↔ inv = true))

theorem scVar_saysP {id : Nat} {inv : Bool} {v : AttrVar} {P : Prop} (hb : v.var = id → ¬ P) :
    SC.SaysP (scVar id inv v) inv P := by
  unfold scVar SC.SaysP
  by_cases h : id = v.var
  · rw [if_pos h]; have := hb h.symm; cases inv <;> simp [this]
  · rw [if_neg h]; simp

theorem scAnd_saysP {id : Nat} {inv : Bool} {v w : AttrVar} {P : Prop} (hv : v.var = id → ¬ P)
    (hw : inv = false → w.var = id → ¬ P) : SC.SaysP (scAnd (scVar id inv v) (scVar id inv w)) inv P := by
  have h1 := scVar_saysP (inv := inv) hv
  cases inv with
  | false =>
    have h2 := scVar_saysP (inv := false) (hw rfl)
    revert h1 h2
    cases scVar id false v <;> cases scVar id false w <;> simp +contextual [SC.SaysP, scAnd]
  | true =>
    have h3 : scVar id true w ≠ .fail := by unfold scVar; split <;> simp
    have h4 : scVar id true v ≠ .fail := by unfold scVar; split <;> simp
    revert h1 h3 h4
    cases scVar id true v <;> cases scVar id true w <;> simp +contextual [SC.SaysP, scAnd]

/-- a predicate other than `is null` is false when its variable is undefined -/
theorem sc_pred_sat {geo : GeoTest} {T : Config} {cs : List Constant} {C : Constants} {ev : Event} {id : Nat} {inv : Bool}
    {p p' : Pred} {r : SC} (hund : ∀ v v' : AttrVar, ResVar T v v' → v'.var = id → ev.get v = none)
    (hp : ResPred T cs p p') (hfreq : ∀ f, p = .freq f → inv = false → tryGetIdForAttr T f.now.attr ≠ id)
    (hsc : scPred id inv p' = .ok r) : r.SaysP inv (satPred geo C ev p) := by
  cases hp with
  | setBad hbad hl hr hgood =>
    rename_i op l r0 l' r'
    cases l' with
    | var v' =>
      obtain ⟨v, rfl, hv1⟩ := hl v' rfl
      simp only [scPred, Except.ok.injEq] at hsc
      subst hsc
      refine scVar_saysP fun h => ?_
      have := hund _ _ hv1 h
      cases r0 <;> simp [satPred, this]
    | int i =>
      cases r' with
      | var v' =>
        obtain ⟨v, rfl, hv1⟩ := hr v' rfl
        simp only [scPred, Except.ok.injEq] at hsc
        subst hsc
        refine scVar_saysP fun h => ?_
        have := hund _ _ hv1 h
        cases l <;> simp [satPred, this, asTexts]
      | _ => simp [scPred] at hsc
    | string i =>
      cases r' with
      | var v' =>
        obtain ⟨v, rfl, hv1⟩ := hr v' rfl
        simp only [scPred, Except.ok.injEq] at hsc
        subst hsc
        refine scVar_saysP fun h => ?_
        have := hund _ _ hv1 h
        cases l <;> simp [satPred, this, asTexts]
      | _ => simp [scPred] at hsc
  | freq h1 h2 h3 h4 h5 =>
    simp only [scPred, Except.ok.injEq] at hsc
    subst hsc
    refine scAnd_saysP (fun h => ?_) (fun hi h => absurd (h2.var.symm.trans h) (hfreq _ rfl hi))
    have := hund _ _ h1 h
    simp [satPred, this, asCaps]
  | segment h1 h2 =>
    simp only [scPred, Except.ok.injEq] at hsc
    subst hsc
    refine scAnd_saysP (fun h => ?_) (fun hi h => ?_)
    · have := hund _ _ h1 h
      simp [satPred, this, asSegments]
    · have := hund _ _ h2 h
      simp [satPred, this]
  | geo h1 h2 =>
    simp only [scPred, Except.ok.injEq] at hsc
    subst hsc
    refine scAnd_saysP (fun h => ?_) (fun hi h => ?_)
    · have := hund _ _ h1 h
      simp [satPred, this]
    · have := hund _ _ h2 h
      simp [satPred, this]
  | boolLit => cases hsc; simp [SC.SaysP]
  | isNull h1 =>
    rename_i op v v'
    cases op with
    | isNull =>
      simp only [scPred, Except.ok.injEq] at hsc
      subst hsc
      unfold scVar SC.SaysP
      by_cases h : id = v'.var
      · have := hund _ _ h1 h.symm
        rw [if_pos h]; cases inv <;> simp [satPred, this]
      · rw [if_neg h]; simp
    | _ =>
      simp only [scPred, Except.ok.injEq] at hsc
      subst hsc
      refine scVar_saysP fun h => ?_
      have := hund _ _ h1 h
      simp [satPred, this]
  | _ h1 =>
    simp only [scPred, Except.ok.injEq] at hsc
    subst hsc
    refine scVar_saysP fun h => ?_
    have := hund _ _ h1 h
    simp [satPred, this, asInt, asTexts]

/-- the shortcut's verdict for an undefined variable is the specification's -/
theorem sc_sat {geo : GeoTest} {T : Config} {cs : List Constant} {C : Constants} {ev : Event} {e e' : Expr}
    (hr : ExprRel (ResPred T cs) e e') {id : Nat} {opt : Str → Prop} (hopt : ∀ n, tryGetIdForAttr T n = id → opt n)
    (hund : ∀ v v' : AttrVar, ResVar T v v' → v'.var = id → ev.get v = none)
    {inv : Bool} (hsafe : ShortSafe opt inv e) {r : SC} (hsc : scExpr id inv e' = .ok r) :
    r.SaysP inv (sat geo C ev e) := by
  have hno : ∀ {l l' : Expr} {inv : Bool} {r : SC}, ExprRel (ResPred T cs) l l' → (∀ n ∈ exprNames l, ¬ opt n) →
      scExpr id inv l' = .ok r → r = .none := fun hl hn h =>
    sc_unmentioned hl (fun n m hc => hn n m (hopt n hc)) h
  induction hr generalizing inv r with
  | @leaf p p' hp =>
    simp only [scExpr] at hsc
    refine sc_pred_sat hund hp ?_ hsc
    rintro f rfl rfl hc
    exact hsafe rfl (hopt _ hc)
  | not _ ih =>
    have := ih (inv := !inv) hsafe hsc
    revert this
    simp only [sat]
    cases inv <;> simp [SC.SaysP]
  | and hl hr ihl ihr =>
    simp only [scExpr] at hsc
    split at hsc
    · cases hsc
    · rename_i a h1
      split at hsc
      · cases hsc
      · rename_i c h2
        cases hsc
        have hside : inv = true → (a ≠ .fail ∧ c ≠ .fail) := by
          rintro rfl
          rcases hsafe.2.2 rfl with ⟨p1, p2⟩ | hn
          · exact ⟨sc_positive hl p1 h1, sc_positive hr p2 h2⟩
          · rw [hno hl (fun n m => hn n (List.mem_append.2 (Or.inl m))) h1,
              hno hr (fun n m => hn n (List.mem_append.2 (Or.inr m))) h2]
            simp
        have k1 := ihl hsafe.1 h1
        have k2 := ihr hsafe.2.1 h2
        simp only [sat]
        revert k1 k2 hside
        cases inv <;> cases a <;> cases c <;> simp +contextual [SC.SaysP, scAnd]
  | or hl hr ihl ihr =>
    simp only [scExpr] at hsc
    split at hsc
    · cases hsc
    · rename_i a h1
      split at hsc
      · cases hsc
      · rename_i c h2
        cases hsc
        have hside : inv = true → (a = .none ∧ c = .none) := by
          rintro rfl
          have hn := hsafe.2.2 rfl
          exact ⟨hno hl (fun n m => hn n (List.mem_append.2 (Or.inl m))) h1,
              hno hr (fun n m => hn n (List.mem_append.2 (Or.inr m))) h2⟩
        have k1 := ihl hsafe.1 h1
        have k2 := ihr hsafe.2.1 h2
        simp only [sat]
        revert k1 k2 hside
        cases inv <;> cases a <;> cases c <;> simp +contextual [SC.SaysP, scOr]

/-- the shortcut on a stored subscription gives the verdict of the specification -/
theorem Made.short_sat {geo : GeoTest} {env : Env} {cfg : Config} {q : Req} {s : Sub} (hm : Made cfg q s)
    {cap min : Nat} {decls : List (Str × Decl × Bool)} (hx : CfgExt (makeTree cap min decls).cfg cfg)
    (hsafe : ShortSafe (Optional decls) false q.expr) (hs : Small cfg) {ev : List EventVar}
    (he : eventEnv cfg ev = .ok env) {undef : Bits} (hu : makeUndefined env = .ok undef) (C : Constants) :
    (tryShortCircuit s.pass s.fail undef).SaysP false (sat geo C (eventOf ev) (parseBuild q.expr)) := by
  have und : ∀ {j : Nat}, testBit undef j = .ok true → env[j]? = some none := by
    intro j hj
    rcases mark_true hu j hj with h | ⟨_, h⟩
    · exact absurd h fresh_false
    · simpa using h
  have one : ∀ {j : Nat} {d : Domain} {r : SC}, cfg.domains[j]? = some d → d.allowUndefined = true →
      scExpr d.attr.var false s.expr.erase = .ok r → testBit undef j = .ok true →
      r.SaysP false (sat geo C (eventOf ev) (parseBuild q.expr)) := by
    intro j d r h1 h2 h3 h4
    obtain ⟨c, hc, ha, _, hau⟩ := domain_later hx h1
    have hj : j < cfg.domains.length := by
      rcases Nat.lt_or_ge j cfg.domains.length with h | h
      · exact h
      · rw [List.getElem?_eq_none h] at h1; cases h1
    have hlen := hs.domains
    have hvar : d.attr.var = j := by rw [ha]
    rw [hvar] at h3
    refine sc_sat hm.res (opt := Optional decls) ?_ ?_ (shortSafe_parse hsafe) h3
    · intro n hn
      obtain ⟨_, d', h5, h6⟩ := tryGetId_lt (a := n) (cfg := cfg) (by rw [hn]; omega)
      rw [hn, h1] at h5
      cases h5
      refine ⟨c, List.mem_of_getElem? hc, ?_, by rw [← hau, h2]⟩
      rw [ha] at h6
      exact h6
    · intro v v' hv hvj
      have hg : getVariable env v'.var = .ok none := by unfold getVariable; rw [hvj, und h4]
      rcases lookup hs he hv with h | ⟨_, h⟩ | ⟨y, x, h, _⟩
      · rw [hg] at h; cases h
      · exact h
      · rw [hg] at h; cases h
  constructor
  · intro h
    obtain ⟨j, h1, h2⟩ := try_true.1 h
    rcases (fill_true hm.sc j).1 h1 with h3 | ⟨d, _, h3, h4, h5⟩
    · exact absurd h3 fresh_false
    · exact (one h3 h4 h5 h2).1 rfl
  · intro h
    obtain ⟨j, h1, h2⟩ := try_true.2 h
    rcases (fill_true hm.sc j).2 h1 with h3 | ⟨d, _, h3, h4, h5⟩
    · exact absurd h3 fresh_false
    · exact (one h3 h4 h5 h2).2 rfl

end BeTree
