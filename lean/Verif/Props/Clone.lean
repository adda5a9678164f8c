import Verif.Model.Clone
import Verif.Model.Memo
import Verif.Spec.Clone
import Verif.Props.TypedSearch
/-
C55: copies of expressions.
-/
namespace BeTree
open Spec

theorem cloneIntegerList_eq : ∀ l, cloneIntegerList l = l
  | [] => rfl
  | i :: l => by rw [cloneIntegerList, cloneIntegerList_eq l]

theorem cloneStringList_eq : ∀ l, cloneStringList l = l
  | [] => rfl
  | s :: l => by rw [cloneStringList, cloneStringList_eq l]; rfl

theorem clonePred_eq {p : Pred} (h : Placeless p) : clonePred p = p := by
  cases p with
  | compare op v c => cases c <;> rfl
  | equality op v c => cases c <;> rfl
  | set op l r => cases l <;> cases r <;> simp [clonePred, cloneSetLeft, cloneSetRight, cloneAttrVar, cloneStringValue, cloneIntegerList_eq, cloneStringList_eq]
  | list op v c => cases c <;> simp [clonePred, cloneListValue, cloneAttrVar, cloneIntegerList_eq, cloneStringList_eq]
  | freq f => exact h.elim
  | segment s => exact h.elim
  | geo g => exact h.elim
  | _ => rfl

theorem clonePred_match {p : Pred} (h : FirstPlaced p) (geo : GeoTest) (env : Env) :
    matchPred geo env (clonePred p) = matchPred geo env p := by
  cases p with
  | freq f =>
    obtain ⟨h1, h2⟩ := h
    simp only [clonePred, matchPred, matchFreq, zeroVar, cloneAttrVar, cloneStringValue, h1, h2]
  | segment s =>
    replace h : s.now.var = 0 := h
    simp only [clonePred, matchPred, matchSegment, zeroVar, cloneAttrVar, h]
  | geo g =>
    obtain ⟨h1, h2⟩ := h
    simp only [clonePred, matchPred, matchGeo, zeroVar, h1, h2]
  | _ => rw [clonePred_eq (by trivial)]

/-- **C55**: copying an expression without frequency caps, segment tests and geo tests gives an expression equal to it, ids included. -/
theorem C55_copy_equal : ∀ (e : AExpr), (∀ p ∈ preds e.erase, Placeless p) → cloneNode e = e := by
  intro e
  induction e with
  | leaf g p => intro h; rw [cloneNode, clonePred_eq (h p (by simp [AExpr.erase, preds]))]
  | not g e ih => intro h; rw [cloneNode, ih (by simpa [AExpr.erase, preds] using h)]
  | and g l r ihl ihr =>
    intro h
    simp only [AExpr.erase, preds, List.mem_append] at h
    rw [cloneNode, ihl fun p hp => h p (.inl hp), ihr fun p hp => h p (.inr hp)]
  | or g l r ihl ihr =>
    intro h
    simp only [AExpr.erase, preds, List.mem_append] at h
    rw [cloneNode, ihl fun p hp => h p (.inl hp), ihr fun p hp => h p (.inr hp)]

/-- **C55**: the copy gives the same result as the expression, and the same memoized results, for every event and every state of the
search, if what its special tests read besides their attribute is the first variable declared (and their caps are for the id 0). -/
theorem C55_copy_evaluates_partial (geo : GeoTest) (memoId : Nat → Option Nat) (env : Env) : ∀ (e : AExpr),
    (∀ p ∈ preds e.erase, FirstPlaced p) → ∀ s : MState, matchNode geo memoId env (cloneNode e) s = matchNode geo memoId env e s := by
  intro e
  induction e with
  | leaf g p =>
    intro h s
    simp only [cloneNode, matchNode, clonePred_match (h p (by simp [AExpr.erase, preds]))]
  | not g e ih =>
    intro h s
    have := ih (by simpa [AExpr.erase, preds] using h)
    simp only [cloneNode, matchNode, this]
  | and g l r ihl ihr =>
    intro h s
    simp only [AExpr.erase, preds, List.mem_append] at h
    simp only [cloneNode, matchNode, ihl fun p hp => h p (.inl hp), ihr fun p hp => h p (.inr hp)]
  | or g l r ihl ihr =>
    intro h s
    simp only [AExpr.erase, preds, List.mem_append] at h
    simp only [cloneNode, matchNode, ihl fun p hp => h p (.inl hp), ihr fun p hp => h p (.inr hp)]

/-- **C55**: a copy of a copy is the copy. -/
theorem C55_copy_again : ∀ e : AExpr, cloneNode (cloneNode e) = cloneNode e := by
  intro e
  induction e with
  | leaf g p =>
    cases p with
    | freq f => rfl
    | segment s => rfl
    | geo g => rfl
    | _ => simp only [cloneNode]; rw [clonePred_eq (p := clonePred _) (by trivial)]
  | not g e ih => simp only [cloneNode, ih]
  | and g l r ihl ihr => simp only [cloneNode, ihl, ihr]
  | or g l r ihl ihr => simp only [cloneNode, ihl, ihr]

/-! ### Witnesses -/

def copyCap : AExpr := .leaf 0 (.freq ⟨⟨"fc".toList, 1⟩, .flight, ⟨"ns".toList, 1, 0⟩, 4, 0, ⟨"now".toList, 0⟩, 10⟩)
def copySeg : AExpr := .leaf 0 (.segment ⟨.within, true, ⟨"seg".toList, 1⟩, 7, 20, ⟨"now".toList, 2⟩⟩)
def copyGeo : AExpr := .leaf 0 (.geo ⟨true, 1, 2, 10, ⟨"latitude".toList, 1⟩, ⟨"longitude".toList, 2⟩⟩)

/-- **C55**, not so in general: the copy of a frequency cap has lost the id, so a cap that is used up for the flight 10 counts as free. -/
theorem C55_cap_copy_differs : ∃ env : Env, evalExpr exGeo env copyCap.erase = .ok false ∧ evalExpr exGeo env (cloneNode copyCap).erase = .ok true :=
  ⟨[some (.int 5), some (.freq [⟨.flight, 10, ⟨"ns".toList, 1, 0⟩, true, 5, 9⟩])], by decide +kernel, by decide +kernel⟩

/-- **C55**, not so in general: the copy of a segment test takes the first variable for the time. -/
theorem C55_segment_copy_differs : ∃ env : Env, evalExpr exGeo env copySeg.erase = .ok true ∧ evalExpr exGeo env (cloneNode copySeg).erase = .ok false :=
  ⟨[some (.int 500000000), some (.segments [⟨7, 90000000⟩]), some (.int 100)], by decide +kernel, by decide +kernel⟩

/-- **C55**, not so in general: the copy of a geo test takes the first variable for both coordinates; where it is not a float, the union
is read at another type. -/
theorem C55_geo_copy_faults : ∃ env : Env, (∃ b, evalExpr exGeo env copyGeo.erase = .ok b) ∧
    (match evalExpr exGeo env (cloneNode copyGeo).erase with | .error .ub => true | _ => false) = true :=
  ⟨[some (.int 5), some (.float 1), some (.float 2)], ⟨_, rfl⟩, by decide +kernel⟩

/-- the hypotheses of `C55_copy_equal` and `C55_copy_evaluates_partial` -/
def copyBoth : AExpr := .and 3 (.or 1 (.leaf 0 (.list .oneOf ⟨"il".toList, 1⟩ (.intList [1, 2]))) (.leaf 2 (.isNull .isEmpty ⟨"il".toList, 1⟩)))
  (.not 4 (.leaf 5 (.set .isIn (.var ⟨"s".toList, 2⟩) (.strList [⟨"a".toList, 2, 0⟩]))))

example : cloneNode copyBoth = copyBoth := C55_copy_equal _ (by
  intro p hp
  simp [copyBoth, AExpr.erase, preds] at hp
  rcases hp with h | h | h <;> subst h <;> trivial)

def copyFirst : AExpr := .or 1 (.leaf 0 (.segment ⟨.within, true, ⟨"seg".toList, 1⟩, 7, 20, ⟨"now".toList, 0⟩⟩)) (.leaf 2 (.boolVar ⟨"b".toList, 2⟩))

example : (∀ p ∈ preds copyFirst.erase, FirstPlaced p) ∧ cloneNode copyFirst ≠ copyFirst := by
  refine ⟨?_, by decide⟩
  intro p hp
  simp [copyFirst, AExpr.erase, preds] at hp
  rcases hp with h | h <;> subst h <;> trivial

end BeTree
