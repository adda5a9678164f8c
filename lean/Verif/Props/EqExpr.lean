import Verif.Model.EqExpr
import Verif.Lemmas.Double
/-
C41: eq_expr.
-/
namespace BeTree

theorem feq_self (x : Rat) : feq x x = true := by
  have h : x - x = 0 := by grind
  simp only [feq, h, rnd_zero]; decide

theorem feq_comm (x y : Rat) : feq x y = feq y x := by
  have : (rnd (x - y)).abs = (rnd (y - x)).abs := by
    rw [rat_abs_eq, rat_abs_eq, show x - y = -(y - x) by ring, rnd_neg, abs_neg]
  simp only [feq, this]

theorem eqStrList_self (l : List StrVal) : eqStrList l l = true := by
  induction l with
  | nil => rfl
  | cons x xs ih => simp [eqStrList, ih]

theorem eqStrList_comm (l m : List StrVal) : eqStrList l m = eqStrList m l := by
  induction l generalizing m with
  | nil => cases m <;> rfl
  | cons x xs ih =>
    cases m with
    | nil => rfl
    | cons y ys =>
      simp only [eqStrList, ih ys]
      have : (x.var = y.var ∧ x.str ≠ y.str) ↔ (y.var = x.var ∧ y.str ≠ x.str) := by
        constructor <;> rintro ⟨a, b⟩ <;> exact ⟨a.symm, fun h => b h.symm⟩
      simp only [this]

theorem eqPred_self (p : Pred) : eqPred p p = true := by
  cases p with
  | compare op v c => cases c <;> simp [eqPred, eqCmpVal, feq_self]
  | equality op v c => cases c <;> simp [eqPred, eqEqVal, feq_self]
  | set op l r => cases l <;> cases r <;> simp [eqPred, eqSetLeft, eqSetRight, eqStrList_self]
  | list op v c => cases c <;> simp [eqPred, eqListVal, eqStrList_self]
  | geo g => simp [eqPred, feq_self]
  | _ => simp [eqPred]

theorem decide_comm {p q : Prop} [Decidable p] [Decidable q] (h : p ↔ q) : decide p = decide q := by
  simp only [h]

theorem eqCmpVal_comm (a b : CmpVal) : eqCmpVal a b = eqCmpVal b a := by
  cases a <;> cases b <;> simp only [eqCmpVal] <;> first | exact feq_comm _ _ | exact decide_comm eq_comm

theorem eqEqVal_comm (a b : EqVal) : eqEqVal a b = eqEqVal b a := by
  cases a <;> cases b <;> simp only [eqEqVal] <;>
    first | exact feq_comm _ _ | exact decide_comm eq_comm | exact decide_comm (and_congr eq_comm eq_comm)

theorem eqSetLeft_comm (a b : SetLeft) : eqSetLeft a b = eqSetLeft b a := by
  cases a <;> cases b <;> simp only [eqSetLeft] <;>
    first | exact decide_comm eq_comm | exact decide_comm (and_congr eq_comm eq_comm)

theorem eqSetRight_comm (a b : SetRight) : eqSetRight a b = eqSetRight b a := by
  cases a <;> cases b <;> simp only [eqSetRight] <;>
    first | exact decide_comm eq_comm | exact eqStrList_comm _ _

theorem eqListVal_comm (a b : ListVal) : eqListVal a b = eqListVal b a := by
  cases a <;> cases b <;> simp only [eqListVal] <;>
    first | exact decide_comm eq_comm | exact eqStrList_comm _ _

theorem eqPred_comm (p q : Pred) : eqPred p q = eqPred q p := by
  cases p <;> cases q <;> simp only [eqPred]
  case compare.compare => rw [eqCmpVal_comm, decide_comm (eq_comm (a := AttrVar.var _)), decide_comm (eq_comm (a := (_ : CmpOp)))]
  case equality.equality => rw [eqEqVal_comm, decide_comm (eq_comm (a := AttrVar.var _)), decide_comm (eq_comm (a := (_ : EqOp)))]
  case boolVar.boolVar => exact decide_comm eq_comm
  case boolLit.boolLit => exact Bool.beq_comm
  case set.set => rw [eqSetLeft_comm, eqSetRight_comm, decide_comm (eq_comm (a := (_ : SetOp)))]
  case list.list => rw [eqListVal_comm, decide_comm (eq_comm (a := AttrVar.var _)), decide_comm (eq_comm (a := (_ : ListOp)))]
  case freq.freq => exact decide_comm (by constructor <;> (rintro ⟨a, b, c, d, e, f⟩; exact ⟨a.symm, b.symm, c.symm, d.symm, e.symm, f.symm⟩))
  case segment.segment => exact decide_comm (by constructor <;> (rintro ⟨a, b, c, d, e⟩; exact ⟨a.symm, b.symm, c.symm, d.symm, e.symm⟩))
  case geo.geo a b => rw [feq_comm a.latitude, feq_comm a.longitude, feq_comm a.radius, Bool.beq_comm]
  case str.str => exact decide_comm (by constructor <;> (rintro ⟨a, b, c⟩; exact ⟨a.symm, b.symm, c.symm⟩))
  case isNull.isNull => exact decide_comm eq_comm

/-- C41: `eq_expr` is reflexive. -/
theorem C41_reflexive (e : Expr) : eqExpr e e = true := by
  induction e with
  | leaf p => exact eqPred_self p
  | not e ih => exact ih
  | and l r ihl ihr => simp [eqExpr, ihl, ihr]
  | or l r ihl ihr => simp [eqExpr, ihl, ihr]

/-- C41: `eq_expr` is symmetric. -/
theorem C41_symmetric (a b : Expr) : eqExpr a b = eqExpr b a := by
  induction a generalizing b with
  | leaf p => cases b <;> simp [eqExpr, eqPred_comm]
  | not e ih => cases b <;> simp [eqExpr, ih]
  | and l r ihl ihr => cases b <;> simp [eqExpr]; rw [ihl, ihr]
  | or l r ihl ihr => cases b <;> simp [eqExpr]; rw [ihl, ihr]

/-! ### soundness on a fragment -/

/-- the predicates on which `eq_expr` compares everything evaluation reads: no null test (operator ignored), no frequency
cap (id ignored), no geo (variables ignored), no float constant (compared up to epsilon); `now` is the attribute with id
`now`; the strings of a list belong to the list's attribute. -/
def EqSafePred (now : Nat) : Pred → Prop
  | .compare _ _ (.int _) => True
  | .compare _ _ (.float _) => False
  | .equality _ _ (.float _) => False
  | .equality _ _ _ => True
  | .boolVar _ => True
  | .boolLit _ => True
  | .set _ (.var v) (.strList l) => ∀ s ∈ l, s.var = v.var
  | .set _ _ (.strList _) => False
  | .set _ _ _ => True
  | .list _ _ (.intList _) => True
  | .list _ v (.strList l) => ∀ s ∈ l, s.var = v.var
  | .segment s => s.now.var = now
  | .str _ => True
  | .freq _ => False
  | .geo _ => False
  | .isNull _ _ => False

def EqSafe (now : Nat) : Expr → Prop
  | .leaf p => EqSafePred now p
  | .not e => EqSafe now e
  | .and l r => EqSafe now l ∧ EqSafe now r
  | .or l r => EqSafe now l ∧ EqSafe now r

theorem eqStrList_ids {v w : Nat} (hvw : v = w) :
    ∀ {l m : List StrVal}, (∀ s ∈ l, s.var = v) → (∀ s ∈ m, s.var = w) → eqStrList l m = true →
      l.map StrVal.str = m.map StrVal.str
  | [], [], _, _, _ => rfl
  | [], _ :: _, _, _, h => by simp [eqStrList] at h
  | _ :: _, [], _, _, h => by simp [eqStrList] at h
  | x :: xs, y :: ys, hx, hy, h => by
    have h1 := hx x (by simp)
    have h2 := hy y (by simp)
    simp only [eqStrList] at h
    split at h
    · cases h
    · rename_i hn
      have : x.str = y.str := by
        apply Classical.byContradiction
        intro hne; exact hn ⟨by rw [h1, h2, hvw], hne⟩
      simp only [List.map_cons, this, List.cons.injEq, true_and]
      exact eqStrList_ids hvw (fun s hs => hx s (by simp [hs])) (fun s hs => hy s (by simp [hs])) h

theorem eqPred_sound {now : Nat} {p q : Pred} (hp : EqSafePred now p) (hq : EqSafePred now q) (h : eqPred p q = true)
    (geo : GeoTest) (env : Env) : matchPred geo env p = matchPred geo env q := by
  cases p <;> cases q <;> simp only [eqPred, Bool.false_eq_true] at h
  case compare.compare o v c o' v' c' =>
    simp only [Bool.and_eq_true, decide_eq_true_eq] at h
    obtain ⟨⟨h1, rfl⟩, h3⟩ := h
    cases c <;> cases c' <;> simp [eqCmpVal, EqSafePred] at h3 hp hq
    subst h3; simp [matchPred, matchCompare, h1]
  case equality.equality o v c o' v' c' =>
    simp only [Bool.and_eq_true, decide_eq_true_eq] at h
    obtain ⟨⟨h1, rfl⟩, h3⟩ := h
    cases c <;> cases c' <;> simp [eqEqVal, EqSafePred] at h3 hp hq
    · subst h3; simp [matchPred, matchEquality, h1]
    · simp only [matchPred, matchEquality, h1]
      rcases getVariable env v'.var with _ | _ | val <;> try rfl
      cases val <;> simp [h3]
    · simp only [matchPred, matchEquality, h1]
      rcases getVariable env v'.var with _ | _ | val <;> try rfl
      cases val <;> simp [h3]
  case boolVar.boolVar => simp only [decide_eq_true_eq] at h; simp [matchPred, h]
  case boolLit.boolLit => simp only [beq_iff_eq] at h; simp [matchPred, h]
  case set.set o l r o' l' r' =>
    simp only [Bool.and_eq_true, decide_eq_true_eq] at h
    obtain ⟨⟨rfl, h2⟩, h3⟩ := h
    cases l <;> cases l' <;> simp [eqSetLeft] at h2 <;> cases r <;> cases r' <;>
      simp [eqSetRight, EqSafePred] at h3 hp hq <;> simp [matchPred, matchSet, h2, h3]
    rw [eqStrList_ids h2 hp hq h3]
  case list.list o v c o' v' c' =>
    simp only [Bool.and_eq_true, decide_eq_true_eq] at h
    obtain ⟨⟨rfl, h2⟩, h3⟩ := h
    cases c <;> cases c' <;> simp [eqListVal, EqSafePred] at h3 hp hq
    · subst h3; simp [matchPred, matchList, h2]
    · simp only [matchPred, matchList, h2]
      rcases getVariable env v'.var with _ | _ | val <;> try rfl
      cases val <;> simp [eqStrList_ids h2 hp hq h3]
  case freq.freq => exact hp.elim
  case segment.segment a b =>
    simp only [decide_eq_true_eq] at h
    simp only [EqSafePred] at hp hq
    obtain ⟨h1, _, h3, h4, h5⟩ := h
    simp [matchPred, matchSegment, h1, h3, h4, h5, hp, hq]
  case geo.geo => exact hp.elim
  case str.str a b =>
    simp only [decide_eq_true_eq] at h
    obtain ⟨h1, h2, h3⟩ := h
    simp [matchPred, matchStr, h1, h2, h3]
  case isNull.isNull => exact hp.elim

/-- C41, one direction, on the fragment: expressions that `eq_expr` identifies have the same value on every event.
Missing: null tests, frequency caps, geo functions, float constants (see the counter-examples below), and the converse for
expressions that are equivalent but written differently. -/
theorem C41_equal_means_same_partial (now : Nat) (a b : Expr) (ha : EqSafe now a) (hb : EqSafe now b)
    (h : eqExpr a b = true) (geo : GeoTest) (env : Env) : evalExpr geo env a = evalExpr geo env b := by
  induction a generalizing b with
  | leaf p => cases b <;> simp [eqExpr] at h; exact eqPred_sound ha hb h geo env
  | not e ih =>
    cases b with
    | not b => simp [eqExpr] at h; simp only [evalExpr]; rw [ih b ha hb h]
    | _ => simp [eqExpr] at h
  | and l r ihl ihr =>
    cases b <;> simp [eqExpr] at h
    simp only [evalExpr]; rw [ihl _ ha.1 hb.1 h.1, ihr _ ha.2 hb.2 h.2]
  | or l r ihl ihr =>
    cases b <;> simp [eqExpr] at h
    simp only [evalExpr]; rw [ihl _ ha.1 hb.1 h.1, ihr _ ha.2 hb.2 h.2]

/-- two copies of `s in ("a","b") and not i > 3` that differ in the (irrelevant) spelling of the attribute -/
example : ∃ a b, a ≠ b ∧ EqSafe 9 a ∧ EqSafe 9 b ∧ eqExpr a b = true := by
  let f : String → Expr := fun n =>
    .and (.leaf (.set .isIn (.var ⟨n.toList, 0⟩) (.strList [⟨"a".toList, 0, 0⟩, ⟨"b".toList, 0, 1⟩])))
      (.not (.leaf (.compare .gt ⟨"i".toList, 1⟩ (.int 3))))
  exact ⟨f "s", f "S", by decide, by simp [f, EqSafe, EqSafePred], by simp [f, EqSafe, EqSafePred], by decide⟩

/-! ### counter-examples -/

/-- C41 fails in the code: `is null` and `is not null` of the same attribute are "equal", and differ on every event. -/
theorem C41_null_tests_confused (geo : GeoTest) : ∃ a b : Expr, eqExpr a b = true ∧
    evalExpr geo [none] a ≠ evalExpr geo [none] b :=
  ⟨.leaf (.isNull .isNull ⟨"x".toList, 0⟩), .leaf (.isNull .isNotNull ⟨"x".toList, 0⟩), by decide, by
    simp [evalExpr, matchPred, matchIsNull, getVariable]⟩

/-- C41 fails in the code: frequency caps of two campaigns are "equal", and differ on an event with a cap for one. -/
theorem C41_frequency_ids_ignored (geo : GeoTest) : ∃ (a b : Expr) (env : Env), eqExpr a b = true ∧
    evalExpr geo env a ≠ evalExpr geo env b := by
  let f : Nat → Expr := fun id => .leaf (.freq
    { attr := ⟨"frequency_caps".toList, 0⟩, type := .flight, ns := ⟨"ns".toList, 0, 0⟩, value := 1, length := 0,
      now := ⟨"now".toList, 1⟩, id := id })
  refine ⟨f 1, f 2, [some (.freq [⟨.flight, 1, ⟨"ns".toList, 0, 0⟩, false, 0, 5⟩]), some (.int 0)], by decide, ?_⟩
  simp [f, evalExpr, matchPred, matchFreq, getFreqVar, getIntVar, getVariable, withinFrequencyCaps, toU32]

/-- C41 fails in the code: float constants closer than epsilon are "equal", and `f < c` differs on a value between. -/
theorem C41_close_floats_confused (geo : GeoTest) : ∃ (a b : Expr) (env : Env), eqExpr a b = true ∧
    evalExpr geo env a ≠ evalExpr geo env b := by
  refine ⟨.leaf (.compare .lt ⟨"f".toList, 0⟩ (.float 0)), .leaf (.compare .lt ⟨"f".toList, 0⟩ (.float (mkRat 1 (2 ^ 60)))),
    [some (.float 0)], by decide +kernel, ?_⟩
  have : (0 : Rat) < mkRat 1 (2 ^ 60) := by decide +kernel
  simp only [evalExpr, matchPred, matchCompare, getVariable]
  simpa using this

/-- C41, the other direction fails: `a and b` / `b and a` mean the same and are not "equal". -/
theorem C41_not_complete : ∃ a b : Expr, eqExpr a b = false ∧
    ∀ (geo : GeoTest) (x y : Bool), evalExpr geo [some (.bool x), some (.bool y)] a = evalExpr geo [some (.bool x), some (.bool y)] b := by
  refine ⟨.and (.leaf (.boolVar ⟨"a".toList, 0⟩)) (.leaf (.boolVar ⟨"b".toList, 1⟩)),
    .and (.leaf (.boolVar ⟨"b".toList, 1⟩)) (.leaf (.boolVar ⟨"a".toList, 0⟩)), by decide, ?_⟩
  intro geo x y
  cases x <;> cases y <;> rfl

end BeTree
