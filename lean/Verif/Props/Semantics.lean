import Verif.Lemmas.Eval
import Verif.Model.EqExpr
/-
C11-C16, C19: what evaluating one predicate / one connective means.

Throughout, `env` is the table of variable values of one event (`env[v]? = some none`: declared but undefined), and
`matchPred geo env p` is the code's evaluation of the predicate `p` (`Except`: a fault is not a boolean).
-/
namespace BeTree

/-! ### C11 undefined variables -/

/-- The value of a variable in the table is "undefined". -/
def Undef (env : Env) (v : AttrVar) : Prop := env[v.var]? = some none

/-- The attribute a predicate tests, when it is a predicate on one attribute (specification, by cases on the syntax). -/
def subject : Pred → Option AttrVar
  | .compare _ v _ => some v
  | .equality _ v _ => some v
  | .boolVar v => some v
  | .set _ (.var v) (.intList _) => some v
  | .set _ (.var v) (.strList _) => some v
  | .set _ (.int _) (.var v) => some v
  | .set _ (.string _) (.var v) => some v
  | .list _ v _ => some v
  | .str s => some s.attr
  | .freq f => some f.attr
  | .segment s => some s.attr
  | _ => none

theorem getVariable_undef {env : Env} {v : AttrVar} (h : Undef env v) : getVariable env v.var = .ok none := by
  unfold Undef at h; unfold getVariable; rw [h]

/-- C11: a predicate on an undefined attribute is false, whatever its operator (`<>`, `not in`, `none of` included). -/
theorem C11_undefined_is_false (geo : GeoTest) (env : Env) (p : Pred) (v : AttrVar)
    (hp : subject p = some v) (hu : Undef env v) : matchPred geo env p = .ok false := by
  have hg := getVariable_undef hu
  cases p with
  | compare op w c => cases hp; simp [matchPred, matchCompare, hg]
  | equality op w c => cases hp; simp [matchPred, matchEquality, hg]
  | boolVar w => cases hp; simp [matchPred, getBoolVar, hg]
  | boolLit b => cases hp
  | set op l r =>
    cases l <;> cases r <;> simp only [subject, Option.some.injEq, reduceCtorEq] at hp <;> subst hp <;>
      simp [matchPred, matchSet, getIntListVar, getStrListVar, getIntVar, getStringVar, hg]
  | list op w c => cases hp; simp [matchPred, matchList, hg]
  | freq f => cases hp; simp [matchPred, matchFreq, getFreqVar, hg]
  | segment s => cases hp; simp [matchPred, matchSegment, getSegmentsVar, hg]
  | geo g => cases hp
  | str s => cases hp; simp [matchPred, matchStr, getStringVar, hg]
  | isNull op w => cases hp

/-- C11: `not` of such a predicate is true. -/
theorem C11_not_undefined_is_true (geo : GeoTest) (env : Env) (p : Pred) (v : AttrVar)
    (hp : subject p = some v) (hu : Undef env v) : evalExpr geo env (.not (.leaf p)) = .ok true := by
  simp [evalExpr, C11_undefined_is_false geo env p v hp hu]

/-- C11: `is null` holds exactly on undefined attributes, `is not null` exactly on defined ones. -/
theorem C11_null_tests (geo : GeoTest) (env : Env) (v : AttrVar) (x : Option Value) (hx : env[v.var]? = some x) :
    (matchPred geo env (.isNull .isNull v) = .ok true ↔ x = none) ∧
    (matchPred geo env (.isNull .isNotNull v) = .ok true ↔ x ≠ none) := by
  cases x <;> simp [matchPred, matchIsNull, getVariable, hx]

/-- C11: `is empty` holds exactly on empty lists (not on undefined attributes). -/
theorem C11_is_empty (geo : GeoTest) (env : Env) (v : AttrVar) (x : Option Value) (hx : env[v.var]? = some x) :
    matchPred geo env (.isNull .isEmpty v) = .ok true ↔
      x = some (.intList []) ∨ x = some (.strList []) ∨ x = some (.segments []) ∨ x = some (.freq []) := by
  rcases x with _ | x
  · simp [matchPred, matchIsNull, getVariable, hx]
  · cases x <;> simp [matchPred, matchIsNull, getVariable, hx, isEmptyList]

/-- The hypotheses of C11 are met: variable 1 of a two-variable table, `x <> 3`. -/
example : matchPred (fun _ _ _ _ _ => true) [some (.int 3), none] (.equality .ne ⟨"x".toList, 1⟩ (.int 3)) = .ok false :=
  C11_undefined_is_false _ _ _ ⟨"x".toList, 1⟩ rfl rfl

/-! ### C12 comparisons and equalities -/

/-- C12: integer comparisons. -/
theorem C12_compare_int (geo : GeoTest) (env : Env) (op : CmpOp) (v : AttrVar) (k x : Int)
    (hx : env[v.var]? = some (some (.int x))) :
    matchPred geo env (.compare op v (.int k)) = .ok true ↔ Spec.cmpInt op x k := by
  cases op <;> simp [matchPred, matchCompare, getVariable, hx, Spec.cmpInt]

/-- C12: float comparisons (exact order of the two numbers). -/
theorem C12_compare_float (geo : GeoTest) (env : Env) (op : CmpOp) (v : AttrVar) (k x : Rat)
    (hx : env[v.var]? = some (some (.float x))) :
    matchPred geo env (.compare op v (.float k)) = .ok true ↔ Spec.cmpRat op x k := by
  cases op <;> simp [matchPred, matchCompare, getVariable, hx, Spec.cmpRat]

/-- C12: integer equality and inequality. -/
theorem C12_equality_int (geo : GeoTest) (env : Env) (v : AttrVar) (k x : Int)
    (hx : env[v.var]? = some (some (.int x))) :
    (matchPred geo env (.equality .eq v (.int k)) = .ok true ↔ x = k) ∧
    (matchPred geo env (.equality .ne v (.int k)) = .ok true ↔ x ≠ k) := by
  simp [matchPred, matchEquality, getVariable, hx]

/-- C12: float equality is a distance below `DBL_EPSILON`, inequality its negation. -/
theorem C12_equality_float (geo : GeoTest) (env : Env) (v : AttrVar) (k x : Rat)
    (hx : env[v.var]? = some (some (.float x))) :
    (matchPred geo env (.equality .eq v (.float k)) = .ok true ↔ Spec.closeTo x k) ∧
    (matchPred geo env (.equality .ne v (.float k)) = .ok true ↔ ¬ Spec.closeTo x k) := by
  simp [matchPred, matchEquality, getVariable, hx, feq, fne, Spec.closeTo]

/-- C12: string (in)equality on interned ids; `C25`/`C12_equality_text` (Verif/Props/EndToEnd.lean) relate ids to
texts. -/
theorem C12_equality_string (geo : GeoTest) (env : Env) (v : AttrVar) (k x : StrVal)
    (hx : env[v.var]? = some (some (.string x))) :
    (matchPred geo env (.equality .eq v (.string k)) = .ok true ↔ x.str = k.str) ∧
    (matchPred geo env (.equality .ne v (.string k)) = .ok true ↔ x.str ≠ k.str) := by
  simp [matchPred, matchEquality, getVariable, hx]

example : matchPred (fun _ _ _ _ _ => true) [some (.int 3)] (.compare .le ⟨"x".toList, 0⟩ (.int 3)) = .ok true :=
  (C12_compare_int _ _ .le ⟨_, 0⟩ 3 3 rfl).2 (by simp [Spec.cmpInt])

/-! ### C13 in / not in -/

/-- C13: `x in (..)` on integers: the binary search of the code decides membership in the ascending constant list. -/
theorem C13_in_int (geo : GeoTest) (env : Env) (v : AttrVar) (xs : List Int) (x : Int) (hs : Ascending xs)
    (hx : env[v.var]? = some (some (.int x))) :
    (matchPred geo env (.set .isIn (.var v) (.intList xs)) = .ok true ↔ x ∈ xs) ∧
    (matchPred geo env (.set .notIn (.var v) (.intList xs)) = .ok true ↔ x ∉ xs) := by
  simp [matchPred, matchSet, getIntVar, getVariable, hx, bsearch_spec hs, Except.map, applySetOp]

/-- C13: `s in (..)` on strings, by id. -/
theorem C13_in_string (geo : GeoTest) (env : Env) (v : AttrVar) (xs : List StrVal) (x : StrVal)
    (hs : Ascending (xs.map StrVal.str)) (hx : env[v.var]? = some (some (.string x))) :
    (matchPred geo env (.set .isIn (.var v) (.strList xs)) = .ok true ↔ x.str ∈ xs.map StrVal.str) ∧
    (matchPred geo env (.set .notIn (.var v) (.strList xs)) = .ok true ↔ x.str ∉ xs.map StrVal.str) := by
  simp only [matchPred, matchSet, getStringVar, getVariable, hx, bsearch_spec hs, Except.map, applySetOp]
  simp

/-- C13: `k in list_variable` on integers. -/
theorem C13_in_list_var (geo : GeoTest) (env : Env) (v : AttrVar) (ys : List Int) (k : Int) (hs : Ascending ys)
    (hx : env[v.var]? = some (some (.intList ys))) :
    (matchPred geo env (.set .isIn (.int k) (.var v)) = .ok true ↔ k ∈ ys) ∧
    (matchPred geo env (.set .notIn (.int k) (.var v)) = .ok true ↔ k ∉ ys) := by
  simp [matchPred, matchSet, getIntListVar, getVariable, hx, bsearch_spec hs, Except.map, applySetOp]

/-- C13: `"s" in list_variable` on strings, by id. -/
theorem C13_in_strlist_var (geo : GeoTest) (env : Env) (v : AttrVar) (ys : List StrVal) (k : StrVal)
    (hs : Ascending (ys.map StrVal.str)) (hx : env[v.var]? = some (some (.strList ys))) :
    (matchPred geo env (.set .isIn (.string k) (.var v)) = .ok true ↔ k.str ∈ ys.map StrVal.str) ∧
    (matchPred geo env (.set .notIn (.string k) (.var v)) = .ok true ↔ k.str ∉ ys.map StrVal.str) := by
  simp only [matchPred, matchSet, getStrListVar, getVariable, hx, bsearch_spec hs, Except.map, applySetOp]
  simp

example : matchPred (fun _ _ _ _ _ => true) [some (.int 7)] (.set .isIn (.var ⟨"x".toList, 0⟩) (.intList [1, 3, 3, 7, 9])) =
    .ok true := (C13_in_int _ _ ⟨_, 0⟩ _ 7 (by decide) rfl).1.2 (by decide)

/-! ### C14 one of / none of / all of -/

/-- C14: `one of` and `none of` on integer lists (repetitions allowed on both sides). -/
theorem C14_one_of_none_of (geo : GeoTest) (env : Env) (v : AttrVar) (xs ys : List Int)
    (hxs : Ascending xs) (hys : Ascending ys) (hx : env[v.var]? = some (some (.intList ys))) :
    (matchPred geo env (.list .oneOf v (.intList xs)) = .ok true ↔ Spec.listHolds .oneOf ys xs) ∧
    (matchPred geo env (.list .noneOf v (.intList xs)) = .ok true ↔ Spec.listHolds .noneOf ys xs) := by
  have h := matchNotAllOf_spec ys xs hxs hys
  simp only [matchPred, matchList, getVariable, hx, applyListOp, Spec.listHolds]
  constructor
  · rw [← h]; simp
  · rw [← h]; simp

/-- C14: `all of` on integer lists, when the constants are strictly ascending.  Missing for the full property: constant
lists with repetitions, see `C14_all_of_repeated_constant`. -/
theorem C14_all_of_partial (geo : GeoTest) (env : Env) (v : AttrVar) (xs ys : List Int)
    (hxs : StrictAsc xs) (hys : StrictAsc ys) (hx : env[v.var]? = some (some (.intList ys))) :
    matchPred geo env (.list .allOf v (.intList xs)) = .ok true ↔ Spec.listHolds .allOf ys xs := by
  have h := matchAllOf_spec ys xs hxs hys
  simp only [matchPred, matchList, getVariable, hx, applyListOp, Spec.listHolds]
  rw [← h]; simp

/-- C14: the same for string lists, by id. -/
theorem C14_strings_partial (geo : GeoTest) (env : Env) (op : ListOp) (v : AttrVar) (xs ys : List StrVal)
    (hxs : StrictAsc (xs.map StrVal.str)) (hys : StrictAsc (ys.map StrVal.str))
    (hx : env[v.var]? = some (some (.strList ys))) :
    matchPred geo env (.list op v (.strList xs)) = .ok true ↔
      Spec.listHolds op (ys.map StrVal.str) (xs.map StrVal.str) := by
  have h := matchAllOf_spec _ _ hxs hys
  have h' := matchNotAllOf_spec _ _ hxs.ascending hys.ascending
  cases op <;> simp only [matchPred, matchList, getVariable, hx, applyListOp, Spec.listHolds]
  · rw [← h']; simp
  · rw [← h']; simp
  · rw [← h]; simp

/-- C14 fails for `all of` with a repeated constant: the event list `(1, 2)` contains 1, yet `all of (1, 1)` is false
(the constants are sorted but not deduplicated, ast.c:2468-2528). -/
theorem C14_all_of_repeated_constant :
    matchPred (fun _ _ _ _ _ => true) [some (.intList [1, 2])] (.list .allOf ⟨"il".toList, 0⟩ (.intList [1, 1])) = .ok false ∧
    Spec.listHolds .allOf [(1 : Int), 2] [1, 1] := by
  constructor
  · decide
  · simp [Spec.listHolds]

/-- Even then, `all of` is never true wrongly: no hypothesis on the lists. -/
theorem C14_all_of_sound (geo : GeoTest) (env : Env) (v : AttrVar) (xs ys : List Int)
    (hx : env[v.var]? = some (some (.intList ys)))
    (h : matchPred geo env (.list .allOf v (.intList xs)) = .ok true) : Spec.listHolds .allOf ys xs := by
  simp only [matchPred, matchList, getVariable, hx, applyListOp, matchAllOf, Except.ok.injEq] at h
  split at h
  · exact scanAll_sound ys xs h
  · cases h

example : matchPred (fun _ _ _ _ _ => true) [some (.intList [1, 2, 5])] (.list .allOf ⟨"il".toList, 0⟩ (.intList [2, 5])) =
    .ok true := (C14_all_of_partial _ _ ⟨_, 0⟩ _ _ (by decide) (by decide) rfl).2 (by simp [Spec.listHolds])

/-! ### C16 connectives -/

/-- C16: when the operands evaluate to booleans, the connectives are the classical ones. -/
theorem C16_connectives (geo : GeoTest) (env : Env) (l r : Expr) (a b : Bool)
    (hl : evalExpr geo env l = .ok a) (hr : evalExpr geo env r = .ok b) :
    evalExpr geo env (.not l) = .ok (!a) ∧ evalExpr geo env (.and l r) = .ok (a && b) ∧
      evalExpr geo env (.or l r) = .ok (a || b) := by
  cases a <;> cases b <;> simp [evalExpr, hl, hr]

example : evalExpr (fun _ _ _ _ _ => true) [some (.int 3), none]
    (.and (.leaf (.boolLit true)) (.not (.leaf (.equality .ne ⟨"x".toList, 1⟩ (.int 3))))) = .ok true := by
  have h := C16_connectives (fun _ _ _ _ _ => true) [some (.int 3), none] (.leaf (.boolLit true))
    (.not (.leaf (.equality .ne ⟨"x".toList, 1⟩ (.int 3)))) true true rfl rfl
  exact h.2.1

/-! ### C15 operand reordering -/

/-- An expression evaluates to a boolean, and so do all its parts. -/
def EvalOk (geo : GeoTest) (env : Env) : Expr → Prop
  | .leaf p => ∃ b, matchPred geo env p = .ok b
  | .not e => EvalOk geo env e
  | .and l r => EvalOk geo env l ∧ EvalOk geo env r
  | .or l r => EvalOk geo env l ∧ EvalOk geo env r

theorem EvalOk.eval {geo : GeoTest} {env : Env} {e : Expr} (h : EvalOk geo env e) : ∃ b, evalExpr geo env e = .ok b := by
  induction e with
  | leaf p => exact h
  | not e ih =>
    obtain ⟨b, hb⟩ := ih h
    exact ⟨!b, by simp [evalExpr, hb]⟩
  | and l r ihl ihr =>
    obtain ⟨a, ha⟩ := ihl h.1
    obtain ⟨b, hb⟩ := ihr h.2
    exact ⟨a && b, (C16_connectives geo env l r a b ha hb).2.1⟩
  | or l r ihl ihr =>
    obtain ⟨a, ha⟩ := ihl h.1
    obtain ⟨b, hb⟩ := ihr h.2
    exact ⟨a || b, (C16_connectives geo env l r a b ha hb).2.2⟩

theorem EvalOk.parseBuild {geo : GeoTest} {env : Env} {e : Expr} (h : EvalOk geo env e) :
    EvalOk geo env (parseBuild e) := by
  induction e with
  | leaf p => exact h
  | not e ih => exact ih h
  | and l r ihl ihr =>
    simp only [BeTree.parseBuild, mkAnd]
    split
    · exact ⟨ihr h.2, ihl h.1⟩
    · exact ⟨ihl h.1, ihr h.2⟩
  | or l r ihl ihr =>
    simp only [BeTree.parseBuild, mkOr]
    split
    · exact ⟨ihr h.2, ihl h.1⟩
    · exact ⟨ihl h.1, ihr h.2⟩

/-- C15: the expression the parser builds (operands of `and`/`or` swapped by cost at every level) evaluates to the
same boolean as the expression as written. -/
theorem C15_reorder_preserves_meaning (geo : GeoTest) (env : Env) (e : Expr) (h : EvalOk geo env e) :
    evalExpr geo env (parseBuild e) = evalExpr geo env e := by
  induction e with
  | leaf p => rfl
  | not e ih => simp only [parseBuild, evalExpr]; rw [ih h]
  | and l r ihl ihr =>
    obtain ⟨a, ha⟩ := h.1.eval
    obtain ⟨b, hb⟩ := h.2.eval
    have ha' := (ihl h.1).trans ha
    have hb' := (ihr h.2).trans hb
    rw [(C16_connectives geo env l r a b ha hb).2.1]
    simp only [parseBuild, mkAnd]
    split
    · rw [(C16_connectives geo env _ _ b a hb' ha').2.1, Bool.and_comm]
    · rw [(C16_connectives geo env _ _ a b ha' hb').2.1]
  | or l r ihl ihr =>
    obtain ⟨a, ha⟩ := h.1.eval
    obtain ⟨b, hb⟩ := h.2.eval
    have ha' := (ihl h.1).trans ha
    have hb' := (ihr h.2).trans hb
    rw [(C16_connectives geo env l r a b ha hb).2.2]
    simp only [parseBuild, mkOr]
    split
    · rw [(C16_connectives geo env _ _ b a hb' ha').2.2, Bool.or_comm]
    · rw [(C16_connectives geo env _ _ a b ha' hb').2.2]

/-- C15 at the level of the specification: the built expression means what the written one does, on every event. -/
theorem C15_reorder_preserves_sat (geo : GeoTest) (cs : Spec.Constants) (ev : Spec.Event) (e : Expr) :
    Spec.sat geo cs ev (parseBuild e) ↔ Spec.sat geo cs ev e := by
  induction e with
  | leaf p => rfl
  | not e ih => simp only [parseBuild, Spec.sat, ih]
  | and l r ihl ihr =>
    simp only [parseBuild, mkAnd]
    split <;> simp only [Spec.sat, ihl, ihr, and_comm]
  | or l r ihl ihr =>
    simp only [parseBuild, mkOr]
    split <;> simp only [Spec.sat, ihl, ihr, or_comm]

/-- A case where the operands really are swapped. -/
example : parseBuild (.and (.leaf (.list .oneOf ⟨"l".toList, 0⟩ (.intList [1]))) (.leaf (.boolLit true))) =
      .and (.leaf (.boolLit true)) (.leaf (.list .oneOf ⟨"l".toList, 0⟩ (.intList [1]))) ∧
    EvalOk (fun _ _ _ _ _ => true) [some (.intList [1])]
      (.and (.leaf (.list .oneOf ⟨"l".toList, 0⟩ (.intList [1]))) (.leaf (.boolLit true))) :=
  ⟨rfl, ⟨true, rfl⟩, ⟨true, rfl⟩⟩

/-! ### C19 string functions -/

/-- C19: `contains`, `starts_with`, `ends_with` are infix, prefix, suffix. -/
theorem C19_string_functions (geo : GeoTest) (env : Env) (s : StringExpr) (x : StrVal)
    (hx : env[s.attr.var]? = some (some (.string x))) :
    matchPred geo env (.str s) = .ok true ↔ Spec.strHolds s.op x.string s.pattern := by
  obtain ⟨op, attr, pat⟩ := s
  cases op <;> simp only [matchPred, matchStr, getStringVar, getVariable, hx, Spec.strHolds, Except.ok.injEq]
  · exact strContains_spec pat x.string
  · exact strStartsWith_spec x.string pat
  · exact strEndsWith_spec x.string pat

example : matchPred (fun _ _ _ _ _ => true) [some (.string ⟨"banana".toList, 0, 4⟩)]
    (.str ⟨.contains, ⟨"s".toList, 0⟩, "nan".toList⟩) = .ok true :=
  (C19_string_functions _ _ ⟨.contains, ⟨_, 0⟩, _⟩ _ rfl).2 ⟨"ba".toList, "a".toList, rfl⟩

end BeTree
