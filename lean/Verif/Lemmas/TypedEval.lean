import Verif.Lemmas.TypedPred
import Verif.Lemmas.Shape
import Verif.Lemmas.Memo
import Verif.Spec.WellTyped
/-
Evaluation of well-typed stored expressions on well-typed events does not fault.
-/
namespace BeTree
open Spec

/-! ### binary search answers on every array -/

theorem bsearchLoop_total {α : Type} [LT α] [DecidableLT α] [DecidableEq α] (l : List α) (x : α) :
    ∀ (fuel : Nat) (lo hi : Int), 0 ≤ lo → hi < l.length → hi - lo + 1 < fuel → 0 < fuel →
      ∃ b, bsearchLoop l x fuel lo hi = .ok b := by
  intro fuel
  induction fuel with
  | zero => intro lo hi _ _ _ h; omega
  | succ n ih =>
    intro lo hi h0 h1 h2 _
    unfold bsearchLoop
    by_cases hc : hi ≥ lo
    · rw [if_pos hc]
      try dsimp only
      have hm1 : lo ≤ lo + (hi - lo) / 2 := by omega
      have hm2 : lo + (hi - lo) / 2 ≤ hi := by omega
      rw [if_neg (by omega)]
      have hlt : (lo + (hi - lo) / 2).toNat < l.length := by omega
      rw [List.getElem?_eq_getElem hlt]
      try dsimp only
      split
      · exact ⟨_, rfl⟩
      · split
        · exact ih _ _ (by omega) h1 (by omega) (by omega)
        · exact ih _ _ h0 (by omega) (by omega) (by omega)
    · rw [if_neg hc]; exact ⟨_, rfl⟩

theorem bsearch_total {α : Type} [LT α] [DecidableLT α] [DecidableEq α] (l : List α) (x : α) : ∃ b, bsearch l x = .ok b :=
  bsearchLoop_total l x _ _ _ (by omega) (by omega) (by omega) (by omega)

/-! ### stored predicates on a typed environment -/

/-- the variable table of an event: one entry per domain, of the domain's type -/
structure EnvTyped (cfg : Config) (env : Env) : Prop where
  len : env.length = cfg.domains.length
  ty : ∀ (v : Nat) (x : Value), env[v]? = some (some x) → tyAt cfg v = some x.vtype

/-- the variables of a special function have the type it reads them at -/
def SpecialFit (cfg : Config) : Pred → Prop
  | .freq f => tyAt cfg f.attr.var = some .freq ∧ tyAt cfg f.now.var = some .int
  | .segment s => tyAt cfg s.attr.var = some .segments ∧ tyAt cfg s.now.var = some .int
  | .geo g => tyAt cfg g.latVar.var = some .float ∧ tyAt cfg g.lonVar.var = some .float
  | .str s => tyAt cfg s.attr.var = some .string
  | _ => True

theorem getVariable_inDom {cfg : Config} {env : Env} (he : EnvTyped cfg env) {v : AttrVar} (h : InDom cfg.domains v) :
    ∃ x, getVariable env v.var = .ok x ∧ ∀ y, x = some y → tyAt cfg v.var = some y.vtype := by
  have hlt : v.var < env.length := by rw [he.len]; exact h
  unfold getVariable
  rw [List.getElem?_eq_getElem hlt]
  refine ⟨_, rfl, fun y hy => he.ty v.var y ?_⟩
  rw [List.getElem?_eq_getElem hlt, hy]

theorem getVariable_ty {cfg : Config} {env : Env} (he : EnvTyped cfg env) {v : AttrVar} {t : VType}
    (h : tyAt cfg v.var = some t) : getVariable env v.var = .ok none ∨ ∃ y, getVariable env v.var = .ok (some y) ∧ y.vtype = t := by
  obtain ⟨x, h1, h2⟩ := getVariable_inDom he (inDom_of_ty h)
  cases x with
  | none => exact .inl h1
  | some y =>
    refine .inr ⟨y, h1, ?_⟩
    have := h2 y rfl
    rw [h] at this
    exact (Option.some.inj this).symm

theorem matchPred_total {geo : GeoTest} {cfg : Config} {env : Env} (he : EnvTyped cfg env) {p : Pred} (hp : TypedPred cfg p)
    (hs : SpecialFit cfg p) : ∃ b, matchPred geo env p = .ok b := by
  have hb : ∀ {α : Type} [LT α] [DecidableLT α] [DecidableEq α] (l : List α) (x : α) (op : SetOp),
      ∃ b, (bsearch l x).map (applySetOp op) = .ok b := by
    intro α _ _ _ l x op
    obtain ⟨b, hb⟩ := bsearch_total l x
    exact ⟨applySetOp op b, by rw [hb]; rfl⟩
  cases p with
  | compare op v c =>
    cases c <;> (replace hp : tyAt cfg v.var = some _ := hp; rcases getVariable_ty he hp with h | ⟨y, h, hy⟩ <;>
      simp only [matchPred, matchCompare, h])
    · exact ⟨_, rfl⟩
    · cases y <;> cases hy; exact ⟨_, rfl⟩
    · exact ⟨_, rfl⟩
    · cases y <;> cases hy; exact ⟨_, rfl⟩
  | equality op v c =>
    cases c <;> (replace hp : tyAt cfg v.var = some _ := hp; rcases getVariable_ty he hp with h | ⟨y, h, hy⟩ <;>
      simp only [matchPred, matchEquality, h]) <;> first
      | exact ⟨_, rfl⟩
      | (cases y <;> cases hy; exact ⟨_, rfl⟩)
  | boolVar v =>
    replace hp : tyAt cfg v.var = some _ := hp
    rcases getVariable_ty he hp with h | ⟨y, h, hy⟩
    · simp only [matchPred, getBoolVar, h]; exact ⟨_, rfl⟩
    · simp only [matchPred, getBoolVar, h]; cases y <;> cases hy; exact ⟨_, rfl⟩
  | boolLit b => exact ⟨b, rfl⟩
  | set op l r =>
    cases l <;> cases r <;> first | exact hp.elim | skip
    all_goals
      rename_i a c
      first
        | replace hp : tyAt cfg a.var = some _ := hp
        | replace hp : tyAt cfg c.var = some _ := hp
      rcases getVariable_ty he hp with h | ⟨y, h, hy⟩
      · simp only [matchPred, matchSet, getIntListVar, getStrListVar, getIntVar, getStringVar, h]; exact ⟨_, rfl⟩
      · simp only [matchPred, matchSet, getIntListVar, getStrListVar, getIntVar, getStringVar, h]
        cases y <;> cases hy
        exact hb _ _ _
  | list op v c =>
    cases c <;> (replace hp : tyAt cfg v.var = some _ := hp; rcases getVariable_ty he hp with h | ⟨y, h, hy⟩ <;>
      simp only [matchPred, matchList, h]) <;> first
      | exact ⟨_, rfl⟩
      | (cases y <;> cases hy; exact ⟨_, rfl⟩)
  | freq f =>
    obtain ⟨h1, h2⟩ := hs
    simp only [matchPred, matchFreq, getFreqVar, getIntVar]
    rcases getVariable_ty he h1 with h | ⟨y, h, hy⟩ <;> rw [h] <;> try dsimp only
    · exact ⟨_, rfl⟩
    · cases y <;> cases hy
      try dsimp only
      split
      · exact ⟨_, rfl⟩
      · rcases getVariable_ty he h2 with h | ⟨y, h, hy⟩ <;> rw [h] <;> try dsimp only
        · exact ⟨_, rfl⟩
        · cases y <;> cases hy; exact ⟨_, rfl⟩
  | segment s =>
    obtain ⟨h1, h2⟩ := hs
    simp only [matchPred, matchSegment, getSegmentsVar, getIntVar]
    rcases getVariable_ty he h1 with h | ⟨y, h, hy⟩ <;> rw [h] <;> try dsimp only
    · exact ⟨_, rfl⟩
    · cases y <;> cases hy
      try dsimp only
      rcases getVariable_ty he h2 with h | ⟨y, h, hy⟩ <;> rw [h] <;> try dsimp only
      · exact ⟨_, rfl⟩
      · cases y <;> cases hy
        try dsimp only
        split <;> exact ⟨_, rfl⟩
  | geo g =>
    obtain ⟨h1, h2⟩ := hs
    simp only [matchPred, matchGeo, getFloatVar]
    rcases getVariable_ty he h1 with h | ⟨y, h, hy⟩ <;> rw [h] <;> try dsimp only
    · rcases getVariable_ty he h2 with h | ⟨y, h, hy⟩ <;> rw [h] <;> try dsimp only
      · exact ⟨_, rfl⟩
      · cases y <;> cases hy; exact ⟨_, rfl⟩
    · cases y <;> cases hy
      try dsimp only
      rcases getVariable_ty he h2 with h | ⟨y, h, hy⟩ <;> rw [h] <;> try dsimp only
      · exact ⟨_, rfl⟩
      · cases y <;> cases hy; exact ⟨_, rfl⟩
  | str s =>
    replace hs : tyAt cfg s.attr.var = some .string := hs
    simp only [matchPred, matchStr, getStringVar]
    rcases getVariable_ty he hs with h | ⟨y, h, hy⟩ <;> rw [h] <;> try dsimp only
    · exact ⟨_, rfl⟩
    · cases y <;> cases hy
      try dsimp only
      split <;> exact ⟨_, rfl⟩
  | isNull op v =>
    obtain ⟨x, h1, _⟩ := getVariable_inDom he hp
    simp only [matchPred, matchIsNull, h1]
    cases op <;> exact ⟨_, rfl⟩

theorem evalExpr_total {geo : GeoTest} {cfg : Config} {env : Env} (he : EnvTyped cfg env) {e : Expr} (hp : e.All (TypedPred cfg))
    (hs : e.All (SpecialFit cfg)) : ∃ b, evalExpr geo env e = .ok b := by
  induction e with
  | leaf p => exact matchPred_total he hp hs
  | not e ih => obtain ⟨b, h⟩ := ih hp hs; exact ⟨!b, by simp only [evalExpr, h]⟩
  | and l r ihl ihr =>
    obtain ⟨b, h⟩ := ihl hp.1 hs.1
    obtain ⟨c, k⟩ := ihr hp.2 hs.2
    simp only [evalExpr, h]
    cases b
    · exact ⟨_, rfl⟩
    · exact ⟨c, k⟩
  | or l r ihl ihr =>
    obtain ⟨b, h⟩ := ihl hp.1 hs.1
    obtain ⟨c, k⟩ := ihr hp.2 hs.2
    simp only [evalExpr, h]
    cases b
    · exact ⟨c, k⟩
    · exact ⟨_, rfl⟩

end BeTree
