import Verif.Lemmas.EvalSat
import Verif.Model.Bounds
import Verif.Spec.Bound
import Verif.Lemmas.Edge
import Mathlib.Tactic.Linarith
import Mathlib.Tactic.Ring
/-
Intervals: the interval computed for a variable contains the value of that variable in every event on which the expression
is true.
-/
namespace BeTree
open Spec

/-! ### order of union members -/

theorem Scalar.le_refl (a : Scalar) : a.le a = true := by cases a <;> simp [Scalar.le]

theorem Scalar.le_trans {a b c : Scalar} (h1 : a.le b = true) (h2 : b.le c = true) : a.le c = true := by
  cases a <;> cases b <;> cases c <;> simp only [Scalar.le, decide_eq_true_eq, reduceCtorEq, Bool.false_eq_true] at h1 h2 ⊢
  · rename_i x y z; cases x <;> cases y <;> cases z <;> simp_all
  · omega
  · exact Rat.le_trans h1 h2
  · omega

theorem Scalar.le_kind {a b : Scalar} (h : a.le b = true) : a.kind = b.kind := by
  cases a <;> cases b <;> first | rfl | (simp [Scalar.le] at h)

theorem Scalar.le_total {a b : Scalar} (h : a.kind = b.kind) : a.le b = true ∨ b.le a = true := by
  cases a <;> cases b <;> simp only [Scalar.kind, reduceCtorEq] at h <;> simp only [Scalar.le, decide_eq_true_eq]
  · rename_i x y; cases x <;> cases y <;> simp
  · omega
  · exact Rat.le_total
  · omega

theorem Scalar.min_le_left {a b : Scalar} : (a.min b).le a = true := by
  cases a <;> cases b <;> simp only [Scalar.min, Scalar.le_refl] <;> simp only [Scalar.le, decide_eq_true_eq]
  · rename_i x y; cases x <;> cases y <;> rfl
  · split <;> omega
  · split
    · exact Rat.le_refl
    · rename_i h; exact Rat.not_lt.1 h
  · split <;> omega

theorem Scalar.min_le_right {a b : Scalar} (h : a.kind = b.kind) : (a.min b).le b = true := by
  cases a <;> cases b <;> simp only [Scalar.kind, reduceCtorEq] at h <;> simp only [Scalar.min, Scalar.le, decide_eq_true_eq]
  · rename_i x y; cases x <;> cases y <;> rfl
  · split <;> omega
  · split
    · rename_i h; exact Rat.le_of_lt h
    · exact Rat.le_refl
  · split <;> omega

theorem Scalar.le_max_left {a b : Scalar} : a.le (a.max b) = true := by
  cases a <;> cases b <;> simp only [Scalar.max, Scalar.le_refl] <;> simp only [Scalar.le, decide_eq_true_eq]
  · rename_i x y; cases x <;> cases y <;> rfl
  · split <;> omega
  · split
    · rename_i h; exact Rat.le_of_lt h
    · exact Rat.le_refl
  · split <;> omega

theorem Scalar.le_max_right {a b : Scalar} (h : a.kind = b.kind) : b.le (a.max b) = true := by
  cases a <;> cases b <;> simp only [Scalar.kind, reduceCtorEq] at h <;> simp only [Scalar.max, Scalar.le, decide_eq_true_eq]
  · rename_i x y; cases x <;> cases y <;> rfl
  · split <;> omega
  · split
    · exact Rat.le_refl
    · rename_i h; exact Rat.not_lt.1 h
  · split <;> omega

theorem Scalar.min_kind {a b : Scalar} : (a.min b).kind = a.kind := Scalar.le_kind Scalar.min_le_left
theorem Scalar.max_kind {a b : Scalar} : (a.max b).kind = a.kind := (Scalar.le_kind Scalar.le_max_left).symm

/-! ### kinds of the ends -/

/-- the ends, when present, are of this kind -/
def Partial.Of (p : Partial) (k : Kind) : Prop := (∀ l, p.lo = some l → l.kind = k) ∧ (∀ h, p.hi = some h → h.kind = k)

theorem Partial.none_of (k : Kind) : Partial.none.Of k := ⟨by simp [Partial.none], by simp [Partial.none]⟩
theorem Partial.point_of (s : Scalar) : (Partial.point s).Of s.kind :=
  ⟨by simp [Partial.point], by simp [Partial.point]⟩
theorem firstLast_of {α : Type} (f : α → Scalar) (k : Kind) (hf : ∀ a, (f a).kind = k) (l : List α) :
    (firstLast f l).Of k := by
  cases l with
  | nil => exact Partial.none_of k
  | cons x xs => exact ⟨by simp [firstLast, hf], by simp [firstLast, hf]⟩

theorem ite_of {p : Partial} {k : Kind} (h : p.Of k) (c : Bool) : (if c then p else Partial.none).Of k := by
  cases c
  · exact Partial.none_of k
  · exact h

theorem compareBound_of {op : CmpOp} {c : CmpVal} {rev : Bool} {p : Partial} {ty : VType} (h : compareBound op c rev = .ok p)
    (ht : cmpMatches c ty = true) : p.Of ty.kind := by
  cases c with
  | int k =>
    have : ty = .int := by cases ty <;> simp [cmpMatches] at ht ⊢
    subst this
    unfold compareBound at h
    cases op <;> cases rev <;> simp only at h <;> first
      | (cases h; exact ⟨by simp [Scalar.kind, VType.kind], by simp [Scalar.kind, VType.kind]⟩)
      | (obtain ⟨x, _, rfl⟩ := map_ok h; exact ⟨by simp [Scalar.kind, VType.kind], by simp [Scalar.kind, VType.kind]⟩)
  | float k =>
    have : ty = .float := by cases ty <;> simp [cmpMatches] at ht ⊢
    subst this
    unfold compareBound at h
    cases op <;> cases rev <;> cases h <;> exact ⟨by simp [Scalar.kind, VType.kind], by simp [Scalar.kind, VType.kind]⟩

theorem eqMatches_kind {c : EqVal} {ty : VType} (h : eqMatches c ty = true) : c.scalar.kind = ty.kind := by
  cases c <;> cases ty <;> first | rfl | (simp [eqMatches] at h)

theorem boundPred_of {d : Domain} {rev : Bool} {q : Pred} {p : Partial} (h : boundPred d rev q = .ok p) :
    p.Of d.bound.ty.kind := by
  cases q with
  | isNull _ _ => cases h; exact Partial.none_of _
  | freq _ => cases h; exact Partial.none_of _
  | segment _ => cases h; exact Partial.none_of _
  | geo _ => cases h; exact Partial.none_of _
  | str _ => cases h; exact Partial.none_of _
  | boolLit _ => cases h; exact Partial.none_of _
  | list op v c =>
    simp only [boundPred, listBound] at h
    split at h
    · cases h; exact Partial.none_of _
    · split at h
      · cases h
      · rename_i hm
        simp only [Bool.not_eq_true', Bool.not_eq_false] at hm
        split at h
        · cases c <;> cases ht : d.bound.ty <;> simp only [ht, listMatches, reduceCtorEq, Bool.false_eq_true] at hm <;>
            cases h <;> exact firstLast_of _ _ (by intro a; rfl) _
        · cases h; exact Partial.none_of _
  | set op l r =>
    simp only [boundPred, setBound] at h
    split at h
    · split at h
      · cases h; exact Partial.none_of _
      · split at h
        · rename_i ht; rw [ht]; cases h; exact ite_of (firstLast_of _ _ (by intro a; rfl) _) _
        · rename_i ht; rw [ht]; cases h; exact ite_of (firstLast_of _ _ (by intro a; rfl) _) _
        · cases h
    · split at h
      · cases h; exact Partial.none_of _
      · split at h
        · rename_i ht _; rw [ht]; cases h; exact ite_of (Partial.point_of _) _
        · rename_i ht _; rw [ht]; cases h; exact ite_of (Partial.point_of _) _
        · cases h
    · cases h
  | boolVar v =>
    simp only [boundPred] at h
    split at h
    · cases h; exact Partial.none_of _
    · split at h
      · cases h
      · rename_i ht
        simp only [ne_eq, Decidable.not_not] at ht
        rw [ht]; cases h; exact Partial.point_of _
  | equality op v c =>
    simp only [boundPred] at h
    split at h
    · cases h; exact Partial.none_of _
    · split at h
      · cases h
      · rename_i ht
        simp only [Bool.not_eq_true', Bool.not_eq_false] at ht
        split at h <;> cases h
        · rw [← eqMatches_kind ht]; exact Partial.point_of _
        · rw [← eqMatches_kind ht]; exact Partial.point_of _
        · exact Partial.none_of _
  | compare op v c =>
    simp only [boundPred] at h
    split at h
    · cases h; exact Partial.none_of _
    · split at h
      · cases h
      · rename_i ht
        simp only [Bool.not_eq_true', Bool.not_eq_false] at ht
        exact compareBound_of h ht

theorem orEnd_some {f : Scalar → Scalar → Scalar} {a b : Option Scalar} {c : Scalar} (h : orEnd f a b = some c) :
    ∃ x y, a = some x ∧ b = some y ∧ c = f x y := by
  cases a <;> cases b <;> simp [orEnd] at h
  exact ⟨_, _, rfl, rfl, h.symm⟩

theorem andEnd_some {f : Scalar → Scalar → Scalar} {a b : Option Scalar} {c : Scalar} (h : andEnd f a b = some c) :
    (∃ x y, a = some x ∧ b = some y ∧ c = f x y) ∨ (a = some c ∧ b = none) ∨ (a = none ∧ b = some c) := by
  cases a <;> cases b <;> simp [andEnd] at h
  · subst h; exact Or.inr (Or.inr ⟨rfl, rfl⟩)
  · subst h; exact Or.inr (Or.inl ⟨rfl, rfl⟩)
  · exact Or.inl ⟨_, _, rfl, rfl, h.symm⟩

theorem boundInner_of {d : Domain} : ∀ {e : Expr} {rev : Bool} {p : Partial}, boundInner d rev e = .ok p →
    p.Of d.bound.ty.kind := by
  intro e
  induction e with
  | leaf q => intro rev p h; exact boundPred_of h
  | not e ih => intro rev p h; exact ih h
  | and l r ihl ihr =>
    intro rev p h
    simp only [boundInner] at h
    split at h
    · cases h
    · rename_i pl hl
      split at h
      · cases h
      · rename_i pr hr
        cases h
        have h1 := ihl hl
        have h2 := ihr hr
        constructor
        · intro c hc
          rcases andEnd_some hc with ⟨x, y, h3, h4, rfl⟩ | ⟨h3, _⟩ | ⟨_, h3⟩
          · rw [Scalar.min_kind]; exact h1.1 _ h3
          · exact h1.1 _ h3
          · exact h2.1 _ h3
        · intro c hc
          rcases andEnd_some hc with ⟨x, y, h3, h4, rfl⟩ | ⟨h3, _⟩ | ⟨_, h3⟩
          · rw [Scalar.max_kind]; exact h1.2 _ h3
          · exact h1.2 _ h3
          · exact h2.2 _ h3
  | or l r ihl ihr =>
    intro rev p h
    simp only [boundInner] at h
    split at h
    · cases h
    · rename_i pl hl
      split at h
      · cases h
      · rename_i pr hr
        cases h
        have h1 := ihl hl
        constructor
        · intro c hc
          obtain ⟨x, y, h3, h4, rfl⟩ := orEnd_some hc
          rw [Scalar.min_kind]; exact h1.1 _ h3
        · intro c hc
          obtain ⟨x, y, h3, h4, rfl⟩ := orEnd_some hc
          rw [Scalar.max_kind]; exact h1.2 _ h3

/-! ### coverage -/

/-- each end of the interval, when present, is on the right side of a member of the value -/
def Covers (p : Partial) (val : Value) : Prop :=
  (∀ l, p.lo = some l → ∃ m ∈ val.members, l.le m = true) ∧ (∀ h, p.hi = some h → ∃ m ∈ val.members, m.le h = true)

theorem Covers.none (val : Value) : Covers .none val := ⟨by simp [Partial.none], by simp [Partial.none]⟩

theorem Covers.point {s : Scalar} {val : Value} (h : s ∈ val.members) : Covers (.point s) val := by
  constructor
  · intro l hl
    simp only [Partial.point, Option.some.injEq] at hl
    subst hl
    exact ⟨s, h, Scalar.le_refl s⟩
  · intro l hl
    simp only [Partial.point, Option.some.injEq] at hl
    subst hl
    exact ⟨s, h, Scalar.le_refl s⟩

theorem ascending_first {α : Type} [LT α] {x : α} {xs : List α} (h : Ascending (x :: xs)) {y : α}
    (hy : y ∈ x :: xs) : y = x ∨ ¬ y < x := by
  rcases List.mem_cons.1 hy with rfl | hy
  · exact Or.inl rfl
  · exact Or.inr ((List.pairwise_cons.1 h).1 y hy)

theorem ascending_last {α : Type} [LT α] {l : List α} (h : Ascending l) (hne : l ≠ []) {y : α}
    (hy : y ∈ l) : y = l.getLast hne ∨ ¬ l.getLast hne < y := by
  induction l with
  | nil => cases hy
  | cons x xs ih =>
    cases xs with
    | nil => simp at hy; exact Or.inl (by simpa using hy)
    | cons z zs =>
      rw [List.getLast_cons (by simp)]
      rcases List.mem_cons.1 hy with rfl | hy
      · exact Or.inr ((List.pairwise_cons.1 h).1 _ (List.getLast_mem _))
      · exact ih (List.pairwise_cons.1 h).2 (by simp) hy

/-- the first and last of the sorted constants bracket any value among them -/
theorem Covers.list {α : Type} {f : α → Scalar} {l : List α}
    (hs : ∀ x xs, l = x :: xs → ∀ y ∈ l, (f x).le (f y) = true ∧ (f y).le (f ((x :: xs).getLast (by simp))) = true)
    {val : Value} {y : α} (hy : y ∈ l) (hm : f y ∈ val.members) : Covers (firstLast f l) val := by
  cases l with
  | nil => cases hy
  | cons x xs =>
    obtain ⟨h1, h2⟩ := hs x xs rfl y hy
    constructor
    · intro a ha
      simp only [firstLast, Option.some.injEq] at ha
      subst ha
      exact ⟨_, hm, h1⟩
    · intro a ha
      simp only [firstLast, Option.some.injEq] at ha
      subst ha
      exact ⟨_, hm, h2⟩

theorem sortedInts (l : List Int) : ∀ x xs, sortBy id l = x :: xs → ∀ y ∈ sortBy id l,
    (Scalar.i x).le (.i y) = true ∧ (Scalar.i y).le (.i ((x :: xs).getLast (by simp))) = true := by
  intro x xs h y hy
  have ha := sortBy_ascending (id : Int → Int) l
  rw [List.map_id] at ha
  rw [h] at ha hy
  constructor
  · rcases ascending_first ha hy with h1 | h1
    · simp [Scalar.le, h1]
    · simp only [Scalar.le, decide_eq_true_eq]; omega
  · rcases ascending_last ha (by simp) hy with h1 | h1
    · rw [← h1]; simp [Scalar.le]
    · simp only [Scalar.le, decide_eq_true_eq]; omega

theorem sortedStrs (l : List StrVal) : ∀ x xs, sortBy StrVal.str l = x :: xs → ∀ y ∈ sortBy StrVal.str l,
    (Scalar.s x.str).le (.s y.str) = true ∧ (Scalar.s y.str).le (.s ((x :: xs).getLast (by simp)).str) = true := by
  intro x xs h y hy
  have ha := sortBy_ascending StrVal.str l
  rw [h] at ha hy
  have hy' : y.str ∈ (x :: xs).map StrVal.str := List.mem_map_of_mem hy
  have hlast : ((x :: xs).map StrVal.str).getLast (by simp) = ((x :: xs).getLast (by simp)).str := by
    rw [List.getLast_map]
  constructor
  · rw [List.map_cons] at ha hy'
    rcases ascending_first ha hy' with h1 | h1
    · simp [Scalar.le, h1]
    · simp only [Scalar.le, decide_eq_true_eq]; omega
  · rcases ascending_last ha (by simp) hy' with h1 | h1
    · rw [← hlast, ← h1]; simp [Scalar.le]
    · rw [hlast] at h1; simp only [Scalar.le, decide_eq_true_eq]; omega

/-! ### leaves -/

/-- a filled value has the declared type -/
theorem fillValue_type {T : Config} {var : Nat} {ty : VType} {y z : Value} (h : fillValue T var ty y = .ok z) :
    (sortValue z).vtype = ty := by
  cases y with
  | bool b => simp only [fillValue] at h; split at h <;> cases h; rename_i h; exact h.symm
  | int i => simp only [fillValue] at h; split at h <;> cases h <;> rfl
  | float f => simp only [fillValue] at h; split at h <;> cases h; rename_i h; exact h.symm
  | string s =>
    simp only [fillValue] at h
    split at h
    · obtain ⟨x, _, rfl⟩ := map_ok h; rfl
    · cases h
  | intList l => simp only [fillValue] at h; split at h <;> cases h <;> rfl
  | strList l =>
    simp only [fillValue] at h
    split at h
    · obtain ⟨x, _, rfl⟩ := map_ok h; rfl
    · cases h
  | segments l => simp only [fillValue] at h; split at h <;> cases h; rename_i h; exact h.symm
  | freq l =>
    simp only [fillValue] at h
    split at h
    · obtain ⟨x, _, rfl⟩ := map_ok h; rfl
    · cases h
  | intEnum e => simp only [fillValue] at h; split at h <;> cases h; rfl

/-- the value in the environment has the declared type -/
theorem eventEnv_type {T : Config} {ev : List EventVar} {env : Env} (he : eventEnv T ev = .ok env) {v : Nat} {d : Domain}
    (hd : T.domains[v]? = some d) {val : Value} (hv : env[v]? = some (some val)) : val.vtype = d.bound.ty := by
  have hlt := (List.getElem?_eq_some_iff.1 hd).1
  have key := eventEnv_get he v hlt
  split at key
  · rw [hv] at key; cases key
  · rename_i u hf
    obtain ⟨x, hx1, hx2⟩ := key
    rw [hv] at hx2
    cases hx2
    unfold fillOne at hx1
    split at hx1
    · cases hx1
    · split at hx1
      · cases hx1
      · rename_i d' hd'
        split at hx1
        · cases hx1
        · rename_i h2
          simp only [Except.ok.injEq, Prod.mk.injEq] at hx1
          obtain ⟨h3, rfl⟩ := hx1
          unfold getDomain at hd'
          rw [h3, hd] at hd'
          cases hd'
          exact fillValue_type h2

/-- the event's own value behind the value in the environment -/
theorem lookup_some {T : Config} {ev : List EventVar} {env : Env} (hs : Small T) (he : eventEnv T ev = .ok env)
    {v v' : AttrVar} (hv : ResVar T v v') {val : Value} (hval : env[v'.var]? = some (some val)) :
    ∃ y, (eventOf ev).get v = some y ∧ ValRel T v'.var y val := by
  have hg : getVariable env v'.var = .ok (some val) := by unfold getVariable; rw [hval]
  rcases lookup hs he hv with h | ⟨h, _⟩ | ⟨y, x, h, h', hr, _⟩
  · rw [hg] at h; cases h
  · rw [hg] at h; cases h
  · rw [hg] at h; cases h; exact ⟨y, h', hr⟩

theorem apart_le {x k : Rat} (h : Apart x k) (hlt : x < k) : x ≤ rnd (k - dblEps) := by
  rcases h with rfl | ⟨hd, h⟩
  · exact absurd hlt Rat.lt_irrefl
  · rw [← rnd_of_double hd]
    apply rnd_mono
    have : (x - k).abs = k - x := by
      rw [Rat.abs_of_nonpos (by linarith)]; ring
    rw [this] at h
    linarith

theorem apart_ge {x k : Rat} (h : Apart x k) (hlt : k < x) : rnd (k + dblEps) ≤ x := by
  rcases h with rfl | ⟨hd, h⟩
  · exact absurd hlt Rat.lt_irrefl
  · rw [← rnd_of_double hd]
    apply rnd_mono
    have : (x - k).abs = x - k := by
      rw [Rat.abs_of_nonneg (by linarith)]
    rw [this] at h
    linarith

theorem apart_close {x k : Rat} (h : Apart x k) (hc : closeTo x k) : x = k := by
  rcases h with h | ⟨-, h⟩
  · exact h
  · refine absurd hc (Rat.not_lt.2 ?_)
    rw [rat_abs_eq] at h ⊢
    have hm := rnd_mono h
    rw [rnd_eps] at hm
    rcases abs_cases (x - k) with ⟨e, _⟩ | ⟨e, _⟩
    · rw [e] at hm; exact hm.trans (le_abs_self _)
    · rw [e, rnd_neg] at hm; exact hm.trans (neg_le_abs _)

theorem compareInt_covers {op : CmpOp} {k x : Int} {rev : Bool} {q : Partial} (h : compareBound op (.int k) rev = .ok q)
    (hx : cmpInt op x k ↔ rev = false) : Covers q (.int x) := by
  unfold compareBound at h
  cases op <;> cases rev <;> simp only at h <;> simp only [cmpInt, reduceCtorEq, iff_false, iff_true] at hx <;> first
    | (cases h; exact ⟨by simp [Value.members, Scalar.le]; try omega, by simp [Value.members, Scalar.le]; try omega⟩)
    | (obtain ⟨y, hy, rfl⟩ := map_ok h
       unfold checkedInt at hy
       split at hy <;> cases hy
       exact ⟨by simp [Value.members, Scalar.le]; try omega, by simp [Value.members, Scalar.le]; try omega⟩)

theorem compareRat_covers {op : CmpOp} {k x : Rat} {rev : Bool} {q : Partial} (h : compareBound op (.float k) rev = .ok q)
    (ha : Apart x k) (hx : cmpRat op x k ↔ rev = false) : Covers q (.float x) := by
  unfold compareBound at h
  cases op <;> cases rev <;> cases h <;> simp only [cmpRat, reduceCtorEq, iff_false, iff_true] at hx <;>
    constructor <;> simp only [Option.some.injEq, reduceCtorEq, forall_eq', false_implies, implies_true, Value.members,
      List.mem_singleton, exists_eq_left, Scalar.le, decide_eq_true_eq]
  · exact apart_le ha hx
  · exact Rat.not_lt.1 hx
  · exact hx
  · exact apart_ge ha (Rat.not_le.1 hx)
  · exact apart_ge ha hx
  · exact Rat.not_lt.1 hx
  · exact hx
  · exact apart_le ha (Rat.not_le.1 hx)

/-- the interval of one predicate covers the value of every event on which the predicate is true (`rev`: false) -/
theorem boundPred_covers {geo : GeoTest} {T : Config} {ev : List EventVar} {env : Env} {cs : List Constant} {p p' : Pred}
    (hs : Small T) (hok : TablesOK T) (he : eventEnv T ev = .ok env) (hr : ResPred T cs p p') (hi : Pred.AllIds p')
    (hp : Pred.InRange p) {d : Domain} {val : Value} (hsep : Separated (fun n => tryGetIdForAttr T n = d.attr.var) (eventOf ev) (.leaf p))
    (henv : env[d.attr.var]? = some (some val))
    (hty : val.vtype = d.bound.ty) {rev : Bool} {q : Partial} (hb : boundPred d rev p' = .ok q)
    (hsat : satPred geo (constants cs) (eventOf ev) p ↔ rev = false) : Covers q val := by
  cases hr with
  | cmpInt hv htyA =>
    rename_i op v v' k
    simp only [boundPred] at hb
    split at hb
    · cases hb; exact Covers.none _
    · rename_i hvar
      simp only [ne_eq, Decidable.not_not] at hvar
      split at hb
      · cases hb
      · rename_i hm
        rw [← hty] at hm
        rw [hvar] at henv
        obtain ⟨y, hy, hrel⟩ := lookup_some hs he hv henv
        cases hrel <;> first | (exfalso; exact hm rfl) | skip
        apply compareInt_covers hb
        simpa [satPred, hy] using hsat
  | cmpIntF hv htyA =>
    rename_i op v v' k
    simp only [boundPred] at hb
    split at hb
    · cases hb; exact Covers.none _
    · rename_i hvar
      simp only [ne_eq, Decidable.not_not] at hvar
      split at hb
      · cases hb
      · rename_i hm
        rw [← hty] at hm
        rw [hvar] at henv
        obtain ⟨y, hy, hrel⟩ := lookup_some hs he hv henv
        cases hrel <;> first | (exfalso; exact hm rfl) | skip
        apply compareRat_covers hb (hsep (hv.var.symm.trans hvar.symm) _ hy)
        simpa [satPred, hy] using hsat
  | cmpFloat hv =>
    rename_i op v v' k
    simp only [boundPred] at hb
    split at hb
    · cases hb; exact Covers.none _
    · rename_i hvar
      simp only [ne_eq, Decidable.not_not] at hvar
      split at hb
      · cases hb
      · rename_i hm
        rw [← hty] at hm
        rw [hvar] at henv
        obtain ⟨y, hy, hrel⟩ := lookup_some hs he hv henv
        cases hrel <;> first | (exfalso; exact hm rfl) | skip
        apply compareRat_covers hb (hsep (hv.var.symm.trans hvar.symm) _ hy)
        simpa [satPred, hy] using hsat
  | eqInt hv htyA =>
    rename_i op v v' k
    simp only [boundPred] at hb
    split at hb
    · cases hb; exact Covers.none _
    · rename_i hvar
      simp only [ne_eq, Decidable.not_not] at hvar
      split at hb
      · cases hb
      · rename_i hm
        rw [← hty] at hm
        rw [hvar] at henv
        obtain ⟨y, hy, hrel⟩ := lookup_some hs he hv henv
        cases hrel <;> first | (exfalso; exact hm rfl) | skip
        rename_i x
        split at hb <;> cases hb
        · apply Covers.point
          simp [satPred, hy, asInt, polar, EqOp.positive] at hsat
          simp [Value.members, EqVal.scalar, hsat]
        · apply Covers.point
          simp [satPred, hy, asInt, polar, EqOp.positive] at hsat
          simp [Value.members, EqVal.scalar, hsat]
        · exact Covers.none _
  | eqIntF hv htyA =>
    rename_i op v v' k
    simp only [boundPred] at hb
    split at hb
    · cases hb; exact Covers.none _
    · rename_i hvar
      simp only [ne_eq, Decidable.not_not] at hvar
      split at hb
      · cases hb
      · rename_i hm
        rw [← hty] at hm
        rw [hvar] at henv
        obtain ⟨y, hy, hrel⟩ := lookup_some hs he hv henv
        cases hrel <;> first | (exfalso; exact hm rfl) | skip
        rename_i x
        have ha := hsep (hv.var.symm.trans hvar.symm) _ hy
        split at hb <;> cases hb
        · apply Covers.point
          simp [satPred, hy, asInt, polar, EqOp.positive] at hsat
          simp [Value.members, EqVal.scalar, apart_close ha hsat]
        · apply Covers.point
          simp [satPred, hy, asInt, polar, EqOp.positive] at hsat
          simp [Value.members, EqVal.scalar, apart_close ha hsat]
        · exact Covers.none _
  | eqFloat hv =>
    rename_i op v v' k
    simp only [boundPred] at hb
    split at hb
    · cases hb; exact Covers.none _
    · rename_i hvar
      simp only [ne_eq, Decidable.not_not] at hvar
      split at hb
      · cases hb
      · rename_i hm
        rw [← hty] at hm
        rw [hvar] at henv
        obtain ⟨y, hy, hrel⟩ := lookup_some hs he hv henv
        cases hrel <;> first | (exfalso; exact hm rfl) | skip
        rename_i x
        have ha := hsep (hv.var.symm.trans hvar.symm) _ hy
        split at hb <;> cases hb
        · apply Covers.point
          simp [satPred, hy, polar, EqOp.positive] at hsat
          simp [Value.members, EqVal.scalar, apart_close ha hsat]
        · apply Covers.point
          simp [satPred, hy, polar, EqOp.positive] at hsat
          simp [Value.members, EqVal.scalar, apart_close ha hsat]
        · exact Covers.none _
  | eqStr hv hst =>
    rename_i op v v' k k'
    simp only [boundPred] at hb
    split at hb
    · cases hb; exact Covers.none _
    · rename_i hvar
      simp only [ne_eq, Decidable.not_not] at hvar
      split at hb
      · cases hb
      · rename_i hm
        rw [← hty] at hm
        rw [hvar] at henv
        obtain ⟨y, hy, hrel⟩ := lookup_some hs he hv henv
        cases hrel <;> first | (exfalso; exact hm rfl) | skip
        rename_i x x' hx
        have hid := strId_eq hs hok hx hst hi
        split at hb <;> cases hb
        · apply Covers.point
          simp [satPred, hy, polar, EqOp.positive] at hsat
          simp [Value.members, EqVal.scalar, hid.2 hsat]
        · apply Covers.point
          simp [satPred, hy, polar, EqOp.positive] at hsat
          simp [Value.members, EqVal.scalar, hid.2 hsat]
        · exact Covers.none _
  | boolVar hv =>
    rename_i v v'
    simp only [boundPred] at hb
    split at hb
    · cases hb; exact Covers.none _
    · rename_i hvar
      simp only [ne_eq, Decidable.not_not] at hvar
      split at hb
      · cases hb
      · rename_i hm
        rw [← hty] at hm
        rw [hvar] at henv
        obtain ⟨y, hy, hrel⟩ := lookup_some hs he hv henv
        cases hrel <;> first | (exfalso; apply hm; simp only [Value.vtype, ne_eq, reduceCtorEq, not_false_eq_true]; done) | skip
        rename_i x
        cases hb
        apply Covers.point
        simp only [satPred, hy, Option.some.injEq, Value.bool.injEq] at hsat
        simp only [Value.members, List.mem_singleton, Scalar.b.injEq]
        cases x <;> cases rev <;> simp_all
  | eqEnum hv hid htyA =>
    rename_i op v v' k id
    have hid' := hid.resolve_left hi
    have key : ∀ i : Int, tryGetIdForIenum T v'.var i = id ↔ i = k := by
      intro i
      constructor
      · intro e
        rcases tryGetIdForIenum_ok e with h1 | h1
        · rw [hid'] at h1; exact (Option.some.inj h1).symm
        · exact absurd h1.1 hi
      · intro e; subst e; exact tryGetIdForIenum_of_get (hok.intNodup _) hid'
    simp only [boundPred] at hb
    split at hb
    · cases hb; exact Covers.none _
    · rename_i hvar
      simp only [ne_eq, Decidable.not_not] at hvar
      split at hb
      · cases hb
      · rename_i hm
        rw [← hty] at hm
        rw [hvar] at henv
        obtain ⟨y, hy, hrel⟩ := lookup_some hs he hv henv
        cases hrel <;> first | (exfalso; exact hm rfl) | skip
        · rename_i x
          split at hb <;> cases hb
          · apply Covers.point
            simp [satPred, hy, asInt, polar, EqOp.positive] at hsat
            simp [Value.members, EqVal.scalar, (key x).2 hsat]
          · apply Covers.point
            simp [satPred, hy, asInt, polar, EqOp.positive] at hsat
            simp [Value.members, EqVal.scalar, (key x).2 hsat]
          · exact Covers.none _
        · rename_i x
          split at hb <;> cases hb
          · apply Covers.point
            simp [satPred, hy, asInt, polar, EqOp.positive] at hsat
            simp [Value.members, EqVal.scalar, (key x.integer).2 hsat]
          · apply Covers.point
            simp [satPred, hy, asInt, polar, EqOp.positive] at hsat
            simp [Value.members, EqVal.scalar, (key x.integer).2 hsat]
          · exact Covers.none _
  | eqEnumRaw hv => exact absurd hp id
  | boolLit => cases hb; exact Covers.none _
  | freq => cases hb; exact Covers.none _
  | segment => cases hb; exact Covers.none _
  | geo => cases hb; exact Covers.none _
  | str => cases hb; exact Covers.none _
  | isNull => cases hb; exact Covers.none _
  | setBad hbad hl hr hgood =>
    rename_i op l r l' r'
    cases l' <;> cases r' <;> simp only [boundPred, setBound] at hb <;> first
      | (cases hb; done)
      | (exfalso; have := hbad []; simp [matchSet, getIntListVar, getStrListVar, getIntVar, getStringVar, getVariable] at this; done)
      | skip
    split at hb
    · cases hb; exact Covers.none _
    · split at hb
      · rename_i h; cases h
      · rename_i h; cases h
      · cases hb
  | setInts hv =>
    rename_i op v v' l
    simp only [boundPred, setBound] at hb
    split at hb
    · cases hb; exact Covers.none _
    · rename_i hvar
      simp only [ne_eq, Decidable.not_not] at hvar
      rw [hvar] at henv
      obtain ⟨y, hy, hrel⟩ := lookup_some hs he hv henv
      rw [← hty] at hb
      cases hrel <;> first | (cases hb; done) | skip
      rename_i x
      cases hb
      cases ha : setActive op rev with
      | false => exact Covers.none _
      | true =>
        apply Covers.list (y := x) (sortedInts l)
        · rw [sortBy_mem]
          cases op <;> cases rev <;> simp [setActive] at ha <;> simpa [satPred, hy, polar, SetOp.positive] using hsat
        · simp [Value.members]
  | setStrs hv hl =>
    rename_i op v v' l m
    simp only [boundPred, setBound] at hb
    split at hb
    · cases hb; exact Covers.none _
    · rename_i hvar
      simp only [ne_eq, Decidable.not_not] at hvar
      rw [hvar] at henv
      obtain ⟨y, hy, hrel⟩ := lookup_some hs he hv henv
      rw [← hty] at hb
      cases hrel <;> first | (cases hb; done) | skip
      rename_i x x' hx
      cases hb
      cases ha : setActive op rev with
      | false => exact Covers.none _
      | true =>
        have hi' : ∀ s ∈ m, s.str ≠ invalidId := fun s hs => hi s ((sortBy_mem StrVal.str m s).2 hs)
        have hmem : x'.str ∈ m.map StrVal.str := by
          rw [mem_constIds hs hok hx hl hi']
          cases op <;> cases rev <;> simp [setActive] at ha <;> simpa [satPred, hy, polar, SetOp.positive] using hsat
        obtain ⟨z, hz1, hz2⟩ := List.mem_map.1 hmem
        apply Covers.list (y := z) (sortedStrs m)
        · rw [sortBy_mem]; exact hz1
        · simp [Value.members, hz2]
  | inInts hv =>
    rename_i op v v' k
    simp only [boundPred, setBound] at hb
    split at hb
    · cases hb; exact Covers.none _
    · rename_i hvar
      simp only [ne_eq, Decidable.not_not] at hvar
      rw [hvar] at henv
      obtain ⟨y, hy, hrel⟩ := lookup_some hs he hv henv
      rw [← hty] at hb
      cases hrel <;> first | (cases hb; done) | skip
      rename_i l
      cases hb
      cases ha : setActive op rev with
      | false => exact Covers.none _
      | true =>
        apply Covers.point
        have : k ∈ l := by
          cases op <;> cases rev <;> simp [setActive] at ha <;> simpa [satPred, hy, polar, SetOp.positive] using hsat
        have := (dedup_sort_keys id l k).2 (by simpa using this)
        simpa [Value.members] using this
  | inStrs hv hst =>
    rename_i op v v' k k'
    simp only [boundPred, setBound] at hb
    split at hb
    · cases hb; exact Covers.none _
    · rename_i hvar
      simp only [ne_eq, Decidable.not_not] at hvar
      rw [hvar] at henv
      obtain ⟨y, hy, hrel⟩ := lookup_some hs he hv henv
      rw [← hty] at hb
      cases hrel <;> first | (cases hb; done) | skip
      · cases hb
        cases ha : setActive op rev with
        | false => exact Covers.none _
        | true =>
          exfalso
          cases op <;> cases rev <;> simp [setActive] at ha <;> simp [satPred, hy, polar, SetOp.positive, asTexts] at hsat
      · rename_i l m hl
        cases hb
        cases ha : setActive op rev with
        | false => exact Covers.none _
        | true =>
          apply Covers.point
          have : k'.str ∈ m.map StrVal.str := by
            rw [mem_eventIds hs hok hst hi hl]
            cases op <;> cases rev <;> simp [setActive] at ha <;> simpa [satPred, hy, polar, SetOp.positive, asTexts] using hsat
          have := (dedup_sort_keys StrVal.str m k'.str).2 this
          simpa [Value.members] using this
  | listInts hv =>
    rename_i op v v' l
    simp only [boundPred, listBound] at hb
    split at hb
    · cases hb; exact Covers.none _
    · rename_i hvar
      simp only [ne_eq, Decidable.not_not] at hvar
      rw [hvar] at henv
      obtain ⟨y, hy, hrel⟩ := lookup_some hs he hv henv
      rw [← hty] at hb
      cases hrel <;> first | (cases hb; done) | skip
      rename_i ys
      split at hb
      · cases hb
      · split at hb
        · rename_i ha
          cases hb
          by_cases hl : l = []
          · subst hl; exact Covers.none _
          · have : ∃ z ∈ l, z ∈ ys := by
              cases op <;> cases rev <;> simp [listActive] at ha <;> simp [satPred, hy, listHolds] at hsat
              · exact hsat
              · exact hsat
              · obtain ⟨z, hz⟩ := List.exists_mem_of_ne_nil _ hl
                exact ⟨z, hz, hsat z hz⟩
            obtain ⟨z, hz1, hz2⟩ := this
            apply Covers.list (y := z) (sortedInts l)
            · rw [sortBy_mem]; exact hz1
            · have := (dedup_sort_keys id ys z).2 (by simpa using hz2)
              simpa [Value.members] using this
        · cases hb; exact Covers.none _
  | listStrs hv hl =>
    rename_i op v v' l m
    simp only [boundPred, listBound] at hb
    split at hb
    · cases hb; exact Covers.none _
    · rename_i hvar
      simp only [ne_eq, Decidable.not_not] at hvar
      rw [hvar] at henv
      obtain ⟨y, hy, hrel⟩ := lookup_some hs he hv henv
      rw [← hty] at hb
      have hi' : ∀ s ∈ m, s.str ≠ invalidId := fun s hs => hi s ((sortBy_mem StrVal.str m s).2 hs)
      cases hrel <;> first | (cases hb; done) | skip
      · split at hb
        · cases hb
        · split at hb
          · rename_i ha
            cases hb
            cases op <;> cases rev <;> simp [listActive] at ha <;> simp [satPred, hy, listHolds, asTexts] at hsat
            cases hl with
            | cons _ _ => exact absurd List.mem_cons_self (hsat _)
            | nil =>
            exact Covers.none _
          · cases hb; exact Covers.none _
      · rename_i ys zs hyz
        split at hb
        · cases hb
        · split at hb
          · rename_i ha
            cases hb
            by_cases hnil : l = []
            · subst hnil; cases hl; exact Covers.none _
            · have : ∃ z ∈ l, z.string ∈ ys.map StrVal.string := by
                cases op <;> cases rev <;> simp [listActive] at ha <;> simp [satPred, hy, listHolds, asTexts] at hsat
                · obtain ⟨a, ha, b, hb, hab⟩ := hsat; exact ⟨a, ha, by rw [← hab]; exact List.mem_map_of_mem hb⟩
                · obtain ⟨a, ha, b, hb, hab⟩ := hsat; exact ⟨a, ha, by rw [← hab]; exact List.mem_map_of_mem hb⟩
                · obtain ⟨z, hz⟩ := List.exists_mem_of_ne_nil _ hnil
                  obtain ⟨a, ha, hab⟩ := hsat z hz
                  exact ⟨z, hz, by rw [← hab]; exact List.mem_map_of_mem ha⟩
              obtain ⟨z, hz1, hz2⟩ := this
              obtain ⟨z', hz', hst⟩ := forall₂_mem_left hl hz1
              have h1 : z'.str ∈ zs.map StrVal.str := (mem_eventIds hs hok hst (hi' z' hz') hyz).2 hz2
              apply Covers.list (y := z') (sortedStrs m)
              · rw [sortBy_mem]; exact hz'
              · have := (dedup_sort_keys StrVal.str zs z'.str).2 h1
                simpa [Value.members] using this
          · cases hb; exact Covers.none _

/-! ### expressions -/

/-- a predicate on other attributes gives no interval -/
theorem boundPred_other {T : Config} {cs : List Constant} {p p' : Pred} (hr : ResPred T cs p p') {d : Domain} {rev : Bool}
    {q : Partial} (hb : boundPred d rev p' = .ok q) (hn : ∀ n ∈ predBoundNames p, tryGetIdForAttr T n ≠ d.attr.var) :
    q = .none := by
  have key : ∀ {v v' : AttrVar}, ResVar T v v' → v.attr ∈ predBoundNames p → d.attr.var ≠ v'.var := by
    intro v v' hv hm h
    exact hn _ hm (by rw [h, hv.var])
  cases hr with
  | boolLit => cases hb; rfl
  | freq => cases hb; rfl
  | segment => cases hb; rfl
  | geo => cases hb; rfl
  | str => cases hb; rfl
  | isNull => cases hb; rfl
  | setBad hbad hl hr hgood =>
    rename_i op l r l' r'
    simp only [boundPred, setBound] at hb
    split at hb
    · rename_i v'
      obtain ⟨v, rfl, hv⟩ := hl _ rfl
      rw [if_pos (key hv (by simp [predBoundNames]))] at hb
      cases hb; rfl
    · obtain ⟨v, rfl, hv⟩ := hr _ rfl
      rw [if_pos (key hv (by simp [predBoundNames]))] at hb
      cases hb; rfl
    · cases hb
  | _ hv =>
    first
      | (simp only [boundPred, setBound, listBound] at hb; rw [if_pos (key hv (by simp [predBoundNames]))] at hb; cases hb; rfl)

theorem boundInner_other {T : Config} {cs : List Constant} {e e' : Expr} (hr : ExprRel (ResPred T cs) e e') {d : Domain}
    {rev : Bool} {q : Partial} (hb : boundInner d rev e' = .ok q)
    (hn : ∀ n ∈ boundNames e, tryGetIdForAttr T n ≠ d.attr.var) : q = .none := by
  induction hr generalizing rev q with
  | leaf h => exact boundPred_other h hb hn
  | not _ ih => exact ih hb hn
  | and _ _ ihl ihr =>
    simp only [boundInner] at hb
    split at hb
    · cases hb
    · rename_i h1
      split at hb
      · cases hb
      · rename_i h2
        cases hb
        rw [ihl h1 fun n h => hn n (List.mem_append_left _ h), ihr h2 fun n h => hn n (List.mem_append_right _ h)]
        rfl
  | or _ _ ihl ihr =>
    simp only [boundInner] at hb
    split at hb
    · cases hb
    · rename_i h1
      split at hb
      · cases hb
      · rename_i h2
        cases hb
        rw [ihl h1 fun n h => hn n (List.mem_append_left _ h), ihr h2 fun n h => hn n (List.mem_append_right _ h)]
        rfl

/-- the interval of an expression covers the value of every event on which the expression is true (`rev`: false) -/
theorem boundInner_covers {geo : GeoTest} {T : Config} {ev : List EventVar} {env : Env} {cs : List Constant} {e e' : Expr}
    (hs : Small T) (hok : TablesOK T) (he : eventEnv T ev = .ok env) (hr : ExprRel (ResPred T cs) e e')
    (hi : Expr.AllIds e') (hp : Expr.InRange e) {d : Domain} {val : Value} (hsep : Separated (fun n => tryGetIdForAttr T n = d.attr.var) (eventOf ev) e)
    (henv : env[d.attr.var]? = some (some val)) (hty : val.vtype = d.bound.ty) {rev : Bool} {q : Partial}
    (hsafe : BoundSafe (fun n => tryGetIdForAttr T n = d.attr.var) rev e) (hb : boundInner d rev e' = .ok q)
    (hsat : sat geo (constants cs) (eventOf ev) e ↔ rev = false) : Covers q val := by
  induction hr generalizing rev q with
  | leaf h => exact boundPred_covers hs hok he h hi hp hsep henv hty hb hsat
  | not _ ih =>
    refine ih hi hp hsep hsafe hb ?_
    simp only [sat] at hsat
    cases rev <;> simp_all
  | and hl hr ihl ihr =>
    simp only [boundInner] at hb
    split at hb
    · cases hb
    · rename_i h1
      split at hb
      · cases hb
      · rename_i h2
        cases hb
        cases rev with
        | true =>
          have hno := hsafe.2.2 rfl
          rw [boundInner_other hl h1 fun n h => hno n (List.mem_append_left _ h),
            boundInner_other hr h2 fun n h => hno n (List.mem_append_right _ h)]
          exact Covers.none _
        | false =>
          simp only [sat, iff_true] at hsat
          have c1 := ihl hi.1 hp.1 hsep.1 hsafe.1 h1 (by simp [hsat.1])
          have c2 := ihr hi.2 hp.2 hsep.2 hsafe.2.1 h2 (by simp [hsat.2])
          constructor
          · intro c hc
            rcases andEnd_some hc with ⟨x, y, h3, h4, rfl⟩ | ⟨h3, _⟩ | ⟨_, h3⟩
            · obtain ⟨m, hm, hle⟩ := c1.1 _ h3
              exact ⟨m, hm, Scalar.le_trans Scalar.min_le_left hle⟩
            · exact c1.1 _ h3
            · exact c2.1 _ h3
          · intro c hc
            rcases andEnd_some hc with ⟨x, y, h3, h4, rfl⟩ | ⟨h3, _⟩ | ⟨_, h3⟩
            · obtain ⟨m, hm, hle⟩ := c1.2 _ h3
              exact ⟨m, hm, Scalar.le_trans hle Scalar.le_max_left⟩
            · exact c1.2 _ h3
            · exact c2.2 _ h3
  | or hl hr ihl ihr =>
    simp only [boundInner] at hb
    split at hb
    · cases hb
    · rename_i pl h1
      split at hb
      · cases hb
      · rename_i pr h2
        cases hb
        have k1 := boundInner_of h1
        have k2 := boundInner_of h2
        have side : Covers pl val ∨ Covers pr val := by
          cases rev with
          | false =>
            simp only [sat, iff_true] at hsat
            rcases hsat with h | h
            · exact Or.inl (ihl hi.1 hp.1 hsep.1 hsafe.1 h1 (by simp [h]))
            · exact Or.inr (ihr hi.2 hp.2 hsep.2 hsafe.2 h2 (by simp [h]))
          | true =>
            simp only [sat, Bool.true_eq_false, iff_false, not_or] at hsat
            exact Or.inl (ihl hi.1 hp.1 hsep.1 hsafe.1 h1 (by simp [hsat.1]))
        constructor
        · intro c hc
          obtain ⟨x, y, h3, h4, rfl⟩ := orEnd_some hc
          rcases side with c1 | c1
          · obtain ⟨m, hm, hle⟩ := c1.1 _ h3
            exact ⟨m, hm, Scalar.le_trans Scalar.min_le_left hle⟩
          · obtain ⟨m, hm, hle⟩ := c1.1 _ h4
            exact ⟨m, hm, Scalar.le_trans (Scalar.min_le_right ((k1.1 _ h3).trans (k2.1 _ h4).symm)) hle⟩
        · intro c hc
          obtain ⟨x, y, h3, h4, rfl⟩ := orEnd_some hc
          rcases side with c1 | c1
          · obtain ⟨m, hm, hle⟩ := c1.2 _ h3
            exact ⟨m, hm, Scalar.le_trans hle Scalar.le_max_left⟩
          · obtain ⟨m, hm, hle⟩ := c1.2 _ h4
            exact ⟨m, hm, Scalar.le_trans hle (Scalar.le_max_right ((k1.2 _ h3).trans (k2.2 _ h4).symm))⟩

end BeTree
