import Verif.Spec.Mention
import Verif.Lemmas.WorldPrune
/-
What `change_boundaries` does to the domains, in terms of the constants of the expression as written.
-/
namespace BeTree
open Spec

/-- the values a predicate makes `change_boundaries` cover for one variable -/
def predEdges (var : Nat) (inv : Bool) : Pred → List Scalar
  | .compare op v c =>
    if v.var = var then
      match c with
      | .int k => [.i (edgeInt (if inv then op.invert else op) k)]
      | .float k => [.f (edgeRat (if inv then op.invert else op) k)]
    else []
  | .equality _ v c => if v.var = var then [c.scalar] else []
  | .set _ (.var v) (.intList l) => if v.var = var then l.map .i else []
  | .set _ (.var v) (.strList l) => if v.var = var then l.map fun s => .s s.str else []
  | .set _ (.int k) (.var v) => if v.var = var then [.i k] else []
  | .set _ (.string s) (.var v) => if v.var = var then [.s s.str] else []
  | .list _ v (.intList l) => if v.var = var then l.map .i else []
  | .list _ v (.strList l) => if v.var = var then l.map fun s => .s s.str else []
  | _ => []

def edges (var : Nat) : Bool → Expr → List Scalar
  | inv, .leaf p => predEdges var inv p
  | inv, .not e => edges var (!inv) e
  | inv, .and l r => edges var inv l ++ edges var inv r
  | inv, .or l r => edges var inv l ++ edges var inv r

/-- between the two ends -/
def SBound.Has (b : SBound) (s : Scalar) : Prop := b.lo.le s = true ∧ s.le b.hi = true

theorem firstLastS_has_ints {l : List Int} (hs : Ascending l) {b : SBound} (h : firstLastS Scalar.i l = .ok b) :
    ∀ s ∈ l.map Scalar.i, b.Has s := by
  cases l with
  | nil => cases h
  | cons x xs =>
    cases h
    intro s hs'
    obtain ⟨y, hy, rfl⟩ := List.mem_map.1 hs'
    refine ⟨?_, ?_⟩
    · rcases ascending_first hs hy with h3 | h3
      · simp [Scalar.le, h3]
      · simp only [Scalar.le, decide_eq_true_eq]; omega
    · rcases ascending_last hs (by simp) hy with h3 | h3
      · simp [Scalar.le, ← h3]
      · simp only [Scalar.le, decide_eq_true_eq]; omega

theorem firstLastS_has_strs {l : List StrVal} (hs : Ascending (l.map StrVal.str)) {b : SBound}
    (h : firstLastS (fun s : StrVal => Scalar.s s.str) l = .ok b) : ∀ s ∈ l.map (fun s => Scalar.s s.str), b.Has s := by
  cases l with
  | nil => cases h
  | cons x xs =>
    cases h
    intro s hs'
    obtain ⟨y, hy, rfl⟩ := List.mem_map.1 hs'
    have hy' : y.str ∈ (x :: xs).map StrVal.str := List.mem_map_of_mem hy
    have hlast : ((x :: xs).map StrVal.str).getLast (by simp) = ((x :: xs).getLast (by simp)).str := by
      rw [List.getLast_map]
    refine ⟨?_, ?_⟩
    · rcases ascending_first hs hy' with h3 | h3
      · simp [Scalar.le, h3]
      · simp only [Scalar.le, decide_eq_true_eq]; omega
    · rcases ascending_last hs (by simp) hy' with h3 | h3
      · dsimp only; rw [← hlast, ← h3]; simp [Scalar.le]
      · rw [hlast] at h3; simp only [Scalar.le, decide_eq_true_eq]; omega

theorem SBound.Has.point (s : Scalar) : (SBound.point s).Has s := ⟨Scalar.le_refl s, Scalar.le_refl s⟩

theorem compareSimple_has {c : CmpVal} {op : CmpOp} {inv : Bool} {b : SBound} (h : compareSimple c op inv = .ok b) :
    (∀ k, c = .int k → b = .point (.i (edgeInt (if inv then op.invert else op) k))) ∧
    (∀ k, c = .float k → b = .point (.f (edgeRat (if inv then op.invert else op) k))) := by
  unfold compareSimple at h
  refine ⟨?_, ?_⟩
  · rintro k rfl
    dsimp only at h
    revert h
    generalize (if inv = true then op.invert else op) = o
    intro h
    cases o <;> simp only [checkedInt] at h <;> first
      | (split at h <;> cases h; rfl)
      | (cases h; rfl)
  · rintro k rfl
    dsimp only at h
    revert h
    generalize (if inv = true then op.invert else op) = o
    intro h
    cases o <;> cases h <;> rfl

theorem simplePred_has {var : Nat} {inv : Bool} {p : Pred} {o : Option SBound} (hs : p.ListsSorted)
    (h : simplePred var inv p = .ok o) : ∀ s ∈ predEdges var inv p, ∃ b, o = some b ∧ b.Has s := by
  intro s hm
  cases p with
  | compare op v c =>
    simp only [predEdges] at hm
    simp only [simplePred] at h
    split at h
    · rename_i hv
      rw [if_pos hv] at hm
      cases hc : compareSimple c op inv with
      | error x => rw [hc] at h; cases h
      | ok b =>
        rw [hc] at h
        cases h
        refine ⟨b, rfl, ?_⟩
        obtain ⟨h1, h2⟩ := compareSimple_has hc
        cases c with
        | int k => rw [List.mem_singleton] at hm; subst hm; rw [h1 k rfl]; exact SBound.Has.point _
        | float k => rw [List.mem_singleton] at hm; subst hm; rw [h2 k rfl]; exact SBound.Has.point _
    · rename_i hv
      rw [if_neg hv] at hm
      cases hm
  | equality op v c =>
    simp only [predEdges] at hm
    simp only [simplePred] at h
    split at h
    · rename_i hv
      rw [if_pos hv, List.mem_singleton] at hm
      subst hm
      cases h
      exact ⟨_, rfl, SBound.Has.point _⟩
    · rename_i hv
      rw [if_neg hv] at hm
      cases hm
  | list op v c =>
    simp only [simplePred] at h
    split at h
    · rename_i hv
      cases c with
      | intList l =>
        simp only [predEdges, if_pos hv] at hm
        simp only [listSimple] at h
        cases hc : firstLastS Scalar.i l with
        | error x => rw [hc] at h; cases h
        | ok b => rw [hc] at h; cases h; exact ⟨b, rfl, firstLastS_has_ints hs hc s hm⟩
      | strList l =>
        simp only [predEdges, if_pos hv] at hm
        simp only [listSimple] at h
        cases hc : firstLastS (fun s : StrVal => Scalar.s s.str) l with
        | error x => rw [hc] at h; cases h
        | ok b => rw [hc] at h; cases h; exact ⟨b, rfl, firstLastS_has_strs hs hc s hm⟩
    · rename_i hv
      cases c <;> simp only [predEdges, if_neg hv] at hm <;> cases hm
  | set op l r =>
    cases l with
    | var v =>
      cases r with
      | intList l =>
        simp only [predEdges] at hm
        simp only [simplePred, SetLeft.isVar, SetRight.isVar, Bool.or_false, decide_eq_true_eq] at h
        split at h
        · rename_i hv
          rw [if_pos hv] at hm
          simp only [setSimple] at h
          cases hc : firstLastS Scalar.i l with
          | error x => rw [hc] at h; cases h
          | ok b => rw [hc] at h; cases h; exact ⟨b, rfl, firstLastS_has_ints hs hc s hm⟩
        · rename_i hv
          rw [if_neg hv] at hm; cases hm
      | strList l =>
        simp only [predEdges] at hm
        simp only [simplePred, SetLeft.isVar, SetRight.isVar, Bool.or_false, decide_eq_true_eq] at h
        split at h
        · rename_i hv
          rw [if_pos hv] at hm
          simp only [setSimple] at h
          cases hc : firstLastS (fun s : StrVal => Scalar.s s.str) l with
          | error x => rw [hc] at h; cases h
          | ok b => rw [hc] at h; cases h; exact ⟨b, rfl, firstLastS_has_strs hs hc s hm⟩
        · rename_i hv
          rw [if_neg hv] at hm; cases hm
      | var w => simp only [predEdges] at hm; cases hm
    | int k =>
      cases r with
      | var v =>
        simp only [predEdges] at hm
        simp only [simplePred, SetLeft.isVar, SetRight.isVar, Bool.false_or, decide_eq_true_eq] at h
        split at h
        · rename_i hv
          rw [if_pos hv, List.mem_singleton] at hm
          subst hm; cases h
          exact ⟨_, rfl, SBound.Has.point _⟩
        · rename_i hv
          rw [if_neg hv] at hm; cases hm
      | _ => simp only [predEdges] at hm; cases hm
    | string k =>
      cases r with
      | var v =>
        simp only [predEdges] at hm
        simp only [simplePred, SetLeft.isVar, SetRight.isVar, Bool.false_or, decide_eq_true_eq] at h
        split at h
        · rename_i hv
          rw [if_pos hv, List.mem_singleton] at hm
          subst hm; cases h
          exact ⟨_, rfl, SBound.Has.point _⟩
        · rename_i hv
          rw [if_neg hv] at hm; cases hm
      | _ => simp only [predEdges] at hm; cases hm
  | _ => simp only [predEdges] at hm; cases hm

/-- both ends are of the same kind -/
def SBound.Uniform (b : SBound) : Prop := b.lo.kind = b.hi.kind

theorem firstLastS_uniform {α : Type} {f : α → Scalar} (hf : ∀ x y, (f x).kind = (f y).kind) {l : List α} {b : SBound}
    (h : firstLastS f l = .ok b) : b.Uniform := by
  cases l with
  | nil => cases h
  | cons x xs => cases h; exact hf _ _

theorem simplePred_uniform {var : Nat} {inv : Bool} {p : Pred} {b : SBound} (h : simplePred var inv p = .ok (some b)) :
    b.Uniform := by
  have lists : ∀ {l : ListVal} {b : SBound}, listSimple l = .ok b → b.Uniform := by
    intro l b h
    cases l <;> simp only [listSimple] at h <;> exact firstLastS_uniform (fun _ _ => rfl) h
  have sets : ∀ {l : SetLeft} {r : SetRight} {b : SBound}, setSimple l r = .ok b → b.Uniform := by
    intro l r b h
    cases l <;> cases r <;> simp only [setSimple] at h <;> first
      | (cases h; done)
      | (cases h; rfl)
      | exact firstLastS_uniform (fun _ _ => rfl) h
  have got : ∀ {x : Except Fault SBound}, x.map some = .ok (some b) → x = .ok b := by
    intro x hx
    cases x <;> cases hx <;> rfl
  cases p <;> simp only [simplePred] at h <;> try (cases h; done)
  case compare op v c =>
    split at h
    · obtain ⟨h1, h2⟩ := compareSimple_has (got h)
      cases c with
      | int k => rw [h1 k rfl]; rfl
      | float k => rw [h2 k rfl]; rfl
    · cases h
  case equality op v c =>
    split at h <;> cases h
    rfl
  case boolVar v =>
    split at h <;> cases h
    rfl
  case set op l r =>
    split at h
    · exact sets (got h)
    · cases h
  case list op v c =>
    split at h
    · exact lists (got h)
    · cases h

theorem unionSimple_uniform {l r : Option SBound} {b : SBound} (hl : ∀ b, l = some b → b.Uniform)
    (hr : ∀ b, r = some b → b.Uniform) (h : unionSimple l r = .ok (some b)) : b.Uniform := by
  cases l with
  | none =>
    cases r with
    | none => cases h
    | some r => cases h; exact hr _ rfl
  | some l =>
    cases r with
    | none => cases h; exact hl _ rfl
    | some r =>
      simp only [unionSimple] at h
      split at h
      · cases h
        show (Scalar.min _ _).kind = (Scalar.max _ _).kind
        rw [Scalar.min_kind, Scalar.max_kind]
        exact hl _ rfl
      · cases h

theorem simpleBound_uniform {var : Nat} {e : Expr} : ∀ {inv : Bool} {b : SBound}, simpleBound var inv e = .ok (some b) →
    b.Uniform := by
  induction e with
  | leaf p => intro inv b h; exact simplePred_uniform h
  | not e ih => intro inv b h; exact ih (inv := !inv) h
  | and l r ihl ihr =>
    intro inv b h
    simp only [simpleBound] at h
    split at h
    · cases h
    · rename_i h1
      split at h
      · cases h
      · rename_i h2
        exact unionSimple_uniform (fun b hb => ihl (by rw [h1, hb])) (fun b hb => ihr (by rw [h2, hb])) h
  | or l r ihl ihr =>
    intro inv b h
    simp only [simpleBound] at h
    split at h
    · cases h
    · rename_i h1
      split at h
      · cases h
      · rename_i h2
        exact unionSimple_uniform (fun b hb => ihl (by rw [h1, hb])) (fun b hb => ihr (by rw [h2, hb])) h

theorem unionSimple_has {l r o : Option SBound} (hl : ∀ b, l = some b → b.Uniform) (hr : ∀ b, r = some b → b.Uniform)
    (h : unionSimple l r = .ok o) (s : Scalar) :
    ((∃ b, l = some b ∧ b.Has s) ∨ ∃ b, r = some b ∧ b.Has s) → ∃ b, o = some b ∧ b.Has s := by
  cases l with
  | none =>
    cases r with
    | none => rintro (⟨b, h1, _⟩ | ⟨b, h1, _⟩) <;> cases h1
    | some r =>
      cases h
      rintro (⟨b, h1, _⟩ | ⟨b, h1, h2⟩)
      · cases h1
      · exact ⟨b, h1, h2⟩
  | some l =>
    cases r with
    | none =>
      cases h
      rintro (⟨b, h1, h2⟩ | ⟨b, h1, _⟩)
      · exact ⟨b, h1, h2⟩
      · cases h1
    | some r =>
      simp only [unionSimple] at h
      split at h
      · rename_i hk
        cases h
        rintro (⟨b, h1, h2, h3⟩ | ⟨b, h1, h2, h3⟩)
        · cases h1
          exact ⟨_, rfl, Scalar.le_trans Scalar.min_le_left h2, Scalar.le_trans h3 Scalar.le_max_left⟩
        · cases h1
          exact ⟨_, rfl, Scalar.le_trans (Scalar.min_le_right hk) h2,
            Scalar.le_trans h3 (Scalar.le_max_right ((hl _ rfl).symm.trans (hk.trans (hr _ rfl))))⟩
      · cases h

/-- the interval `change_boundaries` works with contains every value the expression makes it cover -/
theorem simpleBound_has {var : Nat} {e : Expr} : ∀ {inv : Bool} {o : Option SBound}, e.ListsSorted →
    simpleBound var inv e = .ok o → ∀ s ∈ edges var inv e, ∃ b, o = some b ∧ b.Has s := by
  induction e with
  | leaf p => intro inv o hs h; exact simplePred_has hs h
  | not e ih => intro inv o hs h; exact ih (inv := !inv) hs h
  | and l r ihl ihr =>
    intro inv o hs h s hm
    simp only [simpleBound] at h
    split at h
    · cases h
    · rename_i h1
      split at h
      · cases h
      · rename_i h2
        refine unionSimple_has (fun b hb => simpleBound_uniform (by rw [h1, hb])) (fun b hb => simpleBound_uniform (by rw [h2, hb]))
          h s ?_
        rcases List.mem_append.1 hm with hm | hm
        · exact Or.inl (ihl hs.1 h1 s hm)
        · exact Or.inr (ihr hs.2 h2 s hm)
  | or l r ihl ihr =>
    intro inv o hs h s hm
    simp only [simpleBound] at h
    split at h
    · cases h
    · rename_i h1
      split at h
      · cases h
      · rename_i h2
        refine unionSimple_has (fun b hb => simpleBound_uniform (by rw [h1, hb])) (fun b hb => simpleBound_uniform (by rw [h2, hb]))
          h s ?_
        rcases List.mem_append.1 hm with hm | hm
        · exact Or.inl (ihl hs.1 h1 s hm)
        · exact Or.inr (ihr hs.2 h2 s hm)

/-! ### the widened domain -/

theorem widenSmax_single (smax c : Nat) (hc : 1 ≤ c ∧ c < 2 ^ 64) : c - 1 ≤ widenSmax smax [c] := by
  have hm : (c + sizeMax) % 2 ^ 64 = c - 1 := by simp only [sizeMax] at *; omega
  simp only [widenSmax, hm]
  split
  · split <;> omega
  · omega

theorem filter_var_single {α : Type} {f : α → Nat} {l : List α} (hnd : (l.map f).Nodup) {x : α} (hx : x ∈ l) {v : Nat}
    (hv : f x = v) : l.filter (fun m => decide (f m = v)) = [x] := by
  induction l with
  | nil => cases hx
  | cons y ys ih =>
    rw [List.map_cons, List.nodup_cons] at hnd
    rcases List.mem_cons.1 hx with rfl | hx
    · rw [List.filter_cons, if_pos (by simpa using hv), List.cons.injEq]
      refine ⟨rfl, List.filter_eq_nil_iff.2 fun z hz => ?_⟩
      simp only [decide_eq_true_eq]
      intro h
      exact hnd.1 (hv.symm ▸ h ▸ List.mem_map_of_mem (f := f) hz)
    · have : f y ≠ v := fun h => hnd.1 (h ▸ hv ▸ List.mem_map_of_mem (f := f) hx)
      rw [List.filter_cons, if_neg (by simpa using this)]
      exact ih hnd.2 hx

/-- a string's id is at most the widened limit -/
theorem widen_strs {cfg : Config} (ht : TablesOK cfg) (hs : Small cfg) {v id : Nat} {s : Str} (smax : Nat)
    (h : (strTable cfg v)[id]? = some s) :
    id ≤ widenSmax smax ((cfg.stringMaps.filter (fun m => m.attr.var = v)).map (·.values.length)) := by
  have hsm := hs.strs v
  have hl := (List.getElem?_eq_some_iff.1 h).1
  unfold strTable at h hsm hl
  split at h
  · simp at h
  · rename_i m hm
    rw [hm] at hsm hl
    dsimp only at hsm hl
    unfold findStrMap at hm
    have h1 := List.mem_of_find?_eq_some hm
    have h2 := List.find?_some hm
    simp only [decide_eq_true_eq] at h2
    rw [filter_var_single (f := fun m : StringMap => m.attr.var) ht.strVars h1 h2, List.map_singleton]
    have : invalidId < 2 ^ 64 := by decide
    have := widenSmax_single smax m.values.length ⟨by omega, by omega⟩
    omega

theorem widen_ints {cfg : Config} (ht : TablesOK cfg) (hs : Small cfg) {v id : Nat} {s : Int} (smax : Nat)
    (h : (intTable cfg v)[id]? = some s) :
    id ≤ widenSmax smax ((cfg.intMaps.filter (fun m => m.attr.var = v)).map (·.values.length)) := by
  have hsm := hs.ints v
  have hl := (List.getElem?_eq_some_iff.1 h).1
  unfold intTable at h hsm hl
  split at h
  · simp at h
  · rename_i m hm
    rw [hm] at hsm hl
    dsimp only at hsm hl
    unfold findIntMap at hm
    have h1 := List.mem_of_find?_eq_some hm
    have h2 := List.find?_some hm
    simp only [decide_eq_true_eq] at h2
    rw [filter_var_single (f := fun m : IntMap => m.attr.var) ht.intVars h1 h2, List.map_singleton]
    have : invalidId < 2 ^ 64 := by decide
    have := widenSmax_single smax m.values.length ⟨by omega, by omega⟩
    omega

/-- how a constant as written shows up in the expression that `change_boundaries` reads; `ty`: the type of the attribute -/
def MentionRel (T : Config) (var : Nat) (ty : VType) : Mention → Scalar → Prop
  | .cmpInt op k, s => s = .i (edgeInt op k) ∨ s = .f (edgeRat op (rnd k))
  | .cmpFloat op k, s => s = .f (edgeRat op k)
  | .eqInt k, s => (ty ≠ .intEnum ∧ (s = .i k ∨ s = .f (rnd k))) ∨ ∃ id, s = .s id ∧ (intTable T var)[id]? = some k
  | .eqFloat k, s => s = .f k
  | .member k, s => s = .i k
  | .str x, s => ∃ id, s = .s id ∧ (strTable T var)[id]? = some x

theorem widenDomain_room {cfg : Config} (ht : TablesOK cfg) (hsm : Small cfg) {d d' : Domain} {b : SBound} (hu : b.Uniform)
    (h : widenDomain cfg d b = .ok d') {m : Mention} {s : Scalar} (hb : b.Has s) (hm : MentionRel cfg d.attr.var d.bound.ty m s) :
    Room (strTable cfg d.attr.var) (intTable cfg d.attr.var) d'.bound m := by
  obtain ⟨attr, ⟨ty, dlo, dhi⟩, und⟩ := d
  obtain ⟨lo, hi⟩ := b
  obtain ⟨h1, h2⟩ := hb
  dsimp only at h1 h2 hm
  unfold widenDomain at h
  cases ty <;> dsimp only at h
  case bool => cases h; cases m <;> trivial
  case segments => cases h; cases m <;> trivial
  case freq => cases h; cases m <;> trivial
  case string | strList =>
    cases dhi <;> simp only [reduceCtorEq] at h
    cases h
    cases m <;> try trivial
    obtain ⟨id, rfl, hid⟩ := hm
    exact ⟨id, hid, by simpa [Scalar.le] using widen_strs ht hsm _ hid⟩
  case intEnum =>
    cases dhi <;> simp only [reduceCtorEq] at h
    cases h
    cases m <;> try trivial
    rcases hm with ⟨hne, _⟩ | ⟨id, rfl, hid⟩
    · exact absurd rfl hne
    · exact ⟨id, hid, by simpa [Scalar.le] using widen_ints ht hsm _ hid⟩
  case int | intList =>
    cases dlo <;> cases dhi <;> cases lo <;> cases hi <;> simp only [reduceCtorEq] at h
    cases h
    cases s <;> simp only [Scalar.le, reduceCtorEq, decide_eq_true_eq, Bool.false_eq_true] at h1 h2
    cases m <;> simp only [MentionRel] at hm <;> try trivial
    all_goals
      simp only [reduceCtorEq, false_and, or_false, exists_false, Scalar.i.injEq] at hm
      simp only [Room, Scalar.le, decide_eq_true_eq]
    all_goals try trivial
    all_goals
      first
        | subst hm
        | (obtain ⟨_, hm⟩ := hm; subst hm)
      constructor <;> (repeat' split) <;> omega
  case float =>
    cases dlo <;> cases dhi <;> cases lo <;> cases hi <;> simp only [reduceCtorEq] at h
    cases h
    cases s <;> simp only [Scalar.le, reduceCtorEq, decide_eq_true_eq, Bool.false_eq_true] at h1 h2
    cases m <;> simp only [MentionRel] at hm <;> try trivial
    all_goals
      simp only [reduceCtorEq, false_and, false_or, or_false, exists_false, Scalar.f.injEq] at hm
      simp only [Room, Scalar.le, decide_eq_true_eq]
    all_goals
      first
        | subst hm
        | (obtain ⟨_, hm⟩ := hm; subst hm)
      constructor <;> (repeat' split) <;> linarith

/-! ### the passes before `change_boundaries` -/

/-- every constant the written predicate compares an attribute with shows up in the resolved one -/
def EdgeRel (T : Config) (p p' : Pred) : Prop :=
  ∀ (n : Str) (inv : Bool) (m : Mention), m ∈ predMentions n inv p → ∀ (var : Nat) (d : Domain), T.domains[var]? = some d →
    (∀ a, lowerKey a = n → tryGetIdForAttr T a = var) → ∃ s ∈ predEdges var inv p', MentionRel T var d.bound.ty m s

theorem opposite_invert (inv : Bool) (op : CmpOp) : (if inv then opposite op else op) = if inv then op.invert else op := by
  cases inv <;> cases op <;> rfl

theorem getIdForString_always {T c c' : Config} {v : AttrVar} {s : Str} {id : Nat}
    (h : getIdForString c v s true = .ok (id, c')) (hx : CfgExt c' T) : (strTable T v.var)[id]? = some s := by
  obtain ⟨_, _, _, h4, _⟩ := getIdForString_spec h
  rcases h4.get with h5 | ⟨_, _, h5⟩
  · exact prefix_get (hx.strs _) h5
  · cases h5

theorem getIdForIenum_always {T c c' : Config} {v : AttrVar} {s : Int} {id : Nat}
    (h : getIdForIenum c v s true = .ok (id, c')) (hx : CfgExt c' T) : (intTable T v.var)[id]? = some s := by
  obtain ⟨_, _, _, h4, _⟩ := getIdForIenum_spec h
  rcases h4.get with h5 | ⟨_, _, h5⟩
  · exact prefix_get (hx.ints _) h5
  · cases h5

theorem assignStrList_always {T c c' : Config} {v : AttrVar} {l l' : List StrVal}
    (h : assignStrList c v true l = .ok (l', c')) (hx : CfgExt c' T) :
    ∀ x ∈ l, ∃ y ∈ l', (strTable T v.var)[y.str]? = some x.string := by
  induction l generalizing c l' with
  | nil => intro x hx; cases hx
  | cons s ss ih =>
    simp only [assignStrList] at h
    split at h
    · cases h
    · rename_i h1
      split at h
      · cases h
      · rename_i h2
        cases h
        intro x hm
        rcases List.mem_cons.1 hm with rfl | hm
        · exact ⟨_, List.mem_cons_self, getIdForString_always h1 ((assignStrList_grow h2).ext.trans hx)⟩
        · obtain ⟨y, h3, h4⟩ := ih h2 x hm
          exact ⟨y, List.mem_cons_of_mem _ h3, h4⟩

theorem domain_ty_ext {a b : Config} (h : CfgExt a b) {v : Nat} {d d' : Domain} (h1 : a.domains[v]? = some d)
    (h2 : b.domains[v]? = some d') : d'.bound.ty = d.bound.ty := by
  have := congrArg (fun l => l[v]?) h.doms
  simp only [List.getElem?_map, h1, h2, Option.map_some, Option.some.injEq, Prod.mk.injEq] at this
  exact this.2.1

theorem edge_leaf {c T : Config} {p p3 p4 p5 : Pred} (hc : CfgExt c T) (h3 : StrStep T true (assignVarPred c p) p3)
    (h4 : IenumStep T true p3 p4) (h5 : FixStep T p4 p5) : EdgeRel T p p5 := by
  intro n inv m hm var d hd hvar
  have hres : ∀ v : AttrVar, lowerKey v.attr = n → (resolveVar c v).var = var := by
    intro v hv
    show tryGetIdForAttr c v.attr = var
    rw [← tryGetId_ext hc]
    exact hvar _ hv
  obtain ⟨c3, c3', h3, x3⟩ := h3
  obtain ⟨c4, c4', h4, x4⟩ := h4
  obtain ⟨c5, h5, x5⟩ := h5
  cases p with
  | compare op v k =>
    simp only [predMentions] at hm
    split at hm
    · rename_i hv
      simp only [assignVarPred, assignStrPred, Except.ok.injEq, Prod.mk.injEq] at h3
      obtain ⟨rfl, rfl⟩ := h3
      simp only [assignIenumPred, Except.ok.injEq, Prod.mk.injEq] at h4
      obtain ⟨rfl, rfl⟩ := h4
      simp only [fixFloatPred] at h5
      split at h5
      · cases h5
      · rename_i d5 hd5
        cases k with
        | int k =>
          simp only [List.mem_singleton] at hm
          subst hm
          simp only [Except.ok.injEq] at h5
          subst h5
          by_cases hf : d5.bound.ty = .float
          · simp only [if_pos hf, predEdges, if_pos (hres v hv), MentionRel, opposite_invert]
            exact ⟨_, List.mem_singleton.2 rfl, Or.inr rfl⟩
          · simp only [if_neg hf, predEdges, if_pos (hres v hv), MentionRel, opposite_invert]
            exact ⟨_, List.mem_singleton.2 rfl, Or.inl rfl⟩
        | float k =>
          simp only [List.mem_singleton] at hm
          subst hm
          simp only [Except.ok.injEq] at h5
          subst h5
          simp only [predEdges, if_pos (hres v hv), MentionRel, opposite_invert]
          exact ⟨_, List.mem_singleton.2 rfl, rfl⟩
    · cases hm
  | equality op v k =>
    simp only [predMentions] at hm
    split at hm
    · rename_i hv
      have hvr := hres v hv
      cases k with
      | int k =>
        simp only [List.mem_singleton] at hm
        subst hm
        simp only [assignVarPred, assignStrPred, Except.ok.injEq, Prod.mk.injEq] at h3
        obtain ⟨rfl, rfl⟩ := h3
        simp only [assignIenumPred] at h4
        split at h4
        · cases h4
        · rename_i d4 hd4
          split at h4
          · split at h4
            · cases h4
            · rename_i h6
              cases h4
              simp only [fixFloatPred] at h5
              split at h5
              · cases h5
              · cases h5
                have := getIdForIenum_always h6 x4
                rw [hvr] at this
                simp only [predEdges, if_pos hvr, EqVal.scalar]
                exact ⟨_, List.mem_singleton.2 rfl, Or.inr ⟨_, rfl, this⟩⟩
          · rename_i hne
            simp only [Except.ok.injEq, Prod.mk.injEq] at h4
            obtain ⟨rfl, rfl⟩ := h4
            simp only [fixFloatPred] at h5
            split at h5
            · cases h5
            · have hty : d.bound.ty ≠ .intEnum := by
                unfold getDomain at hd4
                rw [hvr] at hd4
                split at hd4
                · cases hd4
                · rename_i hd5
                  cases hd4
                  rw [domain_ty_ext x4 hd5 hd]; exact hne
              simp only [Except.ok.injEq] at h5
              subst h5
              simp only [predEdges, if_pos hvr]
              split
              · exact ⟨_, List.mem_singleton.2 rfl, Or.inl ⟨hty, Or.inr rfl⟩⟩
              · exact ⟨_, List.mem_singleton.2 rfl, Or.inl ⟨hty, Or.inl rfl⟩⟩
      | float k =>
        simp only [List.mem_singleton] at hm
        subst hm
        simp only [assignVarPred, assignStrPred, Except.ok.injEq, Prod.mk.injEq] at h3
        obtain ⟨rfl, rfl⟩ := h3
        simp only [assignIenumPred, Except.ok.injEq, Prod.mk.injEq] at h4
        obtain ⟨rfl, rfl⟩ := h4
        simp only [fixFloatPred] at h5
        split at h5
        · cases h5
        · cases h5
          simp only [predEdges, if_pos hvr, EqVal.scalar]
          exact ⟨_, List.mem_singleton.2 rfl, rfl⟩
      | string k =>
        simp only [List.mem_singleton] at hm
        subst hm
        simp only [assignVarPred, assignStrPred] at h3
        split at h3
        · cases h3
        · rename_i h6
          cases h3
          simp only [assignIenumPred, Except.ok.injEq, Prod.mk.injEq] at h4
          obtain ⟨rfl, rfl⟩ := h4
          simp only [fixFloatPred] at h5
          split at h5
          · cases h5
          · cases h5
            have := getIdForString_always h6 x3
            rw [hvr] at this
            simp only [predEdges, if_pos hvr, EqVal.scalar]
            exact ⟨_, List.mem_singleton.2 rfl, _, rfl, this⟩
      | intEnum e => cases hm
    · cases hm
  | list op v k =>
    cases k with
    | intList l =>
      simp only [predMentions] at hm
      split at hm
      · rename_i hv
        simp only [assignVarPred, assignStrPred, Except.ok.injEq, Prod.mk.injEq] at h3
        obtain ⟨rfl, rfl⟩ := h3
        simp only [assignIenumPred, Except.ok.injEq, Prod.mk.injEq] at h4
        obtain ⟨rfl, rfl⟩ := h4
        simp only [fixFloatPred, Except.ok.injEq] at h5
        subst h5
        obtain ⟨k, hk, rfl⟩ := List.mem_map.1 hm
        simp only [predEdges, if_pos (hres v hv)]
        exact ⟨_, List.mem_map_of_mem hk, rfl⟩
      · cases hm
    | strList l =>
      simp only [predMentions] at hm
      split at hm
      · rename_i hv
        simp only [assignVarPred, assignStrPred] at h3
        split at h3
        · cases h3
        · rename_i h6
          cases h3
          simp only [assignIenumPred, Except.ok.injEq, Prod.mk.injEq] at h4
          obtain ⟨rfl, rfl⟩ := h4
          simp only [fixFloatPred, Except.ok.injEq] at h5
          subst h5
          obtain ⟨k, hk, rfl⟩ := List.mem_map.1 hm
          obtain ⟨y, h7, h8⟩ := assignStrList_always h6 x3 k hk
          rw [hres v hv] at h8
          simp only [predEdges, if_pos (hres v hv)]
          exact ⟨_, List.mem_map_of_mem h7, _, rfl, h8⟩
      · cases hm
  | set op l r =>
    cases l with
    | var v =>
      cases r with
      | intList l =>
        simp only [predMentions] at hm
        split at hm
        · rename_i hv
          simp only [assignVarPred, assignStrPred, Except.ok.injEq, Prod.mk.injEq] at h3
          obtain ⟨rfl, rfl⟩ := h3
          simp only [assignIenumPred, Except.ok.injEq, Prod.mk.injEq] at h4
          obtain ⟨rfl, rfl⟩ := h4
          simp only [fixFloatPred, Except.ok.injEq] at h5
          subst h5
          obtain ⟨k, hk, rfl⟩ := List.mem_map.1 hm
          simp only [predEdges, if_pos (hres v hv)]
          exact ⟨_, List.mem_map_of_mem hk, rfl⟩
        · cases hm
      | strList l =>
        simp only [predMentions] at hm
        split at hm
        · rename_i hv
          simp only [assignVarPred, assignStrPred] at h3
          split at h3
          · cases h3
          · rename_i h6
            cases h3
            simp only [assignIenumPred, Except.ok.injEq, Prod.mk.injEq] at h4
            obtain ⟨rfl, rfl⟩ := h4
            simp only [fixFloatPred, Except.ok.injEq] at h5
            subst h5
            obtain ⟨k, hk, rfl⟩ := List.mem_map.1 hm
            obtain ⟨y, h7, h8⟩ := assignStrList_always h6 x3 k hk
            rw [hres v hv] at h8
            simp only [predEdges, if_pos (hres v hv)]
            exact ⟨_, List.mem_map_of_mem h7, _, rfl, h8⟩
        · cases hm
      | var w => simp only [predMentions] at hm; cases hm
    | int k =>
      cases r with
      | var v =>
        simp only [predMentions] at hm
        split at hm
        · rename_i hv
          simp only [List.mem_singleton] at hm
          subst hm
          simp only [assignVarPred, assignStrPred, Except.ok.injEq, Prod.mk.injEq] at h3
          obtain ⟨rfl, rfl⟩ := h3
          simp only [assignIenumPred, Except.ok.injEq, Prod.mk.injEq] at h4
          obtain ⟨rfl, rfl⟩ := h4
          simp only [fixFloatPred, Except.ok.injEq] at h5
          subst h5
          simp only [predEdges, if_pos (hres v hv)]
          exact ⟨_, List.mem_singleton.2 rfl, rfl⟩
        · cases hm
      | _ => simp only [predMentions] at hm; cases hm
    | string k =>
      cases r with
      | var v =>
        simp only [predMentions] at hm
        split at hm
        · rename_i hv
          simp only [List.mem_singleton] at hm
          subst hm
          simp only [assignVarPred, assignStrPred] at h3
          split at h3
          · cases h3
          · rename_i h6
            cases h3
            simp only [assignIenumPred, Except.ok.injEq, Prod.mk.injEq] at h4
            obtain ⟨rfl, rfl⟩ := h4
            simp only [fixFloatPred, Except.ok.injEq] at h5
            subst h5
            have := getIdForString_always h6 x3
            rw [hres v hv] at this
            simp only [predEdges, if_pos (hres v hv)]
            exact ⟨_, List.mem_singleton.2 rfl, _, rfl, this⟩
        · cases hm
      | _ => simp only [predMentions] at hm; cases hm
  | _ => simp only [predMentions] at hm; cases hm

theorem mentions_parse (n : Str) (e : Expr) : ∀ inv m, m ∈ mentions n inv (parseBuild e) ↔ m ∈ mentions n inv e := by
  induction e with
  | leaf p => intro inv m; rfl
  | not e ih => intro inv; exact ih (!inv)
  | and l r ihl ihr =>
    intro inv m
    simp only [parseBuild, mkAnd]
    split <;> simp only [mentions, List.mem_append, ihl, ihr] <;> tauto
  | or l r ihl ihr =>
    intro inv m
    simp only [parseBuild, mkOr]
    split <;> simp only [mentions, List.mem_append, ihl, ihr] <;> tauto

theorem edges_rel {T : Config} {e e' : Expr} (h : ExprRel (EdgeRel T) e e') {n : Str} {var : Nat} {d : Domain}
    (hd : T.domains[var]? = some d) (hvar : ∀ a, lowerKey a = n → tryGetIdForAttr T a = var) :
    ∀ inv m, m ∈ mentions n inv e → ∃ s ∈ edges var inv e', MentionRel T var d.bound.ty m s := by
  induction h with
  | leaf h => intro inv m hm; exact h n inv m hm var d hd hvar
  | not _ ih => intro inv; exact ih (!inv)
  | and _ _ ihl ihr =>
    intro inv m hm
    rcases List.mem_append.1 hm with hm | hm
    · obtain ⟨s, h1, h2⟩ := ihl inv m hm
      exact ⟨s, List.mem_append_left _ h1, h2⟩
    · obtain ⟨s, h1, h2⟩ := ihr inv m hm
      exact ⟨s, List.mem_append_right _ h1, h2⟩
  | or _ _ ihl ihr =>
    intro inv m hm
    rcases List.mem_append.1 hm with hm | hm
    · obtain ⟨s, h1, h2⟩ := ihl inv m hm
      exact ⟨s, List.mem_append_left _ h1, h2⟩
    · obtain ⟨s, h1, h2⟩ := ihr inv m hm
      exact ⟨s, List.mem_append_right _ h1, h2⟩

theorem edges_sortLists (var : Nat) (e : Expr) : ∀ inv s, s ∈ edges var inv (sortLists e) ↔ s ∈ edges var inv e := by
  induction e with
  | leaf p =>
    intro inv s
    cases p with
    | set op l r =>
      cases l <;> cases r <;> simp only [sortLists, sortListsPred, edges, predEdges] <;> split <;>
        simp only [List.mem_map, sortBy_mem]
    | list op v c => cases c <;> simp only [sortLists, sortListsPred, edges, predEdges] <;> split <;> simp only [List.mem_map, sortBy_mem]
    | _ => exact Iff.rfl
  | not e ih => intro inv; exact ih (!inv)
  | and l r ihl ihr => intro inv s; simp only [sortLists, edges, List.mem_append, ihl, ihr]
  | or l r ihl ihr => intro inv s; simp only [sortLists, edges, List.mem_append, ihl, ihr]

theorem predEdges_constants {cs : List Constant} (var : Nat) {p p' : Pred} (h : assignConstantsPred cs p = some p') (inv : Bool) :
    predEdges var inv p' = predEdges var inv p := by
  cases p <;> simp only [assignConstantsPred, Option.some.injEq] at h <;> try (subst h; rfl)
  repeat' split at h
  all_goals first
    | (cases h; done)
    | (cases h; rfl)

theorem fix_sort_comm {cfg : Config} {e e' : Expr} (h : fixFloat cfg (sortLists e) = .ok e') :
    ∃ e1, fixFloat cfg e = .ok e1 ∧ e' = sortLists e1 := by
  induction e generalizing e' with
  | leaf p =>
    simp only [sortLists, fixFloat] at h ⊢
    have key : ∀ p', fixFloatPred cfg (sortListsPred p) = .ok p' → ∃ p1, fixFloatPred cfg p = .ok p1 ∧ p' = sortListsPred p1 := by
      intro p' hp
      cases p with
      | set op l r => cases l <;> cases r <;> cases hp <;> exact ⟨_, rfl, rfl⟩
      | list op v c => cases c <;> cases hp <;> exact ⟨_, rfl, rfl⟩
      | compare op v c =>
        refine ⟨p', hp, ?_⟩
        simp only [sortListsPred, fixFloatPred] at hp
        repeat' split at hp
        all_goals cases hp <;> rfl
      | equality op v c =>
        refine ⟨p', hp, ?_⟩
        simp only [sortListsPred, fixFloatPred] at hp
        repeat' split at hp
        all_goals cases hp <;> rfl
      | _ => cases hp; exact ⟨_, rfl, rfl⟩
    split at h
    · cases h
    · rename_i p' hp
      cases h
      obtain ⟨p1, h1, rfl⟩ := key p' hp
      exact ⟨.leaf p1, by rw [h1], rfl⟩
  | not e ih =>
    simp only [sortLists, fixFloat] at h
    split at h
    · cases h
    · rename_i h1
      cases h
      obtain ⟨e1, h2, rfl⟩ := ih h1
      exact ⟨.not e1, by simp only [fixFloat, h2], rfl⟩
  | and l r ihl ihr =>
    simp only [sortLists, fixFloat] at h
    split at h
    · cases h
    · rename_i h1
      split at h
      · cases h
      · rename_i h2
        cases h
        obtain ⟨l1, h3, rfl⟩ := ihl h1
        obtain ⟨r1, h4, rfl⟩ := ihr h2
        exact ⟨.and l1 r1, by simp only [fixFloat, h3, h4], rfl⟩
  | or l r ihl ihr =>
    simp only [sortLists, fixFloat] at h
    split at h
    · cases h
    · rename_i h1
      split at h
      · cases h
      · rename_i h2
        cases h
        obtain ⟨l1, h3, rfl⟩ := ihl h1
        obtain ⟨r1, h4, rfl⟩ := ihr h2
        exact ⟨.or l1 r1, by simp only [fixFloat, h3, h4], rfl⟩

end BeTree
