import Verif.Lemmas.InsertWorld
import Verif.Spec.Static
/-
Conditions on the calls alone that keep the domains narrow and the tables small.
-/
namespace BeTree
open Spec

/-! ### integers -/

/-- the room `MidInt` constants take once compared -/
def MidScalar : Scalar → Prop
  | .i x => -2 ^ 61 - 1 ≤ x ∧ x ≤ 2 ^ 61 + 1
  | _ => True

def MidBound (b : Bound) : Prop :=
  (∀ x, b.lo = .i x → x = int64Min ∨ MidScalar (.i x)) ∧ (∀ x, b.hi = .i x → x = int64Max ∨ MidScalar (.i x))

def MidCfg (cfg : Config) : Prop := ∀ d ∈ cfg.domains, MidBound d.bound

theorem MidBound.narrow {b : Bound} (h : MidBound b) : NarrowBound b := by
  intro lo hi h1 h2 h3 h4
  have a := (h.1 lo h1).resolve_left h3
  have c := (h.2 hi h2).resolve_left h4
  simp only [MidScalar] at a c
  simp only [int64Max]
  omega

theorem MidCfg.narrow {cfg : Config} (h : MidCfg cfg) : NarrowCfg cfg := fun d hd => (h d hd).narrow

def SBound.Mid (b : SBound) : Prop := MidScalar b.lo ∧ MidScalar b.hi

theorem midInt_scalar {k : Int} (h : MidInt k) : MidScalar (.i k) := by
  simp only [MidInt, MidScalar] at *; omega

theorem compareSimple_mid {c : CmpVal} {op op' : CmpOp} {v : AttrVar} {inv : Bool} {b : SBound} (hm : MidPred (.compare op' v c))
    (h : compareSimple c op inv = .ok b) : b.Mid := by
  unfold compareSimple at h
  dsimp only at h
  cases c with
  | int i =>
    simp only [MidPred, MidInt] at hm
    dsimp only at h
    split at h
    · obtain ⟨x, hx, rfl⟩ := map_ok h
      unfold checkedInt at hx
      split at hx <;> cases hx
      constructor <;> simp only [SBound.point, MidScalar] <;> omega
    · cases h; constructor <;> simp only [SBound.point, MidScalar] <;> omega
    · obtain ⟨x, hx, rfl⟩ := map_ok h
      unfold checkedInt at hx
      split at hx <;> cases hx
      constructor <;> simp only [SBound.point, MidScalar] <;> omega
    · cases h; constructor <;> simp only [SBound.point, MidScalar] <;> omega
  | float f =>
    dsimp only at h
    split at h <;> cases h <;> exact ⟨trivial, trivial⟩

theorem firstLastS_mid {α : Type} {f : α → Scalar} {l : List α} {b : SBound} (hi : ∀ x ∈ l, MidScalar (f x))
    (h : firstLastS f l = .ok b) : b.Mid := by
  cases l with
  | nil => cases h
  | cons x xs => cases h; exact ⟨hi _ List.mem_cons_self, hi _ (List.getLast_mem _)⟩

theorem simplePred_mid {var : Nat} {inv : Bool} {p : Pred} {b : SBound} (hm : MidPred p)
    (h : simplePred var inv p = .ok (some b)) : b.Mid := by
  cases p with
  | compare op v c =>
    simp only [simplePred] at h
    split at h
    · obtain ⟨x, hx, h2⟩ := map_ok h
      cases h2
      exact compareSimple_mid hm hx
    · cases h
  | equality op v c =>
    simp only [simplePred] at h
    split at h <;> cases h
    cases c with
    | int k => exact ⟨midInt_scalar hm, midInt_scalar hm⟩
    | _ => exact ⟨trivial, trivial⟩
  | boolVar v =>
    simp only [simplePred] at h
    split at h <;> cases h
    exact ⟨trivial, trivial⟩
  | set op l r =>
    simp only [simplePred] at h
    split at h
    · obtain ⟨x, hx, h2⟩ := map_ok h
      cases h2
      cases l with
      | var v =>
        cases r with
        | intList l => exact firstLastS_mid (fun k hk => midInt_scalar (hm k hk)) hx
        | strList l => exact firstLastS_mid (f := fun s : StrVal => Scalar.s s.str) (fun k hk => trivial) hx
        | var v => cases hx
      | int i => cases hx; exact ⟨midInt_scalar (by cases r <;> exact hm), midInt_scalar (by cases r <;> exact hm)⟩
      | string s => cases hx; exact ⟨trivial, trivial⟩
    · cases h
  | list op v c =>
    simp only [simplePred] at h
    split at h
    · obtain ⟨x, hx, h2⟩ := map_ok h
      cases h2
      cases c with
      | intList l => exact firstLastS_mid (fun k hk => midInt_scalar (hm k hk)) hx
      | strList l => exact firstLastS_mid (f := fun s : StrVal => Scalar.s s.str) (fun k hk => trivial) hx
    · cases h
  | _ => cases h

theorem Scalar.min_mid {a b : Scalar} (ha : MidScalar a) (hb : MidScalar b) : MidScalar (a.min b) := by
  cases a <;> cases b <;> simp only [Scalar.min] <;> try exact ha
  · rename_i x y
    by_cases h : x < y
    · rw [if_pos h]; assumption
    · rw [if_neg h]; assumption

theorem Scalar.max_mid {a b : Scalar} (ha : MidScalar a) (hb : MidScalar b) : MidScalar (a.max b) := by
  cases a <;> cases b <;> simp only [Scalar.max] <;> try exact ha
  · rename_i x y
    by_cases h : x < y
    · rw [if_pos h]; assumption
    · rw [if_neg h]; assumption

theorem unionSimple_mid {l r : Option SBound} {b : SBound} (hl : ∀ x, l = some x → x.Mid) (hr : ∀ x, r = some x → x.Mid)
    (h : unionSimple l r = .ok (some b)) : b.Mid := by
  unfold unionSimple at h
  split at h
  · cases h
  · cases h; exact hr _ rfl
  · cases h; exact hl _ rfl
  · split at h
    · cases h
      exact ⟨Scalar.min_mid (hl _ rfl).1 (hr _ rfl).1, Scalar.max_mid (hl _ rfl).2 (hr _ rfl).2⟩
    · cases h

theorem simpleBound_mid {var : Nat} {e : Expr} : ∀ {inv : Bool} {b : SBound}, e.All MidPred →
    simpleBound var inv e = .ok (some b) → b.Mid := by
  induction e with
  | leaf p => intro inv b hm h; exact simplePred_mid hm h
  | not e ih => intro inv b hm h; exact ih hm h
  | and l r ihl ihr | or l r ihl ihr =>
    intro inv b hm h
    simp only [simpleBound] at h
    split at h
    · cases h
    · rename_i x hx
      split at h
      · cases h
      · rename_i y hy
        exact unionSimple_mid (fun z hz => ihl hm.1 (by rw [hx, hz])) (fun z hz => ihr hm.2 (by rw [hy, hz])) h

theorem widenDomain_mid {cfg : Config} {d d' : Domain} {b : SBound} (hd : MidBound d.bound) (hb : b.Mid)
    (h : widenDomain cfg d b = .ok d') : MidBound d'.bound := by
  unfold widenDomain at h
  have ii : ∀ {dlo dhi lo hi : Int}, d.bound.lo = .i dlo → d.bound.hi = .i dhi → b.lo = .i lo → b.hi = .i hi →
      MidBound { d.bound with
        lo := .i (if dlo ≠ int64Min then (if lo < dlo then lo else dlo) else lo)
        hi := .i (if dhi ≠ int64Max then (if hi > dhi then hi else dhi) else hi) } := by
    intro dlo dhi lo hi e1 e2 e3 e4
    obtain ⟨b1, b2⟩ := hb
    rw [e3] at b1
    rw [e4] at b2
    constructor
    · intro x hx
      cases hx
      by_cases h1 : dlo = int64Min
      · rw [if_neg (not_not.2 h1)]; exact .inr b1
      · rw [if_pos h1]
        by_cases h2 : lo < dlo
        · rw [if_pos h2]; exact .inr b1
        · rw [if_neg h2]; exact hd.1 _ e1
    · intro x hx
      cases hx
      by_cases h1 : dhi = int64Max
      · rw [if_neg (not_not.2 h1)]; exact .inr b2
      · rw [if_pos h1]
        by_cases h2 : hi > dhi
        · rw [if_pos h2]; exact .inr b2
        · rw [if_neg h2]; exact hd.2 _ e2
  split at h
  all_goals first
    | (cases h; exact hd)
    | (split at h
       · cases h; exact ii (by assumption) (by assumption) (by assumption) (by assumption)
       · cases h)
    | (split at h
       · cases h; exact ⟨fun x hx => (by cases hx), fun x hx => (by cases hx)⟩
       · cases h)
    | (split at h
       · cases h; exact ⟨hd.1, fun x hx => (by cases hx)⟩
       · cases h)

theorem changeBoundaries_mid {cfg cfg' : Config} {e : Expr} (hc : MidCfg cfg) (hm : e.All MidPred)
    (h : BeTree.changeBoundaries cfg e = .ok cfg') : MidCfg cfg' := by
  have key : ∀ {ds ds' : List Domain}, (∀ d ∈ ds, MidBound d.bound) → changeDomains cfg e ds = .ok ds' →
      ∀ d ∈ ds', MidBound d.bound := by
    intro ds
    induction ds with
    | nil => intro ds' _ h; cases h; intro d hd; cases hd
    | cons d ds ih =>
      intro ds' hd h
      rw [changeDomains] at h
      split at h
      · cases h
      · rename_i d1 h1
        split at h
        · cases h
        · rename_i ds1 h2
          cases h
          intro x hx
          rcases List.mem_cons.1 hx with rfl | hx
          · have hd0 := hd d List.mem_cons_self
            unfold changeDomain at h1
            repeat' split at h1
            all_goals first
              | (cases h1; done)
              | (cases h1; exact hd0)
              | (rename_i hb; exact widenDomain_mid hd0 (simpleBound_mid hm hb) h1)
          · exact ih (fun d h => hd d (List.mem_cons_of_mem _ h)) h2 x hx
  unfold BeTree.changeBoundaries at h
  split at h
  · cases h
  · rename_i ds hds
    cases h
    exact key hc hds

theorem mid_all {e : Expr} : Mid e ↔ e.All MidPred := by
  induction e with
  | leaf p => exact Iff.rfl
  | not e ih => exact ih
  | and l r ihl ihr | or l r ihl ihr => simp only [Mid, Expr.All, ihl, ihr]

theorem assignVarPred_mid {cfg : Config} {p : Pred} (h : MidPred p) : MidPred (assignVarPred cfg p) := by
  cases p with
  | compare op v c => cases c <;> exact h
  | equality op v c => cases c <;> exact h
  | set op l r => cases l <;> cases r <;> exact h
  | list op v c => cases c <;> exact h
  | _ => trivial

theorem assignStrPred_mid {cfg cfg' : Config} {al : Bool} {p p' : Pred} (h : assignStrPred cfg al p = .ok (p', cfg')) (hm : MidPred p) :
    MidPred p' := by
  unfold assignStrPred at h
  repeat' split at h
  all_goals first
    | (cases h; done)
    | (cases h; exact hm)

theorem assignIenumPred_mid {cfg cfg' : Config} {al : Bool} {p p' : Pred} (h : assignIenumPred cfg al p = .ok (p', cfg'))
    (hm : MidPred p) : MidPred p' := by
  unfold assignIenumPred at h
  repeat' split at h
  all_goals first
    | (cases h; done)
    | (cases h; exact hm)
    | (cases h; trivial)

theorem fixFloatPred_mid {cfg : Config} {p p' : Pred} (h : fixFloatPred cfg p = .ok p') (hm : MidPred p) : MidPred p' := by
  cases p with
  | compare op v c | equality op v c =>
    simp only [fixFloatPred] at h
    split at h
    · cases h
    · rename_i d hd
      cases c <;> cases h <;> try exact hm
      by_cases hf : d.bound.ty = .float
      · rw [if_pos hf]; trivial
      · rw [if_neg hf]; exact hm
  | _ => cases h; exact hm

theorem assignConstantsPred_mid {cs : List Constant} {p p' : Pred} (h : assignConstantsPred cs p = some p') (hm : MidPred p) :
    MidPred p' := by
  unfold assignConstantsPred at h
  repeat' split at h
  all_goals first
    | (cases h; done)
    | (cases h; exact hm)

theorem sortListsPred_mid {p : Pred} (h : MidPred p) : MidPred (sortListsPred p) := by
  cases p with
  | set op l r =>
    cases l <;> cases r <;> try exact h
    intro k hk
    exact h k ((sortBy_perm _ _).mem_iff.1 hk)
  | list op v c =>
    cases c <;> try exact h
    intro k hk
    exact h k ((sortBy_perm _ _).mem_iff.1 hk)
  | _ => exact h

/-! ### the sizes of the tables -/

/-- the tables grow by at most so many strings, enum values -/
structure Gains (n m : Nat) (a b : Config) : Prop where
  strs : ∀ v, (strTable b v).length ≤ (strTable a v).length + n
  ints : ∀ v, (intTable b v).length ≤ (intTable a v).length + m

theorem Gains.refl (a : Config) (n m : Nat) : Gains n m a a := ⟨fun _ => Nat.le_add_right _ _, fun _ => Nat.le_add_right _ _⟩

theorem Gains.trans {n m n' m' : Nat} {a b c : Config} (h : Gains n m a b) (k : Gains n' m' b c) : Gains (n + n') (m + m') a c :=
  ⟨fun v => by have := h.strs v; have := k.strs v; omega, fun v => by have := h.ints v; have := k.ints v; omega⟩

theorem Gains.mono {n m n' m' : Nat} {a b : Config} (h : Gains n m a b) (hn : n ≤ n') (hm : m ≤ m') : Gains n' m' a b :=
  ⟨fun v => by have := h.strs v; omega, fun v => by have := h.ints v; omega⟩

theorem gains_of_maps {a b : Config} (hs : b.stringMaps = a.stringMaps) (hi : b.intMaps = a.intMaps) : Gains 0 0 a b :=
  ⟨fun v => by rw [strTable_of_maps hs]; exact Nat.le_refl _, fun v => by rw [intTable_of_maps hi]; exact Nat.le_refl _⟩

theorem strTable_appendStr (cfg : Config) (var : Nat) (s : Str) (u : Nat) :
    (strTable { cfg with stringMaps := appendStr cfg.stringMaps var s } u).length ≤ (strTable cfg u).length + 1 := by
  unfold strTable
  dsimp only
  rw [findStrMap_appendStr]
  by_cases hu : u = var
  · rw [if_pos hu]
    cases findStrMap cfg.stringMaps u <;> simp
  · rw [if_neg hu]; exact Nat.le_add_right _ _

theorem strTable_new (cfg : Config) {v : AttrVar} (h : findStrMap cfg.stringMaps v.var = none) (u : Nat) :
    strTable { cfg with stringMaps := cfg.stringMaps ++ [{ attr := v, values := [] }] } u = strTable cfg u := by
  unfold strTable
  dsimp only
  rw [findStrMap_append_new u h]
  by_cases hu : v.var = u
  · rw [if_pos hu, ← hu, h]
  · rw [if_neg hu]

theorem intTable_appendInt (cfg : Config) (var : Nat) (s : Int) (u : Nat) :
    (intTable { cfg with intMaps := appendInt cfg.intMaps var s } u).length ≤ (intTable cfg u).length + 1 := by
  unfold intTable
  dsimp only
  rw [findIntMap_appendInt]
  by_cases hu : u = var
  · rw [if_pos hu]
    cases findIntMap cfg.intMaps u <;> simp
  · rw [if_neg hu]; exact Nat.le_add_right _ _

theorem intTable_new (cfg : Config) {v : AttrVar} (h : findIntMap cfg.intMaps v.var = none) (u : Nat) :
    intTable { cfg with intMaps := cfg.intMaps ++ [{ attr := v, values := [] }] } u = intTable cfg u := by
  unfold intTable
  dsimp only
  rw [findIntMap_append_new u h]
  by_cases hu : v.var = u
  · rw [if_pos hu, ← hu, h]
  · rw [if_neg hu]

theorem getIdForString_gains {cfg cfg' : Config} {v : AttrVar} {s : Str} {al : Bool} {id : Nat}
    (h : getIdForString cfg v s al = .ok (id, cfg')) : Gains 1 0 cfg cfg' := by
  unfold getIdForString at h
  split at h
  · split at h
    · cases h
    · cases h; exact Gains.refl _ _ _
    · unfold addStrId at h
      repeat' split at h
      all_goals first
        | (cases h; done)
        | (cases h; exact ⟨fun u => strTable_appendStr cfg v.var s u, fun u => Nat.le_refl _⟩)
        | (cases h; exact ⟨fun u => Nat.le_add_right _ _, fun u => Nat.le_refl _⟩)
  · rename_i hf
    have k : ∀ u, (strTable { cfg with stringMaps := appendStr (cfg.stringMaps ++ [{ attr := v, values := [] }]) v.var s } u).length ≤
        (strTable cfg u).length + 1 := fun u => by
      rw [← strTable_new cfg hf u]
      exact strTable_appendStr { cfg with stringMaps := cfg.stringMaps ++ [{ attr := v, values := [] }] } v.var s u
    unfold addStrId at h
    repeat' split at h
    all_goals first
      | (cases h; done)
      | (cases h; exact ⟨k, fun u => Nat.le_refl _⟩)
      | (cases h; exact ⟨fun u => by rw [strTable_new cfg hf u]; exact Nat.le_add_right _ _, fun u => Nat.le_refl _⟩)

theorem getIdForIenum_gains {cfg cfg' : Config} {v : AttrVar} {s : Int} {al : Bool} {id : Nat}
    (h : getIdForIenum cfg v s al = .ok (id, cfg')) : Gains 0 1 cfg cfg' := by
  unfold getIdForIenum at h
  split at h
  · split at h
    · cases h; exact Gains.refl _ _ _
    · unfold addIntId at h
      repeat' split at h
      all_goals first
        | (cases h; done)
        | (cases h; exact ⟨fun u => Nat.le_refl _, fun u => intTable_appendInt cfg v.var s u⟩)
        | (cases h; exact ⟨fun u => Nat.le_refl _, fun u => Nat.le_add_right _ _⟩)
  · rename_i hf
    have k : ∀ u, (intTable { cfg with intMaps := appendInt (cfg.intMaps ++ [{ attr := v, values := [] }]) v.var s } u).length ≤
        (intTable cfg u).length + 1 := fun u => by
      rw [← intTable_new cfg hf u]
      exact intTable_appendInt { cfg with intMaps := cfg.intMaps ++ [{ attr := v, values := [] }] } v.var s u
    unfold addIntId at h
    repeat' split at h
    all_goals first
      | (cases h; done)
      | (cases h; exact ⟨fun u => Nat.le_refl _, k⟩)
      | (cases h; exact ⟨fun u => Nat.le_refl _, fun u => by rw [intTable_new cfg hf u]; exact Nat.le_add_right _ _⟩)

theorem assignStrList_gains {v : AttrVar} {al : Bool} {l l' : List StrVal} {cfg cfg' : Config}
    (h : assignStrList cfg v al l = .ok (l', cfg')) : Gains l.length 0 cfg cfg' ∧ l'.length = l.length := by
  induction l generalizing cfg l' with
  | nil => cases h; exact ⟨Gains.refl _ _ _, rfl⟩
  | cons s ss ih =>
    rw [assignStrList] at h
    split at h
    · cases h
    · rename_i h1
      split at h
      · cases h
      · rename_i h2
        cases h
        obtain ⟨a, b⟩ := ih h2
        exact ⟨((getIdForString_gains h1).trans a).mono (by simp; omega) (by simp), by simp [b]⟩

theorem assignStrPred_gains {cfg cfg' : Config} {al : Bool} {p p' : Pred} (h : assignStrPred cfg al p = .ok (p', cfg')) :
    Gains (predConstants p) 0 cfg cfg' ∧ predConstants p' = predConstants p := by
  unfold assignStrPred at h
  repeat' split at h
  all_goals first
    | (cases h; done)
    | (rename_i h1; cases h; exact ⟨getIdForString_gains h1, rfl⟩)
    | (rename_i h1; cases h; exact assignStrList_gains h1)
    | (cases h; exact ⟨Gains.refl _ _ _, rfl⟩)

theorem assignStr_gains {al : Bool} {e : Expr} : ∀ {cfg cfg' : Config} {e' : Expr}, assignStr cfg al e = .ok (e', cfg') →
    Gains (numConstants e) 0 cfg cfg' ∧ numConstants e' = numConstants e := by
  induction e with
  | leaf p =>
    intro cfg cfg' e' h
    rw [assignStr] at h
    split at h
    · cases h
    · rename_i h1; cases h; exact assignStrPred_gains h1
  | not e ih =>
    intro cfg cfg' e' h
    rw [assignStr] at h
    split at h
    · cases h
    · rename_i h1; cases h; obtain ⟨a, b⟩ := ih h1; exact ⟨a, b⟩
  | and l r ihl ihr | or l r ihl ihr =>
    intro cfg cfg' e' h
    rw [assignStr] at h
    split at h
    · cases h
    · rename_i h1
      split at h
      · cases h
      · rename_i h2
        cases h
        obtain ⟨a1, a2⟩ := ihl h1
        obtain ⟨b1, b2⟩ := ihr h2
        exact ⟨a1.trans b1, by simp only [numConstants, a2, b2]⟩

theorem assignIenum_gains {al : Bool} {e : Expr} : ∀ {cfg cfg' : Config} {e' : Expr}, assignIenum cfg al e = .ok (e', cfg') →
    Gains 0 (numConstants e) cfg cfg' := by
  induction e with
  | leaf p =>
    intro cfg cfg' e' h
    rw [assignIenum] at h
    split at h
    · cases h
    · rename_i h1
      cases h
      unfold assignIenumPred at h1
      repeat' split at h1
      all_goals first
        | (cases h1; done)
        | (rename_i h2; cases h1; exact getIdForIenum_gains h2)
        | (cases h1; exact Gains.refl _ _ _)
  | not e ih =>
    intro cfg cfg' e' h
    rw [assignIenum] at h
    split at h
    · cases h
    · rename_i h1; cases h; exact ih h1
  | and l r ihl ihr | or l r ihl ihr =>
    intro cfg cfg' e' h
    rw [assignIenum] at h
    split at h
    · cases h
    · rename_i h1
      split at h
      · cases h
      · rename_i h2
        cases h
        exact (ihl h1).trans (ihr h2)

theorem numConstants_parse (e : Expr) : numConstants (parseBuild e) = numConstants e := by
  induction e with
  | leaf p => rfl
  | not e ih => exact ih
  | and l r ihl ihr =>
    simp only [parseBuild, mkAnd]
    split <;> simp only [numConstants, ihl, ihr, Nat.add_comm]
  | or l r ihl ihr =>
    simp only [parseBuild, mkOr]
    split <;> simp only [numConstants, ihl, ihr, Nat.add_comm]

theorem numConstants_assignVar (cfg : Config) (e : Expr) : numConstants (assignVar cfg e) = numConstants e := by
  induction e with
  | leaf p =>
    cases p with
    | set op l r => cases l <;> cases r <;> rfl
    | list op v c => cases c <;> rfl
    | _ => rfl
  | not e ih => exact ih
  | and l r ihl ihr | or l r ihl ihr => simp only [assignVar, numConstants, ihl, ihr]

theorem numConstants_assignConstants {cs : List Constant} {e : Expr} : ∀ {e' : Expr}, assignConstants cs e = some e' →
    numConstants e' = numConstants e := by
  induction e with
  | leaf p =>
    intro e' h
    simp only [assignConstants, Option.map_eq_some_iff] at h
    obtain ⟨q, hq, rfl⟩ := h
    unfold assignConstantsPred at hq
    repeat' split at hq
    all_goals first
      | (cases hq; done)
      | (cases hq; rfl)
  | not e ih =>
    intro e' h
    simp only [assignConstants, Option.map_eq_some_iff] at h
    obtain ⟨q, hq, rfl⟩ := h
    have := ih hq
    exact this
  | and l r ihl ihr | or l r ihl ihr =>
    intro e' h
    simp only [assignConstants] at h
    repeat' split at h
    all_goals first
      | (cases h; done)
      | (rename_i h1 h2; cases h; simp only [numConstants, ihl h1, ihr h2])

theorem finishSub_maps {cfg cfg' : Config} {id : Nat} {e : Expr} {s : Sub} (h : finishSub cfg id e = .ok (s, cfg')) :
    Gains 0 0 cfg cfg' ∧ cfg'.domains = cfg.domains := by
  unfold finishSub at h
  dsimp only at h
  repeat' split at h
  all_goals first
    | (cases h; done)
    | (cases h; exact ⟨gains_of_maps rfl rfl, rfl⟩)

theorem prepareInsert_gains {cfg cfg' : Config} {id : Nat} {cs : List Constant} {e : Expr} {o : Option Sub}
    (h : prepareInsert cfg id cs e = .ok (o, cfg')) : Gains (numConstants e) (numConstants e) cfg cfg' := by
  unfold prepareInsert at h
  dsimp only at h
  split at h
  · cases h
  · cases h; exact Gains.refl _ _ _
  · split at h
    · cases h; exact Gains.refl _ _ _
    · rename_i e1 h0
      have n1 : numConstants e1 = numConstants e := (numConstants_assignConstants h0).trans (numConstants_assignVar cfg e)
      split at h
      · cases h
      · rename_i h1
        obtain ⟨g1, n2⟩ := assignStr_gains h1
        split at h
        · cases h
        · rename_i h2
          have g2 := assignIenum_gains h2
          rw [n1] at g1
          rw [n2, n1] at g2
          split at h
          · cases h
          · split at h
            · cases h
            · rename_i h3
              cases h
              exact ((g1.trans g2).trans (finishSub_maps h3).1).mono (by omega) (by omega)

theorem changeBoundaries_maps {cfg cfg' : Config} {e : Expr} (h : BeTree.changeBoundaries cfg e = .ok cfg') : Gains 0 0 cfg cfg' := by
  unfold BeTree.changeBoundaries at h
  split at h
  · cases h
  · cases h; exact gains_of_maps rfl rfl

/-- what `betree_make_sub` does to the tables and domains -/
theorem makeSub_static {t t' : Tree} {id : Nat} {cs : List Constant} {e : Expr} {o : Option Sub}
    (h : t.makeSub id cs e = .ok (o, t')) (hm : e.All MidPred) (hc : MidCfg t.cfg) :
    Gains (numConstants e) (numConstants e) t.cfg t'.cfg ∧ MidCfg t'.cfg := by
  unfold Tree.makeSub at h
  dsimp only at h
  split at h
  · cases h
  · cases h; exact ⟨Gains.refl _ _ _, hc⟩
  · split at h
    · cases h
    · rename_i e1 c1 h1
      obtain ⟨g1, n2⟩ := assignStr_gains h1
      rw [numConstants_assignVar] at g1 n2
      have m1 : e1.All MidPred := assignStr_all (fun a b p p' _ _ h hw => assignStrPred_mid h hw) (assignStr_grow h1).base.domains.symm
        (Grow.refl _) h1 (assignVar_all (fun p => assignVarPred_mid) hm)
      split at h
      · cases h
      · rename_i e2 c2 h2
        have g2 := assignIenum_gains h2
        rw [n2] at g2
        have m2 : e2.All MidPred := assignIenum_all (fun a b p p' _ _ h hw => assignIenumPred_mid h hw)
          (assignIenum_grow h2).base.domains.symm (Grow.refl _) h2 m1
        have hd2 : c2.domains = t.cfg.domains := (assignIenum_grow h2).base.domains.trans (assignStr_grow h1).base.domains
        have hc2 : MidCfg c2 := by unfold MidCfg; rw [hd2]; exact hc
        have g12 : Gains (numConstants e) (numConstants e) t.cfg c2 := (g1.trans g2).mono (by omega) (by omega)
        split at h
        · cases h
        · rename_i e3 h3
          have m3 : e3.All MidPred := fixFloat_all (fun p p' h hw => fixFloatPred_mid h hw) h3 m2
          split at h
          · cases h
          · cases h; exact ⟨g12, hc2⟩
          · split at h
            · cases h; exact ⟨g12, hc2⟩
            · rename_i e4 h4
              have m4 : (sortLists e4).All MidPred := sortLists_all (fun p => sortListsPred_mid)
                (assignConstants_all (fun p p' h hw => assignConstantsPred_mid h hw) h4 m3)
              split at h
              · cases h
              · rename_i c5 h5
                split at h
                · cases h
                · rename_i h6
                  cases h
                  obtain ⟨g6, d6⟩ := finishSub_maps h6
                  refine ⟨((g12.trans (changeBoundaries_maps h5)).trans g6).mono (by omega) (by omega), ?_⟩
                  unfold MidCfg
                  rw [d6]
                  exact changeBoundaries_mid hc2 m4 h5

/-- what `betree_change_boundaries` does to the tables and domains -/
theorem changeBoundaries_static {t t' : Tree} {e : Expr} (h : t.changeBoundaries e = .ok t') (hm : e.All MidPred) (hc : MidCfg t.cfg) :
    Gains (numConstants e) (numConstants e) t.cfg t'.cfg ∧ MidCfg t'.cfg := by
  unfold Tree.changeBoundaries at h
  split at h
  · cases h
  · rename_i e1 c1 h1
    obtain ⟨g1, n2⟩ := assignStr_gains h1
    rw [numConstants_assignVar] at g1 n2
    have m1 : e1.All MidPred := assignStr_all (fun a b p p' _ _ h hw => assignStrPred_mid h hw) (assignStr_grow h1).base.domains.symm
      (Grow.refl _) h1 (assignVar_all (fun p => assignVarPred_mid) hm)
    split at h
    · cases h
    · rename_i e2 c2 h2
      have g2 := assignIenum_gains h2
      rw [n2] at g2
      have m2 : e2.All MidPred := assignIenum_all (fun a b p p' _ _ h hw => assignIenumPred_mid h hw)
        (assignIenum_grow h2).base.domains.symm (Grow.refl _) h2 m1
      have hd2 : c2.domains = t.cfg.domains := (assignIenum_grow h2).base.domains.trans (assignStr_grow h1).base.domains
      have hc2 : MidCfg c2 := by unfold MidCfg; rw [hd2]; exact hc
      have g12 : Gains (numConstants e) (numConstants e) t.cfg c2 := (g1.trans g2).mono (by omega) (by omega)
      split at h
      · cases h
      · rename_i e3 h3
        have m3 : e3.All MidPred := fixFloat_all (fun p p' h hw => fixFloatPred_mid h hw) h3
          (sortLists_all (fun p => sortListsPred_mid) m2)
        split at h
        · cases h
        · rename_i c5 h5
          cases h
          exact ⟨(g12.trans (changeBoundaries_maps h5)).mono (by omega) (by omega), changeBoundaries_mid hc2 m3 h5⟩

end BeTree
