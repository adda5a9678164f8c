import Verif.Lemmas.PruneTree
import Verif.Lemmas.Config
/-
`change_boundaries` only widens a domain that has limits; configurations stay well-formed over whole histories.
-/
namespace BeTree
open Spec

variable [Floats]

/-! ### invariants kept by interning -/

omit [Floats] in
theorem assignStrList_inv (P : Config → Prop)
    (hP : ∀ (cfg : Config) (v : AttrVar) (s : Str) (al : Bool) (id : Nat) (cfg' : Config), P cfg → getIdForString cfg v s al = .ok (id, cfg') → P cfg')
    {v : AttrVar} {always : Bool} {l l' : List StrVal} {cfg cfg' : Config} (hp : P cfg)
    (h : assignStrList cfg v always l = .ok (l', cfg')) : P cfg' := by
  induction l generalizing cfg l' with
  | nil => cases h; exact hp
  | cons s ss ih =>
    rw [assignStrList] at h
    split at h
    · cases h
    · rename_i id cfg1 h1
      split at h
      · cases h
      · rename_i ss' cfg2 h2
        cases h
        exact ih (hP _ _ _ _ _ _ hp h1) h2

omit [Floats] in
theorem assignStrPred_inv (P : Config → Prop)
    (hP : ∀ (cfg : Config) (v : AttrVar) (s : Str) (al : Bool) (id : Nat) (cfg' : Config), P cfg → getIdForString cfg v s al = .ok (id, cfg') → P cfg')
    {always : Bool} {p p' : Pred} {cfg cfg' : Config} (hp : P cfg)
    (h : assignStrPred cfg always p = .ok (p', cfg')) : P cfg' := by
  unfold assignStrPred at h
  repeat' split at h
  all_goals first
    | (cases h; done)
    | (rename_i h1; cases h; exact hP _ _ _ _ _ _ hp h1)
    | (rename_i h1; cases h; exact assignStrList_inv P hP hp h1)
    | (cases h; exact hp)

omit [Floats] in
theorem assignStr_inv (P : Config → Prop)
    (hP : ∀ (cfg : Config) (v : AttrVar) (s : Str) (al : Bool) (id : Nat) (cfg' : Config), P cfg → getIdForString cfg v s al = .ok (id, cfg') → P cfg')
    {always : Bool} {e e' : Expr} {cfg cfg' : Config} (hp : P cfg)
    (h : assignStr cfg always e = .ok (e', cfg')) : P cfg' := by
  induction e generalizing cfg cfg' e' with
  | leaf p =>
    rw [assignStr] at h
    split at h
    · cases h
    · rename_i h1; cases h; exact assignStrPred_inv P hP hp h1
  | not e ih =>
    rw [assignStr] at h
    split at h
    · cases h
    · rename_i h1; cases h; exact ih hp h1
  | and l r ihl ihr | or l r ihl ihr =>
    rw [assignStr] at h
    split at h
    · cases h
    · rename_i h1
      split at h
      · cases h
      · rename_i h2; cases h; exact ihr (ihl hp h1) h2

omit [Floats] in
theorem assignIenum_inv (P : Config → Prop)
    (hP : ∀ (cfg : Config) (v : AttrVar) (i : Int) (al : Bool) (id : Nat) (cfg' : Config), P cfg → getIdForIenum cfg v i al = .ok (id, cfg') → P cfg')
    {always : Bool} {e e' : Expr} {cfg cfg' : Config} (hp : P cfg)
    (h : assignIenum cfg always e = .ok (e', cfg')) : P cfg' := by
  induction e generalizing cfg cfg' e' with
  | leaf p =>
    rw [assignIenum] at h
    split at h
    · cases h
    · rename_i h1
      cases h
      unfold assignIenumPred at h1
      repeat' split at h1
      all_goals first
        | (cases h1; done)
        | (rename_i h2; cases h1; exact hP _ _ _ _ _ _ hp h2)
        | (cases h1; exact hp)
  | not e ih =>
    rw [assignIenum] at h
    split at h
    · cases h
    · rename_i h1; cases h; exact ih hp h1
  | and l r ihl ihr | or l r ihl ihr =>
    rw [assignIenum] at h
    split at h
    · cases h
    · rename_i h1
      split at h
      · cases h
      · rename_i h2; cases h; exact ihr (ihl hp h1) h2

/-- well-formed domains, and no interning map without an entry -/
structure CfgOK (cfg : Config) : Prop where
  doms : DomsOK cfg
  strs : ∀ m ∈ cfg.stringMaps, m.values ≠ []
  ints : ∀ m ∈ cfg.intMaps, m.values ≠ []

theorem DomsOK.of_eq {a b : Config} (h : b.domains = a.domains) (k : DomsOK a) : DomsOK b := by
  intro v d hd
  rw [h] at hd
  have := k v d hd
  exact ⟨by rw [h]; exact hd, this.var, this.float, this.ok⟩

theorem BoundOK.smax {b : Bound} (h : BoundOK b) {n : Nat} (hn : b.smax = .ok n) : n < sizeMax := by
  obtain ⟨ty, lo, hi⟩ := b
  cases ty <;> simp only [BoundOK] at h
  · obtain ⟨rfl, rfl⟩ := h; cases hn
  · obtain ⟨a, c, rfl, rfl, h⟩ := h; cases hn
  · obtain ⟨a, c, rfl, rfl, h⟩ := h; cases hn
  · obtain ⟨c, rfl, rfl, h⟩ := h; cases hn; exact h
  · obtain ⟨a, c, rfl, rfl, h⟩ := h; cases hn
  · obtain ⟨c, rfl, rfl, h⟩ := h; cases hn; exact h
  · obtain ⟨rfl, rfl⟩ := h; cases hn; decide
  · obtain ⟨rfl, rfl⟩ := h; cases hn; decide
  · obtain ⟨c, rfl, rfl, h⟩ := h; cases hn; exact h

omit [Floats] in
theorem appendStr_nonempty {var : Nat} {s : Str} {v : AttrVar} {maps : List StringMap} (h : ∀ m ∈ maps, m.values ≠ []) :
    (∀ m ∈ appendStr maps var s, m.values ≠ []) ∧
    (v.var = var → findStrMap maps var = none → ∀ m ∈ appendStr (maps ++ [{ attr := v, values := [] }]) var s, m.values ≠ []) := by
  induction maps with
  | nil =>
    refine ⟨by simp [appendStr], ?_⟩
    intro hv _ m hm
    simp only [List.nil_append, appendStr, hv, if_true, List.mem_singleton] at hm
    subst hm
    simp
  | cons x xs ih =>
    obtain ⟨ih1, ih2⟩ := ih fun m hm => h m (List.mem_cons_of_mem _ hm)
    constructor
    · intro m hm
      simp only [appendStr] at hm
      split at hm
      · rcases List.mem_cons.1 hm with rfl | hm
        · simp
        · exact h m (List.mem_cons_of_mem _ hm)
      · rcases List.mem_cons.1 hm with rfl | hm
        · exact h _ List.mem_cons_self
        · exact ih1 m hm
    · intro hv hn m hm
      simp only [findStrMap, List.find?_cons] at hn
      by_cases hx : x.attr.var = var
      · simp [hx] at hn
      · simp only [hx, decide_false] at hn
        simp only [List.cons_append, appendStr, hx, if_false] at hm
        rcases List.mem_cons.1 hm with rfl | hm
        · exact h _ List.mem_cons_self
        · exact ih2 hv hn m hm

omit [Floats] in
theorem appendInt_nonempty {var : Nat} {s : Int} {v : AttrVar} {maps : List IntMap} (h : ∀ m ∈ maps, m.values ≠ []) :
    (∀ m ∈ appendInt maps var s, m.values ≠ []) ∧
    (v.var = var → findIntMap maps var = none → ∀ m ∈ appendInt (maps ++ [{ attr := v, values := [] }]) var s, m.values ≠ []) := by
  induction maps with
  | nil =>
    refine ⟨by simp [appendInt], ?_⟩
    intro hv _ m hm
    simp only [List.nil_append, appendInt, hv, if_true, List.mem_singleton] at hm
    subst hm
    simp
  | cons x xs ih =>
    obtain ⟨ih1, ih2⟩ := ih fun m hm => h m (List.mem_cons_of_mem _ hm)
    constructor
    · intro m hm
      simp only [appendInt] at hm
      split at hm
      · rcases List.mem_cons.1 hm with rfl | hm
        · simp
        · exact h m (List.mem_cons_of_mem _ hm)
      · rcases List.mem_cons.1 hm with rfl | hm
        · exact h _ List.mem_cons_self
        · exact ih1 m hm
    · intro hv hn m hm
      simp only [findIntMap, List.find?_cons] at hn
      by_cases hx : x.attr.var = var
      · simp [hx] at hn
      · simp only [hx, decide_false] at hn
        simp only [List.cons_append, appendInt, hx, if_false] at hm
        rcases List.mem_cons.1 hm with rfl | hm
        · exact h _ List.mem_cons_self
        · exact ih2 hv hn m hm

theorem getIdForString_cfgOK (cfg : Config) (v : AttrVar) (s : Str) (al : Bool) (id : Nat) (cfg' : Config) (hc : CfgOK cfg)
    (h : getIdForString cfg v s al = .ok (id, cfg')) : CfgOK cfg' := by
  unfold getIdForString at h
  split at h
  · split at h
    · cases h
    · cases h; exact hc
    · rename_i m hf _ _
      unfold addStrId at h
      split at h
      · cases h
      · split at h
        · cases h; exact ⟨DomsOK.of_eq (a := cfg) rfl hc.doms, (appendStr_nonempty (v := v) hc.strs).1, hc.ints⟩
        · split at h
          · cases h
          · split at h
            · cases h; exact ⟨DomsOK.of_eq (a := cfg) rfl hc.doms, hc.strs, hc.ints⟩
            · cases h; exact ⟨DomsOK.of_eq (a := cfg) rfl hc.doms, (appendStr_nonempty (v := v) hc.strs).1, hc.ints⟩
  · rename_i hf
    unfold addStrId at h
    split at h
    · cases h
    · rename_i d hd
      split at h
      · cases h; exact ⟨DomsOK.of_eq (a := cfg) rfl hc.doms, (appendStr_nonempty (v := v) hc.strs).2 rfl hf, hc.ints⟩
      · split at h
        · cases h
        · rename_i n hn
          have hlt : n < sizeMax := by
            unfold getDomain at hd
            split at hd
            · cases hd
            · rename_i hg; cases hd; exact (hc.doms _ _ hg).ok.smax hn
          split at h
          · rename_i h0
            exfalso
            simp only [sizeMax] at hlt
            omega
          · cases h; exact ⟨DomsOK.of_eq (a := cfg) rfl hc.doms, (appendStr_nonempty (v := v) hc.strs).2 rfl hf, hc.ints⟩

theorem getIdForIenum_cfgOK (cfg : Config) (v : AttrVar) (s : Int) (al : Bool) (id : Nat) (cfg' : Config) (hc : CfgOK cfg)
    (h : getIdForIenum cfg v s al = .ok (id, cfg')) : CfgOK cfg' := by
  unfold getIdForIenum at h
  split at h
  · split at h
    · cases h; exact hc
    · unfold addIntId at h
      split at h
      · cases h
      · split at h
        · cases h; exact ⟨DomsOK.of_eq (a := cfg) rfl hc.doms, hc.strs, (appendInt_nonempty (v := v) hc.ints).1⟩
        · split at h
          · cases h
          · split at h
            · cases h; exact ⟨DomsOK.of_eq (a := cfg) rfl hc.doms, hc.strs, hc.ints⟩
            · cases h; exact ⟨DomsOK.of_eq (a := cfg) rfl hc.doms, hc.strs, (appendInt_nonempty (v := v) hc.ints).1⟩
  · rename_i hf
    unfold addIntId at h
    split at h
    · cases h
    · rename_i d hd
      split at h
      · cases h; exact ⟨DomsOK.of_eq (a := cfg) rfl hc.doms, hc.strs, (appendInt_nonempty (v := v) hc.ints).2 rfl hf⟩
      · split at h
        · cases h
        · rename_i n hn
          have hlt : n < sizeMax := by
            unfold getDomain at hd
            split at hd
            · cases hd
            · rename_i hg; cases hd; exact (hc.doms _ _ hg).ok.smax hn
          split at h
          · rename_i h0
            exfalso
            simp only [sizeMax] at hlt
            omega
          · cases h; exact ⟨DomsOK.of_eq (a := cfg) rfl hc.doms, hc.strs, (appendInt_nonempty (v := v) hc.ints).2 rfl hf⟩

/-! ### the ends that widening may install -/

/-- strictly between the code's "no limit" marks -/
def Scalar.Inner : Scalar → Prop
  | .i x => int64Min < x ∧ x < int64Max
  | .f x => Floats.limit x
  | _ => True

/-- the lists of the expression are sorted, as `sort_lists` leaves them -/
def Pred.ListsSorted : Pred → Prop
  | .set _ (.var _) (.intList l) => Ascending l
  | .set _ (.var _) (.strList l) => Ascending (l.map StrVal.str)
  | .list _ _ (.intList l) => Ascending l
  | .list _ _ (.strList l) => Ascending (l.map StrVal.str)
  | _ => True

def Expr.ListsSorted : Expr → Prop
  | .leaf p => p.ListsSorted
  | .not e => e.ListsSorted
  | .and l r => l.ListsSorted ∧ r.ListsSorted
  | .or l r => l.ListsSorted ∧ r.ListsSorted

structure SBound.Good (b : SBound) : Prop where
  le : b.lo.le b.hi = true
  lo : b.lo.Inner
  hi : b.hi.Inner

theorem SBound.Good.point {s : Scalar} (h : s.Inner) : (SBound.point s).Good := ⟨Scalar.le_refl s, h, h⟩

theorem Scalar.min_inner {a b : Scalar} (ha : a.Inner) (hb : b.Inner) : (a.min b).Inner := by
  cases a <;> cases b <;> simp only [Scalar.min] <;> try exact ha
  · rename_i x y
    by_cases h : x < y
    · rw [if_pos h]; assumption
    · rw [if_neg h]; assumption
  · rename_i x y
    by_cases h : x < y
    · rw [if_pos h]; assumption
    · rw [if_neg h]; assumption

theorem Scalar.max_inner {a b : Scalar} (ha : a.Inner) (hb : b.Inner) : (a.max b).Inner := by
  cases a <;> cases b <;> simp only [Scalar.max] <;> try exact ha
  · rename_i x y
    by_cases h : x < y
    · rw [if_pos h]; assumption
    · rw [if_neg h]; assumption
  · rename_i x y
    by_cases h : x < y
    · rw [if_pos h]; assumption
    · rw [if_neg h]; assumption

theorem modInt_inner {k : Int} (h : ModInt k) : (Scalar.i k).Inner := by
  simp only [ModInt, Scalar.Inner, int64Min, int64Max] at *; omega

/-- the constants of an expression in which the numbers of float attributes are floats may become limits -/
def Fine (e : Expr) : Prop := Moderate e ∧ FloatsFit (fun _ => False) e

theorem Fine.both {l r : Expr} (h : Fine (.and l r)) : Fine l ∧ Fine r := ⟨⟨h.1.1, h.2.1⟩, ⟨h.1.2, h.2.2⟩⟩

theorem compareSimple_good {c : CmpVal} {op : CmpOp} {inv : Bool} {b : SBound} {v : AttrVar} {op' : CmpOp}
    (hm : Fine (.leaf (.compare op' v c))) (h : compareSimple c op inv = .ok b) : b.Good := by
  unfold compareSimple at h
  dsimp only at h
  cases c with
  | int i =>
    replace hm := hm.1
    simp only [Moderate, ModInt] at hm
    dsimp only at h
    split at h
    · obtain ⟨x, hx, rfl⟩ := map_ok h
      unfold checkedInt at hx
      split at hx <;> cases hx
      exact .point (by simp only [Scalar.Inner]; omega)
    · cases h; exact .point (by simp only [Scalar.Inner]; omega)
    · obtain ⟨x, hx, rfl⟩ := map_ok h
      unfold checkedInt at hx
      split at hx <;> cases hx
      exact .point (by simp only [Scalar.Inner]; omega)
    · cases h; exact .point (by simp only [Scalar.Inner]; omega)
  | float f =>
    obtain ⟨h1, h2, h3⟩ := hm.2
    dsimp only at h
    split at h <;> cases h
    · exact .point h2
    · exact .point h1
    · exact .point h3
    · exact .point h1

theorem firstLastS_good {α : Type} {f : α → Scalar} {l : List α} {b : SBound}
    (hs : ∀ x xs, l = x :: xs → (f x).le (f ((x :: xs).getLast (by simp))) = true) (hi : ∀ x ∈ l, (f x).Inner)
    (h : firstLastS f l = .ok b) : b.Good := by
  cases l with
  | nil => cases h
  | cons x xs =>
    cases h
    exact ⟨hs x xs rfl, hi _ List.mem_cons_self, hi _ (List.getLast_mem _)⟩

theorem firstLastS_ints {l : List Int} (hs : Ascending l) (hi : ∀ k ∈ l, ModInt k) {b : SBound}
    (h : firstLastS Scalar.i l = .ok b) : b.Good := by
  refine firstLastS_good ?_ (fun x hx => modInt_inner (hi x hx)) h
  rintro x xs rfl
  rcases ascending_last hs (by simp) List.mem_cons_self with h3 | h3
  · simp [Scalar.le, ← h3]
  · simp only [Scalar.le, decide_eq_true_eq]; omega

theorem firstLastS_strs {l : List StrVal} (hs : Ascending (l.map StrVal.str)) {b : SBound}
    (h : firstLastS (fun s : StrVal => Scalar.s s.str) l = .ok b) : b.Good := by
  refine firstLastS_good ?_ (fun x hx => by simp only [Scalar.Inner]) h
  rintro x xs rfl
  have hlast : ((x :: xs).map StrVal.str).getLast (by simp) = ((x :: xs).getLast (by simp)).str := by
    rw [List.getLast_map]
  have hx : x.str ∈ (x :: xs).map StrVal.str := List.mem_map_of_mem List.mem_cons_self
  rcases ascending_last hs (by simp) hx with h3 | h3
  · rw [← hlast, ← h3]; simp [Scalar.le]
  · rw [hlast] at h3; simp only [Scalar.le, decide_eq_true_eq]; omega

theorem simplePred_good {var : Nat} {inv : Bool} {p : Pred} {b : SBound} (hm : Fine (.leaf p)) (hs : p.ListsSorted)
    (h : simplePred var inv p = .ok (some b)) : b.Good := by
  cases p with
  | compare op v c =>
    simp only [simplePred] at h
    split at h
    · obtain ⟨x, hx, h2⟩ := map_ok h
      cases h2
      exact compareSimple_good hm hx
    · cases h
  | equality op v c =>
    simp only [simplePred] at h
    split at h
    · cases h
      cases c with
      | int k => exact .point (modInt_inner hm.1)
      | float k => exact .point hm.2.1
      | string s => exact .point trivial
      | intEnum s => exact .point trivial
    · cases h
  | boolVar v =>
    simp only [simplePred] at h
    split at h <;> cases h
    exact .point trivial
  | boolLit _ => cases h
  | set op l r =>
    simp only [simplePred] at h
    split at h
    · obtain ⟨x, hx, h2⟩ := map_ok h
      cases h2
      cases l with
      | var v =>
        cases r with
        | intList l => exact firstLastS_ints hs hm.1 hx
        | strList l => exact firstLastS_strs hs hx
        | var v => cases hx
      | int i => cases hx; exact .point (modInt_inner hm.1)
      | string s => cases hx; exact .point trivial
    · cases h
  | list op v c =>
    simp only [simplePred] at h
    split at h
    · obtain ⟨x, hx, h2⟩ := map_ok h
      cases h2
      cases c with
      | intList l => exact firstLastS_ints hs hm.1 hx
      | strList l => exact firstLastS_strs hs hx
    · cases h
  | freq _ => cases h
  | segment _ => cases h
  | geo _ => cases h
  | str _ => cases h
  | isNull _ _ => cases h

theorem unionSimple_good {a b : Option SBound} {c : SBound} (ha : ∀ x, a = some x → x.Good) (hb : ∀ x, b = some x → x.Good)
    (h : unionSimple a b = .ok (some c)) : c.Good := by
  cases a with
  | none =>
    cases b with
    | none => cases h
    | some r => cases h; exact hb _ rfl
  | some l =>
    cases b with
    | none => cases h; exact ha _ rfl
    | some r =>
      simp only [unionSimple] at h
      split at h <;> cases h
      have hl := ha _ rfl
      have hr := hb _ rfl
      exact ⟨Scalar.le_trans (Scalar.le_trans Scalar.min_le_left hl.le) Scalar.le_max_left, Scalar.min_inner hl.lo hr.lo,
        Scalar.max_inner hl.hi hr.hi⟩

theorem simpleBound_good {var : Nat} {inv : Bool} {e : Expr} {b : SBound} (hm : Fine e) (hs : e.ListsSorted)
    (h : simpleBound var inv e = .ok (some b)) : b.Good := by
  induction e generalizing inv b with
  | leaf p => exact simplePred_good hm hs h
  | not e ih => exact ih hm hs h
  | and l r ihl ihr | or l r ihl ihr =>
    simp only [simpleBound] at h
    split at h
    · cases h
    · rename_i x hx
      split at h
      · cases h
      · rename_i y hy
        exact unionSimple_good (fun z hz => ihl hm.both.1 hs.1 (by rw [hx, hz])) (fun z hz => ihr hm.both.2 hs.2 (by rw [hy, hz])) h

/-! ### widening one domain -/

omit [Floats] in
theorem widenSmax_ok {cs : List Nat} (hc : ∀ c ∈ cs, 1 ≤ c ∧ c < sizeMax) : ∀ {smax : Nat}, 
    (smax < sizeMax → widenSmax smax cs < sizeMax) ∧
    (smax < sizeMax - 1 → smax ≤ widenSmax smax cs ∧ widenSmax smax cs < sizeMax - 1) := by
  induction cs with
  | nil => intro smax; exact ⟨id, fun h => ⟨Nat.le_refl _, h⟩⟩
  | cons c cs ih =>
    intro smax
    have ih := fun n => ih (fun c hcc => hc c (List.mem_cons_of_mem _ hcc)) (smax := n)
    obtain ⟨c1, c2⟩ := hc c List.mem_cons_self
    simp only [widenSmax]
    have hm : (c + sizeMax) % 2 ^ 64 = c - 1 := by simp only [sizeMax] at *; omega
    rw [hm]
    constructor
    · intro h
      refine (ih _).1 ?_
      split
      · split <;> omega
      · omega
    · intro h
      rw [if_pos h]
      split
      · obtain ⟨h1, h2⟩ := (ih (c - 1)).2 (by omega); exact ⟨by omega, h2⟩
      · exact (ih smax).2 h

omit [Floats] in
theorem strTable_of_mem {cfg : Config} (hv : (cfg.stringMaps.map (fun m => m.attr.var)).Nodup) {m : StringMap}
    (hm : m ∈ cfg.stringMaps) : strTable cfg m.attr.var = m.values := by
  unfold strTable findStrMap
  generalize cfg.stringMaps = l at *
  induction l with
  | nil => cases hm
  | cons x xs ih =>
    rw [List.map_cons, List.nodup_cons] at hv
    rcases List.mem_cons.1 hm with rfl | hm
    · simp
    · have : x.attr.var ≠ m.attr.var := fun h => hv.1 (h ▸ List.mem_map_of_mem (f := fun m : StringMap => m.attr.var) hm)
      simp only [List.find?_cons, this, decide_false]
      exact ih hv.2 hm

omit [Floats] in
theorem intTable_of_mem {cfg : Config} (hv : (cfg.intMaps.map (fun m => m.attr.var)).Nodup) {m : IntMap}
    (hm : m ∈ cfg.intMaps) : intTable cfg m.attr.var = m.values := by
  unfold intTable findIntMap
  generalize cfg.intMaps = l at *
  induction l with
  | nil => cases hm
  | cons x xs ih =>
    rw [List.map_cons, List.nodup_cons] at hv
    rcases List.mem_cons.1 hm with rfl | hm
    · simp
    · have : x.attr.var ≠ m.attr.var := fun h => hv.1 (h ▸ List.mem_map_of_mem (f := fun m : IntMap => m.attr.var) hm)
      simp only [List.find?_cons, this, decide_false]
      exact ih hv.2 hm

theorem strCounts {cfg : Config} (hc : CfgOK cfg) (ht : TablesOK cfg) (hs : Small cfg) (v : Nat) :
    ∀ c ∈ (cfg.stringMaps.filter (fun m => m.attr.var = v)).map (·.values.length), 1 ≤ c ∧ c < sizeMax := by
  intro c h
  obtain ⟨m, hm, rfl⟩ := List.mem_map.1 h
  have hm := (List.mem_filter.1 hm).1
  have h1 := hc.strs m hm
  have h2 := hs.strs m.attr.var
  rw [strTable_of_mem ht.strVars hm] at h2
  exact ⟨List.length_pos_iff.2 h1, h2⟩

theorem intCounts {cfg : Config} (hc : CfgOK cfg) (ht : TablesOK cfg) (hs : Small cfg) (v : Nat) :
    ∀ c ∈ (cfg.intMaps.filter (fun m => m.attr.var = v)).map (·.values.length), 1 ≤ c ∧ c < sizeMax := by
  intro c h
  obtain ⟨m, hm, rfl⟩ := List.mem_map.1 h
  have hm := (List.mem_filter.1 hm).1
  have h1 := hc.ints m hm
  have h2 := hs.ints m.attr.var
  rw [intTable_of_mem ht.intVars hm] at h2
  exact ⟨List.length_pos_iff.2 h1, h2⟩

theorem limit_notLow {x : Rat} (h : Floats.limit x) : NotLow (.f x) := by
  have h1 := (Floats.small x h).1
  have hg : (2 : Rat) ^ 1000 + 1 < dblMax := by unfold dblMax; decide +kernel
  simp only [NotLow, closeTo, not_lt]
  have h2 : rnd dblEps ≤ rnd (x - -dblMax) := rnd_mono (by
    have : dblEps < 1 := by rw [eps_eq]; norm_num
    generalize (2 : Rat) ^ 1000 = A at *
    linarith)
  rw [rnd_eps] at h2
  rw [rat_abs_eq]; exact h2.trans (le_abs_self _)

theorem limit_notHigh {x : Rat} (h : Floats.limit x) : NotHigh (.f x) := by
  have h1 := (Floats.small x h).2
  have hg : (2 : Rat) ^ 1000 + 1 < dblMax := by unfold dblMax; decide +kernel
  simp only [NotHigh, closeTo, not_lt]
  have h2 : rnd dblEps ≤ rnd (-(x - dblMax)) := rnd_mono (by
    have : dblEps < 1 := by rw [eps_eq]; norm_num
    generalize (2 : Rat) ^ 1000 = A at *
    linarith)
  rw [rnd_eps, rnd_neg] at h2
  rw [rat_abs_eq]; exact h2.trans (neg_le_abs _)

theorem inner_notLow {s : Scalar} (h : s.Inner) : NotLow s := by
  cases s with
  | i x => simp only [Scalar.Inner] at h; simp only [NotLow]; omega
  | f x =>
    exact limit_notLow h
  | _ => trivial

theorem inner_notHigh {s : Scalar} (h : s.Inner) (hs : ∀ n, s ≠ .s n) : NotHigh s := by
  cases s with
  | i x => simp only [Scalar.Inner] at h; simp only [NotHigh]; omega
  | f x =>
    exact limit_notHigh h
  | s n => exact absurd rfl (hs n)
  | _ => trivial

theorem widenDomain_wider {cfg : Config} (hc : CfgOK cfg) (ht : TablesOK cfg) (hsm : Small cfg) {d d' : Domain} {b : SBound}
    (hb : b.Good) (h : widenDomain cfg d b = .ok d') : DomWider d d' := by
  obtain ⟨attr, ⟨ty, dlo, dhi⟩, und⟩ := d
  have keep : ∀ x : Except Fault Domain, x = .ok ⟨attr, ⟨ty, dlo, dhi⟩, und⟩ → x = .ok d' → DomWider ⟨attr, ⟨ty, dlo, dhi⟩, und⟩ d' := by
    rintro x rfl h; cases h; exact DomWider.refl _
  obtain ⟨lo, hi⟩ := b
  obtain ⟨hle, hlo, hhi⟩ := hb
  dsimp only at hle hlo hhi
  unfold widenDomain at h
  cases ty <;> dsimp only at h
  case bool => exact keep _ rfl h
  case segments => exact keep _ rfl h
  case freq => exact keep _ rfl h
  case string | strList =>
    cases dhi <;> simp only [reduceCtorEq] at h
    rename_i smax
    cases h
    obtain ⟨w1, w2⟩ := widenSmax_ok (strCounts hc ht hsm attr.var) (smax := smax)
    refine ⟨rfl, rfl, rfl, ?_, ?_⟩
    · rintro ⟨n, h1, h2, h3⟩
      cases h2
      exact ⟨_, h1, rfl, w1 h3⟩
    · rintro _ hl
      have h1 := hl.high
      simp only [NotHigh] at h1
      obtain ⟨w3, w4⟩ := w2 h1
      exact ⟨⟨by simp, by simp, hl.low, by simp only [NotHigh]; exact w4⟩, Scalar.le_refl _, by simpa [Scalar.le] using w3⟩
  case intEnum =>
    cases dhi <;> simp only [reduceCtorEq] at h
    rename_i smax
    cases h
    obtain ⟨w1, w2⟩ := widenSmax_ok (intCounts hc ht hsm attr.var) (smax := smax)
    refine ⟨rfl, rfl, rfl, ?_, ?_⟩
    · rintro ⟨n, h1, h2, h3⟩
      cases h2
      exact ⟨_, h1, rfl, w1 h3⟩
    · rintro _ hl
      have h1 := hl.high
      simp only [NotHigh] at h1
      obtain ⟨w3, w4⟩ := w2 h1
      exact ⟨⟨by simp, by simp, hl.low, by simp only [NotHigh]; exact w4⟩, Scalar.le_refl _, by simpa [Scalar.le] using w3⟩
  case int | intList =>
    cases dlo <;> cases dhi <;> cases lo <;> cases hi <;> simp only [reduceCtorEq] at h
    rename_i dl dh l r
    cases h
    simp only [Scalar.le, decide_eq_true_eq] at hle
    simp only [Scalar.Inner] at hlo hhi
    refine ⟨rfl, rfl, rfl, ?_, ?_⟩
    · rintro ⟨x, y, h1, h2, h3⟩
      cases h1; cases h2
      refine ⟨_, _, rfl, rfl, ?_⟩
      split <;> split <;> repeat' split
      all_goals omega
    · rintro ⟨x, y, h1, h2, h3⟩ hl
      cases h1; cases h2
      have h1 := hl.low
      have h2 := hl.high
      simp only [NotLow] at h1
      simp only [NotHigh] at h2
      rw [if_pos h1, if_pos h2]
      refine ⟨⟨by simp, by simp, ?_, ?_⟩, ?_, ?_⟩
      · simp only [NotLow]; split <;> omega
      · simp only [NotHigh]; split <;> omega
      · simp only [Scalar.le, decide_eq_true_eq]; split <;> omega
      · simp only [Scalar.le, decide_eq_true_eq]; split <;> omega
  case float =>
    cases dlo <;> cases dhi <;> cases lo <;> cases hi <;> simp only [reduceCtorEq] at h
    rename_i dl dh l r
    cases h
    simp only [Scalar.le, decide_eq_true_eq] at hle
    refine ⟨rfl, rfl, rfl, ?_, ?_⟩
    · rintro ⟨x, y, h1, h2, h3, h4, h5⟩
      cases h1; cases h2
      refine ⟨_, _, rfl, rfl, ?_, fun _ => ?_, fun _ => ?_⟩
      · split <;> split <;> repeat' split
        all_goals linarith
      · split
        · rename_i hn
          split
          · exact hlo
          · exact h4 (fne_iff.1 hn)
        · exact hlo
      · split
        · rename_i hn
          split
          · exact hhi
          · exact h5 (fne_iff.1 hn)
        · exact hhi
    · rintro ⟨x, y, h1, h2, h3, -⟩ hl
      cases h1; cases h2
      have h1 := hl.low
      have h2 := hl.high
      have h1' := fne_iff.2 h1
      have h2' := fne_iff.2 h2
      rw [if_pos h1', if_pos h2']
      refine ⟨⟨by simp, by simp, ?_, ?_⟩, ?_, ?_⟩
      · dsimp only
        split
        · exact inner_notLow hlo
        · exact h1
      · dsimp only
        split
        · exact inner_notHigh hhi (by simp)
        · exact h2
      · simp only [Scalar.le, decide_eq_true_eq]; split <;> linarith
      · simp only [Scalar.le, decide_eq_true_eq]; split <;> linarith

theorem changeDomain_wider {cfg : Config} (hc : CfgOK cfg) (ht : TablesOK cfg) (hsm : Small cfg) {d d' : Domain} {e : Expr}
    (hm : Fine e) (hs : e.ListsSorted) (h : changeDomain cfg e d = .ok d') : DomWider d d' := by
  unfold changeDomain at h
  repeat' split at h
  all_goals first
    | (cases h; done)
    | (cases h; exact DomWider.refl _)
    | (rename_i hb; exact widenDomain_wider hc ht hsm (simpleBound_good hm hs hb) h)

theorem changeDomains_wider {cfg : Config} (hc : CfgOK cfg) (ht : TablesOK cfg) (hsm : Small cfg) {e : Expr}
    (hm : Fine e) (hs : e.ListsSorted) : ∀ {ds ds' : List Domain}, changeDomains cfg e ds = .ok ds' →
    ∀ (v : Nat) (d : Domain), ds[v]? = some d → ∃ d', ds'[v]? = some d' ∧ DomWider d d' := by
  intro ds
  induction ds with
  | nil => intro ds' _ v d hd; simp at hd
  | cons x xs ih =>
    intro ds' h v d hd
    rw [changeDomains] at h
    split at h
    · cases h
    · rename_i d1 h1
      split at h
      · cases h
      · rename_i ds1 h2
        cases h
        cases v with
        | zero =>
          simp only [List.getElem?_cons_zero, Option.some.injEq] at hd
          subst hd
          exact ⟨d1, rfl, changeDomain_wider hc ht hsm hm hs h1⟩
        | succ v =>
          rw [List.getElem?_cons_succ] at hd ⊢
          exact ih h2 v d hd

theorem changeBoundaries_wider {cfg cfg' : Config} (hc : CfgOK cfg) (ht : TablesOK cfg) (hsm : Small cfg) {e : Expr}
    (hm : Fine e) (hs : e.ListsSorted) (h : changeBoundaries cfg e = .ok cfg') : Wider cfg cfg' ∧ CfgOK cfg' := by
  have hx := changeBoundaries_ext h
  unfold changeBoundaries at h
  split at h
  · cases h
  · rename_i ds hds
    cases h
    have hw : Wider cfg { cfg with domains := ds } := changeDomains_wider hc ht hsm hm hs hds
    refine ⟨hw, ⟨?_, hc.strs, hc.ints⟩⟩
    intro v d hd
    have hlen : ds.length = cfg.domains.length := by simpa using congrArg List.length hx.doms
    have hlt : v < cfg.domains.length := by rw [← hlen]; exact (List.getElem?_eq_some_iff.1 hd).1
    obtain ⟨d', h1, h2⟩ := hw v cfg.domains[v] (List.getElem?_eq_getElem hlt)
    have : d' = d := by rw [hd] at h1; cases h1; rfl
    subst this
    have hd0 := hc.doms v cfg.domains[v] (List.getElem?_eq_getElem hlt)
    exact ⟨hd, by rw [h2.attr]; exact hd0.var, by rw [h2.attr, h2.ty]; exact hd0.float, h2.ok hd0.ok⟩

end BeTree
