import Verif.Lemmas.Total
/-
How many strings an attribute has.
-/
namespace BeTree
open Spec

/-! ### plain insertion stops at the bound -/

/-- the domain of `u` has its upper end at id `n` -/
def EndsAt (ds : List Domain) (u n : Nat) : Prop := ∃ d, ds[u]? = some d ∧ d.bound.hi = .s n

theorem getIdForString_bound {cfg cfg' : Config} {v : AttrVar} {s : Str} {id : Nat}
    (h : getIdForString cfg v s false = .ok (id, cfg')) {u n : Nat} (hu : EndsAt cfg.domains u n) (hn : n + 1 < 2 ^ 64)
    (hl : (strTable cfg u).length ≤ n + 1) : (strTable cfg' u).length ≤ n + 1 := by
  obtain ⟨_, _, h3, h4, _⟩ := getIdForString_spec h
  by_cases hv : u = v.var
  · subst hv
    obtain ⟨d, hd, hh⟩ := hu
    have hs : domSmax cfg v.var = .ok n := by
      unfold domSmax getDomain
      rw [hd]
      dsimp only
      unfold Bound.smax
      rw [hh]
    generalize strTable cfg' v.var = t' at h4 ⊢
    cases h4 with
    | old => exact hl
    | new _ hroom =>
      rcases hroom with h | ⟨m, hm, hne⟩
      · cases h
      · rw [hs] at hm
        cases hm
        rw [Nat.mod_eq_of_lt hn] at hne
        simp only [List.length_append, List.length_cons, List.length_nil]
        omega
    | full => exact hl
  · rw [h3 u hv]; exact hl

theorem assignStrList_bound {v : AttrVar} {l l' : List StrVal} {cfg cfg' : Config}
    (h : assignStrList cfg v false l = .ok (l', cfg')) {u n : Nat} (hu : EndsAt cfg.domains u n) (hn : n + 1 < 2 ^ 64)
    (hl : (strTable cfg u).length ≤ n + 1) : (strTable cfg' u).length ≤ n + 1 := by
  induction l generalizing cfg l' with
  | nil => cases h; exact hl
  | cons s ss ih =>
    rw [assignStrList] at h
    split at h
    · cases h
    · rename_i id cfg1 h1
      split at h
      · cases h
      · rename_i ss' cfg2 h2
        cases h
        exact ih h2 (by rw [(getIdForString_grow h1).base.domains]; exact hu) (getIdForString_bound h1 hu hn hl)

theorem assignStrPred_bound {p p' : Pred} {cfg cfg' : Config} (h : assignStrPred cfg false p = .ok (p', cfg')) {u n : Nat}
    (hu : EndsAt cfg.domains u n) (hn : n + 1 < 2 ^ 64) (hl : (strTable cfg u).length ≤ n + 1) :
    (strTable cfg' u).length ≤ n + 1 := by
  unfold assignStrPred at h
  repeat' split at h
  all_goals first
    | (cases h; done)
    | (rename_i h1; cases h; exact getIdForString_bound h1 hu hn hl)
    | (rename_i h1; cases h; exact assignStrList_bound h1 hu hn hl)
    | (cases h; exact hl)

theorem assignStr_bound {e e' : Expr} {cfg cfg' : Config} (h : assignStr cfg false e = .ok (e', cfg')) {u n : Nat}
    (hu : EndsAt cfg.domains u n) (hn : n + 1 < 2 ^ 64) (hl : (strTable cfg u).length ≤ n + 1) :
    (strTable cfg' u).length ≤ n + 1 := by
  induction e generalizing cfg cfg' e' with
  | leaf p =>
    rw [assignStr] at h
    split at h
    · cases h
    · rename_i h1; cases h; exact assignStrPred_bound h1 hu hn hl
  | not e ih =>
    rw [assignStr] at h
    split at h
    · cases h
    · rename_i h1; cases h; exact ih h1 hu hl
  | and l r ihl ihr | or l r ihl ihr =>
    rw [assignStr] at h
    split at h
    · cases h
    · rename_i h1
      split at h
      · cases h
      · rename_i h2; cases h
        exact ihr h2 (by rw [(assignStr_grow h1).base.domains]; exact hu) (ihl h1 hu hl)

theorem getIdForIenum_strs {cfg cfg' : Config} {v : AttrVar} {i : Int} {al : Bool} {id : Nat}
    (h : getIdForIenum cfg v i al = .ok (id, cfg')) : cfg'.stringMaps = cfg.stringMaps := (getIdForIenum_spec h).2.1

theorem assignIenum_strs {al : Bool} {e e' : Expr} {cfg cfg' : Config} (h : assignIenum cfg al e = .ok (e', cfg')) :
    cfg'.stringMaps = cfg.stringMaps := by
  induction e generalizing cfg cfg' e' with
  | leaf p =>
    rw [assignIenum] at h
    split at h
    · cases h
    · rename_i h1
      cases h
      unfold assignIenumPred at h1
      repeat' split at h1
      all_goals first
        | (cases h1; done)
        | (rename_i h2; cases h1; exact getIdForIenum_strs h2)
        | (cases h1; rfl)
  | not e ih =>
    rw [assignIenum] at h
    split at h
    · cases h
    · rename_i h1; cases h; exact ih h1
  | and l r ihl ihr | or l r ihl ihr =>
    rw [assignIenum] at h
    split at h
    · cases h
    · rename_i h1
      split at h
      · cases h
      · rename_i h2; cases h; exact (ihr h2).trans (ihl h1)

theorem finishSub_strs {cfg cfg' : Config} {id : Nat} {e : Expr} {s : Sub} (h : finishSub cfg id e = .ok (s, cfg')) :
    cfg'.stringMaps = cfg.stringMaps ∧ cfg'.domains = cfg.domains := by
  unfold finishSub at h
  dsimp only at h
  split at h
  · cases h
  · split at h
    · cases h
    · cases h; exact ⟨rfl, rfl⟩

theorem prepareInsert_bound {cfg cfg' : Config} {id : Nat} {cs : List Constant} {e : Expr} {o : Option Sub}
    (h : prepareInsert cfg id cs e = .ok (o, cfg')) {u n : Nat} (hu : EndsAt cfg.domains u n) (hn : n + 1 < 2 ^ 64)
    (hl : (strTable cfg u).length ≤ n + 1) : (strTable cfg' u).length ≤ n + 1 := by
  unfold prepareInsert at h
  dsimp only at h
  split at h
  · cases h
  · cases h; exact hl
  · split at h
    · cases h; exact hl
    · split at h
      · cases h
      · rename_i e1 c1 h1
        split at h
        · cases h
        · rename_i e2 c2 h2
          split at h
          · cases h
          · split at h
            · cases h
            · rename_i h3
              cases h
              rw [strTable_of_maps (finishSub_strs h3).1, strTable_of_maps (assignIenum_strs h2)]
              exact assignStr_bound h1 hu hn hl

theorem insert_bound {R : Rounding} {t t' : Tree} {id : Nat} {cs : List Constant} {e : Expr} {b : Bool}
    (h : t.insert R id cs e = .ok (b, t')) {u n : Nat} (hu : EndsAt t.cfg.domains u n) (hn : n + 1 < 2 ^ 64)
    (hl : (strTable t.cfg u).length ≤ n + 1) : (strTable t'.cfg u).length ≤ n + 1 := by
  unfold Tree.insert at h
  repeat' split at h
  all_goals first
    | (cases h; done)
    | (cases h; rename_i h1; exact prepareInsert_bound h1 hu hn hl)
    | (cases h; rename_i h1 _ _ _; exact prepareInsert_bound h1 hu hn hl)

/-! ### the other calls make room for what they intern -/

/-- the variables for whose strings a predicate has constants, the namespaces of frequency caps apart -/
def constVars : Pred → List Nat
  | .equality _ v (.string _) => [v.var]
  | .set _ (.string _) (.var v) => [v.var]
  | .set _ (.var v) (.strList _) => [v.var]
  | .list _ v (.strList _) => [v.var]
  | _ => []

/-- those of the frequency caps -/
def capVars : Pred → List Nat
  | .freq f => [f.attr.var]
  | _ => []

def exprConstVars : Expr → List Nat
  | .leaf p => constVars p
  | .not e => exprConstVars e
  | .and l r => exprConstVars l ++ exprConstVars r
  | .or l r => exprConstVars l ++ exprConstVars r

def exprCapVars : Expr → List Nat
  | .leaf p => capVars p
  | .not e => exprCapVars e
  | .and l r => exprCapVars l ++ exprCapVars r
  | .or l r => exprCapVars l ++ exprCapVars r

theorem getIdForString_other {cfg cfg' : Config} {v : AttrVar} {s : Str} {al : Bool} {id u : Nat}
    (h : getIdForString cfg v s al = .ok (id, cfg')) (hu : u ≠ v.var) : strTable cfg' u = strTable cfg u :=
  (getIdForString_spec h).2.2.1 u hu

theorem assignStrList_other {v : AttrVar} {al : Bool} {l l' : List StrVal} {cfg cfg' : Config} {u : Nat}
    (h : assignStrList cfg v al l = .ok (l', cfg')) (hu : u ≠ v.var) : strTable cfg' u = strTable cfg u := by
  induction l generalizing cfg l' with
  | nil => cases h; rfl
  | cons s ss ih =>
    rw [assignStrList] at h
    split at h
    · cases h
    · rename_i id cfg1 h1
      split at h
      · cases h
      · rename_i ss' cfg2 h2
        cases h
        rw [ih h2, getIdForString_other h1 hu]

/-- a string list interns nothing for other variables, and keeps the expression's variables -/
theorem assignStr_other {al : Bool} {e e' : Expr} {cfg cfg' : Config} (h : assignStr cfg al e = .ok (e', cfg')) :
    exprConstVars e' = exprConstVars e ∧ exprCapVars e' = exprCapVars e ∧
      ∀ u, u ∉ exprConstVars e → u ∉ exprCapVars e → strTable cfg' u = strTable cfg u := by
  induction e generalizing cfg cfg' e' with
  | leaf p =>
    rw [assignStr] at h
    split at h
    · cases h
    · rename_i h1
      cases h
      unfold assignStrPred at h1
      repeat' split at h1
      all_goals first
        | (cases h1; done)
        | (rename_i h2; cases h1
           refine ⟨rfl, rfl, fun u h3 h4 => ?_⟩
           first
            | exact getIdForString_other h2 (by simpa [exprConstVars, constVars] using h3)
            | exact getIdForString_other h2 (by simpa [exprCapVars, capVars] using h4)
            | exact assignStrList_other h2 (by simpa [exprConstVars, constVars] using h3))
        | (cases h1; exact ⟨rfl, rfl, fun _ _ _ => rfl⟩)
  | not e ih =>
    rw [assignStr] at h
    split at h
    · cases h
    · rename_i h1; cases h; have := ih h1; exact this
  | and l r ihl ihr | or l r ihl ihr =>
    rw [assignStr] at h
    split at h
    · cases h
    · rename_i h1
      split at h
      · cases h
      · rename_i h2; cases h
        obtain ⟨a1, a2, a3⟩ := ihl h1
        obtain ⟨b1, b2, b3⟩ := ihr h2
        refine ⟨by simp only [exprConstVars, a1, b1], by simp only [exprCapVars, a2, b2], fun u h3 h4 => ?_⟩
        simp only [exprConstVars, exprCapVars, List.mem_append, not_or] at h3 h4
        rw [b3 u h3.2 h4.2, a3 u h3.1 h4.1]

theorem assignIenum_vars {al : Bool} {e e' : Expr} {cfg cfg' : Config} (h : assignIenum cfg al e = .ok (e', cfg')) :
    exprConstVars e' = exprConstVars e := by
  induction e generalizing cfg cfg' e' with
  | leaf p =>
    rw [assignIenum] at h
    split at h
    · cases h
    · rename_i h1
      cases h
      unfold assignIenumPred at h1
      repeat' split at h1
      all_goals first | (cases h1; done) | (cases h1; rfl)
  | not e ih =>
    rw [assignIenum] at h
    split at h
    · cases h
    · rename_i h1; cases h; have := ih h1; exact this
  | and l r ihl ihr | or l r ihl ihr =>
    rw [assignIenum] at h
    split at h
    · cases h
    · rename_i h1
      split at h
      · cases h
      · rename_i h2; cases h; simp only [exprConstVars, ihl h1, ihr h2]

theorem fixFloat_vars {e e' : Expr} {cfg : Config} (h : fixFloat cfg e = .ok e') : exprConstVars e' = exprConstVars e := by
  induction e generalizing e' with
  | leaf p =>
    rw [fixFloat] at h
    split at h
    · cases h
    · rename_i h1
      cases h
      unfold fixFloatPred at h1
      repeat' split at h1
      all_goals first | (cases h1; done) | (cases h1; rfl)
  | not e ih =>
    rw [fixFloat] at h
    split at h
    · cases h
    · rename_i h1; cases h; have := ih h1; exact this
  | and l r ihl ihr | or l r ihl ihr =>
    rw [fixFloat] at h
    split at h
    · cases h
    · rename_i h1
      split at h
      · cases h
      · rename_i h2; cases h; simp only [exprConstVars, ihl h1, ihr h2]

theorem assignConstants_vars {cs : List Constant} {e e' : Expr} (h : assignConstants cs e = some e') :
    exprConstVars e' = exprConstVars e := by
  induction e generalizing e' with
  | leaf p =>
    simp only [assignConstants, Option.map_eq_some_iff] at h
    obtain ⟨p', h1, rfl⟩ := h
    unfold assignConstantsPred at h1
    repeat' split at h1
    all_goals first | (cases h1; done) | (cases h1; rfl)
  | not e ih =>
    simp only [assignConstants, Option.map_eq_some_iff] at h
    obtain ⟨e1, h1, rfl⟩ := h
    have := ih h1
    exact this
  | and l r ihl ihr | or l r ihl ihr =>
    simp only [assignConstants] at h
    split at h
    · rename_i h1 h2; cases h; simp only [exprConstVars, ihl h1, ihr h2]
    · cases h

theorem sortLists_vars (e : Expr) : exprConstVars (sortLists e) = exprConstVars e := by
  induction e with
  | leaf p =>
    cases p with
    | set op l r => cases l <;> cases r <;> rfl
    | list op v c => cases c <;> rfl
    | _ => rfl
  | not e ih => exact ih
  | and l r ihl ihr | or l r ihl ihr => simp only [sortLists, exprConstVars, ihl, ihr]

theorem simple_mentions {u : Nat} {inv : Bool} {e : Expr} (h : simpleBound u inv e = .ok none) : u ∉ exprConstVars e := by
  induction e generalizing inv with
  | leaf p =>
    simp only [simpleBound] at h
    intro hu
    simp only [exprConstVars] at hu
    cases p with
    | equality op v c =>
      cases c with
      | string s =>
        simp only [constVars, List.mem_singleton] at hu
        simp only [simplePred, hu.symm, if_true] at h
        cases h
      | _ => simp [constVars] at hu
    | set op l r =>
      cases l <;> cases r <;> simp only [constVars, List.mem_singleton, List.not_mem_nil] at hu
      · simp [simplePred, SetLeft.isVar, SetRight.isVar, hu, setSimple, Except.map] at h
      · subst hu
        simp only [simplePred, SetLeft.isVar, SetRight.isVar, setSimple, decide_true, Bool.or_false, if_true] at h
        rename_i v l
        cases l <;> simp [firstLastS, Except.map] at h
    | list op v c =>
      cases c with
      | intList l => simp [constVars] at hu
      | strList l =>
        simp only [constVars, List.mem_singleton] at hu
        simp only [simplePred, hu.symm, if_true, listSimple] at h
        cases l <;> simp [firstLastS, Except.map] at h
    | _ => simp [constVars] at hu
  | not e ih => exact ih h
  | and l r ihl ihr | or l r ihl ihr =>
    simp only [simpleBound] at h
    split at h
    · cases h
    · rename_i x hx
      split at h
      · cases h
      · rename_i y hy
        unfold unionSimple at h
        split at h
        · simp only [exprConstVars, List.mem_append, not_or]; exact ⟨ihl hx, ihr hy⟩
        · cases h
        · cases h
        · split at h <;> cases h

/-- the end after widening has room for the map -/
theorem widenSmax_ge {smax : Nat} {counts : List Nat} : smax ≤ sizeMax - 2 ∨ smax ≥ sizeMax - 1 →
    ∀ c ∈ counts, 0 < c → c < 2 ^ 64 - 1 → (∀ c' ∈ counts, c' = c) → c ≤ widenSmax smax counts + 1 := by
  intro _ c hc h0 h1 hall
  have key : ∀ (l : List Nat) (s : Nat), (∀ c' ∈ l, c' = c) → (l ≠ [] ∨ c ≤ s + 1) → s ≤ 2 ^ 64 → c ≤ widenSmax s l + 1 := by
    intro l
    induction l with
    | nil => intro s _ h _; rcases h with h | h; · exact absurd rfl h
             · exact h
    | cons x l ih =>
      intro s ha _ hs
      have hx := ha x List.mem_cons_self
      subst hx
      unfold widenSmax
      dsimp only
      have hm : (x + sizeMax) % 2 ^ 64 = x - 1 := by unfold sizeMax; omega
      rw [hm]
      refine ih _ (fun c' hc' => ha c' (List.mem_cons_of_mem _ hc')) (Or.inr ?_) ?_
      · split
        · split <;> omega
        · omega
      · split
        · split
          · omega
          · exact hs
        · omega
  by_cases hs : smax ≤ 2 ^ 64
  · exact key counts smax hall (Or.inl (List.ne_nil_of_mem hc)) hs
  · -- the first step brings it down
    cases counts with
    | nil => cases hc
    | cons x l =>
      have hx := hall x List.mem_cons_self
      subst hx
      unfold widenSmax
      dsimp only
      have hm : (x + sizeMax) % 2 ^ 64 = x - 1 := by unfold sizeMax; omega
      have : ¬ smax < sizeMax - 1 := by unfold sizeMax; omega
      rw [hm, if_neg this]
      exact key l (x - 1) (fun c' hc' => hall c' (List.mem_cons_of_mem _ hc')) (Or.inr (by omega)) (by omega)

theorem filter_map_one {maps : List StringMap} (hn : (maps.map (fun m => m.attr.var)).Nodup) {u : Nat} {m : StringMap}
    (hm : findStrMap maps u = some m) : maps.filter (fun m => m.attr.var = u) = [m] := by
  induction maps with
  | nil => cases hm
  | cons x l ih =>
    simp only [List.map_cons, List.nodup_cons] at hn
    unfold findStrMap at hm
    rw [List.find?_cons] at hm
    by_cases hx : x.attr.var = u
    · simp only [hx, decide_true] at hm
      cases hm
      simp only [List.filter_cons, hx, decide_true, if_true]
      congr 1
      rw [List.filter_eq_nil_iff]
      intro a ha hau
      simp only [decide_eq_true_eq] at hau
      exact hn.1 (by rw [hx, ← hau]; exact List.mem_map_of_mem (f := fun m : StringMap => m.attr.var) ha)
    · simp only [hx, decide_false] at hm
      simp only [List.filter_cons, hx, decide_false]
      exact ih hn.2 hm

/-- what one round of `change_boundaries` does for a string attribute -/
theorem changeDomain_room {cfg : Config} {e : Expr} {d d' : Domain} (hok : TablesOK cfg) (hs : (strTable cfg d.attr.var).length < invalidId)
    (ht : d.bound.ty = .string ∨ d.bound.ty = .strList) (h : changeDomain cfg e d = .ok d') :
    (d' = d ∧ d.attr.var ∉ exprConstVars e) ∨ ∃ n, d'.bound.hi = .s n ∧ (strTable cfg d.attr.var).length ≤ n + 1 := by
  unfold changeDomain at h
  have key : ∀ b, widenDomain cfg d b = .ok d' → ∃ n, d'.bound.hi = .s n ∧ (strTable cfg d.attr.var).length ≤ n + 1 := by
    intro b hb
    unfold widenDomain at hb
    rcases ht with ht | ht <;> rw [ht] at hb <;> dsimp only at hb <;> split at hb <;> first | (cases hb; done) | skip
    all_goals
      cases hb
      refine ⟨_, rfl, ?_⟩
      unfold strTable at hs ⊢
      cases hm : findStrMap cfg.stringMaps d.attr.var with
      | none => simp
      | some m =>
        rw [hm] at hs
        dsimp only at hs ⊢
        rw [filter_map_one hok.strVars hm]
        simp only [List.map_cons, List.map_nil]
        by_cases h0 : m.values.length = 0
        · omega
        · refine widenSmax_ge ?_ _ (by simp) (by omega) (by unfold invalidId at hs; exact hs) (by simp)
          omega
  rcases ht with ht' | ht' <;> rw [ht'] at h <;> dsimp only at h <;> split at h
  all_goals first | (cases h; done) | skip
  all_goals first
    | (rename_i hn; cases h; exact .inl ⟨rfl, simple_mentions hn⟩)
    | exact .inr (key _ h)

theorem changeDomains_get {cfg : Config} {e : Expr} : ∀ {ds ds' : List Domain}, changeDomains cfg e ds = .ok ds' →
    ∀ {v : Nat} {d : Domain}, ds'[v]? = some d → ∃ d0, ds[v]? = some d0 ∧ changeDomain cfg e d0 = .ok d := by
  intro ds
  induction ds with
  | nil => intro ds' h v d hd; cases h; simp at hd
  | cons x ds ih =>
    intro ds' h v d hd
    rw [changeDomains] at h
    split at h
    · cases h
    · rename_i d1 h1
      split at h
      · cases h
      · rename_i ds1 h2
        cases h
        cases v with
        | zero => simp only [List.getElem?_cons_zero, Option.some.injEq] at hd; subst hd; exact ⟨x, rfl, h1⟩
        | succ v => simpa using ih h2 (by simpa using hd)

/-- A string attribute has at most as many strings as its domain has ids. -/
def Within (cfg : Config) : Prop := ∀ (v : Nat) (d : Domain) (n : Nat), cfg.domains[v]? = some d → (d.bound.ty = .string ∨ d.bound.ty = .strList) →
  d.bound.hi = .s n → (strTable cfg v).length ≤ n + 1

/-- from the state `c0` before the strings were interned to the state after `change_boundaries` -/
theorem changeBoundaries_within {c0 c1 c2 : Config} {e : Expr} (hdoms : c1.domains = c0.domains)
    (hvar : ∀ (v : Nat) (d : Domain), c1.domains[v]? = some d → d.attr.var = v) (hok : TablesOK c1)
    (hs : ∀ v, (strTable c1 v).length < invalidId) (hw : Within c0)
    (hother : ∀ (v : Nat) (d : Domain), c1.domains[v]? = some d → (d.bound.ty = .string ∨ d.bound.ty = .strList) → v ∉ exprConstVars e →
      strTable c1 v = strTable c0 v) (h : changeBoundaries c1 e = .ok c2) : Within c2 := by
  unfold changeBoundaries at h
  split at h
  · cases h
  · rename_i ds hd
    cases h
    intro v d n hv ht hh
    have htab : strTable { c1 with domains := ds } v = strTable c1 v := strTable_of_maps rfl v
    rw [htab]
    obtain ⟨d0, h1, h2⟩ := changeDomains_get hd hv
    have hst := changeDomain_static h2
    have hv0 := hvar v d0 h1
    have ht0 : d0.bound.ty = .string ∨ d0.bound.ty = .strList := by rw [← hst.2.1]; exact ht
    have := changeDomain_room hok (by rw [hv0]; exact hs v) ht0 h2
    rw [hv0] at this
    rcases this with ⟨rfl, h3⟩ | ⟨n', h3, h4⟩
    · rw [hother v d h1 ht0 h3]
      exact hw v d n (by rw [← hdoms]; exact h1) ht hh
    · rw [hh] at h3; cases h3; exact h4

end BeTree
