import Verif.Lemmas.StrBound
import Verif.Lemmas.Static
import Verif.Props.Alike
import Verif.Spec.Limit
/-
What `betree_insert` checks about strings.
-/
namespace BeTree
open Spec

/-! ### which map belongs to which name -/

/-- each map was made for a name in lower case, and has the id of that name -/
def NamesOK (cfg : Config) : Prop :=
  ∀ m ∈ cfg.stringMaps, lowerKey m.attr.attr = m.attr.attr ∧ m.attr.var = tryGetIdForAttr cfg m.attr.attr

/-- the references for which the expression has strings -/
def exprStrVars : Expr → List AttrVar
  | .leaf p => strVars p
  | .not e => exprStrVars e
  | .and l r => exprStrVars l ++ exprStrVars r
  | .or l r => exprStrVars l ++ exprStrVars r

theorem appendStr_attrs {maps : List StringMap} {var : Nat} {s : Str} : (appendStr maps var s).map StringMap.attr = maps.map StringMap.attr := by
  induction maps with
  | nil => rfl
  | cons m ms ih =>
    unfold appendStr
    split
    · rfl
    · simp [ih]

theorem getIdForString_attrs {cfg cfg' : Config} {v : AttrVar} {s : Str} {al : Bool} {id : Nat}
    (h : getIdForString cfg v s al = .ok (id, cfg')) :
    ∀ a ∈ cfg'.stringMaps.map StringMap.attr, a ∈ cfg.stringMaps.map StringMap.attr ∨ a = v := by
  unfold getIdForString at h
  split at h
  · split at h
    · cases h
    · cases h; exact fun a ha => .inl ha
    · unfold addStrId at h
      repeat' split at h
      all_goals first
        | (cases h; done)
        | (cases h; intro a ha; dsimp only at ha; rw [appendStr_attrs] at ha; exact .inl ha)
        | (cases h; exact fun a ha => .inl ha)
  · unfold addStrId at h
    repeat' split at h
    all_goals first
      | (cases h; done)
      | (cases h; intro a ha; dsimp only at ha; rw [appendStr_attrs] at ha
         simpa only [List.map_append, List.map_cons, List.map_nil, List.mem_append, List.mem_singleton] using ha)
      | (cases h; intro a ha
         simpa only [List.map_append, List.map_cons, List.map_nil, List.mem_append, List.mem_singleton] using ha)

theorem assignStrList_attrs {v : AttrVar} {al : Bool} {l l' : List StrVal} {cfg cfg' : Config}
    (h : assignStrList cfg v al l = .ok (l', cfg')) :
    ∀ a ∈ cfg'.stringMaps.map StringMap.attr, a ∈ cfg.stringMaps.map StringMap.attr ∨ a = v := by
  induction l generalizing cfg l' with
  | nil => cases h; exact fun a ha => .inl ha
  | cons s ss ih =>
    rw [assignStrList] at h
    split at h
    · cases h
    · rename_i h1
      split at h
      · cases h
      · rename_i h2
        cases h
        intro a ha
        rcases ih h2 a ha with h3 | h3
        · exact getIdForString_attrs h1 a h3
        · exact .inr h3

theorem assignStr_attrs {al : Bool} {e e' : Expr} {cfg cfg' : Config} (h : assignStr cfg al e = .ok (e', cfg')) :
    ∀ a ∈ cfg'.stringMaps.map StringMap.attr, a ∈ cfg.stringMaps.map StringMap.attr ∨ a ∈ exprStrVars e := by
  induction e generalizing cfg cfg' e' with
  | leaf p =>
    rw [assignStr] at h
    split at h
    · cases h
    · rename_i h1
      cases h
      unfold assignStrPred at h1
      repeat' split at h1
      all_goals first
        | (cases h1; done)
        | (rename_i h2; cases h1
           simp only [exprStrVars, strVars, List.mem_singleton]
           first
            | exact getIdForString_attrs h2
            | exact assignStrList_attrs h2)
        | (cases h1; exact fun a ha => .inl ha)
  | not e ih =>
    rw [assignStr] at h
    split at h
    · cases h
    · rename_i h1; cases h; have := ih h1; exact this
  | and l r ihl ihr | or l r ihl ihr =>
    rw [assignStr] at h
    split at h
    · cases h
    · rename_i h1
      split at h
      · cases h
      · rename_i h2; cases h
        intro a ha
        simp only [exprStrVars, List.mem_append]
        rcases ihr h2 a ha with h3 | h3
        · rcases ihl h1 a h3 with h4 | h4
          · exact .inl h4
          · exact .inr (.inl h4)
        · exact .inr (.inr h3)

theorem NamesOK.of_attrs {a b : Config} (hn : NamesOK a) (hx : CfgExt a b) {vs : List AttrVar}
    (hv : ∀ v ∈ vs, lowerKey v.attr = v.attr ∧ v.var = tryGetIdForAttr a v.attr)
    (h : ∀ x ∈ b.stringMaps.map StringMap.attr, x ∈ a.stringMaps.map StringMap.attr ∨ x ∈ vs) : NamesOK b := by
  intro m hm
  rw [tryGetId_ext hx]
  rcases h m.attr (List.mem_map_of_mem hm) with h1 | h1
  · obtain ⟨m0, h2, h3⟩ := List.mem_map.1 h1
    rw [← h3]
    exact hn m0 h2
  · exact hv _ h1

theorem strVars_assignVar {cfg : Config} {e : Expr} (hl : LowerStrs e) :
    ∀ v ∈ exprStrVars (assignVar cfg e), lowerKey v.attr = v.attr ∧ v.var = tryGetIdForAttr cfg v.attr := by
  induction e with
  | leaf p =>
    replace hl : ∀ a ∈ predStrAttrs p, a.map Char.toLower = a := hl
    show ∀ v ∈ strVars (assignVarPred cfg p), _
    cases p with
    | equality op v c =>
      cases c <;> simp only [assignVarPred, strVars, List.not_mem_nil, List.mem_singleton, forall_eq, false_implies, implies_true]
      exact ⟨hl _ (by simp [predStrAttrs, resolveVar]), rfl⟩
    | set op l r =>
      cases l <;> cases r <;>
        simp only [assignVarPred, strVars, List.not_mem_nil, List.mem_singleton, forall_eq, false_implies, implies_true]
      all_goals exact ⟨hl _ (by simp [predStrAttrs, resolveVar]), rfl⟩
    | list op v c =>
      cases c <;> simp only [assignVarPred, strVars, List.not_mem_nil, List.mem_singleton, forall_eq, false_implies, implies_true]
      exact ⟨hl _ (by simp [predStrAttrs, resolveVar]), rfl⟩
    | freq f =>
      simp only [assignVarPred, strVars, List.mem_singleton, forall_eq]
      exact ⟨hl _ (by simp [predStrAttrs, resolveVar]), rfl⟩
    | _ => simp [assignVarPred, strVars]
  | not e ih => exact ih hl
  | and l r ihl ihr | or l r ihl ihr =>
    have h1 : LowerStrs l := fun a ha => hl a (by simp only [strAttrs, List.mem_append]; exact .inl ha)
    have h2 : LowerStrs r := fun a ha => hl a (by simp only [strAttrs, List.mem_append]; exact .inr ha)
    intro v hv
    simp only [assignVar, exprStrVars, List.mem_append] at hv
    exact hv.elim (ihl h1 v) (ihr h2 v)

theorem strVars_constants {cs : List Constant} {e e' : Expr} (h : assignConstants cs e = some e') : exprStrVars e' = exprStrVars e := by
  induction e generalizing e' with
  | leaf p =>
    simp only [assignConstants, Option.map_eq_some_iff] at h
    obtain ⟨p', h1, rfl⟩ := h
    unfold assignConstantsPred at h1
    repeat' split at h1
    all_goals first | (cases h1; done) | (cases h1; rfl)
  | not e ih =>
    simp only [assignConstants, Option.map_eq_some_iff] at h
    obtain ⟨e1, h1, rfl⟩ := h
    have := ih h1
    exact this
  | and l r ihl ihr | or l r ihl ihr =>
    simp only [assignConstants] at h
    split at h
    · rename_i h1 h2; cases h; simp only [exprStrVars, ihl h1, ihr h2]
    · cases h

theorem lowerStrs_parse {e : Expr} (h : LowerStrs e) : LowerStrs (parseBuild e) := fun a ha => h a ((strAttrs_parse e a).1 ha)

theorem namesOK_maps {a b : Config} (h : NamesOK a) (hx : CfgExt a b) (hm : b.stringMaps = a.stringMaps) : NamesOK b :=
  h.of_attrs hx (vs := []) (by intro v hv; cases hv) (by rw [hm]; exact fun x hx => .inl hx)

theorem prepareInsert_names {cfg cfg' : Config} {id : Nat} {cs : List Constant} {e : Expr} {o : Option Sub}
    (h : prepareInsert cfg id cs e = .ok (o, cfg')) (hn : NamesOK cfg) (hl : LowerStrs e) : NamesOK cfg' := by
  unfold prepareInsert at h
  dsimp only at h
  split at h
  · cases h
  · cases h; exact hn
  · split at h
    · cases h; exact hn
    · rename_i e0 h0
      split at h
      · cases h
      · rename_i e1 c1 h1
        split at h
        · cases h
        · rename_i e2 c2 h2
          split at h
          · cases h
          · split at h
            · cases h
            · rename_i h3
              cases h
              have hn1 : NamesOK c1 := hn.of_attrs (assignStr_grow h1).ext
                (by rw [strVars_constants h0]; exact strVars_assignVar hl) (assignStr_attrs h1)
              exact namesOK_maps (namesOK_maps hn1 (assignIenum_grow h2).ext (assignIenum_strs h2)) (finishSub_ext h3) (finishSub_strs h3).1

theorem insert_names {R : Rounding} {t t' : Tree} {id : Nat} {cs : List Constant} {e : Expr} {b : Bool}
    (h : t.insert R id cs e = .ok (b, t')) (hn : NamesOK t.cfg) (hl : LowerStrs e) : NamesOK t'.cfg := by
  unfold Tree.insert at h
  repeat' split at h
  all_goals first
    | (cases h; done)
    | (cases h; rename_i h1; exact prepareInsert_names h1 hn hl)
    | (cases h; rename_i h1 _ _ _; exact prepareInsert_names h1 hn hl)

theorem changeBoundaries_strs {cfg cfg' : Config} {e : Expr} (h : changeBoundaries cfg e = .ok cfg') : cfg'.stringMaps = cfg.stringMaps := by
  unfold changeBoundaries at h
  split at h
  · cases h
  · cases h; rfl

theorem makeSub_names {t t' : Tree} {id : Nat} {cs : List Constant} {e : Expr} {o : Option Sub}
    (h : t.makeSub id cs e = .ok (o, t')) (hn : NamesOK t.cfg) (hl : LowerStrs e) : NamesOK t'.cfg := by
  unfold Tree.makeSub at h
  dsimp only at h
  split at h
  · cases h
  · cases h; exact hn
  · split at h
    · cases h
    · rename_i e1 c1 h1
      have hn1 : NamesOK c1 := hn.of_attrs (assignStr_grow h1).ext (strVars_assignVar hl) (assignStr_attrs h1)
      split at h
      · cases h
      · rename_i e2 c2 h2
        have hn2 := namesOK_maps hn1 (assignIenum_grow h2).ext (assignIenum_strs h2)
        split at h
        · cases h
        · split at h
          · cases h
          · cases h; exact hn2
          · split at h
            · cases h; exact hn2
            · split at h
              · cases h
              · rename_i h3
                split at h
                · cases h
                · rename_i h4
                  cases h
                  exact namesOK_maps (namesOK_maps hn2 (changeBoundaries_ext h3) (changeBoundaries_strs h3)) (finishSub_ext h4) (finishSub_strs h4).1

theorem changeBoundaries_names {t t' : Tree} {e : Expr} (h : t.changeBoundaries e = .ok t') (hn : NamesOK t.cfg) (hl : LowerStrs e) :
    NamesOK t'.cfg := by
  unfold Tree.changeBoundaries at h
  split at h
  · cases h
  · rename_i e1 c1 h1
    have hn1 : NamesOK c1 := hn.of_attrs (assignStr_grow h1).ext (strVars_assignVar hl) (assignStr_attrs h1)
    split at h
    · cases h
    · rename_i h2
      have hn2 := namesOK_maps hn1 (assignIenum_grow h2).ext (assignIenum_strs h2)
      split at h
      · cases h
      · split at h
        · cases h
        · rename_i h3
          cases h
          exact namesOK_maps hn2 (changeBoundaries_ext h3) (changeBoundaries_strs h3)

theorem step_names {R : Rounding} {w w' : World} {o : Op} (hn : NamesOK w.tree.cfg) (ho : LowerOp o) (h : w.step R o = .ok w') :
    NamesOK w'.tree.cfg := by
  cases o with
  | insert q =>
    simp only [World.step] at h
    repeat' split at h
    all_goals first | (cases h; done) | (rename_i hi; cases h; exact insert_names hi hn (lowerStrs_parse ho))
  | makeSub q =>
    simp only [World.step] at h
    repeat' split at h
    all_goals first | (cases h; done) | (rename_i hi; cases h; exact makeSub_names hi hn (lowerStrs_parse ho))
  | insertSub k =>
    simp only [World.step, Tree.insertSub] at h
    repeat' split at h
    all_goals first
      | (cases h; done)
      | (cases h; exact hn)
      | (rename_i hi; split at hi; · cases hi
         · cases hi; cases h; exact hn)
  | changeBoundaries e =>
    simp only [World.step] at h
    repeat' split at h
    all_goals first | (cases h; done) | (rename_i hi; cases h; exact changeBoundaries_names hi hn (lowerStrs_parse ho))

theorem run_names {R : Rounding} {ops : List Op} : ∀ {w w' : World}, NamesOK w.tree.cfg → (∀ o ∈ ops, LowerOp o) →
    w.run R ops = .ok w' → NamesOK w'.tree.cfg := by
  induction ops with
  | nil => intro w w' hn _ h; cases h; exact hn
  | cons o os ih =>
    intro w w' hn ho h
    simp only [World.run] at h
    split at h
    · cases h
    · rename_i h1
      exact ih (step_names hn (ho o List.mem_cons_self) h1) (fun o h => ho o (List.mem_cons_of_mem _ h)) h

theorem makeTree_names (cap min : Nat) (decls : List (Str × Decl × Bool)) : NamesOK (makeTree cap min decls).cfg := by
  intro m hm
  rw [(makeTree_maps cap min decls).1] at hm
  cases hm

/-! ### the check -/

theorem knownStrs_table {cfg : Config} {a : Str} {d : Domain} (h : domainOf cfg.domains a = some d) :
    knownStrs cfg a = strTable cfg (tryGetIdForAttr cfg a) ∧ tryGetIdForAttr cfg a < cfg.domains.length := by
  unfold domainOf at h
  have hm := List.find?_isSome.1 (by rw [h]; rfl : (cfg.domains.find? (fun d => d.attr.attr = a.map Char.toLower)).isSome)
  have : ∃ j, cfg.domains.findIdx? (fun d => decide (d.attr.attr = a.map Char.toLower)) = some j ∧ j < cfg.domains.length := by
    cases hj : cfg.domains.findIdx? (fun d => decide (d.attr.attr = a.map Char.toLower)) with
    | none =>
      rw [List.findIdx?_eq_none_iff] at hj
      obtain ⟨x, hx, hp⟩ := hm
      rw [hj x hx] at hp
      cases hp
    | some j => exact ⟨j, rfl, (List.findIdx?_eq_some_iff_findIdx_eq.1 hj).1⟩
  obtain ⟨j, hj, hlt⟩ := this
  have hid : tryGetIdForAttr cfg a = j := by
    show findAttr (a.map Char.toLower) cfg.domains 0 = j
    rw [findAttr_idx, hj]
    simp
  refine ⟨?_, by rw [hid]; exact hlt⟩
  unfold knownStrs strTable findStrMap
  rw [hj, hid]
  dsimp only
  cases List.find? (fun m : StringMap => decide (m.attr.var = j)) cfg.stringMaps <;> rfl

theorem strMapForAttr_eq {cfg : Config} (hlen : cfg.domains.length < invalidId) (hn : NamesOK cfg) {a : Str} (ha : a.map Char.toLower = a) {d : Domain}
    (hd : domainOf cfg.domains a = some d) : strMapForAttr cfg a = findStrMap cfg.stringMaps (tryGetIdForAttr cfg a) := by
  obtain ⟨_, hlt⟩ := knownStrs_table hd
  unfold strMapForAttr findStrMap
  unfold NamesOK at hn
  generalize cfg.stringMaps = maps at hn
  induction maps with
  | nil => rfl
  | cons m ms ih =>
    have h1 := hn m List.mem_cons_self
    have : (m.attr.attr = a) ↔ (m.attr.var = tryGetIdForAttr cfg a) := by
      constructor
      · intro h; rw [h1.2, h]
      · intro h
        rw [h1.2] at h
        have h2 := tryGetId_inj (a := m.attr.attr) (b := a) (by rw [h]; omega) h
        have h3 : lowerKey m.attr.attr = lowerKey a := h2
        rw [h1.1] at h3
        rw [h3]; exact ha
    rw [List.find?_cons, List.find?_cons, ih (fun m hm => hn m (List.mem_cons_of_mem _ hm))]
    simp only [this]

theorem attrStringBound_limit {a : Str} (ha : a.map Char.toLower = a) : ∀ {ds : List Domain} {b : Nat}, attrStringBound a ds = .ok b →
    (domainOf ds a = none ∧ b = sizeMax) ∨ ∃ d n, domainOf ds a = some d ∧ d.bound.hi = .s n ∧ b = if n = sizeMax then sizeMax else n + 1 := by
  unfold domainOf
  rw [ha]
  intro ds
  induction ds with
  | nil => intro b h; cases h; exact .inl ⟨rfl, rfl⟩
  | cons d ds ih =>
    intro b h
    unfold attrStringBound at h
    by_cases hd : d.attr.attr = a
    · rw [if_pos hd] at h
      unfold Bound.smax at h
      cases hh : d.bound.hi with
      | s n => rw [hh] at h; cases h; exact .inr ⟨d, n, by simp [hd], hh, rfl⟩
      | _ => rw [hh] at h; cases h
    · rw [if_neg hd] at h
      rw [List.find?_cons]
      simp only [hd, decide_false]
      exact ih h

/-- the attribute is within its limit, which is not the largest number -/
structure Limits (cfg : Config) (a : Str) : Prop where
  within : ∀ n, strLimit cfg.domains a = some n → (knownStrs cfg a).length ≤ n ∧ n < 2 ^ 64

theorem strMapGet_mem {maps : List StringMap} {m : StringMap} {s : Str} {r : Option Nat} (h : strMapGet maps m s = .ok r) : r.isSome ↔ s ∈ m.values := by
  unfold strMapGet at h
  split at h
  · cases h
  · cases h
    cases hr : m.values.idxOf? s with
    | none => simpa using idxOf?_none_mem hr
    | some i => simpa using List.mem_of_getElem? (idxOf?_some_get hr)

theorem countFound_eq {maps : List StringMap} {m : StringMap} : ∀ {l : List StrVal} {n : Nat}, countFound maps m l = .ok n →
    n + ((l.map StrVal.string).filter (fun s => s ∉ m.values)).length = l.length := by
  intro l
  induction l with
  | nil => intro n h; cases h; rfl
  | cons s ss ih =>
    intro n h
    unfold countFound at h
    split at h
    · cases h
    · rename_i r hr
      split at h
      · cases h
      · rename_i k hk
        cases h
        have h1 := ih hk
        have h2 := strMapGet_mem hr
        by_cases hs : s.string ∈ m.values
        · have : r.isSome = true := h2.2 hs
          simp only [this, if_true, List.map_cons, List.filter_cons, hs, not_true_eq_false, decide_false, List.length_cons]
          simp only [Bool.false_eq_true, if_false]
          omega
        · have : r.isSome = false := by simpa using fun h => hs (h2.1 h)
          simp only [this, List.map_cons, List.filter_cons, hs, not_false_eq_true, decide_true, List.length_cons]
          simp only [Bool.false_eq_true, if_false, if_true, List.length_cons]
          omega

theorem strValid_fits {cfg : Config} (hlen : cfg.domains.length < invalidId) (hn : NamesOK cfg) {a : Str} (ha : a.map Char.toLower = a)
    (hlim : Limits cfg a) (hk : ∃ t, declaredType cfg.domains a = some t) {s : Str} {b : Bool}
    (h : strValid cfg a s = .ok b) : b = true ↔ ∀ n, strLimit cfg.domains a = some n →
      (knownStrs cfg a).length + ([s].filter (fun s => s ∉ knownStrs cfg a)).length ≤ n := by
  unfold strValid at h
  split at h
  · cases h
  · rename_i bd hb
    rcases attrStringBound_limit ha hb with ⟨h1, _⟩ | ⟨d, n, h1, h2, h3⟩
    · obtain ⟨t, ht⟩ := hk
      unfold declaredType at ht
      unfold domainOf at h1
      rw [h1] at ht
      cases ht
    · have hl : strLimit cfg.domains a = some (n + 1) := by unfold strLimit; rw [h1]; dsimp only; rw [h2]
      obtain ⟨hw, hn64⟩ := hlim.within _ hl
      rw [hl]
      have hne : n ≠ sizeMax := by unfold sizeMax; omega
      rw [if_neg hne] at h3
      simp only [Option.some.injEq, forall_eq']
      obtain ⟨h5, h6⟩ := knownStrs_table h1
      rw [strMapForAttr_eq hlen hn ha h1] at h
      unfold strTable at h5
      split at h
      · rename_i hm
        rw [hm] at h5
        dsimp only at h5
        cases h
        simp [h5, h3]
      · rename_i m hm
        rw [hm] at h5
        dsimp only at h5
        rw [h5] at hw ⊢
        split at h
        · cases h
        · rename_i hg
          cases h
          have := (strMapGet_mem hg).1 rfl
          simp [this]; exact hw
        · rename_i hg
          cases h
          have : s ∉ m.values := fun hs => by have := (strMapGet_mem hg).2 hs; cases this
          simp only [this, List.filter_cons, not_false_eq_true, decide_true, if_true, List.filter_nil, List.length_singleton, decide_eq_true_eq]
          unfold spaceLeft
          dsimp only
          rw [h3]
          omega

theorem strsValid_fits {cfg : Config} (hlen : cfg.domains.length < invalidId) (hn : NamesOK cfg) {a : Str} (ha : a.map Char.toLower = a)
    (hlim : Limits cfg a) (hk : ∃ t, declaredType cfg.domains a = some t) {l : List StrVal}
    (hsz : (knownStrs cfg a).length + l.length < 2 ^ 64) {b : Bool}
    (h : strsValid cfg a l = .ok b) : b = true ↔ ∀ n, strLimit cfg.domains a = some n →
      (knownStrs cfg a).length + ((l.map StrVal.string).filter (fun s => s ∉ knownStrs cfg a)).length ≤ n := by
  unfold strsValid at h
  split at h
  · cases h
  · rename_i bd hb
    rcases attrStringBound_limit ha hb with ⟨h1, _⟩ | ⟨d, n, h1, h2, h3⟩
    · obtain ⟨t, ht⟩ := hk
      unfold declaredType at ht
      unfold domainOf at h1
      rw [h1] at ht
      cases ht
    · have hl : strLimit cfg.domains a = some (n + 1) := by unfold strLimit; rw [h1]; dsimp only; rw [h2]
      obtain ⟨hw, hn64⟩ := hlim.within _ hl
      rw [hl]
      have hne : n ≠ sizeMax := by unfold sizeMax; omega
      rw [if_neg hne] at h3
      simp only [Option.some.injEq, forall_eq']
      obtain ⟨h5, h6⟩ := knownStrs_table h1
      rw [strMapForAttr_eq hlen hn ha h1] at h
      have hle : ((l.map StrVal.string).filter (fun s => s ∉ knownStrs cfg a)).length ≤ l.length := by
        have := List.length_filter_le (fun s => decide (s ∉ knownStrs cfg a)) (l.map StrVal.string)
        simpa using this
      split at h
      · rename_i hbd
        cases h
        unfold sizeMax at hbd
        simp only [true_iff]
        omega
      · unfold strTable at h5
        split at h
        · rename_i hm
          rw [hm] at h5
          dsimp only at h5
          cases h
          rw [h5, h3]
          have : ((l.map StrVal.string).filter (fun s => decide (s ∉ ([] : List Str)))) = l.map StrVal.string := by simp
          rw [this]
          simp
        · rename_i m hm
          rw [hm] at h5
          dsimp only at h5
          rw [h5] at hw hsz ⊢
          split at h
          · cases h
          · rename_i f hf
            cases h
            have := countFound_eq hf
            simp only [decide_eq_true_eq]
            unfold spaceLeft
            dsimp only
            rw [h3]
            omega

theorem boundedPred_fits {cfg : Config} (hlen : cfg.domains.length < invalidId) (hn : NamesOK cfg) {p : Pred}
    (hlow : ∀ a ∈ predStrAttrs p, a.map Char.toLower = a) (hlim : ∀ a ts, predTexts p = some (a, ts) → Limits cfg a)
    (hsz : ∀ a ∈ predStrAttrs p, (knownStrs cfg a).length + predConstants p < 2 ^ 64)
    (hd : ∀ v ∈ lookedAt p, Known cfg.domains v) {b : Bool} (h : boundedStringsPred cfg (assignVarPred cfg p) = .ok b) :
    b = true ↔ FitsPred cfg p := by
  unfold FitsPred
  have triv : predTexts p = none → b = true → (b = true ↔ ∀ a ts n, predTexts p = some (a, ts) → strLimit cfg.domains a = some n →
      (knownStrs cfg a).length + (ts.filter (fun s => s ∉ knownStrs cfg a)).length ≤ n) := by
    intro h1 h2
    rw [h1, h2]
    simp
  have one : ∀ (a : Str) (ts : List Str), predTexts p = some (a, ts) → ((∀ a ts n, predTexts p = some (a, ts) → strLimit cfg.domains a = some n →
      (knownStrs cfg a).length + (ts.filter (fun s => s ∉ knownStrs cfg a)).length ≤ n) ↔ ∀ n, strLimit cfg.domains a = some n →
      (knownStrs cfg a).length + (ts.filter (fun s => s ∉ knownStrs cfg a)).length ≤ n) := by
    intro a ts h1
    rw [h1]
    constructor
    · intro h n hn; exact h a ts n rfl hn
    · intro h a' ts' n h2 hn; cases h2; exact h n hn
  cases p with
  | equality op v c =>
    cases c with
    | string s =>
      rw [one v.attr [s.string] rfl]
      exact strValid_fits hlen hn (hlow _ (by simp [predStrAttrs])) (hlim _ _ rfl) (hd v (by simp [lookedAt])) h
    | _ => exact triv rfl (by cases h; rfl)
  | set op l r =>
    cases l <;> cases r <;> first
      | exact triv rfl (by cases h; rfl)
      | (rename_i s v; rw [one v.attr [s.string] rfl]
         exact strValid_fits hlen hn (hlow _ (by simp [predStrAttrs])) (hlim _ _ rfl) (hd v (by simp [lookedAt])) h)
      | (rename_i v l; rw [one v.attr (l.map StrVal.string) rfl]
         exact strsValid_fits hlen hn (hlow _ (by simp [predStrAttrs])) (hlim _ _ rfl) (hd v (by simp [lookedAt]))
           (hsz v.attr (by simp [predStrAttrs])) h)
  | list op v c =>
    cases c with
    | intList l => exact triv rfl (by cases h; rfl)
    | strList l =>
      rw [one v.attr (l.map StrVal.string) rfl]
      exact strsValid_fits hlen hn (hlow _ (by simp [predStrAttrs])) (hlim _ _ rfl) (hd v (by simp [lookedAt]))
           (hsz v.attr (by simp [predStrAttrs])) h
  | _ => exact triv rfl (by cases h; rfl)

theorem bounded_fits {cfg : Config} (hlen : cfg.domains.length < invalidId) (hn : NamesOK cfg) {e : Expr}
    (hlow : LowerStrs e) (hlim : ∀ p ∈ preds e, ∀ a ts, predTexts p = some (a, ts) → Limits cfg a)
    (hsz : ∀ a ∈ strAttrs e, (knownStrs cfg a).length + numConstants e < 2 ^ 64)
    (hd : DeclaredIn cfg.domains e) {b : Bool} (h : boundedStringsValid cfg (assignVar cfg e) = .ok b) :
    b = true ↔ FitsStrs cfg e := by
  induction e generalizing b with
  | leaf p => exact boundedPred_fits hlen hn hlow (hlim p (by simp [preds])) hsz hd h
  | not e ih => exact ih hlow hlim hsz hd h
  | and l r ihl ihr | or l r ihl ihr =>
    have ml : ∀ a ∈ strAttrs l, a ∈ strAttrs l ++ strAttrs r := fun a ha => List.mem_append_left _ ha
    have mr : ∀ a ∈ strAttrs r, a ∈ strAttrs l ++ strAttrs r := fun a ha => List.mem_append_right _ ha
    have szl : ∀ a ∈ strAttrs l, (knownStrs cfg a).length + numConstants l < 2 ^ 64 := fun a ha => by
      have := hsz a (ml a ha); simp only [numConstants] at this; omega
    have szr : ∀ a ∈ strAttrs r, (knownStrs cfg a).length + numConstants r < 2 ^ 64 := fun a ha => by
      have := hsz a (mr a ha); simp only [numConstants] at this; omega
    have kl := fun {b} => ihl (b := b) (fun a ha => hlow a (ml a ha)) (fun p hp => hlim p (List.mem_append_left _ hp)) szl hd.1
    have kr := fun {b} => ihr (b := b) (fun a ha => hlow a (mr a ha)) (fun p hp => hlim p (List.mem_append_right _ hp)) szr hd.2
    simp only [FitsStrs]
    rcases andThen_ok h with ⟨h1, rfl⟩ | ⟨h1, h2⟩
    · have := kl h1
      simp only [Bool.false_eq_true, false_iff] at this ⊢
      exact fun h => this h.1
    · rw [kr h2]
      have := (kl h1).1 rfl
      simp [this]

theorem vars_declared {cfg : Config} (hlen : cfg.domains.length < invalidId) {e : Expr} {b : Bool}
    (h : varsInConfig (assignVar cfg e) = .ok b) : b = true ↔ DeclaredIn cfg.domains e := by
  induction e generalizing b with
  | leaf p =>
    replace h : varsInConfigPred (assignVarPred cfg p) = .ok b := h
    simp only [DeclaredIn]
    have k : ∀ v : AttrVar, varValid (resolveVar cfg v) = true ↔ Known cfg.domains v := fun v => varValid_iff hlen rfl
    cases p with
    | set op l r =>
      cases l <;> cases r <;> simp only [assignVarPred, varsInConfigPred, Except.ok.injEq, reduceCtorEq] at h
      all_goals subst h; simp [lookedAt, k]
    | freq f => cases h; simp [lookedAt, k]
    | segment f => cases h; simp [lookedAt, k]
    | _ => cases h; simp [lookedAt, k]
  | not e ih => exact ih h
  | and l r ihl ihr | or l r ihl ihr =>
    simp only [DeclaredIn]
    rcases andThen_ok h with ⟨h1, rfl⟩ | ⟨h1, h2⟩
    · have := ihl h1
      simp only [Bool.false_eq_true, false_iff] at this ⊢
      exact fun h => this h.1
    · rw [ihr h2]
      have := (ihl h1).1 rfl
      simp [this]

theorem declaredIn_parse (ds : List Domain) (e : Expr) : DeclaredIn ds (parseBuild e) ↔ DeclaredIn ds e := by
  induction e with
  | leaf p => rfl
  | not e ih => exact ih
  | and l r ihl ihr =>
    simp only [parseBuild, mkAnd]
    split <;> simp only [DeclaredIn, ihl, ihr]
    exact and_comm
  | or l r ihl ihr =>
    simp only [parseBuild, mkOr]
    split <;> simp only [DeclaredIn, ihl, ihr]
    exact and_comm

theorem fitsStrs_parse (cfg : Config) (e : Expr) : FitsStrs cfg (parseBuild e) ↔ FitsStrs cfg e := by
  induction e with
  | leaf p => rfl
  | not e ih => exact ih
  | and l r ihl ihr =>
    simp only [parseBuild, mkAnd]
    split <;> simp only [FitsStrs, ihl, ihr]
    exact and_comm
  | or l r ihl ihr =>
    simp only [parseBuild, mkOr]
    split <;> simp only [FitsStrs, ihl, ihr]
    exact and_comm

/-- what a plain insertion that returns says -/
theorem insert_iff {R : Rounding} {t t' : Tree} {id : Nat} {cs : List Constant} {e : Expr} {b : Bool}
    (hlen : t.cfg.domains.length < invalidId) (hn : NamesOK t.cfg) (hlow : LowerStrs e) 
    (hlim : ∀ p ∈ preds e, ∀ a ts, predTexts p = some (a, ts) → Limits t.cfg a)
    (hsz : ∀ a ∈ strAttrs e, (knownStrs t.cfg a).length + numConstants e < 2 ^ 64)
    (h : t.insert R id cs e = .ok (b, t')) :
    b = true ↔ DeclaredIn t.cfg.domains e ∧ FitsStrs t.cfg e ∧ ∀ f ∈ caps e, ∃ i, supplied cs f.type = some i := by
  have hcap : (∀ f ∈ caps e, ∃ i, supplied cs f.type = some i) ↔ (assignConstants cs (assignVar t.cfg e)).isSome := by
    rw [assignConstants_isSome]
    exact supplied_of_types (caps_of_rel (P := fun p p' => p' = assignVarPred t.cfg p) (by
      rintro p p' rfl
      cases p with
      | set op l r => cases l <;> cases r <;> rfl
      | _ => rfl) (assignVar_rel t.cfg e))
  rw [hcap]
  unfold Tree.insert prepareInsert at h
  dsimp only at h
  cases hv : isValid t.cfg (assignVar t.cfg e) with
  | error x => rw [hv] at h; simp at h
  | ok v =>
    rw [hv] at h
    unfold isValid at hv
    rcases andThen_ok hv with ⟨h1, rfl⟩ | ⟨h1, h2⟩
    · have := vars_declared hlen h1
      simp only [Bool.false_eq_true, false_iff] at this
      cases h
      simp [this]
    · have hd := (vars_declared hlen h1).1 rfl
      have hf := bounded_fits hlen hn hlow hlim hsz hd h2
      cases v with
      | false =>
        simp only [Bool.false_eq_true, false_iff] at hf
        cases h
        simp [hf]
      | true =>
        simp only [true_iff] at hf
        cases hc : assignConstants cs (assignVar t.cfg e) with
        | none => rw [hc] at h; cases h; simp
        | some a =>
          rw [hc] at h
          dsimp only at h
          repeat' split at h
          all_goals first | (cases h; done) | skip
          · rename_i cfg hx
            repeat' split at hx
            all_goals cases hx
          · cases h; simp [hd, hf]

end BeTree
