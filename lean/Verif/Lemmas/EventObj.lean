import Verif.Model.EventObj
import Verif.Lemmas.Sort
import Verif.Lemmas.Event
import Verif.Props.Intern
import Verif.Lemmas.Resolve
/-
Event objects: a search reads only the ids of string lists; what searches leave of an object.
-/
namespace BeTree
open Spec

/-! ### the texts in string lists are not read -/

def StrVal.forget (s : StrVal) : StrVal := { s with string := [] }

def Value.forget : Value → Value
  | .strList l => .strList (l.map StrVal.forget)
  | v => v

def forgetEnv (env : Env) : Env := env.map (Option.map Value.forget)

theorem getVariable_forget (env : Env) (v : Nat) :
    getVariable (forgetEnv env) v = (getVariable env v).map (Option.map Value.forget) := by
  unfold getVariable forgetEnv
  rw [List.getElem?_map]
  cases env[v]? <;> rfl

theorem getVariable_cases (env : Env) (v : Nat) : (∃ e, getVariable env v = .error e) ∨ (∃ x, getVariable env v = .ok x) := by
  cases getVariable env v <;> simp

theorem forget_strs (l : List StrVal) : (l.map StrVal.forget).map StrVal.str = l.map StrVal.str := by
  simp [StrVal.forget, Function.comp_def]

theorem matchPred_forget (geo : GeoTest) (env : Env) (p : Pred) : matchPred geo (forgetEnv env) p = matchPred geo env p := by
  have hb : ∀ v, getBoolVar (forgetEnv env) v = getBoolVar env v := by
    intro v; unfold getBoolVar; rw [getVariable_forget]
    rcases getVariable env v with e | (_ | x)
    · rfl
    · rfl
    · cases x <;> rfl
  have hi : ∀ v, getIntVar (forgetEnv env) v = getIntVar env v := by
    intro v; unfold getIntVar; rw [getVariable_forget]
    rcases getVariable env v with e | (_ | x)
    · rfl
    · rfl
    · cases x <;> rfl
  have hf : ∀ v, getFloatVar (forgetEnv env) v = getFloatVar env v := by
    intro v; unfold getFloatVar; rw [getVariable_forget]
    rcases getVariable env v with e | (_ | x)
    · rfl
    · rfl
    · cases x <;> rfl
  have hs : ∀ v, getStringVar (forgetEnv env) v = getStringVar env v := by
    intro v; unfold getStringVar; rw [getVariable_forget]
    rcases getVariable env v with e | (_ | x)
    · rfl
    · rfl
    · cases x <;> rfl
  have hil : ∀ v, getIntListVar (forgetEnv env) v = getIntListVar env v := by
    intro v; unfold getIntListVar; rw [getVariable_forget]
    rcases getVariable env v with e | (_ | x)
    · rfl
    · rfl
    · cases x <;> rfl
  have hsl : ∀ v, getStrListVar (forgetEnv env) v = (getStrListVar env v).map (Option.map (List.map StrVal.forget)) := by
    intro v; unfold getStrListVar; rw [getVariable_forget]
    rcases getVariable env v with e | (_ | x)
    · rfl
    · rfl
    · cases x <;> rfl
  have hsg : ∀ v, getSegmentsVar (forgetEnv env) v = getSegmentsVar env v := by
    intro v; unfold getSegmentsVar; rw [getVariable_forget]
    rcases getVariable env v with e | (_ | x)
    · rfl
    · rfl
    · cases x <;> rfl
  have hfr : ∀ v, getFreqVar (forgetEnv env) v = getFreqVar env v := by
    intro v; unfold getFreqVar; rw [getVariable_forget]
    rcases getVariable env v with e | (_ | x)
    · rfl
    · rfl
    · cases x <;> rfl
  cases p with
  | compare op v c =>
    show matchCompare _ _ _ _ = matchCompare _ _ _ _
    unfold matchCompare; rw [getVariable_forget]
    rcases getVariable env v.var with e | (_ | x)
    · rfl
    · rfl
    · cases c <;> cases x <;> rfl
  | equality op v c =>
    show matchEquality _ _ _ _ = matchEquality _ _ _ _
    unfold matchEquality; rw [getVariable_forget]
    rcases getVariable env v.var with e | (_ | x)
    · rfl
    · rfl
    · cases c <;> cases x <;> rfl
  | boolVar v => simp only [matchPred, hb]
  | boolLit b => rfl
  | set op l r =>
    show matchSet _ _ _ _ = matchSet _ _ _ _
    cases l <;> cases r <;> simp only [matchSet, hi, hs, hil, hsl]
    rename_i v
    rcases getStrListVar env v.var with e | (_ | x)
    · rfl
    · rfl
    · simp only [Except.map, Option.map, forget_strs]
  | list op v c =>
    show matchList _ _ _ _ = matchList _ _ _ _
    unfold matchList; rw [getVariable_forget]
    rcases getVariable env v.var with e | (_ | x)
    · rfl
    · rfl
    · cases c <;> cases x <;> simp only [Except.map, Option.map, Value.forget, forget_strs]
  | freq f => simp only [matchPred, matchFreq, hfr, hi]
  | segment s => simp only [matchPred, matchSegment, hsg, hi]
  | geo g => simp only [matchPred, matchGeo, hf]
  | str s => simp only [matchPred, matchStr, hs]
  | isNull op v =>
    show matchIsNull _ _ _ = matchIsNull _ _ _
    unfold matchIsNull; rw [getVariable_forget]
    rcases getVariable env v.var with e | (_ | x)
    · rfl
    · cases op <;> rfl
    · cases op <;> cases x <;> simp [Except.map, Value.forget, isEmptyList]

theorem matchNode_forget (geo : GeoTest) (memoId : Nat → Option Nat) (env : Env) (e : AExpr) :
    matchNode geo memoId (forgetEnv env) e = matchNode geo memoId env e := by
  induction e with
  | leaf g p => funext s; simp only [matchNode, matchPred_forget]
  | not g e ih => funext s; simp only [matchNode, ih]
  | and g l r ihl ihr => funext s; simp only [matchNode, ihl, ihr]
  | or g l r ihl ihr => funext s; simp only [matchNode, ihl, ihr]

theorem getLast_forget (x : StrVal) (xs : List StrVal) (h1 h2) :
    (((x :: xs).map StrVal.forget).getLast h1).str = ((x :: xs).getLast h2).str := by
  rw [List.getLast_map]; rfl

theorem isEventEnclosed_forget (env : Env) (v : Nat) (b : Bound) (ol or : Bool) :
    isEventEnclosed (forgetEnv env) v b ol or = isEventEnclosed env v b ol or := by
  unfold isEventEnclosed envGet; rw [getVariable_forget]
  rcases getVariable env v with e | (_ | x)
  · rfl
  · rfl
  · cases x with
    | strList l =>
      cases l with
      | nil => rfl
      | cons y ys =>
        simp only [Except.map, Option.map, Value.forget, Value.vtype, List.map_cons]
        have := getLast_forget y ys (by simp) (by simp)
        simp only [List.map_cons] at this
        rw [this]; rfl
    | _ => rfl

mutual
theorem cnode_forget (cfg : Config) (env : Env) : ∀ c : CNode, c.collect cfg (forgetEnv env) = c.collect cfg env
  | .mk subs c pns => by simp only [CNode.collect, pnodes_forget cfg env pns]
theorem pnodes_forget (cfg : Config) (env : Env) : ∀ c : PNodes, c.collect cfg (forgetEnv env) = c.collect cfg env
  | .nil => rfl
  | .cons v s cd rest => by
    simp only [PNodes.collect, pnodes_forget cfg env rest, cdir_forget cfg env _ _ cd, envGet, getVariable_forget]
    cases getDomain cfg v with
    | error e => rfl
    | ok d =>
      rcases getVariable env v with e | (_ | x) <;> rfl
theorem cdir_forget (cfg : Config) (env : Env) (ol or : Bool) : ∀ c : CDir, c.collect cfg (forgetEnv env) ol or = c.collect cfg env ol or
  | .leaf _ _ c => by simp only [CDir.collect, cnode_forget cfg env c]
  | .node _ _ c l r => by
    simp only [CDir.collect, cnode_forget cfg env c, cdir_forget cfg env _ _ l, cdir_forget cfg env _ _ r, isEventEnclosed_forget]
end

theorem markUndefined_forget : ∀ (env : Env) (i : Nat) (b : Bits), markUndefined (forgetEnv env) i b = markUndefined env i b
  | [], _, _ => rfl
  | some _ :: vs, i, b => markUndefined_forget vs (i + 1) b
  | none :: vs, i, b => by
    show markUndefined (none :: forgetEnv vs) i b = _
    simp only [markUndefined]
    cases setBit b i with
    | error e => rfl
    | ok b => exact markUndefined_forget vs (i + 1) b

theorem makeUndefined_forget (env : Env) : makeUndefined (forgetEnv env) = makeUndefined env := by
  unfold makeUndefined
  rw [markUndefined_forget]; simp [forgetEnv]

theorem matchSub_forget (geo : GeoTest) (memoId : Nat → Option Nat) (env : Env) (u : Bits) (s : Sub) (st : LoopState) :
    matchSub geo memoId (forgetEnv env) u s st = matchSub geo memoId env u s st := by
  simp only [matchSub, matchNode_forget]

theorem searchLoop_forget (geo : GeoTest) (memoId : Nat → Option Nat) (env : Env) (u : Bits) : ∀ (ss : List Sub) (st : LoopState),
    searchLoop geo memoId (forgetEnv env) u ss st = searchLoop geo memoId env u ss st
  | [], _ => rfl
  | s :: ss, st => by simp only [searchLoop, matchSub_forget, searchLoop_forget geo memoId env u ss]

theorem existsLoop_forget (geo : GeoTest) (memoId : Nat → Option Nat) (env : Env) (u : Bits) : ∀ (ss : List Sub) (st : LoopState),
    existsLoop geo memoId (forgetEnv env) u ss st = existsLoop geo memoId env u ss st
  | [], _ => rfl
  | s :: ss, st => by
    simp only [existsLoop, matchSub_forget]
    rcases matchSub geo memoId env u s st with e | ⟨_ | _, st'⟩
    · rfl
    · exact existsLoop_forget geo memoId env u ss st'
    · rfl

theorem searchWithPreds_forget (geo : GeoTest) (cfg : Config) (env : Env) (root : CNode) (rep : Report) :
    searchWithPreds geo cfg (forgetEnv env) root rep = searchWithPreds geo cfg env root rep := by
  simp only [searchWithPreds, makeUndefined_forget, cnode_forget, searchLoop_forget]

theorem existsWithPreds_forget (geo : GeoTest) (cfg : Config) (env : Env) (root : CNode) :
    existsWithPreds geo cfg (forgetEnv env) root = existsWithPreds geo cfg env root := by
  simp only [existsWithPreds, makeUndefined_forget, cnode_forget, existsLoop_forget]

theorem validate_forget : ∀ (ds : List Domain) (env : Env), validateVariables ds (forgetEnv env) = validateVariables ds env
  | [], [] => rfl
  | [], _ :: _ => rfl
  | _ :: _, [] => rfl
  | d :: ds, v :: vs => by
    show ((d.allowUndefined || (v.map Value.forget).isSome) && validateVariables ds (forgetEnv vs)) = _
    rw [validate_forget ds vs]; cases v <;> rfl

theorem makeEnvironment_forget (n : Nat) : ∀ (l : List (Nat × Value)) (env : Env),
    forgetEnv (makeEnvironment n l env) = makeEnvironment n (l.map fun p => (p.1, p.2.forget)) (forgetEnv env)
  | [], _ => rfl
  | (v, x) :: rest, env => by
    simp only [makeEnvironment, List.map_cons]
    rw [makeEnvironment_forget n rest]
    congr 1
    simp [forgetEnv, List.map_set]

/-! ### what searches leave of a value -/

/-- the strings `x'` of a value as left by searches cover those of the value as built, up to strings in `U` -/
def CovStrs (U : Str → Prop) (l l' : List StrVal) : Prop :=
  (∀ x' ∈ l', ∃ x ∈ l, x.string = x'.string) ∧
  (∀ x ∈ l, ∃ x' ∈ l', x'.string = x.string ∨ (U x.string ∧ U x'.string))

inductive Cov (ty : VType) (U : Str → Prop) : Value → Value → Prop where
  | refl (v : Value) : Cov ty U v v
  | enum (i : Int) (e : EnumVal) : ty = .intEnum → e.integer = i → Cov ty U (.int i) (.intEnum e)
  | enums (e e' : EnumVal) : e'.integer = e.integer → Cov ty U (.intEnum e) (.intEnum e')
  | str (s s' : StrVal) : s'.string = s.string → Cov ty U (.string s) (.string s')
  | ints (l l' : List Int) : (∀ x, x ∈ l' ↔ x ∈ l) → Cov ty U (.intList l) (.intList l')
  | nilStrs : ty = .strList → Cov ty U (.intList []) (.strList [])
  | nilSegs : ty = .segments → Cov ty U (.intList []) (.segments [])
  | nilCaps : ty = .freq → Cov ty U (.intList []) (.freq [])
  | strs (l l' : List StrVal) : CovStrs U l l' → Cov ty U (.strList l) (.strList l')
  | caps (l l' : List FreqCap) : List.Forall₂ (fun c c' => c'.ns.string = c.ns.string ∧ { c' with ns := c.ns } = c) l l' →
      Cov ty U (.freq l) (.freq l')

theorem covStrs_trans {U : Str → Prop} {a b c : List StrVal} (h : CovStrs U a b) (k : CovStrs U b c) : CovStrs U a c := by
  refine ⟨fun x'' hx => ?_, fun x hx => ?_⟩
  · obtain ⟨x', h1, h2⟩ := k.1 x'' hx
    obtain ⟨x, h3, h4⟩ := h.1 x' h1
    exact ⟨x, h3, h4.trans h2⟩
  · obtain ⟨x', h1, h2⟩ := h.2 x hx
    obtain ⟨x'', h3, h4⟩ := k.2 x' h1
    refine ⟨x'', h3, ?_⟩
    rcases h2 with h2 | ⟨h2, h2'⟩ <;> rcases h4 with h4 | ⟨h4, h4'⟩
    · exact .inl (h4.trans h2)
    · exact .inr ⟨h2 ▸ h4, h4'⟩
    · exact .inr ⟨h2, h4 ▸ h2'⟩
    · exact .inr ⟨h2, h4'⟩

theorem forall₂_trans {α : Type} {P : α → α → Prop} (hP : ∀ a b c, P a b → P b c → P a c) : ∀ {l l' l'' : List α},
    List.Forall₂ P l l' → List.Forall₂ P l' l'' → List.Forall₂ P l l''
  | _, _, _, .nil, .nil => .nil
  | _, _, _, .cons h t, .cons h' t' => .cons (hP _ _ _ h h') (forall₂_trans hP t t')

theorem cov_trans {ty : VType} {U : Str → Prop} {a b c : Value} (h : Cov ty U a b) (k : Cov ty U b c) : Cov ty U a c := by
  cases h with
  | refl => exact k
  | enum i e h1 h2 =>
    cases k with
    | refl => exact .enum _ _ h1 h2
    | enums _ e' h3 => exact .enum _ _ h1 (h3.trans h2)
  | enums e e' h1 =>
    cases k with
    | refl => exact .enums _ _ h1
    | enums _ e'' h3 => exact .enums _ _ (h3.trans h1)
  | str s s' h1 =>
    cases k with
    | refl => exact .str _ _ h1
    | str _ s'' h3 => exact .str _ _ (h3.trans h1)
  | ints l l' h1 =>
    cases k with
    | refl => exact .ints _ _ h1
    | ints _ l'' h3 => exact .ints _ _ fun x => (h3 x).trans (h1 x)
    | nilStrs h2 =>
      have : l = [] := List.eq_nil_iff_forall_not_mem.2 fun x hx => by simpa using (h1 x).2 hx
      subst this; exact .nilStrs h2
    | nilSegs h2 =>
      have : l = [] := List.eq_nil_iff_forall_not_mem.2 fun x hx => by simpa using (h1 x).2 hx
      subst this; exact .nilSegs h2
    | nilCaps h2 =>
      have : l = [] := List.eq_nil_iff_forall_not_mem.2 fun x hx => by simpa using (h1 x).2 hx
      subst this; exact .nilCaps h2
  | nilStrs h1 =>
    cases k with
    | refl => exact .nilStrs h1
    | strs _ l' h3 =>
      have : l' = [] := List.eq_nil_iff_forall_not_mem.2 fun x hx => by obtain ⟨y, hy, _⟩ := h3.1 x hx; simp at hy
      subst this; exact .nilStrs h1
  | nilSegs h1 =>
    cases k with
    | refl => exact .nilSegs h1
  | nilCaps h1 =>
    cases k with
    | refl => exact .nilCaps h1
    | caps _ l' h3 => cases h3; exact .nilCaps h1
  | strs l l' h1 =>
    cases k with
    | refl => exact .strs _ _ h1
    | strs _ l'' h3 => exact .strs _ _ (covStrs_trans h1 h3)
  | caps l l' h1 =>
    cases k with
    | refl => exact .caps _ _ h1
    | caps _ l'' h3 =>
      refine .caps _ _ (forall₂_trans ?_ h1 h3)
      rintro a b c ⟨h4, h5⟩ ⟨h6, h7⟩
      refine ⟨h6.trans h4, ?_⟩
      rw [← h5, ← h7]

theorem tryGetIdForString_uniform (cfg : Config) (var : Nat) :
    (∀ s, tryGetIdForString cfg var s = .error .ub) ∨ ∃ f : Str → Nat, ∀ s, tryGetIdForString cfg var s = .ok (f s) := by
  unfold tryGetIdForString
  cases findStrMap cfg.stringMaps var with
  | none => exact .inr ⟨fun _ => invalidId, fun _ => rfl⟩
  | some m =>
    simp only [strMapGet]
    by_cases hm : m.values = [] ∧ zeroed cfg.stringMaps m = false
    · left; intro s; rw [if_pos hm]
    · right
      refine ⟨fun s => (m.values.idxOf? s).getD invalidId, fun s => ?_⟩
      rw [if_neg hm]
      cases hi : m.values.idxOf? s <;> simp [hi]

theorem fillStrs_error {cfg : Config} {var : Nat} (h : ∀ s, tryGetIdForString cfg var s = .error .ub) :
    ∀ l : List StrVal, fillStrs cfg var l = if l = [] then .ok [] else .error .ub
  | [] => rfl
  | s :: l => by simp [fillStrs, fillStr, h]

theorem fillCaps_error {cfg : Config} {var : Nat} (h : ∀ s, tryGetIdForString cfg var s = .error .ub) :
    ∀ l : List FreqCap, fillCaps cfg var l = if l = [] then .ok [] else .error .ub
  | [] => rfl
  | s :: l => by simp [fillCaps, fillStr, h]

theorem fillStrs_ok_obj {cfg : Config} {var : Nat} {f : Str → Nat} (h : ∀ s, tryGetIdForString cfg var s = .ok (f s)) :
    ∀ l : List StrVal, fillStrs cfg var l = .ok (l.map fun s => ⟨s.string, var, f s.string⟩)
  | [] => rfl
  | s :: l => by simp only [fillStrs, fillStr, h, fillStrs_ok_obj h l, List.map_cons]

theorem fillCaps_ok {cfg : Config} {var : Nat} {f : Str → Nat} (h : ∀ s, tryGetIdForString cfg var s = .ok (f s)) :
    ∀ l : List FreqCap, fillCaps cfg var l = .ok (l.map fun c => { c with ns := ⟨c.ns.string, var, f c.ns.string⟩ })
  | [] => rfl
  | s :: l => by simp only [fillCaps, fillStr, h, fillCaps_ok h l, List.map_cons]

/-- strings with the same id are equal or both unknown -/
theorem same_id {cfg : Config} {var : Nat} {f : Str → Nat} (h : ∀ s, tryGetIdForString cfg var s = .ok (f s))
    (hlen : (strTable cfg var).length ≤ invalidId) {x y : Str} (hxy : f x = f y) :
    x = y ∨ (x ∉ strTable cfg var ∧ y ∉ strTable cfg var) := by
  have hx := tryGetIdForString_ok (h x)
  have hy := tryGetIdForString_ok (h y)
  rw [hxy] at hx
  rcases hx with hx | ⟨hx, hx'⟩ <;> rcases hy with hy | ⟨hy, hy'⟩
  · rw [hx] at hy; cases hy; exact .inl rfl
  · rw [hy, List.getElem?_eq_none hlen] at hx; cases hx
  · rw [hx, List.getElem?_eq_none hlen] at hy; cases hy
  · exact .inr ⟨hx', hy'⟩

theorem unknown_same {cfg : Config} {var : Nat} {f : Str → Nat} (h : ∀ s, tryGetIdForString cfg var s = .ok (f s))
    {x y : Str} (hx : x ∉ strTable cfg var) (hy : y ∉ strTable cfg var) : f x = f y := by
  have h1 : ∀ z, z ∉ strTable cfg var → f z = invalidId := by
    intro z hz
    rcases tryGetIdForString_ok (h z) with h1 | ⟨h1, _⟩
    · exact absurd (List.mem_of_getElem? h1) hz
    · exact h1
  rw [h1 x hx, h1 y hy]

theorem dedup_sort_sub {α β : Type} [LT β] [DecidableLT β] [DecidableEq β] [LinLT β] (key : α → β) (l : List α) {x : α}
    (h : x ∈ dedupBy key (sortBy key l)) : x ∈ l :=
  (sortBy_perm key l).mem_iff.1 ((dedupBy_sublist key _).mem h)

/-- one search leaves a value that covers the one it was given -/
theorem cov_fill {cfg : Config} {var : Nat} {ty : VType} {U : Str → Prop} (hlen : (strTable cfg var).length ≤ invalidId)
    (hU : ∀ s, s ∉ strTable cfg var → U s) {v x : Value} (h : fillValue cfg var ty v = .ok x) : Cov ty U v (sortValue x) := by
  cases v with
  | bool b =>
    simp only [fillValue] at h; split at h
    · cases h; exact .refl _
    · cases h
  | int i =>
    cases ty <;> simp only [fillValue] at h <;> cases h
    · exact .refl _
    · exact .enum _ _ rfl rfl
  | intEnum e =>
    cases ty <;> simp only [fillValue] at h <;> cases h
    exact .enums _ _ rfl
  | float f =>
    simp only [fillValue] at h; split at h
    · cases h; exact .refl _
    · cases h
  | string s =>
    cases ty <;> simp only [fillValue] at h <;> try cases h
    unfold fillStr at h
    split at h
    · cases h
    · cases h; exact .str _ _ rfl
  | intList l =>
    cases ty <;> cases l <;> simp only [fillValue] at h <;> cases h
    · exact .refl _
    · rename_i a l
      exact .ints _ _ fun z => by
        have := dedup_sort_keys (β := Int) id (a :: l) z
        simpa using this
    · exact .nilStrs rfl
    · exact .nilSegs rfl
    · exact .nilCaps rfl
  | strList l =>
    cases ty <;> simp only [fillValue] at h <;> try cases h
    rcases tryGetIdForString_uniform cfg var with hf | ⟨f, hf⟩
    · rw [fillStrs_error hf] at h
      split at h
      · rename_i hl; subst hl; cases h; exact .refl _
      · cases h
    · rw [fillStrs_ok_obj hf] at h
      cases h
      refine .strs _ _ ⟨fun x' hx' => ?_, fun x hx => ?_⟩
      · have := dedup_sort_sub _ _ hx'
        obtain ⟨x, hx, rfl⟩ := List.mem_map.1 this
        exact ⟨x, hx, rfl⟩
      · have h1 : f x.string ∈ (l.map fun s => (⟨s.string, var, f s.string⟩ : StrVal)).map StrVal.str :=
          List.mem_map.2 ⟨_, List.mem_map.2 ⟨x, hx, rfl⟩, rfl⟩
        rw [← dedup_sort_keys] at h1
        obtain ⟨x', hx', h2⟩ := List.mem_map.1 h1
        refine ⟨x', hx', ?_⟩
        obtain ⟨y, hy, rfl⟩ := List.mem_map.1 (dedup_sort_sub _ _ hx')
        rcases same_id hf hlen h2 with h3 | ⟨h3, h4⟩
        · exact .inl h3
        · exact .inr ⟨hU _ h4, hU _ h3⟩
  | segments l =>
    simp only [fillValue] at h; split at h
    · cases h; exact .refl _
    · cases h
  | freq l =>
    cases ty <;> simp only [fillValue] at h <;> try cases h
    rcases tryGetIdForString_uniform cfg var with hf | ⟨f, hf⟩
    · rw [fillCaps_error hf] at h
      split at h
      · rename_i hl; subst hl; cases h; exact .refl _
      · cases h
    · rw [fillCaps_ok hf] at h
      cases h
      refine .caps _ _ ?_
      clear hU hlen
      induction l with
      | nil => exact .nil
      | cons c l ih => exact .cons ⟨rfl, rfl⟩ ih

/-- a value and what searches left of it give the same ids -/
theorem cov_same {cfg : Config} {var : Nat} {ty : VType} {U : Str → Prop} {v0 v : Value} (h : Cov ty U v0 v)
    (hl : ∀ l, v0 = .strList l → ∀ x ∈ l, ∀ y ∈ l, x.string ≠ y.string → U x.string → U y.string →
      x.string ∉ strTable cfg var ∧ y.string ∉ strTable cfg var) :
    (fillValue cfg var ty v).map (fun x => (sortValue x).forget) = (fillValue cfg var ty v0).map (fun x => (sortValue x).forget) := by
  cases h with
  | refl => rfl
  | enum i e h1 h2 => subst h1 h2; rfl
  | enums e e' h1 => cases ty <;> simp only [fillValue, h1]
  | str s s' h1 =>
    cases ty <;> simp only [fillValue, fillStr, h1]
  | ints l l' h1 =>
    have hnil : l' = [] ↔ l = [] := by
      simp only [List.eq_nil_iff_forall_not_mem, h1]
    by_cases hn : l = []
    · rw [hnil.2 hn, hn]
    · cases l with
      | nil => exact absurd rfl hn
      | cons a l =>
        cases l' with
        | nil => exact absurd (hnil.1 rfl) hn
        | cons b l' =>
          cases ty <;> try rfl
          simp only [fillValue, Except.map, sortValue]
          have h2 := dedup_sort_ext (β := Int) id (l := b :: l') (l' := a :: l) (by simpa using h1)
          simp only [List.map_id_fun, id] at h2
          rw [h2]
  | nilStrs h1 => subst h1; rfl
  | nilSegs h1 => subst h1; rfl
  | nilCaps h1 => subst h1; rfl
  | strs l l' h1 =>
    cases ty <;> try rfl
    have hnil : l' = [] ↔ l = [] := by
      constructor
      · rintro rfl
        exact List.eq_nil_iff_forall_not_mem.2 fun x hx => by obtain ⟨y, hy, _⟩ := h1.2 x hx; simp at hy
      · rintro rfl
        exact List.eq_nil_iff_forall_not_mem.2 fun x hx => by obtain ⟨y, hy, _⟩ := h1.1 x hx; simp at hy
    simp only [fillValue]
    rcases tryGetIdForString_uniform cfg var with hf | ⟨f, hf⟩
    · rw [fillStrs_error hf, fillStrs_error hf]
      by_cases hn : l = []
      · rw [if_pos hn, if_pos (hnil.2 hn)]
      · rw [if_neg hn, if_neg (fun h => hn (hnil.1 h))]
    · rw [fillStrs_ok_obj hf, fillStrs_ok_obj hf]
      simp only [Except.map, sortValue, Value.forget]
      congr 2
      have hset : ∀ k, k ∈ (l'.map fun s => (⟨s.string, var, f s.string⟩ : StrVal)).map StrVal.str ↔
          k ∈ (l.map fun s => (⟨s.string, var, f s.string⟩ : StrVal)).map StrVal.str := by
        intro k
        simp only [List.map_map, List.mem_map, Function.comp_apply]
        constructor
        · rintro ⟨x', hx', rfl⟩
          obtain ⟨x, hx, h2⟩ := h1.1 x' hx'
          exact ⟨x, hx, by rw [h2]⟩
        · rintro ⟨x, hx, rfl⟩
          obtain ⟨x', hx', h2⟩ := h1.2 x hx
          refine ⟨x', hx', ?_⟩
          rcases h2 with h2 | ⟨h2, h3⟩
          · rw [h2]
          · by_cases hxx : x.string = x'.string
            · rw [hxx]
            · obtain ⟨y, hy, h4⟩ := h1.1 x' hx'
              obtain ⟨h5, h6⟩ := hl l rfl x hx y hy (by rw [h4]; exact hxx) h2 (by rw [h4]; exact h3)
              rw [h4] at h6
              exact unknown_same hf h6 h5
      have hkeys := dedup_sort_ext StrVal.str hset
      have hmap : ∀ (m : List StrVal), (dedupBy StrVal.str (sortBy StrVal.str (m.map fun s => (⟨s.string, var, f s.string⟩ : StrVal)))).map StrVal.forget =
          ((dedupBy StrVal.str (sortBy StrVal.str (m.map fun s => (⟨s.string, var, f s.string⟩ : StrVal)))).map StrVal.str).map
            fun k => (⟨[], var, k⟩ : StrVal) := by
        intro m
        rw [List.map_map]
        refine List.map_congr_left fun z hz => ?_
        obtain ⟨y, _, rfl⟩ := List.mem_map.1 (dedup_sort_sub _ _ hz)
        rfl
      rw [hmap, hmap, hkeys]
  | caps l l' h1 =>
    have hnil : l' = [] ↔ l = [] := by cases h1 <;> simp
    cases ty <;> try rfl
    simp only [fillValue]
    rcases tryGetIdForString_uniform cfg var with hf | ⟨f, hf⟩
    · rw [fillCaps_error hf, fillCaps_error hf]
      by_cases hn : l = []
      · rw [if_pos hn, if_pos (hnil.2 hn)]
      · rw [if_neg hn, if_neg (fun h => hn (hnil.1 h))]
    · rw [fillCaps_ok hf, fillCaps_ok hf]
      simp only [Except.map, sortValue, Value.forget]
      congr 2
      clear hnil hl
      induction h1 with
      | nil => rfl
      | cons h t ih =>
        rw [List.map_cons, List.map_cons, ih]
        congr 1
        obtain ⟨h2, h3⟩ := h
        rw [← h3, h2]

/-! ### objects -/

/-- the slots of an object and those of what searches left of it, `c` being the configuration at the start -/
def SlotCov (c : Config) : Option EventVar → Option EventVar → Prop
  | none, none => True
  | some a, some b => b.attr = a.attr ∧ ∀ d, c.domains[tryGetIdForAttr c a.attr]? = some d →
      Cov d.bound.ty (fun s => s ∉ strTable c (tryGetIdForAttr c a.attr)) a.value b.value
  | _, _ => False

theorem slotCov_refl (c : Config) : ∀ ev : EventObj, List.Forall₂ (SlotCov c) ev ev
  | [] => .nil
  | none :: ev => .cons trivial (slotCov_refl c ev)
  | some _ :: ev => .cons ⟨rfl, fun _ _ => .refl _⟩ (slotCov_refl c ev)

theorem domain_ext {a b : Config} (h : CfgExt a b) {v : Nat} {d : Domain} (hd : b.domains[v]? = some d) :
    ∃ d0, a.domains[v]? = some d0 ∧ d.bound.ty = d0.bound.ty := by
  have h1 := congrArg (fun l => l[v]?) h.doms
  simp only [List.getElem?_map, hd, Option.map_some] at h1
  cases h2 : a.domains[v]? with
  | none => rw [h2] at h1; cases h1
  | some d0 =>
    rw [h2] at h1
    simp only [Option.map_some, Option.some.injEq, Prod.mk.injEq] at h1
    exact ⟨d0, rfl, h1.2.1⟩

theorem getDomain_get {c : Config} {v : Nat} {d : Domain} (h : getDomain c v = .ok d) : c.domains[v]? = some d := by
  unfold getDomain at h
  split at h
  · cases h
  · rename_i h1; cases h; exact h1

/-- a search keeps the slots covered -/
theorem slots_left {c0 c : Config} (hx : CfgExt c0 c) (hlen : ∀ v, (strTable c v).length ≤ invalidId) :
    ∀ {ev0 ev : EventObj} {l : List (Option (Nat × EventVar))}, List.Forall₂ (SlotCov c0) ev0 ev → fillObj c ev = .ok l →
      List.Forall₂ (SlotCov c0) ev0 (leftObj (sortObj l))
  | _, _, _, .nil, h => by cases h; exact .nil
  | a :: _, b :: bs, l, .cons hab ht, h => by
    cases b with
    | none =>
      cases a with
      | some a => exact hab.elim
      | none =>
        simp only [fillObj] at h
        split at h
        · cases h
        · rename_i h1
          cases h
          exact .cons trivial (slots_left hx hlen ht h1)
    | some b =>
      cases a with
      | none => exact hab.elim
      | some a =>
        obtain ⟨hn, hcov⟩ := hab
        simp only [fillObj] at h
        split at h
        · cases h
        split at h
        · cases h
        rename_i d hd
        split at h
        · cases h
        rename_i x hfv
        split at h
        · cases h
        rename_i rest h1
        cases h
        refine .cons ⟨hn, fun d0 hd0 => ?_⟩ (slots_left hx hlen ht h1)
        have hv : tryGetIdForAttr c b.attr = tryGetIdForAttr c0 a.attr := by rw [tryGetId_ext hx, hn]
        rw [hv] at hd hfv
        obtain ⟨d1, hd1, hty⟩ := domain_ext hx (getDomain_get hd)
        rw [hd0] at hd1; cases hd1
        rw [hty] at hfv
        refine cov_trans (hcov d0 hd0) (cov_fill (hlen _) (fun s hs hm => hs ((hx.strs _).mem hm)) hfv)

/-- the environment of an object, texts in string lists forgotten -/
def slotEnv (l : List (Option (Nat × EventVar))) : List (Option (Nat × Value)) :=
  (sortObj l).map (Option.map fun p => (p.1, p.2.value.forget))

theorem objEnv_forget (c : Config) (l : List (Option (Nat × EventVar))) :
    forgetEnv (objEnv c (sortObj l)) =
      makeEnvironment c.domains.length ((slotEnv l).filterMap id) (List.replicate c.domains.length none) := by
  unfold objEnv slotEnv
  rw [makeEnvironment_forget]
  congr 1
  · rw [List.map_map]
    induction sortObj l with
    | nil => rfl
    | cons o l ih => cases o <;> simp_all
  · simp [forgetEnv]

/-- what searches left of an object is filled like the object itself -/
theorem slots_same {c0 c : Config} (hx : CfgExt c0 c) : ∀ {ev0 ev : EventObj}, List.Forall₂ (SlotCov c0) ev0 ev →
    (∀ v, some v ∈ ev0 → tryGetIdForAttr c0 v.attr ≠ invalidId → ∀ l, v.value = .strList l → ∀ x ∈ l, ∀ y ∈ l, x.string ≠ y.string →
      x.string ∉ strTable c0 (tryGetIdForAttr c0 v.attr) → y.string ∉ strTable c0 (tryGetIdForAttr c0 v.attr) →
      x.string ∉ strTable c (tryGetIdForAttr c0 v.attr) ∧ y.string ∉ strTable c (tryGetIdForAttr c0 v.attr)) →
    (fillObj c ev).map slotEnv = (fillObj c ev0).map slotEnv
  | _, _, .nil, _ => rfl
  | a :: as, b :: bs, .cons hab ht, hl => by
    have ih := slots_same hx ht (fun v hv => hl v (List.mem_cons_of_mem _ hv))
    cases b with
    | none =>
      cases a with
      | some a => exact hab.elim
      | none =>
        simp only [fillObj]
        cases h1 : fillObj c bs <;> cases h2 : fillObj c as <;> rw [h1, h2] at ih <;> simp only [Except.map] at ih ⊢
        · exact ih
        · cases ih
        · cases ih
        · injection ih with ih
          show Except.ok (none :: slotEnv _) = Except.ok (none :: slotEnv _)
          rw [ih]
    | some b =>
      cases a with
      | none => exact hab.elim
      | some a =>
        obtain ⟨hn, hcov⟩ := hab
        simp only [fillObj, hn]
        by_cases hv : tryGetIdForAttr c a.attr = invalidId
        · rw [if_pos hv, if_pos hv]
        · rw [if_neg hv, if_neg hv]
          cases hd : getDomain c (tryGetIdForAttr c a.attr) with
          | error e => rfl
          | ok d =>
            simp only
            obtain ⟨d0, hd0, hty⟩ := domain_ext hx (getDomain_get hd)
            have hv0 : tryGetIdForAttr c a.attr = tryGetIdForAttr c0 a.attr := tryGetId_ext hx _
            rw [hv0] at hd0 ⊢
            have hsame := cov_same (cfg := c) (var := tryGetIdForAttr c0 a.attr) (hcov d0 hd0) (hl a (by simp) (hv0 ▸ hv))
            rw [hty]
            cases h1 : fillValue c (tryGetIdForAttr c0 a.attr) d0.bound.ty b.value <;>
              cases h2 : fillValue c (tryGetIdForAttr c0 a.attr) d0.bound.ty a.value <;> rw [h1, h2] at hsame <;>
              simp only [Except.map] at hsame ⊢
            · cases hsame; rfl
            · cases hsame
            · cases hsame
            · injection hsame with hsame
              cases h3 : fillObj c bs <;> cases h4 : fillObj c as <;> rw [h3, h4] at ih <;> simp only [Except.map] at ih ⊢
              · exact ih
              · cases ih
              · cases ih
              · injection ih with ih
                show Except.ok (some (_, Value.forget (sortValue _)) :: slotEnv _) = Except.ok (some (_, Value.forget (sortValue _)) :: slotEnv _)
                rw [ih, hsame]

/-- an object is searched like the list of its variables -/
theorem fillObj_event (c : Config) : ∀ ev : EventObj,
    (fillObj c ev).map (fun l => (l.filterMap id).map fun p => (p.1, p.2.value)) = fillEvent c (ev.filterMap id)
  | [] => rfl
  | none :: ev => by
    have ih := fillObj_event c ev
    simp only [fillObj]
    rw [show (none :: ev : EventObj).filterMap id = ev.filterMap id from rfl, ← ih]
    cases fillObj c ev <;> rfl
  | some v :: ev => by
    have ih := fillObj_event c ev
    simp only [fillObj]
    rw [show (some v :: ev : EventObj).filterMap id = v :: ev.filterMap id from rfl]
    simp only [fillEvent]
    by_cases hv : tryGetIdForAttr c v.attr = invalidId
    · rw [if_pos hv, if_pos hv]; rfl
    · rw [if_neg hv, if_neg hv]
      cases getDomain c (tryGetIdForAttr c v.attr) with
      | error e => rfl
      | ok d =>
        simp only
        cases fillValue c (tryGetIdForAttr c v.attr) d.bound.ty v.value with
        | error e => rfl
        | ok x =>
          simp only
          rw [← ih]
          cases fillObj c ev <;> rfl

theorem objEnv_event (c : Config) (ev : EventObj) :
    (fillObj c ev).map (fun l => objEnv c (sortObj l)) = eventEnv c (ev.filterMap id) := by
  unfold eventEnv
  rw [← fillObj_event]
  cases fillObj c ev with
  | error e => rfl
  | ok l =>
    simp only [Except.map, objEnv]
    congr 2
    rw [List.map_map]
    unfold sortObj
    induction l with
    | nil => rfl
    | cons o l ih => cases o <;> simp_all

theorem searchObj_event (geo : GeoTest) (t : Tree) (ev : EventObj) (rep : Report) :
    (t.searchObj geo ev rep).map (·.1) = t.search geo (ev.filterMap id) rep := by
  unfold Tree.searchObj Tree.search
  rw [← objEnv_event]
  cases fillObj t.cfg ev with
  | error e => rfl
  | ok l =>
    show (Except.map _ (if _ then _ else _)) = (if _ then _ else _)
    cases validateVariables t.cfg.domains (objEnv t.cfg (sortObj l))
    · rfl
    · cases searchWithPreds geo t.cfg (objEnv t.cfg (sortObj l)) t.root rep <;> rfl

theorem existsObj_event (geo : GeoTest) (t : Tree) (ev : EventObj) :
    (t.existsObj geo ev).map (·.1) = t.exists geo (ev.filterMap id) := by
  unfold Tree.existsObj Tree.exists
  rw [← objEnv_event]
  cases fillObj t.cfg ev with
  | error e => rfl
  | ok l =>
    simp only [Except.map]
    cases existsWithPreds geo t.cfg (objEnv t.cfg (sortObj l)) t.root <;> rfl

/-- equal slots, equal results -/
theorem searchObj_slots (geo : GeoTest) (t : Tree) (ev ev' : EventObj) (h : (fillObj t.cfg ev').map slotEnv = (fillObj t.cfg ev).map slotEnv)
    (rep : Report) : (t.searchObj geo ev' rep).map (·.1) = (t.searchObj geo ev rep).map (·.1) ∧
      (t.existsObj geo ev').map (·.1) = (t.existsObj geo ev).map (·.1) := by
  unfold Tree.searchObj Tree.existsObj
  cases h1 : fillObj t.cfg ev' <;> cases h2 : fillObj t.cfg ev <;> rw [h1, h2] at h <;> simp only [Except.map] at h ⊢
  · cases h; exact ⟨rfl, rfl⟩
  · cases h
  · cases h
  · rename_i l' l
    injection h with h
    have he : forgetEnv (objEnv t.cfg (sortObj l')) = forgetEnv (objEnv t.cfg (sortObj l)) := by
      rw [objEnv_forget, objEnv_forget, h]
    have hv : validateVariables t.cfg.domains (objEnv t.cfg (sortObj l')) = validateVariables t.cfg.domains (objEnv t.cfg (sortObj l)) := by
      rw [← validate_forget, he, validate_forget]
    have hs : searchWithPreds geo t.cfg (objEnv t.cfg (sortObj l')) t.root rep =
        searchWithPreds geo t.cfg (objEnv t.cfg (sortObj l)) t.root rep := by
      rw [← searchWithPreds_forget, he, searchWithPreds_forget]
    have hx : existsWithPreds geo t.cfg (objEnv t.cfg (sortObj l')) t.root = existsWithPreds geo t.cfg (objEnv t.cfg (sortObj l)) t.root := by
      rw [← existsWithPreds_forget, he, existsWithPreds_forget]
    rw [hv, hs, hx]
    constructor
    · cases validateVariables t.cfg.domains (objEnv t.cfg (sortObj l))
      · rfl
      · cases searchWithPreds geo t.cfg (objEnv t.cfg (sortObj l)) t.root rep <;> rfl
    · cases existsWithPreds geo t.cfg (objEnv t.cfg (sortObj l)) t.root <;> rfl

/-- the slots stay covered over a series of calls -/
theorem objRun_cov {geo : GeoTest} {R : Rounding} {c0 : Config} {ev0 : EventObj} : ∀ {os : List ObjOp} {w : World} {ev : EventObj} {w' : World}
    {ev' : EventObj}, CfgExt c0 w.tree.cfg → List.Forall₂ (SlotCov c0) ev0 ev → objRun geo R w ev os = .ok (w', ev') →
    (∀ v, (strTable w'.tree.cfg v).length ≤ invalidId) → CfgExt c0 w'.tree.cfg ∧ CfgExt w.tree.cfg w'.tree.cfg ∧
      List.Forall₂ (SlotCov c0) ev0 ev'
  | [], _, _, _, _, hx, hc, h, _ => by cases h; exact ⟨hx, CfgExt.refl _, hc⟩
  | o :: os, w, ev, w', ev', hx, hc, h, hlen => by
    simp only [objRun] at h
    split at h
    · cases h
    rename_i w1 ev1 h1
    have hstep : CfgExt w.tree.cfg w1.tree.cfg := by
      cases o with
      | op o =>
        simp only [objStep] at h1
        split at h1
        · cases h1
        · rename_i h2; cases h1; exact step_ext h2
      | search rep =>
        simp only [objStep] at h1
        split at h1
        · cases h1
        · cases h1; exact CfgExt.refl _
      | «exists» =>
        simp only [objStep] at h1
        split at h1
        · cases h1
        · cases h1; exact CfgExt.refl _
    -- the configuration at the end is later than the one now, whatever the slots
    have hend : ∀ {os : List ObjOp} {w : World} {ev : EventObj} {w' : World} {ev' : EventObj},
        objRun geo R w ev os = .ok (w', ev') → CfgExt w.tree.cfg w'.tree.cfg := by
      intro os
      induction os with
      | nil => intro w ev w' ev' h; cases h; exact CfgExt.refl _
      | cons o os ih =>
        intro w ev w' ev' h
        simp only [objRun] at h
        split at h
        · cases h
        rename_i w1 ev1 h1
        refine CfgExt.trans ?_ (ih h)
        cases o with
        | op o =>
          simp only [objStep] at h1
          split at h1
          · cases h1
          · rename_i h2; cases h1; exact step_ext h2
        | search rep =>
          simp only [objStep] at h1
          split at h1
          · cases h1
          · cases h1; exact CfgExt.refl _
        | «exists» =>
          simp only [objStep] at h1
          split at h1
          · cases h1
          · cases h1; exact CfgExt.refl _
    have hlen1 : ∀ v, (strTable w.tree.cfg v).length ≤ invalidId := fun v =>
      Nat.le_trans (((hstep.trans (hend h)).strs v).length_le) (hlen v)
    have hc1 : List.Forall₂ (SlotCov c0) ev0 ev1 := by
      cases o with
      | op o =>
        simp only [objStep] at h1
        split at h1
        · cases h1
        · cases h1; exact hc
      | search rep =>
        simp only [objStep, Tree.searchObj] at h1
        split at h1
        · cases h1
        rename_i h2
        cases h1
        split at h2
        · cases h2
        rename_i h3
        split at h2
        · split at h2
          · cases h2
          · cases h2; exact slots_left hx hlen1 hc h3
        · cases h2; exact slots_left hx hlen1 hc h3
      | «exists» =>
        simp only [objStep, Tree.existsObj] at h1
        split at h1
        · cases h1
        rename_i h2
        cases h1
        split at h2
        · cases h2
        rename_i h3
        split at h2
        · cases h2
        · cases h2; exact slots_left hx hlen1 hc h3
    obtain ⟨a, b, d⟩ := objRun_cov (hx.trans hstep) hc1 h hlen
    exact ⟨a, hstep.trans b, d⟩

end BeTree
