import Verif.Lemmas.Sort
import Verif.Props.Event
/-
C33: order and repetition in event lists are irrelevant.
-/
namespace BeTree
open Spec

/-- forget the texts of a string list (evaluation uses only the ids) -/
def Value.norm : Value → Value
  | .strList l => .strList (l.map fun s => { s with string := [] })
  | v => v

def Env.norm (env : Env) : Env := env.map (Option.map Value.norm)

theorem getVariable_norm (env : Env) (v : Nat) :
    getVariable (Env.norm env) v = (getVariable env v).map (Option.map Value.norm) := by
  unfold getVariable Env.norm
  rw [List.getElem?_map]
  cases env[v]? <;> rfl

theorem getBoolVar_norm (env : Env) (v : Nat) : getBoolVar (Env.norm env) v = getBoolVar env v := by
  simp only [getBoolVar, getVariable_norm]
  rcases getVariable env v with _ | _ | val <;> try rfl
  cases val <;> rfl
theorem getIntVar_norm (env : Env) (v : Nat) : getIntVar (Env.norm env) v = getIntVar env v := by
  simp only [getIntVar, getVariable_norm]
  rcases getVariable env v with _ | _ | val <;> try rfl
  cases val <;> rfl
theorem getFloatVar_norm (env : Env) (v : Nat) : getFloatVar (Env.norm env) v = getFloatVar env v := by
  simp only [getFloatVar, getVariable_norm]
  rcases getVariable env v with _ | _ | val <;> try rfl
  cases val <;> rfl
theorem getStringVar_norm (env : Env) (v : Nat) : getStringVar (Env.norm env) v = getStringVar env v := by
  simp only [getStringVar, getVariable_norm]
  rcases getVariable env v with _ | _ | val <;> try rfl
  cases val <;> rfl
theorem getIntListVar_norm (env : Env) (v : Nat) : getIntListVar (Env.norm env) v = getIntListVar env v := by
  simp only [getIntListVar, getVariable_norm]
  rcases getVariable env v with _ | _ | val <;> try rfl
  cases val <;> rfl
theorem getSegmentsVar_norm (env : Env) (v : Nat) : getSegmentsVar (Env.norm env) v = getSegmentsVar env v := by
  simp only [getSegmentsVar, getVariable_norm]
  rcases getVariable env v with _ | _ | val <;> try rfl
  cases val <;> rfl
theorem getFreqVar_norm (env : Env) (v : Nat) : getFreqVar (Env.norm env) v = getFreqVar env v := by
  simp only [getFreqVar, getVariable_norm]
  rcases getVariable env v with _ | _ | val <;> try rfl
  cases val <;> rfl

theorem matchPred_norm (geo : GeoTest) (env : Env) (p : Pred) : matchPred geo (Env.norm env) p = matchPred geo env p := by
  cases p with
  | compare op v c =>
    simp only [matchPred, matchCompare, getVariable_norm]
    rcases getVariable env v.var with _ | _ | val <;> try rfl
    cases val <;> cases c <;> rfl
  | equality op v c =>
    simp only [matchPred, matchEquality, getVariable_norm]
    rcases getVariable env v.var with _ | _ | val <;> try rfl
    cases val <;> cases c <;> rfl
  | boolVar v => simp only [matchPred, getBoolVar_norm]
  | boolLit b => rfl
  | set op l r =>
    cases l <;> cases r <;> try rfl
    · simp only [matchPred, matchSet, getIntListVar_norm]
    · rename_i x v
      simp only [matchPred, matchSet, getStrListVar, getVariable_norm]
      rcases getVariable env v.var with _ | _ | val <;> try rfl
      cases val <;> try rfl
      simp only [Except.map, Option.map, Value.norm, List.map_map]; rfl
    · simp only [matchPred, matchSet, getIntVar_norm]
    · simp only [matchPred, matchSet, getStringVar_norm]
  | list op v c =>
    simp only [matchPred, matchList, getVariable_norm]
    rcases getVariable env v.var with _ | _ | val <;> try rfl
    cases val <;> cases c <;> try rfl
    simp only [Except.map, Option.map, Value.norm, List.map_map]; rfl
  | freq f => simp only [matchPred, matchFreq, getFreqVar_norm, getIntVar_norm]
  | segment s => simp only [matchPred, matchSegment, getSegmentsVar_norm, getIntVar_norm]
  | geo g => simp only [matchPred, matchGeo, getFloatVar_norm]
  | str s => simp only [matchPred, matchStr, getStringVar_norm]
  | isNull op v =>
    simp only [matchPred, matchIsNull, getVariable_norm]
    rcases getVariable env v.var with _ | _ | val <;> try rfl
    cases op <;> cases val <;> try rfl
    rename_i l
    cases l <;> rfl

theorem matchNode_norm (geo : GeoTest) (memoId : Nat → Option Nat) (env : Env) (e : AExpr) (s : MState) :
    matchNode geo memoId (Env.norm env) e s = matchNode geo memoId env e s := by
  have he : ∀ s, matchNode geo memoId (Env.norm env) e s = matchNode geo memoId env e s := by
    induction e with
    | leaf g p => intro s; simp only [matchNode, matchPred_norm]
    | not g e ih => intro s; simp only [matchNode, ih]
    | and g l r ihl ihr => intro s; simp only [matchNode, ihl, ihr]
    | or g l r ihl ihr => intro s; simp only [matchNode, ihl, ihr]
  exact he s

theorem isEventEnclosed_norm (env : Env) (v : Nat) (b : Bound) (ol or : Bool) :
    isEventEnclosed (Env.norm env) v b ol or = isEventEnclosed env v b ol or := by
  simp only [isEventEnclosed, envGet, getVariable_norm]
  rcases getVariable env v with _ | _ | val <;> try rfl
  cases val <;> try rfl
  rename_i l
  cases l with
  | nil => rfl
  | cons x xs =>
    simp only [Except.map, Option.map, Value.norm, List.map_cons, Value.vtype]
    have : ((x :: xs).map fun s : StrVal => ({ s with string := [] } : StrVal)).getLast (by simp) =
        { (x :: xs).getLast (by simp) with string := [] } := by rw [List.getLast_map]
    simp only [List.map_cons] at this
    simp only [this]
    rfl

mutual
theorem CNode.collect_norm (cfg : Config) (env : Env) : ∀ c : CNode, c.collect cfg (Env.norm env) = c.collect cfg env
  | .mk subs max pns => by simp only [CNode.collect, PNodes.collect_norm cfg env pns]
theorem PNodes.collect_norm (cfg : Config) (env : Env) : ∀ c : PNodes, c.collect cfg (Env.norm env) = c.collect cfg env
  | .nil => rfl
  | .cons v sc cd rest => by
    simp only [PNodes.collect, PNodes.collect_norm cfg env rest, CDir.collect_norm cfg env cd, envGet, getVariable_norm]
    cases getDomain cfg v with
    | error e => rfl
    | ok d => rcases getVariable env v with _ | _ | val <;> rfl
theorem CDir.collect_norm (cfg : Config) (env : Env) :
    ∀ (c : CDir) (ol or : Bool), c.collect cfg (Env.norm env) ol or = c.collect cfg env ol or
  | .leaf _ _ c, ol, or => by simp only [CDir.collect, CNode.collect_norm cfg env c]
  | .node _ _ c l r, ol, or => by
    simp only [CDir.collect, CNode.collect_norm cfg env c, CDir.collect_norm cfg env l, CDir.collect_norm cfg env r,
      isEventEnclosed_norm]
end

theorem markUndefined_norm (env : Env) (i : Nat) (b : Bits) : markUndefined (Env.norm env) i b = markUndefined env i b := by
  induction env generalizing i b with
  | nil => rfl
  | cons v vs ih =>
    cases v with
    | none =>
      show markUndefined (none :: Env.norm vs) i b = _
      simp only [markUndefined, ih]
    | some x =>
      show markUndefined (some x.norm :: Env.norm vs) i b = _
      simp only [markUndefined, ih]

theorem makeUndefined_norm (env : Env) : makeUndefined (Env.norm env) = makeUndefined env := by
  unfold makeUndefined
  rw [markUndefined_norm]; simp [Env.norm]

theorem searchLoop_norm (geo : GeoTest) (memoId : Nat → Option Nat) (env : Env) (undef : Bits) (subs : List Sub)
    (st : LoopState) : searchLoop geo memoId (Env.norm env) undef subs st = searchLoop geo memoId env undef subs st := by
  induction subs generalizing st with
  | nil => rfl
  | cons s ss ih => simp only [searchLoop, matchSub, matchNode_norm, ih]

theorem existsLoop_norm (geo : GeoTest) (memoId : Nat → Option Nat) (env : Env) (undef : Bits) (subs : List Sub)
    (st : LoopState) : existsLoop geo memoId (Env.norm env) undef subs st = existsLoop geo memoId env undef subs st := by
  induction subs generalizing st with
  | nil => rfl
  | cons s ss ih => simp only [existsLoop, matchSub, matchNode_norm, ih]

theorem validate_norm (ds : List Domain) (env : Env) : validateVariables ds (Env.norm env) = validateVariables ds env := by
  induction ds generalizing env with
  | nil => cases env <;> rfl
  | cons d ds ih =>
    cases env with
    | nil => rfl
    | cons v vs =>
      show validateVariables (d :: ds) (v.map Value.norm :: Env.norm vs) = _
      simp only [validateVariables, ih]
      cases v <;> rfl

/-- searches only depend on the environment up to the texts in string lists -/
theorem search_norm {geo : GeoTest} {t : Tree} {ev ev' : List EventVar} {rep : Report}
    (h : (eventEnv t.cfg ev).map Env.norm = (eventEnv t.cfg ev').map Env.norm) :
    t.search geo ev rep = t.search geo ev' rep ∧ t.exists geo ev = t.exists geo ev' := by
  unfold Tree.search Tree.exists
  cases h1 : eventEnv t.cfg ev with
  | error x =>
    cases h2 : eventEnv t.cfg ev' with
    | error y => rw [h1, h2] at h; cases h; exact ⟨rfl, rfl⟩
    | ok env' => rw [h1, h2] at h; cases h
  | ok env =>
    cases h2 : eventEnv t.cfg ev' with
    | error y => rw [h1, h2] at h; cases h
    | ok env' =>
      rw [h1, h2] at h
      simp only [Except.map, Except.ok.injEq] at h
      have hs : ∀ e : Env, searchWithPreds geo t.cfg e t.root rep = searchWithPreds geo t.cfg (Env.norm e) t.root rep := by
        intro e; simp only [searchWithPreds, makeUndefined_norm, CNode.collect_norm, searchLoop_norm]
      have hx : ∀ e : Env, existsWithPreds geo t.cfg e t.root = existsWithPreds geo t.cfg (Env.norm e) t.root := by
        intro e; simp only [existsWithPreds, makeUndefined_norm, CNode.collect_norm, existsLoop_norm]
      simp only
      rw [hs env, hs env', hx env, hx env', h, ← validate_norm t.cfg.domains env, ← validate_norm t.cfg.domains env', h]
      exact ⟨rfl, rfl⟩

/-! ### C33 -/

/-- Two values that differ only in the order or multiplicity of list elements (for string lists, of texts). -/
inductive SameValue : Value → Value → Prop
  | refl (v : Value) : SameValue v v
  | ints (l l' : List Int) (h : ∀ x, x ∈ l ↔ x ∈ l') : SameValue (.intList l) (.intList l')
  | strs (l l' : List StrVal) (h : ∀ x, x ∈ l.map StrVal.string ↔ x ∈ l'.map StrVal.string) :
      SameValue (.strList l) (.strList l')

/-- Two events that set the same names, in the same order, to values that are the same up to order and multiplicity. -/
def SameEvent : List EventVar → List EventVar → Prop
  | [], [] => True
  | v :: vs, v' :: vs' => v.attr = v'.attr ∧ SameValue v.value v'.value ∧ SameEvent vs vs'
  | _, _ => False

theorem map_eq_map {ε α β : Type} {f : α → β} {a b : Except ε α} (h : a.map f = b.map f) :
    (∃ x, a = .error x ∧ b = .error x) ∨ ∃ u v, a = .ok u ∧ b = .ok v ∧ f u = f v := by
  cases a with
  | error x =>
    cases b with
    | error y =>
      simp only [Except.map, Except.error.injEq] at h
      exact Or.inl ⟨x, rfl, by rw [h]⟩
    | ok v => simp [Except.map] at h
  | ok u =>
    cases b with
    | error y => simp [Except.map] at h
    | ok v =>
      simp only [Except.map, Except.ok.injEq] at h
      exact Or.inr ⟨u, v, rfl, rfl, h⟩

theorem fillStrs_ok {cfg : Config} {var : Nat} {l l' : List StrVal} (h : fillStrs cfg var l = .ok l') :
    (∀ s ∈ l, ∃ i, tryGetIdForString cfg var s.string = .ok i) ∧
    ∀ i, i ∈ l'.map StrVal.str ↔ ∃ s ∈ l, tryGetIdForString cfg var s.string = .ok i := by
  induction l generalizing l' with
  | nil => cases h; simp
  | cons s ss ih =>
    rw [fillStrs] at h
    split at h
    · cases h
    · rename_i s' hs
      split at h
      · cases h
      · rename_i ss' hss
        cases h
        obtain ⟨h1, h2⟩ := ih hss
        unfold fillStr at hs
        split at hs
        · cases hs
        · rename_i id hid
          cases hs
          refine ⟨?_, ?_⟩
          · intro s0 hs0
            rcases List.mem_cons.1 hs0 with rfl | hs0
            · exact ⟨_, hid⟩
            · exact h1 _ hs0
          · intro i
            simp only [List.map_cons, List.mem_cons, h2]
            constructor
            · rintro (rfl | ⟨s0, h3, h4⟩)
              · exact ⟨s, Or.inl rfl, hid⟩
              · exact ⟨s0, Or.inr h3, h4⟩
            · rintro ⟨s0, rfl | h3, h4⟩
              · rw [hid] at h4; cases h4; exact Or.inl rfl
              · exact Or.inr ⟨s0, h3, h4⟩

theorem fillStrs_var {cfg : Config} {var : Nat} {l l' : List StrVal} (h : fillStrs cfg var l = .ok l') :
    ∀ s ∈ l', s.var = var := by
  induction l generalizing l' with
  | nil => cases h; simp
  | cons s ss ih =>
    rw [fillStrs] at h
    split at h
    · cases h
    · rename_i s' hs
      split at h
      · cases h
      · rename_i ss' hss
        cases h
        unfold fillStr at hs
        split at hs
        · cases hs
        · cases hs
          intro s0 hs0
          rcases List.mem_cons.1 hs0 with rfl | hs0
          · rfl
          · exact ih hss _ hs0

theorem fillStrs_total {cfg : Config} {var : Nat} {l : List StrVal}
    (h : ∀ s ∈ l, ∃ i, tryGetIdForString cfg var s.string = .ok i) : ∃ l', fillStrs cfg var l = .ok l' := by
  induction l with
  | nil => exact ⟨[], rfl⟩
  | cons s ss ih =>
    obtain ⟨ss', h1⟩ := ih (fun s hs => h s (List.mem_cons_of_mem _ hs))
    obtain ⟨i, hi⟩ := h s (by simp)
    refine ⟨{ s with var := var, str := i } :: ss', ?_⟩
    simp only [fillStrs, fillStr, hi, h1]

theorem fillStrs_fault {cfg : Config} {var : Nat} {l : List StrVal} {x : Fault} (h : fillStrs cfg var l = .error x) :
    x = .ub ∧ ∃ s ∈ l, tryGetIdForString cfg var s.string = .error .ub := by
  induction l with
  | nil => cases h
  | cons s ss ih =>
    rw [fillStrs] at h
    split at h
    · rename_i e hs
      cases h
      unfold fillStr at hs
      split at hs
      · rename_i e' he
        cases hs
        have : x = .ub := by
          unfold tryGetIdForString at he
          split at he
          · cases he
          · split at he
            · rename_i he2
              unfold strMapGet at he2
              split at he2
              · cases he2; cases he; rfl
              · cases he2
            · cases he
            · cases he
        subst this
        exact ⟨rfl, s, by simp, he⟩
      · cases hs
    · split at h
      · rename_i e hs
        cases h
        obtain ⟨h1, s0, h2, h3⟩ := ih hs
        exact ⟨h1, s0, List.mem_cons_of_mem _ h2, h3⟩
      · cases h

theorem norm_strs_eq {var : Nat} {l l' : List StrVal} (h : l.map StrVal.str = l'.map StrVal.str)
    (hv : ∀ s ∈ l, s.var = var) (hv' : ∀ s ∈ l', s.var = var) :
    (Value.strList l).norm = (Value.strList l').norm := by
  have key : ∀ m : List StrVal, (∀ s ∈ m, s.var = var) →
      (m.map fun s : StrVal => ({ s with string := [] } : StrVal)) = (m.map StrVal.str).map fun i => ⟨[], var, i⟩ := by
    intro m hm
    rw [List.map_map]
    apply List.map_congr_left
    intro s hs
    simp [← hm s hs]
  simp only [Value.norm, key l hv, key l' hv', h]

theorem fillValue_same {cfg : Config} {var : Nat} {ty : VType} {a b : Value} (h : SameValue a b) :
    (fillValue cfg var ty a).map (fun v => (sortValue v).norm) = (fillValue cfg var ty b).map (fun v => (sortValue v).norm) := by
  cases h with
  | refl => rfl
  | ints l l' h =>
    have hs : dedupBy id (sortBy id l) = dedupBy id (sortBy id l') := by
      have := dedup_sort_ext (id : Int → Int) (l := l) (l' := l') (by simpa using h)
      simpa using this
    have he : l = [] ↔ l' = [] := by
      constructor
      · rintro rfl
        cases l' with
        | nil => rfl
        | cons x xs => exact absurd ((h x).2 (by simp)) (by simp)
      · rintro rfl
        cases l with
        | nil => rfl
        | cons x xs => exact absurd ((h x).1 (by simp)) (by simp)
    cases ty with
    | intList => simp only [fillValue, Except.map, sortValue, hs]
    | strList | segments | freq =>
      by_cases h0 : l = []
      · rw [h0, he.1 h0]
      · have h1 : l' ≠ [] := fun hc => h0 (he.2 hc)
        cases l with
        | nil => exact absurd rfl h0
        | cons x xs =>
          cases l' with
          | nil => exact absurd rfl h1
          | cons y ys => rfl
    | _ => rfl
  | strs l l' h =>
    cases ty with
    | strList =>
      simp only [fillValue]
      cases h1 : fillStrs cfg var l with
      | error x =>
        obtain ⟨rfl, s, hs, hse⟩ := fillStrs_fault h1
        cases h2 : fillStrs cfg var l' with
        | error y => obtain ⟨rfl, _⟩ := fillStrs_fault h2; rfl
        | ok m' =>
          obtain ⟨s', hs', hss⟩ := List.mem_map.1 ((h s.string).1 (List.mem_map_of_mem hs))
          obtain ⟨i, hi⟩ := (fillStrs_ok h2).1 s' hs'
          rw [hss, hse] at hi; cases hi
      | ok m =>
        have hall : ∀ s ∈ l', ∃ i, tryGetIdForString cfg var s.string = .ok i := by
          intro s hs
          obtain ⟨s', hs', hss⟩ := List.mem_map.1 ((h s.string).2 (List.mem_map_of_mem hs))
          rw [← hss]; exact (fillStrs_ok h1).1 s' hs'
        obtain ⟨m', h2⟩ := fillStrs_total hall
        rw [h2]
        simp only [Except.map, Except.ok.injEq, sortValue]
        apply norm_strs_eq (var := var)
        · apply dedup_sort_ext
          intro i
          rw [(fillStrs_ok h1).2, (fillStrs_ok h2).2]
          constructor
          · rintro ⟨s, hs, hi⟩
            obtain ⟨s', hs', hss⟩ := List.mem_map.1 ((h s.string).1 (List.mem_map_of_mem hs))
            exact ⟨s', hs', by rw [hss]; exact hi⟩
          · rintro ⟨s, hs, hi⟩
            obtain ⟨s', hs', hss⟩ := List.mem_map.1 ((h s.string).2 (List.mem_map_of_mem hs))
            exact ⟨s', hs', by rw [hss]; exact hi⟩
        · intro s hs
          exact fillStrs_var h1 s ((sortBy_mem _ _ _).1 ((dedupBy_sublist _ _).subset hs))
        · intro s hs
          exact fillStrs_var h2 s ((sortBy_mem _ _ _).1 ((dedupBy_sublist _ _).subset hs))
    | _ => rfl

theorem fillOne_same {cfg : Config} {v v' : EventVar} (ha : v.attr = v'.attr) (hv : SameValue v.value v'.value) :
    (fillOne cfg v).map (fun p => (p.1, (sortValue p.2).norm)) = (fillOne cfg v').map (fun p => (p.1, (sortValue p.2).norm)) := by
  unfold fillOne
  rw [ha]
  split
  · rfl
  · cases getDomain cfg (tryGetIdForAttr cfg v'.attr) with
    | error e => rfl
    | ok d =>
      dsimp only
      have := fillValue_same (cfg := cfg) (var := tryGetIdForAttr cfg v'.attr) (ty := d.bound.ty) hv
      rcases map_eq_map this with ⟨x, h1, h2⟩ | ⟨a, b, h1, h2, h3⟩
      · rw [h1, h2]
      · rw [h1, h2]
        simp only [Except.map, h3]

theorem fillEvent_same {cfg : Config} {ev ev' : List EventVar} (h : SameEvent ev ev') :
    (fillEvent cfg ev).map (List.map fun p => (p.1, (sortValue p.2).norm)) =
      (fillEvent cfg ev').map (List.map fun p => (p.1, (sortValue p.2).norm)) := by
  induction ev generalizing ev' with
  | nil => cases ev' with
    | nil => rfl
    | cons => exact absurd h (by simp [SameEvent])
  | cons v vs ih =>
    cases ev' with
    | nil => exact absurd h (by simp [SameEvent])
    | cons v' vs' =>
      obtain ⟨h1, h2, h3⟩ := h
      rw [fillEvent_cons, fillEvent_cons]
      have e1 := fillOne_same (cfg := cfg) h1 h2
      have e2 := ih h3
      rcases map_eq_map e1 with ⟨x, h1, h2⟩ | ⟨a, b, h1, h2, h3⟩
      · rw [h1, h2]
      · rw [h1, h2]
        rcases map_eq_map e2 with ⟨x, h4, h5⟩ | ⟨a', b', h4, h5, h6⟩
        · rw [h4, h5]
        · rw [h4, h5]
          simp only [Except.map, List.map_cons, h3, h6]

theorem makeEnvironment_norm (n : Nat) (l : List (Nat × Value)) (env : Env) :
    Env.norm (makeEnvironment n l env) = makeEnvironment n (l.map fun p => (p.1, p.2.norm)) (Env.norm env) := by
  induction l generalizing env with
  | nil => rfl
  | cons p ps ih =>
    obtain ⟨v, x⟩ := p
    simp only [makeEnvironment, List.map_cons, ih]
    simp [Env.norm, List.map_set]

/-- C33: events that differ only in the order or multiplicity of elements of list values get the same outcome, from a
search (the whole report) and from an existence test. -/
theorem C33_event_list_order (geo : GeoTest) (t : Tree) (ev ev' : List EventVar) (rep : Report) (h : SameEvent ev ev') :
    t.search geo ev rep = t.search geo ev' rep ∧ t.exists geo ev = t.exists geo ev' := by
  apply search_norm
  have hf := fillEvent_same (cfg := t.cfg) h
  unfold eventEnv
  rcases map_eq_map hf with ⟨x, h1, h2⟩ | ⟨l, l', h1, h2, h3⟩
  · rw [h1, h2]
  · rw [h1, h2]
    simp only [Except.map, Except.ok.injEq, makeEnvironment_norm, List.map_map]
    show makeEnvironment _ (l.map fun p => (p.1, (sortValue p.2).norm)) _ = makeEnvironment _ (l'.map _) _
    rw [h3]; rfl

/-- a tree with one subscription on each kind of list -/
def listTree : Tree :=
  match (World.init (makeTree 2 0 [("il".toList, .intList 0 10, true), ("sl".toList, .strList 5, true)])).run exactRounding
    [.insert ⟨1, [], .leaf (.list .allOf ⟨"il".toList, 0⟩ (.intList [3, 1]))⟩,
     .insert ⟨2, [], .leaf (.list .oneOf ⟨"sl".toList, 0⟩ (.strList [⟨"b".toList, 0, 0⟩, ⟨"a".toList, 0, 0⟩]))⟩] with
  | .ok w => w.tree
  | .error _ => makeTree 2 0 []

def listEvent : List EventVar :=
  [⟨"il".toList, .intList [3, 2, 1, 3]⟩, ⟨"sl".toList, .strList [⟨"x".toList, 0, 0⟩, ⟨"a".toList, 0, 0⟩, ⟨"y".toList, 0, 0⟩]⟩]
def listEvent' : List EventVar :=
  [⟨"il".toList, .intList [1, 2, 3]⟩, ⟨"sl".toList, .strList [⟨"y".toList, 0, 0⟩, ⟨"x".toList, 0, 0⟩, ⟨"a".toList, 0, 0⟩]⟩]

example : listTree.search exGeo listEvent .empty = listTree.search exGeo listEvent' .empty :=
  (C33_event_list_order exGeo listTree listEvent listEvent' .empty
    ⟨rfl, .ints _ _ (fun x => by simp only [List.mem_cons, List.not_mem_nil]; constructor <;> (rintro (h | h | h | h | h) <;> simp_all)), rfl,
      .strs _ _ (fun x => by simp only [List.map_cons, List.map_nil, List.mem_cons, List.not_mem_nil]; constructor <;> (rintro (h | h | h | h) <;> simp [h])), trivial⟩).1

example : (listTree.search exGeo listEvent .empty).toOption.map (·.map Report.subs) = some (some [1, 2]) := by decide +kernel

end BeTree
