import Verif.Lemmas.EventObj
import Verif.Lemmas.AllIds
import Verif.Spec.EventObj
import Verif.Lemmas.Short
import Verif.Lemmas.Late
import Verif.Props.Search
/-
C48: events built by the caller.
-/
namespace BeTree
open Spec

/-! ### building -/

/-- a series of writes -/
theorem puts_spec {α : Type} : ∀ (ws : List (Nat × α)) (l : List α), (∀ w ∈ ws, w.1 < l.length) →
    ∃ l', ws.foldlM (fun l w => putAt l w.1 w.2) l = .ok l' ∧ l'.length = l.length ∧
      ∀ i, l'[i]? = if i < l.length then (match lastWrite ws i with | some x => some x | none => l[i]?) else none := by
  intro ws
  induction ws with
  | nil =>
    intro l _
    refine ⟨l, rfl, rfl, fun i => ?_⟩
    by_cases hi : i < l.length
    · rw [if_pos hi]; rfl
    · rw [if_neg hi, List.getElem?_eq_none (Nat.le_of_not_lt hi)]
  | cons w ws ih =>
    intro l hl
    have hw : w.1 < l.length := hl w (by simp)
    obtain ⟨l', h1, h2, h3⟩ := ih (l.set w.1 w.2) (fun w' hw' => by rw [List.length_set]; exact hl w' (by simp [hw']))
    rw [List.length_set] at h2 h3
    refine ⟨l', ?_, h2, fun i => ?_⟩
    · rw [List.foldlM_cons]
      show (putAt l w.1 w.2 >>= fun l => ws.foldlM (fun l w => putAt l w.1 w.2) l) = _
      rw [show putAt l w.1 w.2 = .ok (l.set w.1 w.2) from if_pos hw]
      exact h1
    · rw [h3]
      by_cases hi : i < l.length
      · rw [if_pos hi, if_pos hi]
        unfold lastWrite
        rw [List.reverse_cons, List.find?_append]
        cases h4 : ws.reverse.find? fun w => decide (w.1 = i) with
        | some y => rfl
        | none =>
          by_cases hwi : w.1 = i
          · simp [hwi, hi]
          · simp [hwi]
      · rw [if_neg hi, if_neg hi]

/-- C48, lists and events under construction: after `betree_add_*`/`betree_set_variable` calls with positions inside the list, in any order, each
position holds what was last written there. -/
theorem C48_built {α : Type} (ws : List (Nat × α)) (l : List α) (h : ∀ w ∈ ws, w.1 < l.length) :
    ∃ l', ws.foldlM (fun l w => putAt l w.1 w.2) l = .ok l' ∧ l'.length = l.length ∧
      ∀ i, i < l.length → l'[i]? = match lastWrite ws i with | some x => some x | none => l[i]? := by
  obtain ⟨l', h1, h2, h3⟩ := puts_spec ws l h
  exact ⟨l', h1, h2, fun i hi => by rw [h3, if_pos hi]⟩

example : [(1, (some (5 : Int))), (0, some 7), (1, some 6)].foldlM (fun l w => putAt l w.1 w.2) [none, none, none] =
    .ok [some 7, some 6, none] := by rfl

/-- C48, a new event: after any calls on a tree with `decls`, `betree_make_event` gives an event with one empty slot for each attribute;
variables set at these positions, in any order, are then in it, the last one at each position; other positions are undefined. -/
theorem C48_new_event (R : Rounding) (cap min : Nat) (decls : List (Str × Decl × Bool)) (ops : List Op) (w : World)
    (hrun : (World.init (makeTree cap min decls)).run R ops = .ok w) (ws : List (Nat × Option EventVar)) (h : ∀ x ∈ ws, x.1 < decls.length) :
    held w.tree.makeEvent = [] ∧
    ∃ ev, ws.foldlM (fun ev x => setVariable ev x.1 x.2) w.tree.makeEvent = .ok ev ∧ ev.length = decls.length ∧
      (∀ i, i < decls.length → ev[i]? = match lastWrite ws i with | some x => some x | none => some none) ∧
      ∀ i v, decls.length ≤ i → setVariable ev i v = .error .ub := by
  have hl : w.tree.cfg.domains.length = decls.length := by
    rw [(ext_names (run_ext hrun)).2]
    simp [World.init, makeTree_domains]
  refine ⟨?_, ?_⟩
  · simp [held, Tree.makeEvent]
  · obtain ⟨ev, h1, h2, h3⟩ := C48_built ws w.tree.makeEvent (fun x hx => by simpa [Tree.makeEvent, hl] using h x hx)
    have h4 : w.tree.makeEvent.length = decls.length := by simp [Tree.makeEvent, hl]
    rw [h4] at h2 h3
    refine ⟨ev, h1, h2, fun i hi => ?_, fun i v hi => ?_⟩
    · rw [h3 i hi]
      cases lastWrite ws i with
      | some x => rfl
      | none => simp [Tree.makeEvent, hl, hi]
    · rw [setVariable, putAt, if_neg (by omega)]

/-- C48, `betree_make_frequency_cap`: NULL exactly for a type that is not one of the ten. -/
theorem C48_cap_types (s : Str) (id : Nat) (ns : Str) (td : Bool) (ts : Int) (v : Nat) :
    makeCap s id ns td ts v = none ↔
      s ∉ ["advertiser", "advertiser:ip", "campaign", "campaign:ip", "campaign_group", "campaign_group:ip", "flight", "flight:ip",
        "product", "product:ip"].map String.toList := by
  have hinv : freqTypeOf s = .invalid ↔ makeCap s id ns td ts v = none := by
    unfold makeCap
    by_cases h : freqTypeOf s = .invalid
    · rw [if_pos h]; simp [h]
    · rw [if_neg h]; simp [h]
  rw [← hinv]
  simp only [List.map_cons, List.map_nil, List.mem_cons, List.not_mem_nil, or_false, not_or]
  constructor
  · intro h
    refine ⟨?_, ?_, ?_, ?_, ?_, ?_, ?_, ?_, ?_, ?_⟩ <;> (rintro rfl; revert h; decide)
  · rintro ⟨h1, h2, h3, h4, h5, h6, h7, h8, h9, h10⟩
    unfold freqTypeOf
    rw [if_neg h1, if_neg h2, if_neg h3, if_neg h4, if_neg h5, if_neg h6, if_neg h9, if_neg h10, if_neg h7, if_neg h8]

/-! ### one search -/

/-- C48, one search: the order of the slots' NULLs is irrelevant; an event object means the list of its variables. -/
theorem C48_object_means_variables (geo : GeoTest) (t : Tree) (ev : EventObj) (rep : Report) :
    (t.searchObj geo ev rep).map (·.1) = t.search geo (held ev) rep ∧ (t.existsObj geo ev).map (·.1) = t.exists geo (held ev) :=
  ⟨searchObj_event geo t ev rep, existsObj_event geo t ev⟩

/-! ### several searches -/

theorem few_len {cfg : Config} (h : FewStrings cfg) (v : Nat) : (strTable cfg v).length ≤ invalidId := by
  unfold strTable
  split
  · exact Nat.zero_le _
  · rename_i m hm
    have := h m (List.mem_of_find?_eq_some hm)
    unfold invalidId; omega

theorem held_mem {ev : EventObj} {v : EventVar} (h : some v ∈ ev) : v ∈ held ev := by
  unfold held; exact List.mem_filterMap.2 ⟨_, h, rfl⟩

/-- C48, the same object used again, while the tree changes and other searches with it happen: the result is that of a fresh event with the
same variables, provided no two strings of one list that were unknown at first have become known (`StaysUnknown`).  Missing: without that
condition the property is false, see `C48_lost_string`. -/
theorem C48_reused_partial (geo : GeoTest) (R : Rounding) (w0 w : World) (ev ev' : EventObj) (os : List ObjOp)
    (h : objRun geo R w0 ev os = .ok (w, ev')) (hs : FewStrings w.tree.cfg) (hu : StaysUnknown w0.tree.cfg w.tree.cfg ev) (rep : Report) :
    (w.tree.searchObj geo ev' rep).map (·.1) = w.tree.search geo (held ev) rep ∧
    (w.tree.existsObj geo ev').map (·.1) = w.tree.exists geo (held ev) := by
  obtain ⟨hx, _, hc⟩ := objRun_cov (CfgExt.refl _) (slotCov_refl _ ev) h (few_len hs)
  have hsame := slots_same hx hc (by
    intro v hv hid l hl x hx1 y hy1 hne hxu hyu
    have h1 := (known_tables hid).1
    have hid' : tryGetIdForAttr w.tree.cfg v.attr ≠ invalidId := by rw [tryGetId_ext hx]; exact hid
    have h2 := (known_tables hid').1
    rw [tryGetId_ext hx] at h2
    rw [← h1] at hxu hyu
    rw [← h2]
    exact hu v (held_mem hv) l hl x hx1 y hy1 hne hxu hyu)
  obtain ⟨h1, h2⟩ := searchObj_slots geo w.tree ev ev' hsame rep
  exact ⟨h1.trans (searchObj_event geo w.tree ev rep), h2.trans (existsObj_event geo w.tree ev)⟩

theorem objRun_same {geo : GeoTest} {R : Rounding} : ∀ {os : List ObjOp} {w : World} {ev : EventObj} {w' : World} {ev' : EventObj},
    (∀ o ∈ os, ∀ x, o ≠ .op x) → objRun geo R w ev os = .ok (w', ev') → w' = w
  | [], _, _, _, _, _, h => by cases h; rfl
  | o :: os, w, ev, w', ev', ho, h => by
    simp only [objRun] at h
    split at h
    · cases h
    rename_i w1 ev1 h1
    rw [objRun_same (fun o' ho' => ho o' (by simp [ho'])) h]
    cases o with
    | op o => exact absurd rfl (ho _ (by simp) o)
    | search rep =>
      simp only [objStep] at h1
      split at h1
      · cases h1
      · cases h1; rfl
    | «exists» =>
      simp only [objStep] at h1
      split at h1
      · cases h1
      · cases h1; rfl

/-- C48, the same object used again on an unchanged tree: any number of searches later, the result is that of the event as built. -/
theorem C48_reused_unchanged (geo : GeoTest) (R : Rounding) (w w' : World) (ev ev' : EventObj) (os : List ObjOp)
    (ho : ∀ o ∈ os, ∀ x, o ≠ .op x) (h : objRun geo R w ev os = .ok (w', ev')) (hs : FewStrings w.tree.cfg) (rep : Report) :
    (w.tree.searchObj geo ev' rep).map (·.1) = (w.tree.searchObj geo ev rep).map (·.1) ∧
    (w.tree.existsObj geo ev').map (·.1) = (w.tree.existsObj geo ev).map (·.1) := by
  have hw := objRun_same ho h
  subst hw
  obtain ⟨h1, h2⟩ := C48_reused_partial geo R w' w' ev ev' os h hs (fun v _ l _ x _ y _ _ hx hy => ⟨hx, hy⟩) rep
  exact ⟨h1.trans (searchObj_event geo w'.tree ev rep).symm, h2.trans (existsObj_event geo w'.tree ev).symm⟩

/-! ### concrete cases -/

def objDecls : List (Str × Decl × Bool) := [("sl".toList, .strList sizeMax, true), ("il".toList, .intList int64Min int64Max, true),
  ("e".toList, .intEnum sizeMax, true)]
def objList (op : ListOp) (l : List String) : Expr := .leaf (.list op ⟨"sl".toList, 0⟩ (.strList (l.map fun s => ⟨s.toList, 0, 0⟩)))
def objEv (l : List String) : EventObj := [some ⟨"sl".toList, .strList (l.map fun s => ⟨s.toList, 0, 0⟩)⟩, none,
  some ⟨"il".toList, .intList [3, 1, 3]⟩, some ⟨"e".toList, .int 4⟩]
def objWorld : World := World.init (makeTree 3 0 objDecls)

/-- the ids found with the object after a series of calls, and with a fresh one -/
def objIds (ev : EventObj) (os : List ObjOp) : Option (List Nat × List Nat) :=
  match objRun exGeo exactRounding objWorld ev os with
  | .error _ => none
  | .ok (w, ev') =>
    match w.tree.searchObj exGeo ev' .empty, w.tree.searchObj exGeo ev .empty with
    | .ok (some r, _), .ok (some r', _) => some (r.subs, r'.subs)
    | _, _ => none

def objCalls : List ObjOp := [.op (.insert ⟨1, [], objList .oneOf ["a"]⟩), .search .empty, .op (.insert ⟨2, [], objList .noneOf ["b"]⟩), .exists]

example : objIds (objEv ["x", "q", "x"]) objCalls = some ([2], [2]) := by decide +kernel

/-- the hypotheses of `C48_reused_partial` in a run where the tree and the object change: the strings "x" and "q" are unknown and stay so -/
example : ∃ w ev', objRun exGeo exactRounding objWorld (objEv ["x", "q", "x"]) objCalls = .ok (w, ev') ∧ FewStrings w.tree.cfg ∧
    StaysUnknown objWorld.tree.cfg w.tree.cfg (objEv ["x", "q", "x"]) := by
  cases h : objRun exGeo exactRounding objWorld (objEv ["x", "q", "x"]) objCalls with
  | error e =>
    have : (match objRun exGeo exactRounding objWorld (objEv ["x", "q", "x"]) objCalls with | .ok _ => true | .error _ => false) = true := by
      decide +kernel
    rw [h] at this; cases this
  | ok p =>
    obtain ⟨w, ev'⟩ := p
    have h1 : (match objRun exGeo exactRounding objWorld (objEv ["x", "q", "x"]) objCalls with
      | .ok (w, _) => w.tree.cfg.stringMaps.all fun m => decide (m.values.length < 2 ^ 64) | .error _ => false) = true := by decide +kernel
    have h2 : (match objRun exGeo exactRounding objWorld (objEv ["x", "q", "x"]) objCalls with
      | .ok (w, _) => (held (objEv ["x", "q", "x"])).all fun v => match v.value with
        | .strList l => l.all fun x => decide (x.string ∉ knownStrs w.tree.cfg v.attr)
        | _ => true
      | .error _ => false) = true := by decide +kernel
    rw [h] at h1 h2
    refine ⟨w, ev', rfl, fun m hm => of_decide_eq_true (List.all_eq_true.1 h1 m hm), ?_⟩
    intro v hv l hl x hx y hy _ _ _
    have h3 := List.all_eq_true.1 h2 v hv
    rw [hl] at h3
    exact ⟨of_decide_eq_true (List.all_eq_true.1 h3 x hx), of_decide_eq_true (List.all_eq_true.1 h3 y hy)⟩

/-- a new event of a tree after an insertion, and two variables set in it, one of them twice -/
example : (match objWorld.run exactRounding [.insert ⟨1, [], objList .oneOf ["a"]⟩] with
    | .error _ => false
    | .ok w => match [(2, some ⟨"e".toList, .int 4⟩), (0, none), (2, some ⟨"e".toList, .int 5⟩)].foldlM
        (fun ev (x : Nat × Option EventVar) => setVariable ev x.1 x.2) w.tree.makeEvent with
      | .ok ev => decide (ev.length = 3 ∧ held ev = [⟨"e".toList, .int 5⟩])
      | .error _ => false) = true := by decide +kernel

/-- A search throws away strings of the event.  The list of the event is `("x", "y")`; both strings are unknown at the first search, which takes
them for duplicates and keeps one.  Then `sl one of ("y")` is inserted: the same event object is not found to match it, a fresh one is. -/
theorem C48_lost_string :
    objIds (objEv ["x", "y"]) [.search .empty, .op (.insert ⟨1, [], objList .oneOf ["y"]⟩)] = some ([], [1]) := by decide +kernel

end BeTree
