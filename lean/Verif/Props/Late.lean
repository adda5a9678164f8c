import Verif.Lemmas.LateRun
import Verif.Props.Conserve
/-
C50: variables declared after expressions were inserted.
-/
namespace BeTree
open Spec

theorem declareAll_makeTree {cap min : Nat} {decls : List (Str × Decl × Bool)} : ∀ {ds : List (Str × Decl × Bool)},
    (World.init (makeTree cap min decls)).declareAll ds = World.init (makeTree cap min (decls ++ ds)) := by
  intro ds
  induction ds generalizing decls with
  | nil => simp [World.declareAll]
  | cons d ds ih =>
    have h : (World.init (makeTree cap min decls)).plus (newDomain (makeTree cap min decls).cfg.domains.length d) =
        World.init (makeTree cap min (decls ++ [d])) := by
      have hc : (decls ++ [d]).foldl (fun cfg d => declare cfg d.1 d.2.1 d.2.2) (makeConfig cap min) =
          (decls.foldl (fun cfg d => declare cfg d.1 d.2.1 d.2.2) (makeConfig cap min)).plus
            (newDomain (decls.foldl (fun cfg d => declare cfg d.1 d.2.1 d.2.2) (makeConfig cap min)).domains.length d) := by
        rw [List.foldl_append]; rfl
      unfold makeTree
      rw [hc]
      rfl
    have := ih (decls := decls ++ [d])
    rw [List.append_assoc] at this
    rw [show decls ++ d :: ds = decls ++ ([d] ++ ds) from rfl, ← this, ← h]
    rfl

theorem makeTree_declared {cap min : Nat} {decls : List (Str × Decl × Bool)} :
    (makeTree cap min decls).cfg.names = decls.map (·.1) ∧ (makeTree cap min decls).cfg.domains.length = decls.length := by
  have key : ∀ (decls : List (Str × Decl × Bool)) (cfg : Config),
      (decls.foldl (fun cfg d => declare cfg d.1 d.2.1 d.2.2) cfg).names = cfg.names ++ decls.map (·.1) ∧
      (decls.foldl (fun cfg d => declare cfg d.1 d.2.1 d.2.2) cfg).domains.length = cfg.domains.length + decls.length := by
    intro decls
    induction decls with
    | nil => intro cfg; simp
    | cons d ds ih =>
      intro cfg
      obtain ⟨h1, h2⟩ := ih (declare cfg d.1 d.2.1 d.2.2)
      rw [List.foldl_cons, h1, h2]
      refine ⟨?_, ?_⟩
      · simp [declare, addDomain, Config.names]
      · simp [declare, addDomain]; omega
  obtain ⟨h1, h2⟩ := key decls (makeConfig cap min)
  refine ⟨?_, ?_⟩
  · simpa [makeTree, makeConfig, Config.names] using h1
  · simpa [makeTree, makeConfig] using h2

theorem init_lateOK {cap min : Nat} {decls : List (Str × Decl × Bool)} : LateOK (World.init (makeTree cap min decls)) := by
  constructor
  · intro s hs
    simp [World.init, makeTree, emptyCNode, CNode.contents, PNodes.contents] at hs
  · intro s hs
    simp [World.init] at hs

theorem late_history {R : Rounding} {cap min : Nat} {decls : List (Str × Decl × Bool)} {ls : List LateOp} {w : World}
    (h : (World.init (makeTree cap min decls)).lateRun R ls = .ok w) (ht : Timely (decls.map (·.1)) ls)
    (hw : (decls ++ declarations ls).length / 64 = decls.length / 64) :
    (World.init (makeTree cap min (decls ++ declarations ls))).run R (accepted (decls.map (·.1)) ls) = .ok w ∧ LateOK w := by
  obtain ⟨h1, h2⟩ := makeTree_declared (cap := cap) (min := min) (decls := decls)
  have := late_run (R := R) (init_lateOK (cap := cap) (min := min) (decls := decls)) (by exact h1 ▸ ht)
    (by
      rw [List.length_append] at hw
      rw [show (World.init (makeTree cap min decls)).tree.cfg.domains.length = decls.length from h2]
      exact hw) h
  rw [declareAll_makeTree, show (World.init (makeTree cap min decls)).tree.cfg.names = decls.map (·.1) from h1] at this
  exact this

/-- **C50** (partial: the number of declared variables may not reach the next multiple of 64, and at every call either all names
are declared or a required one is missing).  A history in which variables are declared between the other calls leaves the tree
it would have left with all variables declared first and the calls refused for want of a declaration left out. -/
theorem C50_same_tree_partial {R : Rounding} {cap min : Nat} {decls : List (Str × Decl × Bool)} {ls : List LateOp} {w : World}
    (h : (World.init (makeTree cap min decls)).lateRun R ls = .ok w) (ht : Timely (decls.map (·.1)) ls)
    (hw : (decls ++ declarations ls).length / 64 = decls.length / 64) :
    (World.init (makeTree cap min (decls ++ declarations ls))).run R (accepted (decls.map (·.1)) ls) = .ok w :=
  (late_history h ht hw).1

/-- **C50** (the same conditions).  No later call goes past the bit sets of an expression: a mutating call does what it does in the
model without checks, and so do a search and an existence query. -/
theorem C50_no_overrun_partial {R : Rounding} {cap min : Nat} {decls : List (Str × Decl × Bool)} {ls : List LateOp} {w : World}
    (h : (World.init (makeTree cap min decls)).lateRun R ls = .ok w) (ht : Timely (decls.map (·.1)) ls)
    (hw : (decls ++ declarations ls).length / 64 = decls.length / 64) :
    (∀ o : Op, w.lateStep R (.op o) = w.step R o) ∧
      (∀ (geo : GeoTest) (ev : List EventVar) (rep : Report), w.tree.searchLate geo ev rep = w.tree.search geo ev rep) ∧
      (∀ (geo : GeoTest) (ev : List EventVar), w.tree.existsLate geo ev = w.tree.exists geo ev) := by
  have hok := (late_history h ht hw).2
  refine ⟨fun o => ?_, fun geo ev rep => hok.search geo ev rep, fun geo ev => hok.exists geo ev⟩
  simp only [World.lateStep, hok.probes o, if_true]

/-- **C50** (the same conditions): what a search reports is what a search of the tree with all variables declared first reports,
whatever the event. -/
theorem C50_same_answers_partial {R : Rounding} {cap min : Nat} {decls : List (Str × Decl × Bool)} {ls : List LateOp} {w w' : World}
    (h : (World.init (makeTree cap min decls)).lateRun R ls = .ok w) (ht : Timely (decls.map (·.1)) ls)
    (hw : (decls ++ declarations ls).length / 64 = decls.length / 64)
    (h' : (World.init (makeTree cap min (decls ++ declarations ls))).run R (accepted (decls.map (·.1)) ls) = .ok w')
    (geo : GeoTest) (ev : List EventVar) :
    (∀ rep : Report, w.tree.searchLate geo ev rep = w'.tree.search geo ev rep) ∧
      w.tree.existsLate geo ev = w'.tree.exists geo ev := by
  have h1 := C50_same_tree_partial h ht hw
  rw [h1] at h'
  cases h'
  exact ⟨fun rep => (C50_no_overrun_partial h ht hw).2.1 geo ev rep, (C50_no_overrun_partial h ht hw).2.2 geo ev⟩

/-! ### a history that meets the conditions -/

def exL : Expr := .leaf (.boolVar ⟨"late".toList, 0⟩)

/-- a call refused because `late` is not declared yet, the declaration, and the call again; leaves of capacity 2 split before and
after the declaration -/
def lateOps : List LateOp :=
  [.op (.insert ⟨1, [], exI .lt 3⟩), .op (.insert ⟨2, [], exI .gt 7⟩), .op (.insert ⟨3, [], .and exL (exI .le 2)⟩),
   .op (.insert ⟨4, [], exB⟩), .op (.makeSub ⟨5, [], .or exB (exI .gt 4)⟩), .declare "late".toList .bool true,
   .op (.insert ⟨3, [], .and exL (exI .le 2)⟩), .op (.insertSub 0), .op (.insert ⟨6, [], .not exL⟩),
   .declare "f".toList (.float 0 1) true]

def lateWorld : World :=
  match (World.init (makeTree 2 0 exampleDecls)).lateRun exactRounding lateOps with
  | .ok w => w
  | .error _ => World.init (makeTree 2 0 exampleDecls)

theorem lateWorld_run : (World.init (makeTree 2 0 exampleDecls)).lateRun exactRounding lateOps = .ok lateWorld := by
  have h : ((World.init (makeTree 2 0 exampleDecls)).lateRun exactRounding lateOps).isOk := by decide +kernel
  unfold lateWorld
  split
  · rename_i w hw; exact hw
  · rename_i e he; rw [he] at h; cases h

example : lateWorld.tree.root.contents.map Sub.id = [4, 6, 5, 1, 3, 2] := by decide +kernel

example : Timely (exampleDecls.map (·.1)) lateOps := by decide +kernel

example : (exampleDecls ++ declarations lateOps).length / 64 = exampleDecls.length / 64 := by decide +kernel

example : (accepted (exampleDecls.map (·.1)) lateOps).length = 7 := by decide +kernel

/-! ### the conditions cannot be dropped -/

/-- 63 variables: `i` and sixty-two others -/
def manyDecls : List (Str × Decl × Bool) :=
  ("i".toList, .int 0 10, true) :: (List.range 62).map fun n => (List.replicate (n + 1) 'x', .bool, true)

/-- **C50, what fails**: with the 64th variable the bit sets of the expressions already there are one word short, and the next
search reads past their end. -/
theorem C50_crossing :
    (match (World.init (makeTree 3 0 manyDecls)).lateRun exactRounding
        [.op (.insert ⟨1, [], exI .gt 3⟩), .declare "late".toList .bool true] with
      | .error _ => false
      | .ok w =>
        match w.tree.searchLate (fun _ _ _ _ _ => true) [⟨"i".toList, .int 5⟩] Report.empty with
        | .error .ub => true
        | _ => false) = true := by decide +kernel

/-- the same calls with the variable declared first find the expression -/
example :
    (match (World.init (makeTree 3 0 (manyDecls ++ [("late".toList, .bool, true)]))).run exactRounding [.insert ⟨1, [], exI .gt 3⟩] with
      | .error _ => none
      | .ok w =>
        match w.tree.search (fun _ _ _ _ _ => true) [⟨"i".toList, .int 5⟩] Report.empty with
        | .ok (some r) => some r.subs
        | _ => none) = some [1] := by decide +kernel

/-- `geo_within_radius(0, 0, 10)` -/
def geoHere : Expr := .leaf (.geo ⟨true, 0, 0, 10, ⟨"latitude".toList, 0⟩, ⟨"longitude".toList, 0⟩⟩)

def geoDecls : List (Str × Decl × Bool) := [("latitude".toList, .float (-90) 90, true), ("longitude".toList, .float (-180) 180, true)]

def geoOutcome : Except Fault World → Except Fault (Option Report)
  | .error e => .error e
  | .ok w => w.tree.searchLate (fun _ _ _ _ _ => true) [⟨"latitude".toList, .float 0⟩, ⟨"longitude".toList, .float 0⟩] Report.empty

/-- **C50, what fails**: an expression with a geo function is taken although the position is not declared, and declaring the position
afterwards does not help: the search that follows still reads out of bounds, while with the position declared first it finds the
expression. -/
theorem C50_position :
    (match geoOutcome ((World.init (makeTree 3 0 [("b".toList, .bool, true)])).lateRun exactRounding
        (.op (.insert ⟨1, [], geoHere⟩) :: geoDecls.map fun d => .declare d.1 d.2.1 d.2.2)),
      geoOutcome ((World.init (makeTree 3 0 (("b".toList, .bool, true) :: geoDecls))).run exactRounding [.insert ⟨1, [], geoHere⟩]) with
      | .error .ub, .ok (some r) => r.subs == [1]
      | _, _ => false) = true := by decide +kernel

end BeTree
