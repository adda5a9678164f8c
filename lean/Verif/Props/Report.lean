import Verif.Props.Event
/-
C06 (exists agrees with search), C35 (report counters), C36 (searches do not influence each other).
-/
namespace BeTree

theorem searchLoop_counts {geo : GeoTest} {memoId : Nat → Option Nat} {env : Env} {undef : Bits} {subs : List Sub}
    {st st' : LoopState} {ids : List Nat} (h : searchLoop geo memoId env undef subs st = .ok (ids, st')) :
    ids.Sublist (subs.map Sub.id) ∧ st.shorted ≤ st'.shorted ∧ st'.shorted ≤ st.shorted + subs.length := by
  induction subs generalizing st ids with
  | nil => cases h; exact ⟨List.Sublist.refl _, Nat.le_refl _, Nat.le_refl _⟩
  | cons s ss ih =>
    rw [searchLoop] at h
    split at h
    · cases h
    · rename_i b st1 hm
      split at h
      · cases h
      · rename_i ids1 st2 hr
        cases h
        obtain ⟨h1, h2, h3⟩ := ih hr
        have hs : st.shorted ≤ st1.shorted ∧ st1.shorted ≤ st.shorted + 1 := by
          unfold matchSub at hm
          split at hm
          · cases hm; exact ⟨Nat.le_succ _, Nat.le_refl _⟩
          · cases hm; exact ⟨Nat.le_succ _, Nat.le_refl _⟩
          · split at hm
            · cases hm
            · cases hm; exact ⟨Nat.le_refl _, Nat.le_succ _⟩
        refine ⟨?_, by omega, by simp only [List.length_cons]; omega⟩
        cases b with
        | true => exact h1.cons_cons _
        | false => exact h1.cons _

/-- what a successful search does: it visits a list of subscriptions and reports some of them, in that order -/
theorem search_inv {geo : GeoTest} {t : Tree} {ev : List EventVar} {rep rep' : Report}
    (h : t.search geo ev rep = .ok (some rep')) :
    ∃ env undef subs ids st, eventEnv t.cfg ev = .ok env ∧ validateVariables t.cfg.domains env = true ∧
      makeUndefined env = .ok undef ∧ t.root.collect t.cfg env = .ok subs ∧
      searchLoop geo t.cfg.predMap.memoizeId env undef subs (LoopState.init t.cfg) = .ok (ids, st) ∧
      rep' = { evaluated := rep.evaluated + subs.length, matched := rep.matched + ids.length
               memoized := rep.memoized + st.m.memoized, shorted := rep.shorted + st.shorted
               subs := rep.subs ++ ids } := by
  unfold Tree.search at h
  split at h
  · cases h
  · rename_i env henv
    split at h
    · rename_i hv
      unfold searchWithPreds at h
      split at h
      · cases h
      · rename_i undef hu
        split at h
        · cases h
        · rename_i subs hc
          split at h
          · cases h
          · rename_i ids st hl
            cases h
            exact ⟨env, undef, subs, ids, st, henv, hv, hu, hc, hl, rfl⟩
    · cases h

mutual
theorem CNode.collect_sublist {cfg : Config} {env : Env} :
    ∀ (c : CNode) {l : List Sub}, c.collect cfg env = .ok l → l.Sublist c.contents
  | .mk subs max pns, l, h => by
    simp only [CNode.collect] at h
    split at h
    · cases h
    · rename_i rest hr
      cases h
      exact (List.Sublist.refl subs).append (PNodes.collect_sublist pns hr)
theorem PNodes.collect_sublist {cfg : Config} {env : Env} :
    ∀ (c : PNodes) {l : List Sub}, c.collect cfg env = .ok l → l.Sublist c.contents
  | .nil, l, h => by cases h; exact List.Sublist.refl _
  | .cons v sc cd rest, l, h => by
    simp only [PNodes.collect] at h
    split at h
    · cases h
    · split at h
      · cases h
      · split at h
        · split at h
          · cases h
          · rename_i here hh
            split at h
            · cases h
            · rename_i rest' hr
              cases h
              exact (CDir.collect_sublist cd hh).append (PNodes.collect_sublist rest hr)
        · exact (PNodes.collect_sublist rest h).trans (List.sublist_append_right _ _)
theorem CDir.collect_sublist {cfg : Config} {env : Env} :
    ∀ (c : CDir) {ol or : Bool} {l : List Sub}, c.collect cfg env ol or = .ok l → l.Sublist c.contents
  | .leaf _ _ c, ol, or, l, h => by
    simp only [CDir.collect] at h
    exact CNode.collect_sublist c h
  | .node _ _ c cl cr, ol, or, l, h => by
    simp only [CDir.collect] at h
    split at h
    · cases h
    · rename_i here hh
      split at h
      · cases h
      · rename_i inL hL
        split at h
        · cases h
        · rename_i ls hls
          split at h
          · cases h
          · rename_i inR hR
            split at h
            · cases h
            · rename_i rs hrs
              cases h
              have h1 : ls.Sublist cl.contents := by
                cases inL with
                | true => exact CDir.collect_sublist cl hls
                | false => cases hls; exact List.nil_sublist _
              have h2 : rs.Sublist cr.contents := by
                cases inR with
                | true => exact CDir.collect_sublist cr hrs
                | false => cases hrs; exact List.nil_sublist _
              exact ((CNode.collect_sublist c hh).append h1).append h2
end

/-- C35: the counters of a search.  There is a list of stored subscriptions (the visited ones, each stored occurrence at
most once) such that: `evaluated` grows by its length, the ids added to the report are the ids of some of them, `matched`
grows by the number of ids added, and `shorted` grows by at most the number visited. -/
theorem C35_counters (geo : GeoTest) (t : Tree) (ev : List EventVar) (rep rep' : Report)
    (h : t.search geo ev rep = .ok (some rep')) :
    ∃ visited : List Sub, visited.Sublist t.root.contents ∧ rep'.evaluated = rep.evaluated + visited.length ∧
      ∃ ids : List Nat, ids.Sublist (visited.map Sub.id) ∧ rep'.subs = rep.subs ++ ids ∧
        rep'.matched = rep.matched + ids.length ∧
        rep.shorted ≤ rep'.shorted ∧ rep'.shorted ≤ rep.shorted + visited.length ∧ rep.memoized ≤ rep'.memoized := by
  obtain ⟨env, undef, subs, ids, st, _, _, _, hc, hl, rfl⟩ := search_inv h
  obtain ⟨h1, _, h3⟩ := searchLoop_counts hl
  refine ⟨subs, CNode.collect_sublist _ hc, rfl, ids, h1, rfl, rfl, Nat.le_add_right _ _, ?_, Nat.le_add_right _ _⟩
  have : (LoopState.init t.cfg).shorted = 0 := rfl
  simp only; omega

/-- C35 for a fresh report: `matched` is the number of ids listed, and neither `matched` nor `shorted` exceeds
`evaluated`, which is at most the number of stored subscriptions. -/
theorem C35_fresh_report (geo : GeoTest) (t : Tree) (ev : List EventVar) (rep' : Report)
    (h : t.search geo ev .empty = .ok (some rep')) :
    rep'.matched = rep'.subs.length ∧ rep'.matched ≤ rep'.evaluated ∧ rep'.shorted ≤ rep'.evaluated ∧
      rep'.evaluated ≤ t.root.contents.length := by
  obtain ⟨vis, hv, he, ids, hi, hs, hm, _, hsh, _⟩ := C35_counters geo t ev .empty rep' h
  have h1 := hi.length_le
  have h2 := hv.length_le
  rw [List.length_map] at h1
  have e0 : Report.empty.evaluated = 0 := rfl
  have m0 : Report.empty.matched = 0 := rfl
  have s0 : Report.empty.shorted = 0 := rfl
  have l0 : Report.empty.subs = [] := rfl
  rw [hs, l0, List.nil_append]
  omega

theorem existsLoop_of_searchLoop {geo : GeoTest} {memoId : Nat → Option Nat} {env : Env} {undef : Bits} {subs : List Sub}
    {st st' : LoopState} {ids : List Nat} (h : searchLoop geo memoId env undef subs st = .ok (ids, st')) :
    existsLoop geo memoId env undef subs st = .ok (!ids.isEmpty) := by
  induction subs generalizing st ids with
  | nil => cases h; rfl
  | cons s ss ih =>
    rw [searchLoop] at h
    rw [existsLoop]
    split at h
    · cases h
    · rename_i b st1 hm
      split at h
      · cases h
      · rename_i ids1 st2 hr
        cases h
        rw [hm]
        cases b with
        | true => rfl
        | false => exact ih hr

/-- C06: on an event that a search accepts, `betree_exists` answers true exactly when the search reports at least one id. -/
theorem C06_exists_iff_search (geo : GeoTest) (t : Tree) (ev : List EventVar) (rep' : Report)
    (h : t.search geo ev .empty = .ok (some rep')) :
    ∃ b, t.exists geo ev = .ok b ∧ (b = true ↔ rep'.subs ≠ []) := by
  obtain ⟨env, undef, subs, ids, st, henv, hv, hu, hc, hl, rfl⟩ := search_inv h
  refine ⟨!ids.isEmpty, ?_, ?_⟩
  · unfold Tree.exists existsWithPreds
    rw [henv]
    simp only [hu, hc]
    exact existsLoop_of_searchLoop hl
  · show (!ids.isEmpty) = true ↔ [] ++ ids ≠ []
    cases ids <;> simp

/-- The restriction to accepted events is needed: `betree_exists` does not check mandatory variables, and answers true on
an event that `betree_search` refuses. -/
theorem C06_exists_ignores_mandatory :
    ∃ (t : Tree) (ev : List EventVar), t.search exGeo ev .empty = .ok none ∧ t.exists exGeo ev = .ok true := by
  refine ⟨exampleTree, [⟨"b".toList, .bool true⟩], by decide +kernel, by decide +kernel⟩

/-- the mutating calls of a sequence -/
def opsOf (cs : List Call) : List Op := cs.filterMap fun c => match c with
  | .op o => some o
  | _ => none

theorem calls_run {geo : GeoTest} {R : Rounding} {cs : List Call} {w w' : World} {os : List Out}
    (h : w.calls geo R cs = .ok (w', os)) : w.run R (opsOf cs) = .ok w' ∧ os.length = cs.length := by
  induction cs generalizing w os with
  | nil => cases h; exact ⟨rfl, rfl⟩
  | cons c cs ih =>
    rw [World.calls] at h
    split at h
    · cases h
    · rename_i w1 o hc
      split at h
      · cases h
      · rename_i w2 os2 hr
        cases h
        obtain ⟨h1, h2⟩ := ih hr
        refine ⟨?_, by simp [h2]⟩
        cases c with
        | op o =>
          simp only [World.call] at hc
          split at hc
          · cases hc
          · rename_i w3 hs
            cases hc
            show World.run R w (o :: opsOf cs) = _
            rw [World.run, hs]; exact h1
        | search ev rep =>
          simp only [World.call] at hc
          split at hc
          · cases hc
          · cases hc; exact h1
        | «exists» ev =>
          simp only [World.call] at hc
          split at hc
          · cases hc
          · cases hc; exact h1

/-- C36: in any sequence of calls, what the `k`-th call gives back, when it is a search or an existence test, is what it
would give back if only the mutating calls before it had been made. -/
theorem C36_searches_independent (geo : GeoTest) (R : Rounding) (w w' : World) (cs : List Call) (os : List Out)
    (h : w.calls geo R cs = .ok (w', os)) (k : Nat) :
    ∃ wk, w.run R (opsOf (cs.take k)) = .ok wk ∧
      (∀ ev rep, cs[k]? = some (.search ev rep) → ∃ r, os[k]? = some (.report r) ∧ wk.tree.search geo ev rep = .ok r) ∧
      (∀ ev, cs[k]? = some (.exists ev) → ∃ b, os[k]? = some (.answer b) ∧ wk.tree.exists geo ev = .ok b) := by
  induction cs generalizing w os k with
  | nil => exact ⟨w, by cases k <;> rfl, by simp, by simp⟩
  | cons c cs ih =>
    rw [World.calls] at h
    split at h
    · cases h
    · rename_i w1 o hc
      split at h
      · cases h
      · rename_i w2 os2 hr
        cases h
        cases k with
        | zero =>
          refine ⟨w, rfl, ?_, ?_⟩
          · intro ev rep he
            simp only [List.getElem?_cons_zero, Option.some.injEq] at he
            subst he
            simp only [World.call] at hc
            split at hc
            · cases hc
            · rename_i r hs
              cases hc
              exact ⟨r, rfl, hs⟩
          · intro ev he
            simp only [List.getElem?_cons_zero, Option.some.injEq] at he
            subst he
            simp only [World.call] at hc
            split at hc
            · cases hc
            · rename_i r hs
              cases hc
              exact ⟨r, rfl, hs⟩
        | succ k =>
          obtain ⟨wk, h1, h2, h3⟩ := ih w1 os2 hr k
          refine ⟨wk, ?_, h2, h3⟩
          rw [List.take_succ_cons]
          cases c with
          | op o =>
            simp only [World.call] at hc
            split at hc
            · cases hc
            · rename_i w3 hs
              cases hc
              show World.run R w (o :: opsOf (cs.take k)) = _
              rw [World.run, hs]; exact h1
          | search ev rep =>
            simp only [World.call] at hc
            split at hc
            · cases hc
            · cases hc; exact h1
          | «exists» ev =>
            simp only [World.call] at hc
            split at hc
            · cases hc
            · cases hc; exact h1

/-- C36: what a search adds to a report does not depend on what the report held before. -/
theorem C36_report_accumulates (geo : GeoTest) (t : Tree) (ev : List EventVar) (rep r0 : Report)
    (h : t.search geo ev .empty = .ok (some r0)) :
    t.search geo ev rep = .ok (some { evaluated := rep.evaluated + r0.evaluated, matched := rep.matched + r0.matched
                                      memoized := rep.memoized + r0.memoized, shorted := rep.shorted + r0.shorted
                                      subs := rep.subs ++ r0.subs }) := by
  obtain ⟨env, undef, subs, ids, st, henv, hv, hu, hc, hl, rfl⟩ := search_inv h
  unfold Tree.search searchWithPreds
  rw [henv]
  simp only [hv, if_true, hu, hc, hl, Except.map, Report.empty, Nat.zero_add, List.nil_append]

/-! ### concrete cases -/

example : exampleTree.search exGeo exampleEvent .empty = .ok (some ⟨4, 3, 2, 0, [4, 1, 3]⟩) := by decide +kernel
example : exampleTree.exists exGeo exampleEvent = .ok true := by decide +kernel

example : ∃ w os, (World.init (makeTree 2 0 exampleDecls)).calls exGeo exactRounding
    ((exampleOps.take 4).map Call.op ++ [.search exampleEvent .empty] ++ (exampleOps.drop 4).map Call.op ++
      [.search exampleEvent .empty, .exists exampleEvent]) = .ok (w, os) ∧
    os.drop 4 = [.report (some ⟨3, 2, 0, 0, [4, 1]⟩), .done, .done, .done, .report (some ⟨4, 3, 2, 0, [4, 1, 3]⟩), .answer true] := by
  have h : (match (World.init (makeTree 2 0 exampleDecls)).calls exGeo exactRounding
    ((exampleOps.take 4).map Call.op ++ [.search exampleEvent .empty] ++ (exampleOps.drop 4).map Call.op ++
      [.search exampleEvent .empty, .exists exampleEvent]) with
    | .error _ => none
    | .ok (_, os) => some (os.drop 4)) =
    some [.report (some ⟨3, 2, 0, 0, [4, 1]⟩), .done, .done, .done, .report (some ⟨4, 3, 2, 0, [4, 1, 3]⟩), .answer true] := by
    decide +kernel
  split at h
  · cases h
  · rename_i w os hw
    exact ⟨w, os, hw, by simpa using h⟩

end BeTree
