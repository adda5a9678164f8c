import Verif.Lemmas.Conserve
import Verif.Model.History
/-
C05: insertion and restructuring conserve subscriptions.  C42: lookup by id.
-/
namespace BeTree

/-- C05 on the tree: an insertion that returns stores the new subscription and keeps exactly the old ones, provided that
subscription ids are distinct. -/
theorem C05_insert_conserves (R : Rounding) (cfg : Config) (s : Sub) (c c' : CNode)
    (hnd : ((s :: c.contents).map Sub.id).Nodup) (h : c.insert R cfg s = .ok c') :
    c'.contents.Perm (s :: c.contents) :=
  CNode.insert_contents hnd h

theorem makeSub_id {cfg : Config} {id : Nat} {e : AExpr} {s : Sub} (h : makeSub cfg id e = .ok s) : s.id = id := by
  simp only [makeSub] at h
  split at h
  · split at h
    · cases h
    · cases h; rfl
  · cases h

theorem finishSub_id {cfg cfg' : Config} {id : Nat} {e : Expr} {s : Sub} (h : finishSub cfg id e = .ok (s, cfg')) :
    s.id = id := by
  unfold finishSub at h
  split at h
  · cases h
  · dsimp only at h
    split at h
    · cases h
    · rename_i hs
      cases h; exact makeSub_id hs

theorem prepareInsert_id {cfg cfg' : Config} {id : Nat} {cs : List Constant} {e : Expr} {s : Sub}
    (h : prepareInsert cfg id cs e = .ok (some s, cfg')) : s.id = id := by
  unfold prepareInsert at h
  dsimp only at h
  repeat' split at h
  all_goals first | (cases h; done) | skip
  rename_i hs
  cases h
  exact finishSub_id hs

theorem makeSub_api_id {t t' : Tree} {id : Nat} {cs : List Constant} {e : Expr} {s : Sub}
    (h : t.makeSub id cs e = .ok (some s, t')) : s.id = id := by
  unfold Tree.makeSub at h
  dsimp only at h
  repeat' split at h
  all_goals first | (cases h; done) | skip
  rename_i hs
  cases h
  exact finishSub_id hs

theorem makeSub_api_root {t t' : Tree} {id : Nat} {cs : List Constant} {e : Expr} {s : Option Sub}
    (h : t.makeSub id cs e = .ok (s, t')) : t'.root = t.root := by
  unfold Tree.makeSub at h
  dsimp only at h
  repeat' split at h
  all_goals first | (cases h; done) | (cases h; rfl)

theorem changeBoundaries_root {t t' : Tree} {e : Expr} (h : t.changeBoundaries e = .ok t') : t'.root = t.root := by
  unfold Tree.changeBoundaries at h
  repeat' split at h
  all_goals first | (cases h; done) | (cases h; rfl)

/-- pool entries carry their request's id; the stored ids are those of the accepted requests -/
structure World.Conserved (w : World) : Prop where
  pool : ∀ p ∈ w.pool, p.2.id = p.1.id
  stored : (w.live.map Req.id).Nodup → (w.tree.root.contents.map Sub.id).Perm (w.live.map Req.id)

theorem step_conserved {R : Rounding} {w w' : World} {o : Op} (hw : w.Conserved) (h : w.step R o = .ok w') :
    w'.Conserved := by
  have add : ∀ (cfg : Config) (root' : CNode) (q : Req) (s : Sub), s.id = q.id → w.tree.root.insert R cfg s = .ok root' →
      ((q :: w.live).map Req.id).Nodup → (root'.contents.map Sub.id).Perm ((q :: w.live).map Req.id) := by
    intro cfg root' q s hid hins hnd
    have hnd' := (List.nodup_cons.1 hnd)
    have hp := hw.stored hnd'.2
    have hnd2 : ((s :: w.tree.root.contents).map Sub.id).Nodup := by
      rw [List.map_cons, List.nodup_cons, hid]
      exact ⟨fun hm => hnd'.1 (hp.mem_iff.1 hm), hp.nodup_iff.2 hnd'.2⟩
    refine ((CNode.insert_contents hnd2 hins).map Sub.id).trans ?_
    simp only [List.map_cons, hid]
    exact hp.cons _
  cases o with
  | insert q =>
    simp only [World.step] at h
    split at h
    · cases h
    · rename_i t ht
      cases h
      refine ⟨hw.pool, ?_⟩
      unfold Tree.insert at ht
      split at ht
      · cases ht
      · cases ht
      · rename_i sub cfg hprep
        split at ht
        · cases ht
        · rename_i root' hroot
          cases ht
          exact add cfg root' q sub (prepareInsert_id hprep) hroot
    · rename_i t ht
      cases h
      refine ⟨hw.pool, ?_⟩
      unfold Tree.insert at ht
      split at ht
      · cases ht
      · cases ht; exact hw.stored
      · split at ht <;> cases ht
  | makeSub q =>
    simp only [World.step] at h
    split at h
    · cases h
    · rename_i s t ht
      cases h
      refine ⟨?_, ?_⟩
      · intro p hp
        rcases List.mem_append.1 hp with hp | hp
        · exact hw.pool p hp
        · simp only [List.mem_singleton] at hp
          subst hp; exact makeSub_api_id ht
      · simp only [makeSub_api_root ht]; exact hw.stored
    · rename_i t ht
      cases h
      exact ⟨hw.pool, by simp only [makeSub_api_root ht]; exact hw.stored⟩
  | insertSub k =>
    simp only [World.step] at h
    split at h
    · cases h; exact hw
    · rename_i q s hk
      split at h
      · cases h
      · rename_i t ht
        cases h
        refine ⟨hw.pool, ?_⟩
        unfold Tree.insertSub at ht
        split at ht
        · cases ht
        · rename_i root' hroot
          cases ht
          exact add _ root' q s (hw.pool (q, s) (List.mem_of_getElem? hk)) hroot
  | changeBoundaries e =>
    simp only [World.step] at h
    split at h
    · cases h
    · rename_i t ht
      cases h
      exact ⟨hw.pool, by simp only [changeBoundaries_root ht]; exact hw.stored⟩

theorem run_conserved {R : Rounding} {ops : List Op} : ∀ {w w' : World}, w.Conserved → w.run R ops = .ok w' →
    w'.Conserved := by
  induction ops with
  | nil => intro w w' hw h; cases h; exact hw
  | cons o os ih =>
    intro w w' hw h
    simp only [World.run] at h
    split at h
    · cases h
    · rename_i w1 h1
      exact ih (step_conserved hw h1) h

theorem init_conserved (cap min : Nat) (decls : List (Str × Decl × Bool)) :
    (World.init (makeTree cap min decls)).Conserved :=
  ⟨by simp [World.init], fun _ => by
    simp [World.init, makeTree, emptyCNode, CNode.contents, PNodes.contents]⟩

/-- C05 over histories: after any sequence of insertions (one-step or two-step), boundary changes and restructurings on a
new tree, in which no id was accepted twice, the tree stores each accepted id exactly once and nothing else. -/
theorem C05_history_conserves (R : Rounding) (cap min : Nat) (decls : List (Str × Decl × Bool)) (ops : List Op) (w : World)
    (h : (World.init (makeTree cap min decls)).run R ops = .ok w) (hids : (w.live.map Req.id).Nodup) :
    (w.tree.root.contents.map Sub.id).Perm (w.live.map Req.id) :=
  (run_conserved (init_conserved cap min decls) h).stored hids

/-! ### C42 -/

mutual
theorem CNode.find_iff (id : Nat) : ∀ c : CNode, (∀ s, c.find id = some s → s ∈ c.contents ∧ s.id = id) ∧
    (c.find id = none → ∀ s ∈ c.contents, s.id ≠ id)
  | .mk subs max pns => by
    have ih := PNodes.find_iff id pns
    simp only [CNode.find, CNode.contents]
    cases hf : subs.find? (fun s => decide (s.id = id)) with
    | some x =>
      refine ⟨?_, by simp⟩
      intro s hs; cases hs
      exact ⟨List.mem_append_left _ (List.mem_of_find?_eq_some hf), by simpa using List.find?_some hf⟩
    | none =>
      refine ⟨fun s hs => ⟨List.mem_append_right _ (ih.1 s hs).1, (ih.1 s hs).2⟩, fun hn s hs => ?_⟩
      rcases List.mem_append.1 hs with hs | hs
      · simpa using List.find?_eq_none.1 hf s hs
      · exact ih.2 hn s hs
theorem PNodes.find_iff (id : Nat) : ∀ p : PNodes, (∀ s, p.find id = some s → s ∈ p.contents ∧ s.id = id) ∧
    (p.find id = none → ∀ s ∈ p.contents, s.id ≠ id)
  | .nil => by simp [PNodes.find, PNodes.contents]
  | .cons v sc cd rest => by
    have ih := CDir.find_iff id cd
    have ih2 := PNodes.find_iff id rest
    simp only [PNodes.find, PNodes.contents]
    cases hf : cd.find id with
    | some x =>
      refine ⟨?_, by simp⟩
      intro s hs; cases hs
      exact ⟨List.mem_append_left _ (ih.1 _ hf).1, (ih.1 _ hf).2⟩
    | none =>
      refine ⟨fun s hs => ⟨List.mem_append_right _ (ih2.1 s hs).1, (ih2.1 s hs).2⟩, fun hn s hs => ?_⟩
      rcases List.mem_append.1 hs with hs | hs
      · exact ih.2 hf s hs
      · exact ih2.2 hn s hs
theorem CDir.find_iff (id : Nat) : ∀ c : CDir, (∀ s, c.find id = some s → s ∈ c.contents ∧ s.id = id) ∧
    (c.find id = none → ∀ s ∈ c.contents, s.id ≠ id)
  | .leaf v b c => by
    simpa only [CDir.find, CDir.contents] using CNode.find_iff id c
  | .node v b c l r => by
    have ih := CNode.find_iff id c
    have ihl := CDir.find_iff id l
    have ihr := CDir.find_iff id r
    simp only [CDir.find, CDir.contents]
    cases hf : c.find id with
    | some x =>
      refine ⟨?_, by simp⟩
      intro s hs; cases hs
      exact ⟨by simp [(ih.1 _ hf).1], (ih.1 _ hf).2⟩
    | none =>
      cases hfl : l.find id with
      | some x =>
        refine ⟨?_, by simp⟩
        intro s hs; cases hs
        exact ⟨by simp [(ihl.1 _ hfl).1], (ihl.1 _ hfl).2⟩
      | none =>
        refine ⟨fun s hs => ⟨by simp [(ihr.1 s hs).1], (ihr.1 s hs).2⟩, fun hn s hs => ?_⟩
        rcases List.mem_append.1 hs with hs | hs
        · rcases List.mem_append.1 hs with hs | hs
          · exact ih.2 hf s hs
          · exact ihl.2 hfl s hs
        · exact ihr.2 hn s hs
end

/-- C42 on any tree: the lookup finds a stored subscription with the id, if there is one. -/
theorem C42_find_stored (t : Tree) (id : Nat) :
    (∀ s, t.find id = some s → s ∈ t.root.contents ∧ s.id = id) ∧
    (t.find id = none ↔ ∀ s ∈ t.root.contents, s.id ≠ id) := by
  refine ⟨(CNode.find_iff id t.root).1, (CNode.find_iff id t.root).2, fun h => ?_⟩
  cases hf : t.find id with
  | none => rfl
  | some s =>
    have := (CNode.find_iff id t.root).1 s hf
    exact absurd this.2 (h s this.1)

/-- C42 over histories: an id is found exactly when a request with that id was accepted. -/
theorem C42_find_history (R : Rounding) (cap min : Nat) (decls : List (Str × Decl × Bool)) (ops : List Op) (w : World)
    (h : (World.init (makeTree cap min decls)).run R ops = .ok w) (hids : (w.live.map Req.id).Nodup) (id : Nat) :
    (∃ s, w.tree.find id = some s ∧ s.id = id) ↔ ∃ q ∈ w.live, q.id = id := by
  have hp := C05_history_conserves R cap min decls ops w h hids
  have hf := C42_find_stored w.tree id
  constructor
  · rintro ⟨s, hs, hid⟩
    have := hp.mem_iff.1 (List.mem_map_of_mem (f := Sub.id) (hf.1 s hs).1)
    obtain ⟨q, hq, hqi⟩ := List.mem_map.1 this
    exact ⟨q, hq, hqi.trans hid⟩
  · rintro ⟨q, hq, rfl⟩
    have := hp.mem_iff.2 (List.mem_map_of_mem (f := Req.id) hq)
    obtain ⟨s, hs, hsi⟩ := List.mem_map.1 this
    cases hfi : w.tree.find q.id with
    | none => exact absurd hsi (hf.2.1 hfi s hs)
    | some s' => exact ⟨s', rfl, (hf.1 s' hfi).2⟩

/-! ### a concrete history, and one with a repeated id -/

/-- no rounding -/
def exactRounding : Rounding := { rnd64 := id, rnd32 := id }

def exampleDecls : List (Str × Decl × Bool) :=
  [("i".toList, .int 0 10, false), ("b".toList, .bool, true)]

def exI (op : CmpOp) (k : Int) : Expr := .leaf (.compare op ⟨"i".toList, 0⟩ (.int k))
def exB : Expr := .leaf (.boolVar ⟨"b".toList, 0⟩)

/-- six insertions by both ways into leaves of capacity 2: the tree partitions on `i` and `b` and clusters -/
def exampleOps : List Op :=
  [.insert ⟨1, [], exI .lt 3⟩, .insert ⟨2, [], exI .gt 7⟩, .makeSub ⟨3, [], .and exB (exI .le 2)⟩, .insert ⟨4, [], exB⟩,
   .insertSub 0, .insert ⟨5, [], .not exB⟩, .insert ⟨6, [], exI .ge 9⟩]

/-- the ids stored after a history -/
def storedIds (R : Rounding) (t : Tree) (ops : List Op) : Option (List Nat × List Nat) :=
  match (World.init t).run R ops with
  | .error _ => none
  | .ok w => some (w.tree.root.contents.map Sub.id, w.live.map Req.id)

example : storedIds exactRounding (makeTree 2 0 exampleDecls) exampleOps = some ([4, 5, 1, 3, 2, 6], [6, 5, 3, 4, 2, 1]) := by
  decide +kernel

/-- C05 needs distinct ids: when an id is used twice, restructuring moves the later subscription but removes the earlier one
from the leaf.  Here `i < 3` (inserted first) disappears and `b` is stored twice. -/
theorem C05_duplicate_id_loses_subscription :
    ∃ w, (World.init (makeTree 1 0 [("i".toList, .int 0 10, true), ("b".toList, .bool, false)])).run exactRounding
        [.insert ⟨1, [], exI .lt 3⟩, .insert ⟨1, [], exB⟩] = .ok w ∧
      w.live.map Req.expr = [exB, exI .lt 3] ∧
      w.tree.root.contents.map (fun s : Sub => s.expr.erase) =
        [.leaf (.boolVar ⟨"b".toList, 1⟩), .leaf (.boolVar ⟨"b".toList, 1⟩)] := by
  have h : (match (World.init (makeTree 1 0 [("i".toList, .int 0 10, true), ("b".toList, .bool, false)])).run exactRounding
        [.insert ⟨1, [], exI .lt 3⟩, .insert ⟨1, [], exB⟩] with
      | .error _ => none
      | .ok w => some (w.live.map Req.expr, w.tree.root.contents.map (fun s : Sub => s.expr.erase))) =
      some ([exB, exI .lt 3], [.leaf (.boolVar ⟨"b".toList, 1⟩), .leaf (.boolVar ⟨"b".toList, 1⟩)]) := by decide +kernel
  split at h
  · cases h
  · rename_i w hw
    exact ⟨w, hw, by simpa using h⟩

end BeTree
