import Verif.Lemmas.Session
import Verif.Props.ObjMemory
import Verif.Props.ConfigMemory
/-
C63: all memory of a tree, from its creation to `betree_free`.
-/
namespace BeTree
open Spec

/-- C63: a tree is created in a heap, variables are declared, and calls of all kinds follow, with searches and existence tests on texts of
events and on events that the caller makes, fills, uses again and frees.  If they go well without memory, no declared limit is zero and no
table outgrows a `size_t`, with subscriptions made under different ids and each built subscription inserted at most once, then they go well
with all memory in one heap, with the same answers; the nodes and the tables are those of the tree the calls make without memory, have as
many blocks as that tree calls for, and share no block with each other or with anything else; the caller can then free the events it still has and the tree, and the blocks that were
there before the tree are still there.  If moreover no entry of an event or of a list is written twice, all texts parse, the insertions in
one step have their constants, all built subscriptions were inserted and no search was turned down, then exactly those blocks are left:
nothing was lost. -/
theorem C63_session (H : Str → Nat) (geo : GeoTest) (R : Rounding) (cap min : Nat) (decls : List (Str × Decl × Bool)) (ops : List EventOp)
    (t : EventPlain) (answers : List Answer) (h : Heap) (hh : Holds h h.live) (hlim : ∀ d ∈ decls, d.2.1.LimitNonzero)
    (hrun : (EventPlain.mk (TextWorld.init (makeTree cap min decls)) []).run geo R ops = .ok (t, answers)) (hfit : t.world.tree.cfg.TablesFit)
    (hids : (newIds (treeOps (userOps ops))).Nodup) (honce : (insertedSubs (treeOps (userOps ops))).Nodup) :
    ∃ s0 s h0 h1 h2 h3, Session.init cap min decls h = .ok (s0, h0) ∧ s0.run H geo R ops h0 = .ok ((s, answers), h1) ∧
      s.subs.mem.world = t.world ∧ s.subs.objs.map (Option.map ObjMem.obj) = t.objs ∧ s.nodes.world = t.world ∧ s.config.world = t.world ∧
      s.nodes.root.blocks.length = t.world.tree.root.blockCount ∧ s.config.img.blocks.length = t.world.tree.cfg.blockCount ∧
      (∃ M, h1.live.Perm (M ++ (s.tree :: (s.nodes.root.blocks ++ s.config.img.blocks)) ++ h.live)) ∧
      freeObjs s.subs.objs h1 = .ok ((), h2) ∧ s.free h2 = .ok ((), h3) ∧ (∃ L, h3.live.Perm (L ++ h.live)) ∧
      ((setAt ops).Nodup → (∀ o ∈ ops, o.MadeOnce) → (∀ o ∈ treeOps (userOps ops), Clean o) →
        (∀ k < t.world.pool.length, k ∈ doneIn R (TextWorld.init (makeTree cap min decls)) (treeOps (userOps ops))) →
        (∀ a ∈ answers, Answered a) → h3.live.Perm h.live) := by
  have hw : Owned (MemWorld.init (makeTree cap min decls)) [] [] [] [] := by
    refine ⟨.refl _, List.nodup_nil, ?_, by simp [MemWorld.init], by simp [MemWorld.init, TextWorld.init],
      by simp [MemWorld.init, TextWorld.init], by simp, by simp⟩
    simp [MemWorld.init, TextWorld.init, makeTree, emptyCNode, CNode.contents, PNodes.contents]
  have ha : Ahead (MemWorld.init (makeTree cap min decls)) [] (treeOps (userOps ops)) :=
    ⟨hids, by simp [MemWorld.init], honce, by simp [MemWorld.init, TextWorld.init]⟩
  obtain ⟨s0, h0, M0, e0, ⟨g1, g2, g3⟩, hh0⟩ := Does.run (sessionInit_does H cap min decls) h h.live hh
  have hh0' : Holds h0 ((Objs.flat ([] ++ []) ++ (heldBlocks s0.subs.objs ++ []) ++ s0.rest) ++ h.live) :=
    hh0.perm (by rw [g1]; simpa [Objs.flat] using g3.append_right _)
  obtain ⟨⟨s, as⟩, h1, M1, e1, ⟨rfl, rfl, k2, st, wt, gn, L, dn, hdn, hM, hw1, hc⟩, hh1⟩ :=
    Does.run (sessionRun_does (H := H) (L := []) ops g2 (by rw [g1]; exact hw) (by rw [g1]; intro o ho; cases ho) (by rw [g1]; exact ha)
      (by rw [g1]; exact hrun)) h0 h.live hh0'
  obtain ⟨i1, i2⟩ := makeTree_filled (cap := cap) (min := min) hlim
  have hfilled := plainRun_filled _ (eventRun_plain ops hrun) i1 i2 hfit
  have hh1' : Holds h1 (heldBlocks s.subs.objs ++ (Objs.flat (st ++ wt) ++ L ++ s.rest ++ h.live)) :=
    hh1.perm ((hM.append_right _).trans (by blocks))
  obtain ⟨_, h2, _, e2, rfl, hh2⟩ := Does.run (freeObjs_does s.subs.objs) h1 _ hh1'
  obtain ⟨_, h3, M3, e3, hM3, hh3⟩ := Does.run (Session.free_does k2 hw1 hfilled) h2 h.live hh2
  refine ⟨s0, s, h0, h1, h2, h3, e0, e1, rfl, rfl, k2.nodeWorld, k2.configWorld, CImg.count _ _ k2.nodes, k2.config.count,
    ⟨_, (hh1.perm (hM.append_right _)).1⟩, e2, e3, ⟨_, hh3.1⟩, fun hset hmade hcl hdone han => ?_⟩
  have hwt : wt = [] := by
    cases wt with
    | nil => rfl
    | cons p ps =>
      obtain ⟨k, x, hk, _, hn⟩ := hw1.waits p (by simp)
      obtain ⟨hlt, _⟩ := List.getElem?_eq_some_iff.mp hk
      rw [g1] at hdn
      exact absurd (by simpa using (hdn k).mpr (hdone k hlt)) hn
  subst hwt
  have := hh3.1.trans (hM3.append_right _)
  rw [hc hset (by rw [g1]; intro x _ o ho; cases ho) hcl hmade han] at this
  simpa [Objs.flat] using this

/-! ### examples -/

/-- the calls of C59's example and more: expressions with integers and texts, boundaries, a tree with small leaves, events of the caller that
are used before and after other calls, one of them kept to the end, and the tree emptied -/
def sessionOps : List EventOp :=
  memUserOps.map .user ++
  [.user (.tree (.call (.insert (memReq 3 "i = 9 and s = 'a'")))), .make, .set 0 0 "i".toList (.int 9),
   .set 0 3 "l".toList (listOf ["y", "a", "y", "b"]), .search [0, 0],
   .user (.tree (.call (.changeBoundaries "l one of ('x', 'y')".toList))),
   .user (.tree (.call (.insert (memReq 4 "i > 5 and not b")))), .user (.search ["{\"i\": 9, \"s\": \"a\", \"b\": false}".toList]),
   .make, .set 1 0 "i".toList (.int 3), .search [0, 1], .free 0, .user (.tree .empty),
   .user (.tree (.call (.insert (memReq 5 "i < 4")))), .exists 1, .user (.exists "{\"i\": 1}".toList)]

/-- how many blocks there are after the calls, and how many after the freeing of the events and the tree; or what went wrong -/
def sessionBlocks (ops : List EventOp) : (Nat × Nat) ⊕ Fault :=
  match ((do
    let s ← Session.init 1 0 memEventDecls
    s.run mapHash exGeo exactRounding ops : Mem (Session × List Answer))) noHeap with
  | .error x => .inr x
  | .ok (s, h) =>
    match ((do
      freeObjs s.1.subs.objs
      s.1.free : Mem Unit)) h with
    | .error x => .inr x
    | .ok (_, h2) => .inl (h.live.length, h2.live.length)

/-- all conditions of the theorem are met by these calls -/
example : ∃ t as, (EventPlain.mk (TextWorld.init (makeTree 1 0 memEventDecls)) []).run exGeo exactRounding sessionOps = .ok (t, as) ∧
    (∀ d ∈ memEventDecls, d.2.1.LimitNonzero) ∧ t.world.tree.cfg.TablesFit ∧
    (newIds (treeOps (userOps sessionOps))).Nodup ∧ (insertedSubs (treeOps (userOps sessionOps))).Nodup ∧
    (setAt sessionOps).Nodup ∧ (∀ o ∈ sessionOps, o.MadeOnce) ∧ (∀ o ∈ treeOps (userOps sessionOps), Clean o) ∧
    (∀ k < t.world.pool.length, k ∈ doneIn exactRounding (TextWorld.init (makeTree 1 0 memEventDecls)) (treeOps (userOps sessionOps))) ∧
    (∀ a ∈ as, Answered a) := by
  have h : (match (EventPlain.mk (TextWorld.init (makeTree 1 0 memEventDecls)) []).run exGeo exactRounding sessionOps with
      | .ok (t, as) => decide (t.world.pool.length = 1 ∧ (∀ m ∈ t.world.tree.cfg.stringMaps, m.values.length < sizeMax) ∧
          ∀ m ∈ t.world.tree.cfg.intMaps, m.values.length < sizeMax) && as.all fun a => match a with
        | .report _ bs => bs.all id
        | .found _ => true
      | .error _ => false) = true := by decide +kernel
  have hd : 0 ∈ doneIn exactRounding (TextWorld.init (makeTree 1 0 memEventDecls)) (treeOps (userOps sessionOps)) := by decide +kernel
  have hc : (treeOps (userOps sessionOps)).all cleanB = true := by decide +kernel
  split at h
  · rename_i t as ht
    rw [Bool.and_eq_true, List.all_eq_true] at h
    obtain ⟨h1, h2⟩ := of_decide_eq_true h.1
    refine ⟨t, as, ht, ?_, h2, by decide +kernel, by decide +kernel, by decide +kernel, ?_,
      fun o ho => clean_of_check (List.all_eq_true.mp hc o ho), ?_, ?_⟩
    · simp only [memEventDecls, List.forall_mem_cons, Decl.LimitNonzero]
      simp
    · simp only [sessionOps, memUserOps, List.map_cons, List.map_nil, List.cons_append, List.nil_append, List.forall_mem_cons, EventOp.MadeOnce,
        Recipe.Once, listOf]
      simp [List.range, List.range.loop]
    · intro k hk
      obtain rfl : k = 0 := by omega
      exact hd
    · intro a ha
      have := h.2 a ha
      cases a with
      | report r bs => intro hf; exact absurd (List.all_eq_true.mp this _ hf) (by simp)
      | found b => trivial
  · cases h

/-- before the tree is emptied there are 118 blocks -/
example : sessionBlocks (sessionOps.take 18) = .inl (118, 0) := by decide +kernel

example : sessionBlocks sessionOps = .inl (38, 0) := by decide +kernel

/-- a search that is turned down loses one block (C59_missing_variable_leaks), and setting a variable again those of the first one
(C64_overwritten_leaks) -/
example : sessionBlocks (sessionOps ++ [.user (.search ["{\"b\": true}".toList])]) = .inl (39, 1) ∧
    sessionBlocks (sessionOps ++ [.set 1 0 "i".toList (.int 4)]) = .inl (40, 2) := by
  constructor <;> decide +kernel

/-- the model does notice a tree freed twice -/
example : (match ((do
    let s ← Session.init 1 0 memEventDecls
    s.free
    s.free : Mem Unit)) noHeap with
  | .error x => decide (x = .ub)
  | .ok _ => false) = true := by decide +kernel

end BeTree
