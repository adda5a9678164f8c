import Verif.Lemmas.NodeMemory
import Verif.Props.Memory
/-
C61: the memory of the tree's own nodes.
-/
namespace BeTree
open Spec

/-- C61: a tree is created in a heap, and whatever is called on it goes well (`plainRun`, without memory).  Then no call reads, frees or
reallocates a block of a node, directory or array that is not allocated, the result is the same, and the heap then holds exactly what it
held before and the blocks of the tree's nodes, each once; their number is the one that the shape of the tree needs.  Freeing the tree
succeeds and gives back all of them. -/
theorem C61_nodes (R : Rounding) (tree : Tree) (hempty : tree.root = emptyCNode tree.cfg) (ops : List MemOp) (t : TextWorld)
    (h : Heap) (hh : Holds h h.live) (hrun : (TextWorld.init tree).plainRun R ops = .ok t) :
    ∃ w0 w h0 h1 h2, NodeWorld.init tree h = .ok (w0, h0) ∧ w0.run R ops h0 = .ok (w, h1) ∧ w.world = t ∧
      h1.live.Perm (w.root.blocks ++ h.live) ∧ h1.live.Nodup ∧ w.root.blocks.length = t.tree.root.blockCount ∧
      w.root.free h1 = .ok ((), h2) ∧ h2.live.Perm h.live := by
  have d0 : Does (NodeWorld.init tree) [] (LeavesW (TextWorld.init tree)) := by
    refine makeCNodeMem_does fun c l => Does.pure (L' := [c, l]) (by blocks) ⟨rfl, rfl, ?_⟩
    simp only [TextWorld.init, hempty]
    exact ⟨by simp, by simp, trivial⟩
  obtain ⟨w0, h0, _, e0, ⟨g1, rfl, g2⟩, hh0⟩ := Does.run d0 h h.live hh
  obtain ⟨w, h1, _, e1, ⟨g3, rfl, g4⟩, hh1⟩ := Does.run (nodeRun_does ops (w := w0) (by rw [g1]; exact g2) (by rw [g1]; exact hrun)) h0 h.live hh0
  obtain ⟨_, h2, M, e2, g5, hh2⟩ := Does.run (CImg.free_does w.root) h1 h.live hh1
  refine ⟨w0, w, h0, h1, h2, e0, e1, g3, hh1.1, hh1.1.nodup_iff.mpr hh1.2.1, CImg.count _ _ g4, e2, ?_⟩
  subst g5
  exact hh2.1

/-- C61: `empty_tree` leaves exactly the two blocks of an empty root, however large the tree was. -/
theorem C61_emptied (R : Rounding) (tree : Tree) (hempty : tree.root = emptyCNode tree.cfg) (ops : List MemOp) (t : TextWorld)
    (h : Heap) (hh : Holds h h.live) (hrun : (TextWorld.init tree).plainRun R ops = .ok t) :
    ∃ w0 w h0 h1, NodeWorld.init tree h = .ok (w0, h0) ∧ w0.run R (ops ++ [.empty]) h0 = .ok (w, h1) ∧ h1.live.length = h.live.length + 2 := by
  have hr : ∀ (os : List MemOp) (x : TextWorld), x.plainRun R os = .ok t →
      x.plainRun R (os ++ [.empty]) = .ok { t with tree := t.tree.emptied, live := [] } := by
    intro os
    induction os with
    | nil => intro x hx; cases hx; rfl
    | cons o os ih =>
      intro x hx
      simp only [TextWorld.plainRun, List.cons_append] at hx ⊢
      cases hs : x.plainStep R o with
      | error e => rw [hs] at hx; cases hx
      | ok y => rw [hs] at hx; exact ih y hx
  obtain ⟨w0, w, h0, h1, _, e0, e1, _, hp, _, hn, _⟩ := C61_nodes R tree hempty _ _ h hh (hr ops _ hrun)
  refine ⟨w0, w, h0, h1, e0, e1, ?_⟩
  rw [hp.length_eq, List.length_append, hn]
  simp only [Tree.emptied, emptyCNode, CNode.blockCount, PNodes.blockCount, dirCount, List.length_nil]
  simp
  omega

/-! ### examples -/

/-- partitions, cuts and moves: a tree with small leaves -/
def nodeOps : List MemOp :=
  [.call (.insert (memReq 1 "i < 3")), .call (.insert (memReq 2 "i = 1")), .call (.insert (memReq 3 "i > 8")),
   .call (.makeSub (memReq 4 "i > 7 or b")), .call (.insertSub 0), .search, .call (.insert (memReq 5 "z = 1")),
   .call (.insert (memReq 6 "i = 9 and s = 'a'")), .call (.insert (memReq 7 "b")), .call (.insert (memReq 8 "not b and i < 5"))]

/-- how many blocks the nodes have after these calls, what the shape needs, and what is left after the freeing; or what went wrong -/
def nodeBlocks (ops : List MemOp) : (Nat × Nat × Nat) ⊕ Fault :=
  match ((do
    let w0 ← NodeWorld.init (makeTree 1 0 memDecls)
    w0.run exactRounding ops : Mem NodeWorld)) noHeap with
  | .error x => .inr x
  | .ok (w, h) =>
    match w.root.free h with
    | .error x => .inr x
    | .ok (_, h2) => .inl (h.live.length, w.world.tree.root.blockCount, h2.live.length)

/-- the calls go well and the tree is an empty one at first, as the theorems ask; the tree then has 65 blocks -/
example : (∃ t, (TextWorld.init (makeTree 1 0 memDecls)).plainRun exactRounding nodeOps = .ok t ∧ t.tree.root.blockCount = 65 ∧
    t.tree.root.contents.length = 7) ∧ (makeTree 1 0 memDecls).root = emptyCNode (makeTree 1 0 memDecls).cfg := by
  have h : (match (TextWorld.init (makeTree 1 0 memDecls)).plainRun exactRounding nodeOps with
      | .ok t => decide (t.tree.root.blockCount = 65 ∧ t.tree.root.contents.length = 7)
      | .error _ => false) = true := by decide +kernel
  refine ⟨?_, rfl⟩
  split at h
  · rename_i t ht
    exact ⟨t, ht, by simpa using h⟩
  · cases h

example : nodeBlocks nodeOps = .inl (65, 65, 0) := by decide +kernel

example : nodeBlocks (nodeOps ++ [.empty]) = .inl (2, 2, 0) := by decide +kernel

/-- the model does notice a block freed twice -/
example : (match ((do
    let w ← NodeWorld.init (makeTree 1 0 memDecls)
    w.root.free
    w.root.free : Mem Unit)) noHeap with
  | .error x => decide (x = .ub)
  | .ok _ => false) = true := by decide +kernel

end BeTree
