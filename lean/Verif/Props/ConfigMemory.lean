import Verif.Lemmas.ConfigMemory
import Verif.Lemmas.Filled
import Verif.Props.Memory
/-
C62: the memory of the configuration, and its tables as the code keeps them.
-/
namespace BeTree
open Spec

/-- C62: a tree is created in a heap and variables are declared, and whatever is called on it goes well (`plainRun`, without memory, tables as
lists).  Then with the tables as the code keeps them - hash maps with any hash function, arrays, a red-black tree - no call reads, frees or
reallocates a block of the configuration that is not allocated, the result is the same, and the heap then holds exactly what it held before
and the blocks of the configuration, each once; their number is the one that the declarations, texts, integers and predicates need. -/
theorem C62_tables (H : Str → Nat) (R : Rounding) (cap min : Nat) (decls : List (Str × Decl × Bool)) (ops : List MemOp) (t : TextWorld)
    (h : Heap) (hh : Holds h h.live) (hrun : (TextWorld.init (makeTree cap min decls)).plainRun R ops = .ok t) :
    ∃ w0 w h0 h1, ConfigWorld.init cap min decls h = .ok (w0, h0) ∧ w0.run H R ops h0 = .ok (w, h1) ∧ w.world = t ∧
      h1.live.Perm (w.img.blocks ++ h.live) ∧ h1.live.Nodup ∧ w.img.blocks.length = t.tree.cfg.blockCount := by
  obtain ⟨w0, w, h0, h1, e0, e1, g, hh1, hf⟩ := configRun_holds H R cap min decls ops t h hh hrun
  exact ⟨w0, w, h0, h1, e0, e1, g, hh1.1, hh1.1.nodup_iff.mpr hh1.2.1, hf.count⟩

/-- C62: after any calls, the hash map of an attribute finds for each text its place in the order of first use, and nothing for others,
whatever the hash function; and the red-black tree has exactly the predicates of the predicate map. -/
theorem C62_lookup (H : Str → Nat) (R : Rounding) (cap min : Nat) (decls : List (Str × Decl × Bool)) (ops : List MemOp) (t : TextWorld)
    (h : Heap) (hh : Holds h h.live) (hrun : (TextWorld.init (makeTree cap min decls)).plainRun R ops = .ok t) :
    ∃ w0 w h0 h1, ConfigWorld.init cap min decls h = .ok (w0, h0) ∧ w0.run H R ops h0 = .ok (w, h1) ∧
      w.img.strs.length = t.tree.cfg.stringMaps.length ∧ w.img.preds.exprs = t.tree.cfg.predMap.m ∧
      ∀ (k : Nat) (m : StringMap) (i : StrImg), t.tree.cfg.stringMaps[k]? = some m → w.img.strs[k]? = some i →
        i.var = m.attr.var ∧ i.count = m.values.length ∧
        (m.values ≠ [] → ∃ x, i.map = some x ∧ ∀ s, (x.map.get H s).map (·.1) = m.values.idxOf? s) := by
  obtain ⟨w0, w, h0, h1, e0, e1, g, _, hf⟩ := configRun_holds H R cap min decls ops t h hh hrun
  refine ⟨w0, w, h0, h1, e0, e1, hf.strs.length_eq.symm, hf.preds, fun k m i hm hi => ?_⟩
  have hs := forall₂_at hf.strs hm hi
  refine ⟨hs.var, hs.count, fun hv => ?_⟩
  obtain ⟨x, hx, hfit⟩ := hs.some hv
  exact ⟨x, hx, hfit.get⟩

/-- C62: if no declared limit is zero and no table outgrows a `size_t`, then freeing the configuration after any calls succeeds and gives back
all of it. -/
theorem C62_freed (H : Str → Nat) (R : Rounding) (cap min : Nat) (decls : List (Str × Decl × Bool))
    (hlim : ∀ d ∈ decls, d.2.1.LimitNonzero) (ops : List MemOp) (t : TextWorld) (hfit : t.tree.cfg.TablesFit)
    (h : Heap) (hh : Holds h h.live) (hrun : (TextWorld.init (makeTree cap min decls)).plainRun R ops = .ok t) :
    ∃ w0 w h0 h1 h2, ConfigWorld.init cap min decls h = .ok (w0, h0) ∧ w0.run H R ops h0 = .ok (w, h1) ∧
      w.img.free h1 = .ok ((), h2) ∧ h2.live.Perm h.live := by
  obtain ⟨w0, w, h0, h1, e0, e1, g, hh1, hf⟩ := configRun_holds H R cap min decls ops t h hh hrun
  obtain ⟨hi, ht⟩ := makeTree_filled (cap := cap) (min := min) hlim
  have hc := plainRun_filled ops hrun hi ht hfit
  obtain ⟨_, h2, M, e2, rfl, hh2⟩ := Does.run (CfgImg.free_does hf.domArr.mp hf.intArr.mp hf.strArr.mp (hf.maps hc)) h1 h.live hh1
  exact ⟨w0, w, h0, h1, h2, e0, e1, e2, hh2.1⟩

/-! ### a limit of zero -/

/-- two string attributes, the second with the limit zero -/
def zeroLimitDecls : List (Str × Decl × Bool) := [("s".toList, .string 2, true), ("z".toList, .string 0, true)]

def zeroLimitOps : List MemOp := [.call (.insert (memReq 1 "s = 'a'")), .call (.insert (memReq 2 "z = 'b'"))]

/-- what the freeing of the configuration does after these calls, if they go well -/
def freeOutcome (decls : List (Str × Decl × Bool)) (ops : List MemOp) : Option (Option Fault) :=
  match ((do
    let w0 ← ConfigWorld.init 1 0 decls
    w0.run mapHash exactRounding ops : Mem ConfigWorld)) noHeap with
  | .error _ => none
  | .ok (w, h) =>
    match w.img.free h with
    | .error x => some (some x)
    | .ok _ => some none

/-- C62 asks for limits that are not zero: with the limit zero the table of an attribute is made and nothing is put into it, and unless it is
the first of all tables its map was never initialised.  The calls go well; freeing the tree then reads, and may free, whatever the memory
held (config.c:232-254, 347-371, 56-63). -/
theorem C62_zero_limit : (∃ t, (TextWorld.init (makeTree 1 0 zeroLimitDecls)).plainRun exactRounding zeroLimitOps = .ok t) ∧
    freeOutcome zeroLimitDecls zeroLimitOps = some (some .ub) := by
  refine ⟨?_, by decide +kernel⟩
  have h : (match (TextWorld.init (makeTree 1 0 zeroLimitDecls)).plainRun exactRounding zeroLimitOps with
      | .ok _ => true
      | .error _ => false) = true := by decide +kernel
  split at h
  · rename_i t ht
    exact ⟨t, ht⟩
  · cases h

/-! ### examples -/

/-- attributes of several kinds -/
def configDecls : List (Str × Decl × Bool) :=
  [("i".toList, .int 0 10, true), ("b".toList, .bool, true), ("s".toList, .string 2, true), ("t".toList, .strList 2, true),
   ("e".toList, .intEnum 2, true), ("l".toList, .intList 0 10, true)]

/-- texts and integers for three attributes, more than a limit when taught, a refused expression and a predicate met twice -/
def configOps : List MemOp :=
  [.call (.insert (memReq 1 "i < 3 and s = 'a'")), .call (.makeSub (memReq 2 "s = 'b' or s = 'c'")), .call (.insertSub 0), .search,
   .call (.changeBoundaries "t one of ('x', 'y', 'z')".toList), .call (.insert (memReq 3 "e = 7 and l one of (1, 2)")),
   .call (.insert (memReq 4 "nope = 1")), .call (.insert (memReq 5 "s = 'a' and not b"))]

/-- how many blocks the configuration has after these calls, how many it needs, and what is left after the freeing; or what went wrong -/
def configBlocks (ops : List MemOp) : (Nat × Nat × Nat) ⊕ Fault :=
  match ((do
    let w0 ← ConfigWorld.init 1 0 configDecls
    w0.run mapHash exactRounding ops : Mem ConfigWorld)) noHeap with
  | .error x => .inr x
  | .ok (w, h) =>
    match w.img.free h with
    | .error x => .inr x
    | .ok (_, h2) => .inl (h.live.length, w.world.tree.cfg.blockCount, h2.live.length)

/-- the calls go well, the limits are not zero and the tables fit, as the theorems ask; two tables of strings with three texts each -/
example : (∃ t, (TextWorld.init (makeTree 1 0 configDecls)).plainRun exactRounding configOps = .ok t ∧ t.tree.cfg.blockCount = 42 ∧
    t.tree.cfg.stringMaps.map (·.values.length) = [3, 3] ∧ t.tree.cfg.TablesFit) ∧ (∀ d ∈ configDecls, d.2.1.LimitNonzero) ∧
    Holds noHeap noHeap.live := by
  have h : (match (TextWorld.init (makeTree 1 0 configDecls)).plainRun exactRounding configOps with
      | .ok t => decide (t.tree.cfg.blockCount = 42 ∧ t.tree.cfg.stringMaps.map (·.values.length) = [3, 3] ∧
          (∀ m ∈ t.tree.cfg.stringMaps, m.values.length < sizeMax) ∧ ∀ m ∈ t.tree.cfg.intMaps, m.values.length < sizeMax)
      | .error _ => false) = true := by decide +kernel
  refine ⟨?_, ?_, noHeap_holds⟩
  · split at h
    · rename_i t ht
      obtain ⟨h1, h2, h3⟩ := of_decide_eq_true h
      exact ⟨t, ht, h1, h2, h3⟩
    · cases h
  · simp only [configDecls, List.forall_mem_cons, Decl.LimitNonzero]
    simp

example : configBlocks configOps = .inl (42, 42, 0) := by decide +kernel

/-- `empty_tree` gives back the nodes of the predicates -/
example : configBlocks (configOps ++ [.empty]) = .inl (30, 30, 0) := by decide +kernel

/-- the model does notice a configuration freed twice -/
example : (match ((do
    let w ← ConfigWorld.init 1 0 configDecls
    w.img.free
    w.img.free : Mem Unit)) noHeap with
  | .error x => decide (x = .ub)
  | .ok _ => false) = true := by decide +kernel

end BeTree
