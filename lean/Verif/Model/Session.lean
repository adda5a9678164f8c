import Verif.Model.ObjMemory
import Verif.Model.ConfigMemory
/-
All memory of a tree in one heap, from `betree_make` to `betree_free`: the tree's own block, the subscriptions and expressions, the events and
reports (made from texts or by the caller), the nodes, the configuration.  Simplification: within a call, what it does to the subscriptions comes first, then to the nodes, then
to the configuration; in the code these alternate.  Each part is the function-by-function model of its file.
-/
namespace BeTree

/-- `struct betree` (betree.h:48-51) and what is reached from it; each part has the world of the calls with it -/
structure Session where
  tree : Nat
  subs : EventWorld
  nodes : NodeWorld
  config : ConfigWorld

/-- `betree_make_with_parameters` and the declarations (betree.c:638-660, 674-723) -/
def Session.init (lnodeMaxCap partitionMinSize : Nat) (decls : List (Str × Decl × Bool)) : Mem Session := do
  let c ← ConfigWorld.init lnodeMaxCap partitionMinSize decls
  let t ← malloc
  let n ← NodeWorld.init (makeTree lnodeMaxCap partitionMinSize decls)
  pure { tree := t, subs := ⟨MemWorld.init (makeTree lnodeMaxCap partitionMinSize decls), []⟩, nodes := n, config := c }

/-- what a call is for the nodes and the configuration (betree.c:459-604): a search or an existence test only reads them -/
def UserOp.memOp : UserOp → MemOp
  | .tree o => o
  | .search _ => .search
  | .exists _ => .search

/-- the same of a call with events of the caller (betree.c:584-604, 754-954) -/
def EventOp.memOp : EventOp → MemOp
  | .user o => o.memOp
  | _ => .search

/-- One call (betree.c:459-625, 754-954, helper.c:97-105). -/
def Session.step (H : Str → Nat) (geo : GeoTest) (R : Rounding) (s : Session) (o : EventOp) : Mem (Session × List Answer) := do
  touch s.tree
  let a ← s.subs.step geo R o
  let n ← s.nodes.step R o.memOp
  let c ← s.config.step H R o.memOp
  pure ({ s with subs := a.1, nodes := n, config := c }, a.2)

/-- A sequence of calls (betree.c:459-625, 754-954), and all answers. -/
def Session.run (H : Str → Nat) (geo : GeoTest) (R : Rounding) (s : Session) : List EventOp → Mem (Session × List Answer)
  | [] => pure (s, [])
  | o :: os => do
    let a ← s.step H geo R o
    let b ← a.1.run H geo R os
    pure (b.1, a.2 ++ b.2)

/-- `betree_free` (betree.c:662-672): the subscriptions and the nodes, the configuration, the tree -/
def Session.free (s : Session) : Mem Unit := do
  touch s.tree
  s.subs.mem.freeTree
  s.nodes.root.free
  s.config.img.free
  bfree s.tree

end BeTree
