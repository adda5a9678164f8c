import Verif.Model.Memory
import Verif.Model.TextApi
import Verif.Model.Helper
/-
Memory over a sequence of calls: the blocks of the expressions and of the subscriptions, from the text to the end of the tree.

Not represented here: the blocks of the tree itself (`Model/NodeMemory.lean`), of the configuration and its tables
(`Model/ConfigMemory.lean`), and of what a call allocates and frees before it returns.
-/
namespace BeTree

/-- reading through a pointer (alloc.h:3-14): undefined when the block is not allocated -/
def touch (b : Nat) : Mem Unit := .touch b (.done ())

/-- reading blocks one after the other (alloc.h:3-14) -/
def touchAll : List Nat → Mem Unit
  | [] => pure ()
  | b :: bs => do
    touch b
    touchAll bs

/-- `struct betree_sub` (tree.h:17-29): the structure, its three bit sets and its expression -/
structure SubImg where
  sub : Nat
  attrVars : Nat
  pass : Nat
  fail : Nat
  expr : Img
  deriving DecidableEq, Repr

/-- `make_sub` (tree.c:1587-1603) -/
def makeSubMem (i : Img) : Mem SubImg := do
  let sub ← malloc
  let attrVars ← malloc
  let pass ← malloc
  let fail ← malloc
  pure { sub := sub, attrVars := attrVars, pass := pass, fail := fail, expr := i }

/-- `free_sub` (tree.c:1101-1113) -/
def freeSub (s : SubImg) : Mem Unit := do
  bfree s.attrVars
  freeAst s.expr
  bfree s.pass
  bfree s.fail
  bfree s.sub

/-- the nodes of an expression (hashmap.c:13-45: `assign_pred` goes through all of them) -/
def Img.nodes : Img → List Nat
  | .leaf n _ => [n]
  | .not n e => n :: e.nodes
  | .bin n l r => n :: (l.nodes ++ r.nodes)

/-- what a search or an insertion reads of a subscription (tree.c:44-111, 1475-1585): the structure, its bit sets and the nodes.  Simplification:
all of them are read. -/
def SubImg.read (s : SubImg) : List Nat := s.sub :: s.attrVars :: s.pass :: s.fail :: s.expr.nodes

/-- `assign_pred` (hashmap.c:13-45): the map holds pointers to nodes of expressions, and reads them when it is searched; nodes that are not
found are added.  Simplification: all nodes of the map are read and all nodes of the expression added. -/
def assignPredMem (preds : List Nat) (i : Img) : Mem (List Nat) := do
  touchAll preds
  touchAll i.nodes
  pure (i.nodes ++ preds)

/-- The world of calls (betree.h:64-90) with the subscriptions that were made, each under its id, and the nodes that the predicate map
points to (hashmap.h:8-12).  A pointer to a subscription is represented by its id: histories in which two subscriptions are made with
the same id are outside of this model. -/
structure MemWorld where
  world : TextWorld
  objs : List (Nat × SubImg)
  preds : List Nat

/-- the subscription behind a pointer (tree.h:46) -/
def findObj (objs : List (Nat × SubImg)) (id : Nat) : Mem SubImg :=
  match objs.find? (fun p => p.1 == id) with
  | none => .fault .ub
  | some p => pure p.2

/-- the loop over the subscriptions of a leaf node (tree.c:1135-1138) -/
def forSubs (f : Sub → Mem Unit) : List Sub → Mem Unit
  | [] => pure ()
  | s :: ss => do
    f s
    forSubs f ss

mutual
/-- going through a tree in the order of `free_cnode` (tree.c:1144-1154), `free_lnode` (tree.c:1130-1142) -/
def CNode.forSubs (f : Sub → Mem Unit) : CNode → Mem Unit
  | .mk subs _ pns => do
    BeTree.forSubs f subs
    pns.forSubs f
/-- `free_pdir`, `free_pnode` (tree.c:1077-1089, 1197-1206) -/
def PNodes.forSubs (f : Sub → Mem Unit) : PNodes → Mem Unit
  | .nil => pure ()
  | .cons _ _ cd rest => do
    cd.forSubs f
    rest.forSubs f
/-- `free_cdir` (tree.c:1156-1169) -/
def CDir.forSubs (f : Sub → Mem Unit) : CDir → Mem Unit
  | .leaf _ _ c => c.forSubs f
  | .node _ _ c l r => do
    c.forSubs f
    l.forSubs f
    r.forSubs f
end

/-- `free_cnode` of the root (tree.c:1144-1154; from `betree_deinit`, betree.c:662-666, and `empty_tree`, helper.c:97-105) -/
def MemWorld.freeTree (w : MemWorld) : Mem Unit :=
  w.world.tree.root.forSubs fun s => do
    let i ← findObj w.objs s.id
    freeSub i

/-- what searches and insertions read of the subscriptions in the tree (tree.c:44-111, 296-318, 1749-1793).  Simplification: all of it. -/
def MemWorld.readTree (w : MemWorld) : Mem Unit :=
  w.world.tree.root.forSubs fun s => do
    let i ← findObj w.objs s.id
    touchAll i.read

/-- a call that gives a value or stops (betree.c:475-541) -/
def liftMem {α : Type} : Except Fault α → Mem α
  | .error e => .fault e
  | .ok a => pure a

/-- `betree_insert_with_constants` (betree.c:475-503).  The expression is freed when it is not valid (betree.c:487-491), but not when a
constant is missing (betree.c:492-495). -/
def MemWorld.insert (R : Rounding) (w : MemWorld) (q : TextReq) : Mem MemWorld := do
  match ← parseMem q.text with
  | none => pure w
  | some (e, i) =>
    let ok ← liftMem (isValid w.world.tree.cfg (assignVar w.world.tree.cfg e))
    if ok then
      match ← liftMem (w.world.tree.insert R q.id q.consts e) with
      | (false, t) => pure { w with world := { w.world with tree := t } }
      | (true, t) =>
        let preds ← assignPredMem w.preds i
        let s ← makeSubMem i
        touchAll s.read
        w.readTree
        pure { world := { w.world with tree := t, live := q :: w.world.live }, objs := (q.id, s) :: w.objs, preds := preds }
    else do
      freeAst i
      pure w

/-- `betree_make_sub` (betree.c:505-536): each way of giving up frees the expression (betree.c:515, 523, 528). -/
def MemWorld.makeSub (w : MemWorld) (q : TextReq) : Mem MemWorld := do
  match ← parseMem q.text with
  | none => pure w
  | some (e, i) =>
    match ← liftMem (w.world.tree.makeSub q.id q.consts e) with
    | (none, t) =>
      freeAst i
      pure { w with world := { w.world with tree := t } }
    | (some s, t) =>
      let preds ← assignPredMem w.preds i
      let o ← makeSubMem i
      pure { world := { w.world with tree := t, pool := w.world.pool ++ [(q, s)] }, objs := (q.id, o) :: w.objs, preds := preds }

/-- `betree_insert_sub` (betree.c:538-541) -/
def MemWorld.insertSub (R : Rounding) (w : MemWorld) (k : Nat) : Mem MemWorld := do
  match w.world.pool[k]? with
  | none => pure w
  | some (q, s) =>
    let i ← findObj w.objs s.id
    touchAll i.read
    w.readTree
    let t ← liftMem (w.world.tree.insertSub R s)
    pure { w with world := { w.world with tree := t, live := q :: w.world.live } }

/-- `betree_change_boundaries` (betree.c:459-473) -/
def MemWorld.changeBoundaries (w : MemWorld) (text : Str) : Mem MemWorld := do
  match ← parseMem text with
  | none => pure w
  | some (e, i) =>
    let t ← liftMem (w.world.tree.changeBoundaries e)
    freeAst i
    pure { w with world := { w.world with tree := t } }

/-- `empty_tree` (helper.c:97-105): the subscriptions in the tree are freed, and then the predicate map that points to their nodes -/
def MemWorld.empty (w : MemWorld) : Mem MemWorld := do
  w.freeTree
  pure { w with world := { w.world with tree := w.world.tree.emptied, live := [] }, preds := [] }

/-- A call: one that changes the tree (betree.h:64-90), a search or an existence test, which read the tree (betree.h:98-107), or `empty_tree`
(helper.h:6). -/
inductive MemOp where
  | call (o : TextOp)
  | search
  | empty

/-- One call (betree.c:459-604, helper.c:97-105). -/
def MemWorld.step (R : Rounding) (w : MemWorld) : MemOp → Mem MemWorld
  | .call (.insert q) => w.insert R q
  | .call (.makeSub q) => w.makeSub q
  | .call (.insertSub k) => w.insertSub R k
  | .call (.changeBoundaries text) => w.changeBoundaries text
  | .search => do
    w.readTree
    pure w
  | .empty => w.empty

/-- A sequence of calls (betree.c:459-604). -/
def MemWorld.run (R : Rounding) (w : MemWorld) : List MemOp → Mem MemWorld
  | [] => pure w
  | o :: os => do
    let w' ← w.step R o
    w'.run R os

/-- a tree just created (betree.c:656-660) -/
def MemWorld.init (t : Tree) : MemWorld := { world := TextWorld.init t, objs := [], preds := [] }

/-- The same call without the memory (betree.c:459-604, helper.c:97-105). -/
def TextWorld.plainStep (R : Rounding) (w : TextWorld) : MemOp → Except Fault TextWorld
  | .call o => w.step R o
  | .search => .ok w
  | .empty => .ok { w with tree := w.tree.emptied, live := [] }

/-- The same calls without the memory (betree.c:459-604). -/
def TextWorld.plainRun (R : Rounding) (w : TextWorld) : List MemOp → Except Fault TextWorld
  | [] => .ok w
  | o :: os =>
    match w.plainStep R o with
    | .error x => .error x
    | .ok w => w.plainRun R os

end BeTree
