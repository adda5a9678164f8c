import Verif.Model.MemWorld
import Verif.Model.History
/-
Memory of the tree itself: the blocks of its nodes, of their directories and of their arrays (tree.h:31-84), from `make_cnode` to
`free_cnode`.  The functions are those of `Model/Tree.lean` once more, with the allocations.  The subscriptions in the arrays and their
expressions are in `Model/MemWorld.lean`.
-/
namespace BeTree

mutual
/-- `struct cnode`, its `struct lnode`, the array `lnode->subs` (NULL or a block), and the `struct pdir` with the array `pdir->pnodes` if there is
one (tree.h:31-58) -/
inductive CImg where
  | mk (cnode lnode : Nat) (subs : Option Nat) (pdir : Option (Nat × Nat)) (pnodes : PImgs)
/-- the `struct pnode`s of a directory, each with the copy of its name (tree.h:78-84) -/
inductive PImgs where
  | nil
  | cons (pnode name : Nat) (cdir : DImg) (rest : PImgs)
/-- `struct cdir` and the copy of its name (tree.h:65-76) -/
inductive DImg where
  | leaf (cdir name : Nat) (cnode : CImg)
  | node (cdir name : Nat) (cnode : CImg) (l r : DImg)
end

/-- append at the end (tree.c:641) -/
def PImgs.snoc : PImgs → Nat → Nat → DImg → PImgs
  | .nil, p, n, c => .cons p n c .nil
  | .cons p' n' c' rest, p, n, c => .cons p' n' c' (rest.snoc p n c)

/-- `make_cnode`, `make_lnode` (tree.c:868-892) -/
def makeCNodeMem : Mem CImg := do
  let c ← malloc
  let l ← malloc
  pure (.mk c l none none .nil)

/-- `create_cdir` (tree.c:550-568) -/
def createCDirMem : Mem DImg := do
  let d ← malloc
  let n ← malloc
  let c ← makeCNodeMem
  pure (.leaf d n c)

/-- one more entry in an array of `count` entries (tree.c:294-313, 529-545): a new array for the first entry - whatever the pointer was -,
otherwise `brealloc` (which allocates if the pointer is NULL) -/
def growSubs (count : Nat) (a : Option Nat) : Mem Nat :=
  if count = 0 then malloc
  else
    match a with
    | none => malloc
    | some a => brealloc a

/-- one entry less in an array of `count` entries (tree.c:504-517): the array is freed with its last entry (`bfree` of NULL does nothing) -/
def shrinkSubs (count : Nat) (a : Option Nat) : Mem (Option Nat) :=
  if count - 1 = 0 then do
    freeOpt a
    pure none
  else
    match a with
    | none => do
      let b ← malloc
      pure (some b)
    | some a => do
      let b ← brealloc a
      pure (some b)

/-- an array of subscriptions: `sub_count` and `subs` (tree.h:31-38) -/
abbrev Slots := Nat × Option Nat

/-- `move` (tree.c:522-548) of one entry -/
def moveMem (src dst : Slots) : Mem (Slots × Slots) := do
  let a ← shrinkSubs src.1 src.2
  let b ← growSubs dst.1 dst.2
  pure ((src.1 - 1, a), (dst.1 + 1, some b))

/-- the loop of `space_partitioning` (tree.c:824-831), which moves that many entries -/
def moveAllMem : Nat → Slots → Slots → Mem (Slots × Slots)
  | 0, src, dst => pure (src, dst)
  | k + 1, src, dst => do
    let r ← moveMem src dst
    moveAllMem k r.1 r.2

/-- the loop of `space_clustering` (tree.c:1022-1032), which moves entries to the left (`true`) and to the right -/
def moveSidesMem : List Bool → Slots → Slots → Slots → Mem (Slots × Slots × Slots)
  | [], src, l, r => pure (src, l, r)
  | true :: ss, src, l, r => do
    let m ← moveMem src l
    moveSidesMem ss m.1 m.2 r
  | false :: ss, src, l, r => do
    let m ← moveMem src r
    moveSidesMem ss m.1 l m.2

/-- `create_pdir` (tree.c:588-645): the directory if there is none, then the pnode, the copy of its name, its cdir, and the place in the
array.  (A directory has an entry from then on, so that it has an array.) -/
def createPDirMem (pdir : Option (Nat × Nat)) : Mem ((Nat × Nat) × Nat × Nat × DImg) :=
  match pdir with
  | none => do
    let dir ← malloc
    let p ← malloc
    let n ← malloc
    let d ← createCDirMem
    let a ← malloc
    pure ((dir, a), p, n, d)
  | some (dir, a) => do
    let p ← malloc
    let n ← malloc
    let d ← createCDirMem
    let a ← brealloc a
    pure ((dir, a), p, n, d)

/-- the new cdir with the array of its leaf node (tree.c:824-831, 1022-1032) -/
def DImg.withSubs (a : Option Nat) : DImg → DImg
  | .leaf d n (.mk c l _ pd ps) => .leaf d n (.mk c l a pd ps)
  | .node d n (.mk c l _ pd ps) x y => .node d n (.mk c l a pd ps) x y

mutual
/-- `space_partitioning` (tree.c:809-836) as `partition`, with the blocks.  Simplification: which entries move is decided before the first
one is moved. -/
def partitionMem (R : Rounding) (cfg : Config) : Nat → List Nat → List Sub → Nat → PNodes → CImg → Mem (CNode × CImg)
  | 0, _, _, _, _, _ => .fault .fuel
  | fuel + 1, used, subs, max, pns, .mk c l arr pd ps =>
    if subs.length > max then do
      let v ← liftMem (nextHighest R cfg used subs)
      match v with
      | none => do
        let cn ← liftMem (finishPartition cfg subs pns)
        pure (cn, .mk c l arr pd ps)
      | some v =>
        if countAttr v subs < cfg.partitionMinSize then do
          let cn ← liftMem (finishPartition cfg subs pns)
          pure (cn, .mk c l arr pd ps)
        else do
          let d ← liftMem (getDomain cfg v)
          let p ← createPDirMem pd
          let m ← liftMem (moveLoop (fun s => .ok (if s.has v then some () else none)) [] subs [])
          let a ← moveAllMem m.2.length (subs.length, arr) (0, none)
          let cd ← clusterMem R cfg fuel used (.leaf v d.bound (.mk (m.2.map (·.2)) cfg.lnodeMaxCap .nil)) (p.2.2.2.withSubs a.2.2)
          partitionMem R cfg fuel used m.1 max (pns.snoc v 0 cd.1) (.mk c l a.1.2 (some p.1) (ps.snoc p.2.1 p.2.2.1 cd.2))
    else do
      let cn ← liftMem (finishPartition cfg subs pns)
      pure (cn, .mk c l arr pd ps)
  termination_by structural fuel => fuel

/-- `space_clustering` (tree.c:1006-1038) as `cluster`, with the blocks.  Simplification as for `partitionMem`. -/
def clusterMem (R : Rounding) (cfg : Config) : Nat → List Nat → CDir → DImg → Mem (CDir × DImg)
  | 0, _, _, _ => .fault .fuel
  | fuel + 1, used, .node v b (.mk subs max pns) l r, .node d n c x y =>
    if subs.length > max then do
      let p ← partitionMem R cfg fuel (v :: used) subs max pns c
      pure (.node v b p.1 l r, .node d n p.2 x y)
    else pure (.node v b (.mk subs max pns) l r, .node d n c x y)
  | fuel + 1, used, .leaf v b (.mk subs max pns), .leaf d n (.mk c l arr pd ps) =>
    if subs.length > max then do
      let at_ ← liftMem (isAtomic b)
      if at_ then do
        let p ← partitionMem R cfg fuel (v :: used) subs max pns (.mk c l arr pd ps)
        pure (.leaf v b p.1, .leaf d n p.2)
      else do
        let bs ← liftMem (splitBound b)
        let x ← createCDirMem
        let y ← createCDirMem
        let m ← liftMem (moveLoop (clusterDest cfg v bs.1 bs.2) [] subs [])
        let a ← moveSidesMem (m.2.map (·.1)) (subs.length, arr) (0, none) (0, none)
        let p ← partitionMem R cfg fuel (v :: used) m.1 max pns (.mk c l a.1.2 pd ps)
        let x ← clusterMem R cfg fuel used (.leaf v bs.1 (.mk (movedTo true m.2) cfg.lnodeMaxCap .nil)) (x.withSubs a.2.1.2)
        let y ← clusterMem R cfg fuel used (.leaf v bs.2 (.mk (movedTo false m.2) cfg.lnodeMaxCap .nil)) (y.withSubs a.2.2.2)
        pure (.node v b p.1 x.1 y.1, .node d n p.2 x.2 y.2)
    else pure (.leaf v b (.mk subs max pns), .leaf d n (.mk c l arr pd ps))
  | _ + 1, _, _, _ => .fault .ub
  termination_by structural fuel => fuel
end

mutual
/-- `insert_be_tree` on a partition (tree.c:452-456) as `PNodes.insert`, with the blocks -/
def PNodes.insertMem (R : Rounding) (cfg : Config) (fuel : Nat) (used : List Nat) (v : Nat) (s : Sub) :
    PNodes → PImgs → Mem (PNodes × PImgs)
  | .cons v' sc cd rest, .cons p n d ps =>
    if v = v' then do
      let c ← cd.insertMem R cfg fuel used s d
      let sc ← liftMem (partitionScore R cfg v c.1)
      pure (.cons v' sc c.1 rest, .cons p n c.2 ps)
    else do
      let r ← rest.insertMem R cfg fuel used v s ps
      pure (.cons v' sc cd r.1, .cons p n d r.2)
  | _, _ => .fault .ub

/-- `insert_cdir` (tree.c:463-477), `insert_sub` (tree.c:294-313) and `insert_be_tree` (tree.c:413-451) as `CDir.insert`, with the blocks -/
def CDir.insertMem (R : Rounding) (cfg : Config) (fuel : Nat) (used : List Nat) (s : Sub) : CDir → DImg → Mem (CDir × DImg)
  | .leaf v b (.mk subs max pns), .leaf d n (.mk c l arr pd ps) =>
    match choosePartition cfg (v :: used) s pns with
    | none => do
      let a ← growSubs subs.length arr
      clusterMem R cfg fuel used (.leaf v b (.mk (subs ++ [s]) max pns)) (.leaf d n (.mk c l (some a) pd ps))
    | some w => do
      let p ← pns.insertMem R cfg fuel (v :: used) w s ps
      pure (.leaf v b (.mk subs max p.1), .leaf d n (.mk c l arr pd p.2))
  | .node v b (.mk subs max pns) l r, .node d n (.mk c ln arr pd ps) x y => do
    let inl ← liftMem (subIsEnclosed cfg s l.var l.bound)
    if inl then do
      let l ← l.insertMem R cfg fuel used s x
      pure (.node v b (.mk subs max pns) l.1 r, .node d n (.mk c ln arr pd ps) l.2 y)
    else do
      let inr ← liftMem (subIsEnclosed cfg s r.var r.bound)
      if inr then do
        let r ← r.insertMem R cfg fuel used s y
        pure (.node v b (.mk subs max pns) l r.1, .node d n (.mk c ln arr pd ps) x r.2)
      else
        match choosePartition cfg (v :: used) s pns with
        | none => do
          let a ← growSubs subs.length arr
          clusterMem R cfg fuel used (.node v b (.mk (subs ++ [s]) max pns) l r) (.node d n (.mk c ln (some a) pd ps) x y)
        | some w => do
          let p ← pns.insertMem R cfg fuel (v :: used) w s ps
          pure (.node v b (.mk subs max p.1) l r, .node d n (.mk c ln arr pd p.2) x y)
  | _, _ => .fault .ub
end

/-- `insert_be_tree` on the root (tree.c:413-458) as `CNode.insert`, with the blocks -/
def CNode.insertMem (R : Rounding) (cfg : Config) (s : Sub) : CNode → CImg → Mem (CNode × CImg)
  | .mk subs max pns, .mk c l arr pd ps =>
    match choosePartition cfg [] s pns with
    | none => do
      let a ← growSubs subs.length arr
      partitionMem R cfg (insertFuel cfg (.mk subs max pns)) [] (subs ++ [s]) max pns (.mk c l (some a) pd ps)
    | some v => do
      let p ← pns.insertMem R cfg (insertFuel cfg (.mk subs max pns)) [] v s ps
      pure (.mk subs max p.1, .mk c l arr pd p.2)

mutual
/-- `free_cnode`, `free_lnode` (tree.c:1130-1154), the subscriptions apart -/
def CImg.free : CImg → Mem Unit
  | .mk c l arr pd ps => do
    freeOpt arr
    bfree l
    ps.free
    match pd with
    | none => pure ()
    | some (dir, a) => do
      bfree a
      bfree dir
    bfree c
/-- `free_pdir`, `free_pnode` (tree.c:1077-1089, 1197-1206) -/
def PImgs.free : PImgs → Mem Unit
  | .nil => pure ()
  | .cons p n d rest => do
    bfree n
    d.free
    bfree p
    rest.free
/-- `free_cdir` (tree.c:1156-1169) -/
def DImg.free : DImg → Mem Unit
  | .leaf d n c => do
    bfree n
    c.free
    bfree d
  | .node d n c x y => do
    bfree n
    c.free
    x.free
    y.free
    bfree d
end

/-! ### sequences of calls -/

/-- the world of calls (betree.h:64-90) with the blocks of the root `betree->cnode` (tree.h:86-89) -/
structure NodeWorld where
  world : TextWorld
  root : CImg

/-- a tree just created: `betree_init` (betree.c:627-631) -/
def NodeWorld.init (t : Tree) : Mem NodeWorld := do
  let c ← makeCNodeMem
  pure { world := TextWorld.init t, root := c }

/-- `betree_insert_with_constants` (betree.c:475-503), up to `insert_be_tree` without the nodes -/
def NodeWorld.insert (R : Rounding) (w : NodeWorld) (q : TextReq) : Mem NodeWorld := do
  match ← liftMem (parseText q.text) with
  | none => pure w
  | some e =>
    match ← liftMem (prepareInsert w.world.tree.cfg q.id q.consts e) with
    | (none, cfg) => pure { w with world := { w.world with tree := { w.world.tree with cfg := cfg } } }
    | (some s, cfg) =>
      let r ← w.world.tree.root.insertMem R cfg s w.root
      pure { world := { w.world with tree := { cfg := cfg, root := r.1 }, live := q :: w.world.live }, root := r.2 }

/-- `betree_insert_sub` (betree.c:538-541) -/
def NodeWorld.insertSub (R : Rounding) (w : NodeWorld) (k : Nat) : Mem NodeWorld :=
  match w.world.pool[k]? with
  | none => pure w
  | some (q, s) => do
    let r ← w.world.tree.root.insertMem R w.world.tree.cfg s w.root
    pure { world := { w.world with tree := { w.world.tree with root := r.1 }, live := q :: w.world.live }, root := r.2 }

/-- `empty_tree` (helper.c:97-105): the nodes are freed, then there is a new root -/
def NodeWorld.empty (w : NodeWorld) : Mem NodeWorld := do
  w.root.free
  let c ← makeCNodeMem
  pure { world := { w.world with tree := w.world.tree.emptied, live := [] }, root := c }

mutual
/-- what a search or an insertion can read of the nodes (tree.c:113-183, 413-477): the nodes, the arrays and the directories.  Simplification:
all of them.  The names (tree.h:67, 81) are read only when nodes are printed. -/
def CImg.read : CImg → List Nat
  | .mk c l arr pd ps => c :: l :: (arr.toList ++ ((match pd with | none => [] | some (d, a) => [d, a]) ++ ps.read))
/-- the same for partitions (tree.c:113-183) -/
def PImgs.read : PImgs → List Nat
  | .nil => []
  | .cons p _ d rest => p :: (d.read ++ rest.read)
/-- the same for cdirs (tree.c:113-183) -/
def DImg.read : DImg → List Nat
  | .leaf d _ c => d :: c.read
  | .node d _ c x y => d :: (c.read ++ (x.read ++ y.read))
end

/-- One call (betree.c:459-604, helper.c:97-105).  `betree_make_sub` and `betree_change_boundaries` leave the nodes alone. -/
def NodeWorld.step (R : Rounding) (w : NodeWorld) : MemOp → Mem NodeWorld
  | .call (.insert q) => do
    touchAll w.root.read
    w.insert R q
  | .call (.makeSub q) => do
    let t ← liftMem (w.world.step R (.makeSub q))
    pure { w with world := t }
  | .call (.insertSub k) => do
    touchAll w.root.read
    w.insertSub R k
  | .call (.changeBoundaries text) => do
    let t ← liftMem (w.world.step R (.changeBoundaries text))
    pure { w with world := t }
  | .search => do
    touchAll w.root.read
    pure w
  | .empty => w.empty

/-- A sequence of calls (betree.c:459-604). -/
def NodeWorld.run (R : Rounding) (w : NodeWorld) : List MemOp → Mem NodeWorld
  | [] => pure w
  | o :: os => do
    let w' ← w.step R o
    w'.run R os

end BeTree
