import Verif.Model.Sub
/-
tree.c: the BE-tree and insertion into it.
-/
namespace BeTree

/- `struct cnode` + `struct lnode` + `struct pdir` (tree.h): the expressions stored here, the capacity `lnode->max`,
and the partitions (`pdir->pnodes`; a NULL pdir is the empty list).
`struct pnode`: a variable, its score, its root cdir.
`struct cdir`: a variable, an interval, a cnode, and either no children or two. Parent pointers are not represented:
the functions that follow them receive the variables used by the ancestors as an argument. -/
mutual
/-- tree.h `struct cnode`, `struct lnode` (tree.h:31-38, 44-48). -/
inductive CNode where
  | mk (subs : List Sub) (max : Nat) (pnodes : PNodes)
/-- tree.h `struct pdir`, `struct pnode` (tree.h:53-58, 78-84). -/
inductive PNodes where
  | nil
  | cons (var : Nat) (score : Rat) (cdir : CDir) (rest : PNodes)
/-- tree.h `struct cdir` (tree.h:65-76). -/
inductive CDir where
  | leaf (var : Nat) (bound : Bound) (cnode : CNode)
  | node (var : Nat) (bound : Bound) (cnode : CNode) (l r : CDir)
end

/-- `cnode->lnode->subs` (tree.h:31-48) -/
def CNode.subs : CNode → List Sub
  | .mk subs _ _ => subs
/-- `cdir->attr_var.var` (tree.h:71) -/
def CDir.var : CDir → Nat
  | .leaf v _ _ => v
  | .node v _ _ _ _ => v
/-- `cdir->bound` (tree.h:72) -/
def CDir.bound : CDir → Bound
  | .leaf _ b _ => b
  | .node _ b _ _ _ => b
/-- `cdir->cnode` (tree.h:73) -/
def CDir.cnode : CDir → CNode
  | .leaf _ _ c => c
  | .node _ _ c _ _ => c

/-- append a pnode at the end (tree.c:628-643). -/
def PNodes.snoc : PNodes → Nat → Rat → CDir → PNodes
  | .nil, v, s, c => .cons v s c .nil
  | .cons v' s' c' rest, v, s, c => .cons v' s' c' (rest.snoc v s c)

/-- `search_pdir` (tree.c:96-108): the score of the partition on a variable. -/
def PNodes.score? : PNodes → Nat → Option Rat
  | .nil, _ => none
  | .cons v s _ rest, var => if var = v then some s else rest.score? var

/-- Rounding of `double` and `float` results; scores are `rnd64`/`rnd32` of the exact value (tree.c:376-411).
The theorems hold for every choice of the two functions. -/
structure Rounding where
  rnd64 : Rat → Rat
  rnd32 : Rat → Rat

/-- `make_cnode`/`make_lnode` (tree.c:868-892). -/
def emptyCNode (cfg : Config) : CNode := .mk [] cfg.lnodeMaxCap .nil

/-- comparison of the two ends of a cdir with a bound (tree.c:194-206): both are read at the domain's type. -/
def encloses (c b : Bound) : Except Fault Bool :=
  if c.lo.kind = b.ty.kind ∧ c.hi.kind = b.ty.kind ∧ b.lo.kind = b.ty.kind ∧ b.hi.kind = b.ty.kind then
    .ok (c.lo.le b.lo && b.hi.le c.hi)
  else .error .ub

/-- `sub_is_enclosed` (tree.c:183-222). -/
def subIsEnclosed (cfg : Config) (s : Sub) (var : Nat) (cbound : Bound) : Except Fault Bool :=
  if s.has var then
    match getDomain cfg var with
    | .error e => .error e
    | .ok d =>
      match getVariableBound d s.expr.erase with
      | .error e => .error e
      | .ok b => encloses cbound b
  else .ok false

/-! ### scores -/

/-- `count_attr_in_lnode` (tree.c:647-664). -/
def countAttr (var : Nat) (subs : List Sub) : Nat := (subs.filter (fun s => s.has var)).length

/-- `count_attr_in_cdir` (tree.c:331-343): lnodes of the cdir and of its descendants by `lchild`/`rchild`. -/
def CDir.countAttr (var : Nat) : CDir → Nat
  | .leaf _ _ c => BeTree.countAttr var c.subs
  | .node _ _ c l r => BeTree.countAttr var c.subs + l.countAttr var + r.countAttr var

/-- truncation of a non-negative double to a 64-bit unsigned integer; out of range is UB (tree.c:363, 731). -/
def truncU64 (x : Rat) : Except Fault Nat :=
  if x < (2 ^ 64 : Nat) then .ok x.floor.toNat else .error .ub

/-- `llabs(hi - lo)` (tree.c:355, 722): UB when the difference or its absolute value is not an `int64_t`. -/
def intDiff (lo hi : Int) : Except Fault Nat :=
  match checkedInt (hi - lo) with
  | .error e => .error e
  | .ok x => if x = int64Min then .error .ub else .ok x.natAbs

/-- `domain_bound_diff` (tree.c:345-374). -/
def domainDiff (b : Bound) : Except Fault Nat :=
  match b.ty with
  | .bool => .ok 1
  | .int | .intList =>
    match b.lo, b.hi with
    | .i lo, .i hi => if lo = int64Min ∧ hi = int64Max then .ok sizeMax else intDiff lo hi
    | _, _ => .error .ub
  | .float =>
    match b.lo, b.hi with
    | .f lo, .f hi => if feq lo (-dblMax) && feq hi dblMax then .ok sizeMax else truncU64 (rnd (hi - lo)).abs
    | _, _ => .error .ub
  | .string | .strList | .intEnum =>
    match b.lo, b.hi with
    | .s lo, .s hi => .ok ((hi + (2 ^ 64 - lo % 2 ^ 64)) % 2 ^ 64)
    | _, _ => .error .ub
  | .segments => .error .abort
  | .freq => .error .abort

/-- `get_attr_domain_score` and `get_score` (tree.c:376-395). -/
def getScore (R : Rounding) (d : Domain) (count : Nat) : Except Fault Rat :=
  match domainDiff d.bound with
  | .error e => .error e
  | .ok diff =>
    let diff := if diff = 0 then 1 else diff
    let num : Rat := if d.allowUndefined then 1 else 10
    .ok (R.rnd64 ((count : Rat) * R.rnd64 (num / (diff : Rat))))

/-- `update_partition_score` (tree.c:397-414); the field is a `float`. -/
def partitionScore (R : Rounding) (cfg : Config) (var : Nat) (c : CDir) : Except Fault Rat :=
  match getDomain cfg var with
  | .error e => .error e
  | .ok d =>
    match getScore R d (c.countAttr var) with
    | .error e => .error e
    | .ok s => .ok (R.rnd32 s)

/-- `splitable_attr_domain` (tree.c:711-749). -/
def splitable (b : Bound) : Except Fault Bool :=
  match b.ty with
  | .bool => .ok true
  | .int | .intList =>
    match b.lo, b.hi with
    | .i lo, .i hi =>
      if lo = int64Min ∨ hi = int64Max then .ok false
      else (intDiff lo hi).map fun d => decide (d < maxDomainForSplit)
    | _, _ => .error .ub
  | .float =>
    match b.lo, b.hi with
    | .f lo, .f hi =>
      if feq lo (-dblMax) || feq hi dblMax then .ok false
      else (truncU64 (rnd (hi - lo)).abs).map fun d => decide (d < maxDomainForSplit)
    | _, _ => .error .ub
  | .string | .strList | .intEnum =>
    match b.lo, b.hi with
    | .s lo, .s hi =>
      if hi = sizeMax then .ok false
      else .ok (decide ((hi + (2 ^ 64 - lo % 2 ^ 64)) % 2 ^ 64 < maxDomainForSplit))
    | _, _ => .error .ub
  | .segments => .ok false
  | .freq => .ok false

/-- State of the loop of `get_next_highest_score_unused_attr`: `found`, `highest_score`, `highest_var`
(uninitialised at first) (tree.c:751-781). -/
structure Best where
  found : Bool
  score : Rat
  var : Option Nat

/-- One (sub, variable) step of `get_next_highest_score_unused_attr` (tree.c:759-775). -/
def bestStep (R : Rounding) (used : List Nat) (subs : List Sub) (s : Sub) (d : Domain) (j : Nat) (b : Best) :
    Except Fault Best :=
  if s.has j then
    match splitable d.bound with
    | .error e => .error e
    | .ok false => .ok b
    | .ok true =>
      if j ∈ used then .ok b
      else
        match getScore R d (countAttr j subs) with
        | .error e => .error e
        | .ok sc =>
          if sc > b.score then .ok { found := true, score := sc, var := some j }
          else .ok { b with found := true }
  else .ok b

/-- inner loop, over the domains (tree.c:759-775) -/
def bestOfSub (R : Rounding) (used : List Nat) (subs : List Sub) (s : Sub) : List Domain → Nat → Best → Except Fault Best
  | [], _, b => .ok b
  | d :: ds, j, b =>
    match bestStep R used subs s d j b with
    | .error e => .error e
    | .ok b => bestOfSub R used subs s ds (j + 1) b

/-- outer loop, over the expressions (tree.c:757-776) -/
def bestOfSubs (R : Rounding) (cfg : Config) (used : List Nat) (subs : List Sub) : List Sub → Best → Except Fault Best
  | [], b => .ok b
  | s :: ss, b =>
    match bestOfSub R used subs s cfg.domains 0 b with
    | .error e => .error e
    | .ok b => bestOfSubs R cfg used subs ss b

/-- `get_next_highest_score_unused_attr` (tree.c:751-783).  Returning `highest_var` uninitialised is UB. -/
def nextHighest (R : Rounding) (cfg : Config) (used : List Nat) (subs : List Sub) : Except Fault (Option Nat) :=
  match bestOfSubs R cfg used subs subs { found := false, score := 0, var := none } with
  | .error e => .error e
  | .ok b =>
    if b.found then
      match b.var with
      | none => .error .ub
      | some v => .ok (some v)
    else .ok none

/-! ### moving expressions -/

/-- `remove_sub` (tree.c:496-520): delete the first entry with that id; `none` when there is none. -/
def removeSub (id : Nat) : List Sub → Option (List Sub)
  | [] => none
  | s :: ss => if s.id = id then some ss else (removeSub id ss).map (s :: ·)

/-- The moving loops (tree.c:824-831, 1022-1032).  `kept` are the entries before index `i` (in order), the list the
entries from `i` on.  `dest s` says whether `s` moves and where.  `move` removes the *first* entry with the id of `s`
(tree.c:522-548): when that entry is an earlier one, `s` itself stays behind and the index ends up after it. -/
def moveLoop {δ : Type} (dest : Sub → Except Fault (Option δ)) :
    List Sub → List Sub → List (δ × Sub) → Except Fault (List Sub × List (δ × Sub))
  | kept, [], moved => .ok (kept, moved)
  | kept, s :: rest, moved =>
    match dest s with
    | .error e => .error e
    | .ok none => moveLoop dest (kept ++ [s]) rest moved
    | .ok (some d) =>
      match removeSub s.id kept with
      | some kept => moveLoop dest (kept ++ [s]) rest (moved ++ [(d, s)])
      | none => moveLoop dest kept rest (moved ++ [(d, s)])

/-- `update_cluster_capacity` (tree.c:785-794): `ceil(count / cap) * cap`, at least `cap`.  A capacity of 0 makes the
double division yield an infinity or a NaN whose conversion to `size_t` is UB. -/
def clusterCapacity (cfg : Config) (count : Nat) : Except Fault Nat :=
  if cfg.lnodeMaxCap = 0 then .error .ub
  else .ok (Nat.max cfg.lnodeMaxCap ((count + cfg.lnodeMaxCap - 1) / cfg.lnodeMaxCap * cfg.lnodeMaxCap))

/-- `is_atomic` (tree.c:838-866). -/
def isAtomic (b : Bound) : Except Fault Bool :=
  match b.ty with
  | .segments => .error .abort
  | .freq => .error .abort
  | _ =>
    match b.lo, b.hi with
    | .b lo, .b hi => .ok (decide (lo = hi))
    | .i lo, .i hi => .ok (decide (lo = hi))
    | .f lo, .f hi => .ok (feq lo hi)
    | .s lo, .s hi => .ok (decide (lo = hi))
    | _, _ => .error .ub

/-- `split_value_bound` (tree.c:898-1004).  The differences are taken in the types of the code: an `int64_t`
difference out of range is UB, `size_t` differences wrap. -/
def splitBound (b : Bound) : Except Fault (Bound × Bound) :=
  match b.ty with
  | .segments => .error .abort
  | .freq => .error .abort
  | _ =>
    match b.lo, b.hi with
    | .i lo, .i hi =>
      match intDiff lo hi with
      | .error e => .error e
      | .ok n =>
        if n > 2 then
          .ok ({ b with hi := .i (lo + (hi - lo).tdiv 2) }, { b with lo := .i (lo + (hi - lo).tdiv 2) })
        else if n = 2 then .ok ({ b with hi := .i (lo + 1) }, { b with lo := .i (lo + 1) })
        else if n = 1 then .ok ({ b with hi := .i lo }, { b with lo := .i hi })
        else .error .abort
    | .f lo, .f hi =>
      if (rnd (hi - lo)).abs > 2 then
        .ok ({ b with hi := .f (rnd (lo + (rnd (rnd (hi - lo) / 2)).ceil)) }, { b with lo := .f (rnd (lo + (rnd (rnd (hi - lo) / 2)).ceil)) })
      else if feq (rnd (hi - lo)).abs 2 then .ok ({ b with hi := .f (rnd (lo + 1)) }, { b with lo := .f (rnd (lo + 1)) })
      else if feq (rnd (hi - lo)).abs 1 then .ok ({ b with hi := .f lo }, { b with lo := .f hi })
      else .error .abort
    | .b lo, .b hi =>
      if lo ≠ hi then .ok ({ b with hi := .b lo }, { b with lo := .b hi }) else .error .abort
    | .s lo, .s hi =>
      let n := (hi + (2 ^ 64 - lo % 2 ^ 64)) % 2 ^ 64
      if n > 2 then .ok ({ b with hi := .s (lo + n / 2) }, { b with lo := .s (lo + n / 2) })
      else if n = 2 then .ok ({ b with hi := .s (lo + 1) }, { b with lo := .s (lo + 1) })
      else if n = 1 then .ok ({ b with hi := .s lo }, { b with lo := .s hi })
      else .error .abort
    | _, _ => .error .ub

/-! ### space partitioning and clustering -/

/-- where `space_clustering` moves an expression (tree.c:1024-1031): left when enclosed there, else right. -/
def clusterDest (cfg : Config) (var : Nat) (bl br : Bound) (s : Sub) : Except Fault (Option Bool) :=
  match subIsEnclosed cfg s var bl with
  | .error e => .error e
  | .ok true => .ok (some true)
  | .ok false =>
    match subIsEnclosed cfg s var br with
    | .error e => .error e
    | .ok true => .ok (some false)
    | .ok false => .ok none

/-- the expressions moved to one side (tree.c:1023-1033) -/
def movedTo (side : Bool) (moved : List (Bool × Sub)) : List Sub :=
  (moved.filter (fun m => m.1 == side)).map (·.2)

/-- the end of `space_partitioning` (tree.c:835): `update_cluster_capacity`.  `space_clustering` calls it again on the
same lnode (tree.c:1037), which changes nothing. -/
def finishPartition (cfg : Config) (subs : List Sub) (pns : PNodes) : Except Fault CNode :=
  match clusterCapacity cfg subs.length with
  | .error e => .error e
  | .ok max => .ok (.mk subs max pns)

mutual
/-- `space_partitioning` (tree.c:809-836); the first argument bounds the recursion, the second lists the variables used
by the ancestors (`is_attr_used_in_parent_lnode`, tree.c:666-709). -/
def partition (R : Rounding) (cfg : Config) : Nat → List Nat → List Sub → Nat → PNodes → Except Fault CNode
  | 0, _, _, _, _ => .error .fuel
  | fuel + 1, used, subs, max, pns =>
    if subs.length > max then
      match nextHighest R cfg used subs with
      | .error e => .error e
      | .ok none => finishPartition cfg subs pns
      | .ok (some v) =>
        if countAttr v subs < cfg.partitionMinSize then finishPartition cfg subs pns
        else
          match getDomain cfg v with
          | .error e => .error e
          | .ok d =>
            match moveLoop (fun s => .ok (if s.has v then some () else none)) [] subs [] with
            | .error e => .error e
            | .ok (kept, moved) =>
              match cluster R cfg fuel used (.leaf v d.bound (.mk (moved.map (·.2)) cfg.lnodeMaxCap .nil)) with
              | .error e => .error e
              | .ok cdir => partition R cfg fuel used kept max (pns.snoc v 0 cdir)
    else finishPartition cfg subs pns
  termination_by structural fuel => fuel

/-- `space_clustering` (tree.c:1006-1038). -/
def cluster (R : Rounding) (cfg : Config) : Nat → List Nat → CDir → Except Fault CDir
  | 0, _, _ => .error .fuel
  | fuel + 1, used, .node v b (.mk subs max pns) l r =>
    if subs.length > max then
      match partition R cfg fuel (v :: used) subs max pns with
      | .error e => .error e
      | .ok cn => .ok (.node v b cn l r)
    else .ok (.node v b (.mk subs max pns) l r)
  | fuel + 1, used, .leaf v b (.mk subs max pns) =>
    if subs.length > max then
      match isAtomic b with
      | .error e => .error e
      | .ok true =>
        match partition R cfg fuel (v :: used) subs max pns with
        | .error e => .error e
        | .ok cn => .ok (.leaf v b cn)
      | .ok false =>
        match splitBound b with
        | .error e => .error e
        | .ok (bl, br) =>
          match moveLoop (clusterDest cfg v bl br) [] subs [] with
          | .error e => .error e
          | .ok (kept, moved) =>
            match partition R cfg fuel (v :: used) kept max pns with
            | .error e => .error e
            | .ok cn =>
              match cluster R cfg fuel used (.leaf v bl (.mk (movedTo true moved) cfg.lnodeMaxCap .nil)) with
              | .error e => .error e
              | .ok l =>
                match cluster R cfg fuel used (.leaf v br (.mk (movedTo false moved) cfg.lnodeMaxCap .nil)) with
                | .error e => .error e
                | .ok r => .ok (.node v b cn l r)
    else .ok (.leaf v b (.mk subs max pns))
  termination_by structural fuel => fuel
end

/-! ### insertion -/

/-- The search for the best partition in `insert_be_tree` (tree.c:424-443), from domain number `i` on.
`max_score` starts at minus infinity (`-DBL_MAX` converted to `float`). -/
def bestPartition (used : List Nat) (s : Sub) (pns : PNodes) : Nat → Nat → Option (Nat × Rat) → Option (Nat × Rat)
  | 0, _, best => best
  | n + 1, i, best =>
    if s.has i ∧ i ∉ used then
      match pns.score? i, best with
      | none, _ => bestPartition used s pns n (i + 1) best
      | some sc, none => bestPartition used s pns n (i + 1) (some (i, sc))
      | some sc, some (v, m) => bestPartition used s pns n (i + 1) (if m < sc then some (i, sc) else some (v, m))
    else bestPartition used s pns n (i + 1) best

/-- the partition chosen for an expression, if any (tree.c:420-442) -/
def choosePartition (cfg : Config) (used : List Nat) (s : Sub) (pns : PNodes) : Option Nat :=
  (bestPartition used s pns cfg.domains.length 0 none).map (·.1)

mutual
/-- `insert_be_tree` on a partition (tree.c:452-456): descend in the pnode of variable `v`, then update its score. -/
def PNodes.insert (R : Rounding) (cfg : Config) (fuel : Nat) (used : List Nat) (v : Nat) (s : Sub) :
    PNodes → Except Fault PNodes
  | .nil => .error .ub
  | .cons v' sc cd rest =>
    if v = v' then
      match cd.insert R cfg fuel used s with
      | .error e => .error e
      | .ok cd =>
        match partitionScore R cfg v cd with
        | .error e => .error e
        | .ok sc => .ok (.cons v' sc cd rest)
    else
      match rest.insert R cfg fuel used v s with
      | .error e => .error e
      | .ok rest => .ok (.cons v' sc cd rest)

/-- `insert_cdir` (tree.c:463-477) followed by `insert_be_tree` on the cnode found (tree.c:413-451): descend to the
smallest enclosing cdir, there either go on in a partition or append to the lnode and cluster. -/
def CDir.insert (R : Rounding) (cfg : Config) (fuel : Nat) (used : List Nat) (s : Sub) : CDir → Except Fault CDir
  | .leaf v b (.mk subs max pns) =>
    match choosePartition cfg (v :: used) s pns with
    | none => cluster R cfg fuel used (.leaf v b (.mk (subs ++ [s]) max pns))
    | some w =>
      match pns.insert R cfg fuel (v :: used) w s with
      | .error e => .error e
      | .ok pns => .ok (.leaf v b (.mk subs max pns))
  | .node v b (.mk subs max pns) l r =>
    match subIsEnclosed cfg s l.var l.bound with
    | .error e => .error e
    | .ok true =>
      match l.insert R cfg fuel used s with
      | .error e => .error e
      | .ok l => .ok (.node v b (.mk subs max pns) l r)
    | .ok false =>
      match subIsEnclosed cfg s r.var r.bound with
      | .error e => .error e
      | .ok true =>
        match r.insert R cfg fuel used s with
        | .error e => .error e
        | .ok r => .ok (.node v b (.mk subs max pns) l r)
      | .ok false =>
        match choosePartition cfg (v :: used) s pns with
        | none => cluster R cfg fuel used (.node v b (.mk (subs ++ [s]) max pns) l r)
        | some w =>
          match pns.insert R cfg fuel (v :: used) w s with
          | .error e => .error e
          | .ok pns => .ok (.node v b (.mk subs max pns) l r)
end

mutual
/-- how many expressions are stored at or below a cnode (for the recursion budget only; the code has no such function) (for the recursion of tree.c:1006-1038) -/
def CNode.size : CNode → Nat
  | .mk subs _ pns => subs.length + pns.size
/-- the same, below the partitions (for the recursion of tree.c:1006-1038) -/
def PNodes.size : PNodes → Nat
  | .nil => 0
  | .cons _ _ cd rest => cd.size + rest.size
/-- the same, at or below a cdir (for the recursion of tree.c:1006-1038) -/
def CDir.size : CDir → Nat
  | .leaf _ _ c => c.size
  | .node _ _ c l r => c.size + l.size + r.size
end

/-- The recursion budget of an insertion.  The recursion of the code (tree.c:809-836, 1006-1038) has no budget; theorems
`C23_*` show that this one is never exhausted. -/
def insertFuel (cfg : Config) (c : CNode) : Nat := (cfg.domains.length + 1) * 1100 + c.size

/-- `insert_be_tree` on the root (tree.c:413-458, betree.c:538-541). -/
def CNode.insert (R : Rounding) (cfg : Config) (s : Sub) : CNode → Except Fault CNode
  | .mk subs max pns =>
    match choosePartition cfg [] s pns with
    | none => partition R cfg (insertFuel cfg (.mk subs max pns)) [] (subs ++ [s]) max pns
    | some v =>
      match pns.insert R cfg (insertFuel cfg (.mk subs max pns)) [] v s with
      | .error e => .error e
      | .ok pns => .ok (.mk subs max pns)

end BeTree
