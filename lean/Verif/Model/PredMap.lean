import Verif.Model.RBTree
import Verif.Model.ExprCmp
/-
hashmap.c: the predicate table.
-/
namespace BeTree

/-- `struct pred_map` (hashmap.h:11-15).  `memo[g]` is the `memoize_id` of the node stored in `m` whose `global_id`
is `g` (`none` for `INVALID_PRED`); nodes sharing the id copy that field (hashmap.c:43). -/
structure PredMap where
  predCount : Nat
  memoizeCount : Nat
  m : RB AExpr
  memo : List (Option Nat)
  deriving DecidableEq, Repr

/-- `make_pred_map` (hashmap.c:56-66). -/
def PredMap.empty : PredMap := { predCount := 0, memoizeCount := 0, m := .nil, memo := [] }

/-- `node->global_id = id` (hashmap.c:26-44) -/
def AExpr.setGid (g : Nat) : AExpr → AExpr
  | .leaf _ p => .leaf g p
  | .not _ e => .not g e
  | .and _ l r => .and g l r
  | .or _ l r => .or g l r

/-- `assign_pred` after the recursive calls (hashmap.c:26-44). -/
def assignNode (pm : PredMap) (n : AExpr) : Except Fault (AExpr × PredMap) :=
  match RB.find exprCmp n pm.m with
  | none =>
    let n := n.setGid pm.predCount
    match RB.insert exprCmp n pm.m with
    | .error e => .error e
    | .ok m => .ok (n, { predCount := pm.predCount + 1, memoizeCount := pm.memoizeCount, m := m, memo := pm.memo ++ [none] })
  | some f =>
    match pm.memo[f.gid]? with
    | none => .error .ub
    | some none =>
      .ok (n.setGid f.gid, { pm with memoizeCount := pm.memoizeCount + 1, memo := pm.memo.set f.gid (some pm.memoizeCount) })
    | some (some _) => .ok (n.setGid f.gid, pm)

/-- `assign_pred` (hashmap.c:13-45): children first (lhs, rhs), then the node.  A node that has no id yet carries
`INVALID_PRED`. -/
def assignPred (pm : PredMap) : Expr → Except Fault (AExpr × PredMap)
  | .leaf p => assignNode pm (.leaf invalidId p)
  | .not e =>
    match assignPred pm e with
    | .error x => .error x
    | .ok (e, pm) => assignNode pm (.not invalidId e)
  | .and l r =>
    match assignPred pm l with
    | .error x => .error x
    | .ok (l, pm) =>
      match assignPred pm r with
      | .error x => .error x
      | .ok (r, pm) => assignNode pm (.and invalidId l r)
  | .or l r =>
    match assignPred pm l with
    | .error x => .error x
    | .ok (l, pm) =>
      match assignPred pm r with
      | .error x => .error x
      | .ok (r, pm) => assignNode pm (.or invalidId l r)

/-- `node->memoize_id` (`none` for `INVALID_PRED`) (ast.c:1009, hashmap.c:38-43). -/
def PredMap.memoizeId (pm : PredMap) (gid : Nat) : Option Nat :=
  match pm.memo[gid]? with
  | some (some m) => some m
  | _ => none

end BeTree
