import Verif.Model.Api
import Verif.Model.EqExpr
/-
Histories of API calls.
-/
namespace BeTree

/-- What a caller asks for: `betree_insert_with_constants(tree, id, constants, expr)` (betree.h), the expression being
given as written (betree.h:119). -/
structure Req where
  id : Nat
  consts : List Constant
  expr : Expr
  deriving DecidableEq

/-- A mutating API call (betree.h).  The `makeSub`/`insertSub` pair is the two-step way of inserting; `insertSub k` inserts
the `k`-th subscription built so far (betree.h:93-96, 118-119). -/
inductive Op where
  | insert (q : Req)
  | makeSub (q : Req)
  | insertSub (k : Nat)
  | changeBoundaries (e : Expr)
  deriving DecidableEq

/-- The tree, the subscriptions built by `betree_make_sub` so far, and (bookkeeping) the requests whose insertion returned
true, latest first (betree.h:95-96). -/
structure World where
  tree : Tree
  pool : List (Req × Sub)
  live : List Req

/-- a tree just created (betree.c:627-660) -/
def World.init (t : Tree) : World := { tree := t, pool := [], live := [] }

/-- One call.  The parser reorders the operands of `and`/`or` (`parseBuild`) before the call's work starts
(betree.c:459-541). Using a subscription that was not built is not a call of the API: it leaves the world alone here. -/
def World.step (R : Rounding) (w : World) : Op → Except Fault World
  | .insert q =>
    match w.tree.insert R q.id q.consts (parseBuild q.expr) with
    | .error x => .error x
    | .ok (true, t) => .ok { w with tree := t, live := q :: w.live }
    | .ok (false, t) => .ok { w with tree := t }
  | .makeSub q =>
    match w.tree.makeSub q.id q.consts (parseBuild q.expr) with
    | .error x => .error x
    | .ok (some s, t) => .ok { w with tree := t, pool := w.pool ++ [(q, s)] }
    | .ok (none, t) => .ok { w with tree := t }
  | .insertSub k =>
    match w.pool[k]? with
    | none => .ok w
    | some (q, s) =>
      match w.tree.insertSub R s with
      | .error x => .error x
      | .ok t => .ok { w with tree := t, live := q :: w.live }
  | .changeBoundaries e =>
    match w.tree.changeBoundaries (parseBuild e) with
    | .error x => .error x
    | .ok t => .ok { w with tree := t }

/-- A sequence of calls (betree.h:93-96, 118-119). -/
def World.run (R : Rounding) (w : World) : List Op → Except Fault World
  | [] => .ok w
  | o :: os =>
    match w.step R o with
    | .error x => .error x
    | .ok w => w.run R os

/-- Any API call: a mutating one, a search with the report it adds to, or an existence test (betree.h) (betree.h:118-125). -/
inductive Call where
  | op (o : Op)
  | search (ev : List EventVar) (rep : Report)
  | exists (ev : List EventVar)

/-- What a call gives back (betree.h:118-125). -/
inductive Out where
  | done
  | report (r : Option Report)
  | answer (b : Bool)
  deriving DecidableEq

/-- One call of any kind (betree.c:459-604).  `betree_search*` and `betree_exists*` allocate their memo tables, undefined
set and environment for the call and free them at its end (tree.c:1749-1793), so the world after them is the world before. -/
def World.call (geo : GeoTest) (R : Rounding) (w : World) : Call → Except Fault (World × Out)
  | .op o =>
    match w.step R o with
    | .error x => .error x
    | .ok w => .ok (w, .done)
  | .search ev rep =>
    match w.tree.search geo ev rep with
    | .error x => .error x
    | .ok r => .ok (w, .report r)
  | .exists ev =>
    match w.tree.exists geo ev with
    | .error x => .error x
    | .ok b => .ok (w, .answer b)

/-- A sequence of calls of any kind, with what they give back (betree.h:93-125). -/
def World.calls (geo : GeoTest) (R : Rounding) (w : World) : List Call → Except Fault (World × List Out)
  | [] => .ok (w, [])
  | c :: cs =>
    match w.call geo R c with
    | .error x => .error x
    | .ok (w, o) =>
      match w.calls geo R cs with
      | .error x => .error x
      | .ok (w, os) => .ok (w, o :: os)

end BeTree
