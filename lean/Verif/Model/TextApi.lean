import Verif.Model.History
import Verif.Model.Parser
import Verif.Model.EventParser
/-
betree.h: the public operations with expressions and events given as texts.
-/
namespace BeTree

/-- `betree_insert_with_constants` (betree.c:475-503): a text that does not parse gives `false`. -/
def Tree.insertText (R : Rounding) (t : Tree) (id : Nat) (cs : List Constant) (text : Str) : Except Fault (Bool × Tree) :=
  match parseText text with
  | .error x => .error x
  | .ok none => .ok (false, t)
  | .ok (some e) => t.insert R id cs e

/-- `betree_make_sub` (betree.c:505-536): a text that does not parse gives NULL. -/
def Tree.makeSubText (t : Tree) (id : Nat) (cs : List Constant) (text : Str) : Except Fault (Option Sub × Tree) :=
  match parseText text with
  | .error x => .error x
  | .ok none => .ok (none, t)
  | .ok (some e) => t.makeSub id cs e

/-- `betree_change_boundaries` (betree.c:459-473): a text that does not parse gives `false`. -/
def Tree.changeBoundariesText (t : Tree) (text : Str) : Except Fault (Bool × Tree) :=
  match parseText text with
  | .error x => .error x
  | .ok none => .ok (false, t)
  | .ok (some e) =>
    match t.changeBoundaries e with
    | .error x => .error x
    | .ok t => .ok (true, t)

/-- `make_event_from_string` (tree.c:1811-1821) before `fill_event`: a text that does not parse aborts. -/
def eventFromString (text : Str) : Except Fault (List EventVar) :=
  match parseEventText text with
  | .error x => .error x
  | .ok none => .error .abort
  | .ok (some ev) => .ok ev

/-- `betree_search` (betree.c:591-597). -/
def Tree.searchText (geo : GeoTest) (t : Tree) (text : Str) (rep : Report) : Except Fault (Option Report) :=
  match eventFromString text with
  | .error x => .error x
  | .ok ev => t.search geo ev rep

/-- `betree_exists` (betree.c:576-582). -/
def Tree.existsText (geo : GeoTest) (t : Tree) (text : Str) : Except Fault Bool :=
  match eventFromString text with
  | .error x => .error x
  | .ok ev => t.exists geo ev

/-- the arguments of `betree_insert_with_constants` and `betree_make_sub` (betree.h:68-70, 87) -/
structure TextReq where
  id : Nat
  consts : List Constant
  text : Str
  deriving DecidableEq

/-- A mutating API call (betree.h:64-90) with its expression as a text; `insertSub k` inserts the `k`-th subscription built so far. -/
inductive TextOp where
  | insert (q : TextReq)
  | makeSub (q : TextReq)
  | insertSub (k : Nat)
  | changeBoundaries (text : Str)

/-- The tree, the subscriptions built by `betree_make_sub` so far, and (bookkeeping) the arguments of the insertions that returned true,
latest first (betree.h:64-90). -/
structure TextWorld where
  tree : Tree
  pool : List (TextReq × Sub)
  live : List TextReq

/-- a tree just created (betree.c:656-660) -/
def TextWorld.init (t : Tree) : TextWorld := { tree := t, pool := [], live := [] }

/-- One call (betree.c:459-541). -/
def TextWorld.step (R : Rounding) (w : TextWorld) : TextOp → Except Fault TextWorld
  | .insert q =>
    match w.tree.insertText R q.id q.consts q.text with
    | .error x => .error x
    | .ok (true, t) => .ok { w with tree := t, live := q :: w.live }
    | .ok (false, t) => .ok { w with tree := t }
  | .makeSub q =>
    match w.tree.makeSubText q.id q.consts q.text with
    | .error x => .error x
    | .ok (some s, t) => .ok { w with tree := t, pool := w.pool ++ [(q, s)] }
    | .ok (none, t) => .ok { w with tree := t }
  | .insertSub k =>
    match w.pool[k]? with
    | none => .ok w
    | some (q, s) =>
      match w.tree.insertSub R s with
      | .error x => .error x
      | .ok t => .ok { w with tree := t, live := q :: w.live }
  | .changeBoundaries text =>
    match w.tree.changeBoundariesText text with
    | .error x => .error x
    | .ok (_, t) => .ok { w with tree := t }

/-- A sequence of calls (betree.c:459-541). -/
def TextWorld.run (R : Rounding) (w : TextWorld) : List TextOp → Except Fault TextWorld
  | [] => .ok w
  | o :: os =>
    match w.step R o with
    | .error x => .error x
    | .ok w => w.run R os

end BeTree
