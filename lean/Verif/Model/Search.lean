import Verif.Model.Tree
/-
tree.c: searching the tree with a filled event.
-/
namespace BeTree

/-- the value of `preds[var]` (tree.c:117-120, 147) -/
def envGet (env : Env) (var : Nat) : Except Fault (Option Value) := getVariable env var

/-- `lo <= first && last <= hi`-style overlap test of a sorted non-empty event list (tree.c:163-182).  With an open end the
code compares with `INT64_MIN`, `INT64_MAX` or `SIZE_MAX`, which every 64-bit value satisfies. -/
def listOverlaps (openLeft openRight : Bool) (b : Bound) (first last : Scalar) : Bool :=
  (openRight || first.le b.hi) && (openLeft || b.lo.le last)

/-- `is_event_enclosed` (tree.c:142-181) on a non-NULL cdir.  The cdir's bound is read at the type of the event's
value: UB when the kinds differ. -/
def isEventEnclosed (env : Env) (var : Nat) (b : Bound) (openLeft openRight : Bool) : Except Fault Bool :=
  match envGet env var with
  | .error e => .error e
  | .ok none => .ok true
  | .ok (some val) =>
    match val with
    | .segments _ => .ok true
    | .freq _ => .ok true
    | _ =>
      if b.lo.kind = val.vtype.kind ∧ b.hi.kind = val.vtype.kind then
        match val with
        | .bool x => .ok (b.lo.le (.b x) && Scalar.le (.b x) b.hi)
        | .int x => .ok ((openLeft || b.lo.le (.i x)) && (openRight || Scalar.le (.i x) b.hi))
        | .float x => .ok ((openLeft || b.lo.le (.f x)) && (openRight || Scalar.le (.f x) b.hi))
        | .string x => .ok (b.lo.le (.s x.str) && (openRight || Scalar.le (.s x.str) b.hi))
        | .intEnum x => .ok (b.lo.le (.s x.ienum) && (openRight || Scalar.le (.s x.ienum) b.hi))
        | .intList [] => .ok true
        | .intList (x :: xs) =>
          .ok (listOverlaps openLeft openRight b (.i x) (.i ((x :: xs).getLast (by simp))))
        | .strList [] => .ok true
        | .strList (x :: xs) =>
          .ok (listOverlaps false openRight b (.s x.str) (.s ((x :: xs).getLast (by simp)).str))
        | .segments _ => .ok true
        | .freq _ => .ok true
      else .error .ub

mutual
/-- `match_be_tree` (tree.c:122-140): the expressions to evaluate, in order. -/
def CNode.collect (cfg : Config) (env : Env) : CNode → Except Fault (List Sub)
  | .mk subs _ pns =>
    match pns.collect cfg env with
    | .error e => .error e
    | .ok rest => .ok (subs ++ rest)

/-- the loop over the partitions (tree.c:128-138): skipped when the event leaves a mandatory variable undefined -/
def PNodes.collect (cfg : Config) (env : Env) : PNodes → Except Fault (List Sub)
  | .nil => .ok []
  | .cons v _ cd rest =>
    match getDomain cfg v with
    | .error e => .error e
    | .ok d =>
      match envGet env v with
      | .error e => .error e
      | .ok val =>
        if d.allowUndefined || val.isSome then
          match cd.collect cfg env true true with
          | .error e => .error e
          | .ok here =>
            match rest.collect cfg env with
            | .error e => .error e
            | .ok rest => .ok (here ++ rest)
        else rest.collect cfg env

/-- `search_cdir` (tree.c:224-237). -/
def CDir.collect (cfg : Config) (env : Env) (openLeft openRight : Bool) : CDir → Except Fault (List Sub)
  | .leaf _ _ c => c.collect cfg env
  | .node _ _ c l r =>
    match c.collect cfg env with
    | .error e => .error e
    | .ok here =>
      match isEventEnclosed env l.var l.bound openLeft false with
      | .error e => .error e
      | .ok inL =>
        match (if inL then l.collect cfg env openLeft false else .ok []) with
        | .error e => .error e
        | .ok ls =>
          match isEventEnclosed env r.var r.bound false openRight with
          | .error e => .error e
          | .ok inR =>
            match (if inR then r.collect cfg env false openRight else .ok []) with
            | .error e => .error e
            | .ok rs => .ok (here ++ ls ++ rs)
end

/-- `struct report` (betree.h:22-28). -/
structure Report where
  evaluated : Nat
  matched : Nat
  memoized : Nat
  shorted : Nat
  subs : List Nat
  deriving DecidableEq, Repr

/-- `make_report` (betree.c:606-619). -/
def Report.empty : Report := { evaluated := 0, matched := 0, memoized := 0, shorted := 0, subs := [] }

/-- State of the evaluation loop: memo tables with `memoized`, and `shorted` (tree.c:65-88). -/
structure LoopState where
  m : MState
  shorted : Nat

/-- `match_sub` (tree.c:65-88). -/
def matchSub (geo : GeoTest) (memoId : Nat → Option Nat) (env : Env) (undef : Bits) (s : Sub) (st : LoopState) :
    Except Fault (Bool × LoopState) :=
  match tryShortCircuit s.pass s.fail undef with
  | .pass => .ok (true, { st with shorted := st.shorted + 1 })
  | .fail => .ok (false, { st with shorted := st.shorted + 1 })
  | .none =>
    match matchNode geo memoId env s.expr st.m with
    | .error e => .error e
    | .ok (b, m) => .ok (b, { st with m := m })

/-- the evaluation loop of `betree_search_with_preds` (tree.c:1759-1765): the ids of the matching expressions -/
def searchLoop (geo : GeoTest) (memoId : Nat → Option Nat) (env : Env) (undef : Bits) :
    List Sub → LoopState → Except Fault (List Nat × LoopState)
  | [], st => .ok ([], st)
  | s :: ss, st =>
    match matchSub geo memoId env undef s st with
    | .error e => .error e
    | .ok (b, st) =>
      match searchLoop geo memoId env undef ss st with
      | .error e => .error e
      | .ok (ids, st) => .ok (if b then s.id :: ids else ids, st)

/-- the evaluation loop of `betree_exists_with_preds` (tree.c:1781-1787): stops at the first match -/
def existsLoop (geo : GeoTest) (memoId : Nat → Option Nat) (env : Env) (undef : Bits) :
    List Sub → LoopState → Except Fault Bool
  | [], _ => .ok false
  | s :: ss, st =>
    match matchSub geo memoId env undef s st with
    | .error e => .error e
    | .ok (true, _) => .ok true
    | .ok (false, st) => existsLoop geo memoId env undef ss st

/-- state at the start of a search: fresh memo tables (tree.c:1754-1755) -/
def LoopState.init (cfg : Config) : LoopState :=
  { m := { memo := makeMemo cfg.predMap.memoizeCount, memoized := 0 }, shorted := 0 }

/-- `betree_search_with_preds` (tree.c:1749-1771), adding to the report given by the caller. -/
def searchWithPreds (geo : GeoTest) (cfg : Config) (env : Env) (root : CNode) (rep : Report) : Except Fault Report :=
  match makeUndefined env with
  | .error e => .error e
  | .ok undef =>
    match root.collect cfg env with
    | .error e => .error e
    | .ok subs =>
      match searchLoop geo cfg.predMap.memoizeId env undef subs (LoopState.init cfg) with
      | .error e => .error e
      | .ok (ids, st) =>
        .ok { evaluated := rep.evaluated + subs.length
              matched := rep.matched + ids.length
              memoized := rep.memoized + st.m.memoized
              shorted := rep.shorted + st.shorted
              subs := rep.subs ++ ids }

/-- `betree_exists_with_preds` (tree.c:1773-1793). -/
def existsWithPreds (geo : GeoTest) (cfg : Config) (env : Env) (root : CNode) : Except Fault Bool :=
  match makeUndefined env with
  | .error e => .error e
  | .ok undef =>
    match root.collect cfg env with
    | .error e => .error e
    | .ok subs => existsLoop geo cfg.predMap.memoizeId env undef subs (LoopState.init cfg)

mutual
/-- `find_sub_id` (tree.c:1271-1290). -/
def CNode.find (id : Nat) : CNode → Option Sub
  | .mk subs _ pns =>
    match subs.find? (fun s => s.id = id) with
    | some s => some s
    | none => pns.find id
/-- the loop over the partitions (tree.c:1281-1288) -/
def PNodes.find (id : Nat) : PNodes → Option Sub
  | .nil => none
  | .cons _ _ cd rest =>
    match cd.find id with
    | some s => some s
    | none => rest.find id
/-- `find_sub_id_cdir` (tree.c:1251-1269). -/
def CDir.find (id : Nat) : CDir → Option Sub
  | .leaf _ _ c => c.find id
  | .node _ _ c l r =>
    match c.find id with
    | some s => some s
    | none =>
      match l.find id with
      | some s => some s
      | none => r.find id
end

end BeTree
