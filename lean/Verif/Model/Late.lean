import Verif.Model.History
/-
Variables declared after expressions were inserted: `betree_add_*_variable` (betree.c:674-723) may be called at any time, while
the bit sets of an expression built earlier keep the size they were allocated with (tree.c:1595-1600).
-/
namespace BeTree

/-- `struct attr_domain* add_attr_domain_*` (config.c:86-208) on a tree in use: the domains grow by one, nothing else changes. -/
def Tree.declare (t : Tree) (name : Str) (d : Decl) (allowUndefined : Bool) : Tree :=
  { t with cfg := BeTree.declare t.cfg name d allowUndefined }

/-- the number of words of the bit sets of an expression: `attr_domain_count / 64 + 1` when it was built (tree.c:1595-1600) -/
def Sub.words (s : Sub) : Nat := s.pass.length

/-- the number of words the loops over all variables go through now (tree.c:51-52, 1715-1717) -/
def Config.words (cfg : Config) : Nat := cfg.domains.length / 64 + 1

/-- `try_short_circuit` (tree.c:48-63) with the accesses checked: the loop goes through as many words as there are variables now;
reading past the words of the expression is UB. -/
def checkedShortCircuit : Bits → Bits → Bits → Except Fault SC
  | _, _, [] => .ok .none
  | p :: ps, f :: fs, u :: us =>
    if p &&& u ≠ 0#64 then .ok .pass
    else if f &&& u ≠ 0#64 then .ok .fail
    else checkedShortCircuit ps fs us
  | _, _, _ :: _ => .error .ub

/-- `match_sub` (tree.c:65-88) with the accesses checked. -/
def matchSubLate (geo : GeoTest) (memoId : Nat → Option Nat) (env : Env) (undef : Bits) (s : Sub) (st : LoopState) :
    Except Fault (Bool × LoopState) :=
  match checkedShortCircuit s.pass s.fail undef with
  | .error e => .error e
  | .ok .pass => .ok (true, { st with shorted := st.shorted + 1 })
  | .ok .fail => .ok (false, { st with shorted := st.shorted + 1 })
  | .ok .none =>
    match matchNode geo memoId env s.expr st.m with
    | .error e => .error e
    | .ok (b, m) => .ok (b, { st with m := m })

/-- the evaluation loop of `betree_search_with_preds` (tree.c:1759-1765) with the accesses checked -/
def searchLoopLate (geo : GeoTest) (memoId : Nat → Option Nat) (env : Env) (undef : Bits) :
    List Sub → LoopState → Except Fault (List Nat × LoopState)
  | [], st => .ok ([], st)
  | s :: ss, st =>
    match matchSubLate geo memoId env undef s st with
    | .error e => .error e
    | .ok (b, st) =>
      match searchLoopLate geo memoId env undef ss st with
      | .error e => .error e
      | .ok (ids, st) => .ok (if b then s.id :: ids else ids, st)

/-- the evaluation loop of `betree_exists_with_preds` (tree.c:1781-1787) with the accesses checked -/
def existsLoopLate (geo : GeoTest) (memoId : Nat → Option Nat) (env : Env) (undef : Bits) :
    List Sub → LoopState → Except Fault Bool
  | [], _ => .ok false
  | s :: ss, st =>
    match matchSubLate geo memoId env undef s st with
    | .error e => .error e
    | .ok (true, _) => .ok true
    | .ok (false, st) => existsLoopLate geo memoId env undef ss st

/-- `betree_search` (betree.c:559-568, 591-604; tree.c:1749-1771) with the accesses checked. -/
def Tree.searchLate (geo : GeoTest) (t : Tree) (ev : List EventVar) (rep : Report) : Except Fault (Option Report) :=
  match eventEnv t.cfg ev with
  | .error x => .error x
  | .ok env =>
    if validateVariables t.cfg.domains env then
      match makeUndefined env with
      | .error e => .error e
      | .ok undef =>
        match t.root.collect t.cfg env with
        | .error e => .error e
        | .ok subs =>
          match searchLoopLate geo t.cfg.predMap.memoizeId env undef subs (LoopState.init t.cfg) with
          | .error e => .error e
          | .ok (ids, st) =>
            .ok (some { evaluated := rep.evaluated + subs.length
                        matched := rep.matched + ids.length
                        memoized := rep.memoized + st.m.memoized
                        shorted := rep.shorted + st.shorted
                        subs := rep.subs ++ ids })
    else .ok none

/-- `betree_exists` (betree.c:570-589; tree.c:1773-1793) with the accesses checked. -/
def Tree.existsLate (geo : GeoTest) (t : Tree) (ev : List EventVar) : Except Fault Bool :=
  match eventEnv t.cfg ev with
  | .error x => .error x
  | .ok env =>
    match makeUndefined env with
    | .error e => .error e
    | .ok undef =>
      match t.root.collect t.cfg env with
      | .error e => .error e
      | .ok subs => existsLoopLate geo t.cfg.predMap.memoizeId env undef subs (LoopState.init t.cfg)

mutual
/-- are the bit sets of everything stored at or below a cnode as long as the loops over all variables (tree.c:425, 760)? -/
def CNode.fits (n : Nat) : CNode → Bool
  | .mk subs _ pns => subs.all (fun s => s.words == n) && pns.fits n
/-- the same, below the partitions (tree.c:425, 760) -/
def PNodes.fits (n : Nat) : PNodes → Bool
  | .nil => true
  | .cons _ _ cd rest => cd.fits n && rest.fits n
/-- the same, at or below a cdir (tree.c:425, 760) -/
def CDir.fits (n : Nat) : CDir → Bool
  | .leaf _ _ c => c.fits n
  | .node _ _ c l r => c.fits n && l.fits n && r.fits n
end

/-- A mutating call, or the declaration of a variable (betree.h:83-96, 118-119). -/
inductive LateOp where
  | declare (name : Str) (d : Decl) (allowUndefined : Bool)
  | op (o : Op)
  deriving DecidableEq

/-- May the call go through the bit sets it probes?  An insertion probes those of the new expression and those of the
expressions of the nodes it restructures, for every variable (`test_bit` at tree.c:425, 760).  Simplification: here an insertion
is UB as soon as any expression of the tree (or the one inserted) has bit sets of another length. -/
def World.probes (w : World) : Op → Bool
  | .insert _ => w.tree.root.fits w.tree.cfg.words
  | .insertSub k =>
    w.tree.root.fits w.tree.cfg.words &&
      match w.pool[k]? with
      | none => true
      | some (_, s) => s.words == w.tree.cfg.words
  | .makeSub _ => true
  | .changeBoundaries _ => true

/-- One call or declaration (betree.c:459-541, 674-723). -/
def World.lateStep (R : Rounding) (w : World) : LateOp → Except Fault World
  | .declare name d u => .ok { w with tree := w.tree.declare name d u }
  | .op o => if w.probes o then w.step R o else .error .ub

/-- A sequence of calls and declarations (betree.h:83-96, 118-119). -/
def World.lateRun (R : Rounding) (w : World) : List LateOp → Except Fault World
  | [] => .ok w
  | o :: os =>
    match w.lateStep R o with
    | .error x => .error x
    | .ok w => w.lateRun R os

end BeTree
