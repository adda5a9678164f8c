import Verif.Model.Bits
import Verif.Model.Eval
/-
ast.c `match_node` with the memo tables.
-/
namespace BeTree

/-- `struct memoize` (memoize.h:9-12). -/
structure Memo where
  pass : Bits
  fail : Bits
  deriving DecidableEq

/-- `make_memoize` (tree.c:1699-1707). -/
def makeMemo (n : Nat) : Memo := { pass := makeBits n, fail := makeBits n }

/-- State threaded through a search: the memo tables and `report->memoized` (ast.c:1004-1063). -/
structure MState where
  memo : Memo
  memoized : Nat

/-- The look-up part of `match_node_inner` (ast.c:1009-1022). -/
def memoLookup (s : MState) (id : Option Nat) : Except Fault (Option Bool) :=
  match id with
  | none => .ok none
  | some m =>
    match testBit s.memo.pass m with
    | .error e => .error e
    | .ok true => .ok (some true)
    | .ok false =>
      match testBit s.memo.fail m with
      | .error e => .error e
      | .ok true => .ok (some false)
      | .ok false => .ok none

/-- The store part of `match_node_inner` (ast.c:1054-1061). -/
def memoStore (s : MState) (id : Option Nat) (result : Bool) : Except Fault MState :=
  match id with
  | none => .ok s
  | some m =>
    if result then
      match setBit s.memo.pass m with
      | .error e => .error e
      | .ok b => .ok { s with memo := { s.memo with pass := b } }
    else
      match setBit s.memo.fail m with
      | .error e => .error e
      | .ok b => .ok { s with memo := { s.memo with fail := b } }

/-- Look up, else run the body and store (ast.c:1004-1063). -/
def withMemo (s : MState) (id : Option Nat) (body : MState → Except Fault (Bool × MState)) :
    Except Fault (Bool × MState) :=
  match memoLookup s id with
  | .error e => .error e
  | .ok (some b) => .ok (b, { s with memoized := s.memoized + 1 })
  | .ok none =>
    match body s with
    | .error e => .error e
    | .ok (b, s) =>
      match memoStore s id b with
      | .error e => .error e
      | .ok s => .ok (b, s)

/-- `match_node_inner` / `match_bool_expr` (ast.c:948-986, 1004-1063).  `memoId` gives `node->memoize_id`. -/
def matchNode (geo : GeoTest) (memoId : Nat → Option Nat) (env : Env) : AExpr → MState → Except Fault (Bool × MState)
  | .leaf g p, s =>
    withMemo s (memoId g) fun s =>
      match matchPred geo env p with
      | .error e => .error e
      | .ok b => .ok (b, s)
  | .not g e, s =>
    withMemo s (memoId g) fun s =>
      match matchNode geo memoId env e s with
      | .error e => .error e
      | .ok (b, s) => .ok (!b, s)
  | .and g l r, s =>
    withMemo s (memoId g) fun s =>
      match matchNode geo memoId env l s with
      | .error e => .error e
      | .ok (false, s) => .ok (false, s)
      | .ok (true, s) => matchNode geo memoId env r s
  | .or g l r, s =>
    withMemo s (memoId g) fun s =>
      match matchNode geo memoId env l s with
      | .error e => .error e
      | .ok (true, s) => .ok (true, s)
      | .ok (false, s) => matchNode geo memoId env r s

end BeTree
