import Verif.Model.Bits
import Verif.Model.Memo
import Verif.Model.Bounds
import Verif.Model.Config
/-
tree.c: subscriptions, the set of variables they mention, and the short-circuit tables.
-/
namespace BeTree

/-- `enum short_circuit_e` (tree.c:46). -/
inductive SC where
  | pass | fail | none
  deriving DecidableEq, Repr

/-- `short_circuit_for_attr_var` (tree.c:1444-1455). -/
def scVar (id : Nat) (inverted : Bool) (v : AttrVar) : SC :=
  if id = v.var then (if inverted then .pass else .fail) else .none

/-- `PASS` if either passes, `FAIL` if both fail (tree.c:1479-1491). -/
def scOr : SC → SC → SC
  | .pass, _ => .pass
  | _, .pass => .pass
  | .fail, .fail => .fail
  | _, _ => .none

/-- `FAIL` if either fails, `PASS` if both pass (tree.c:1492-1504, and the special predicates 1524-1559). -/
def scAnd : SC → SC → SC
  | .fail, _ => .fail
  | _, .fail => .fail
  | .pass, .pass => .pass
  | _, _ => .none

/-- leaf cases of `short_circuit_for_node` (tree.c:1457-1567).  When the left side of a set expression is not a
variable the right side is read as one, whatever its tag: a wild read otherwise. -/
def scPred (id : Nat) (inverted : Bool) : Pred → Except Fault SC
  | .isNull .isNull v => .ok (scVar id (!inverted) v)
  | .isNull .isNotNull v => .ok (scVar id inverted v)
  | .isNull .isEmpty v => .ok (scVar id inverted v)
  | .compare _ v _ => .ok (scVar id inverted v)
  | .equality _ v _ => .ok (scVar id inverted v)
  | .boolLit _ => .ok .none
  | .boolVar v => .ok (scVar id inverted v)
  | .set _ (.var v) _ => .ok (scVar id inverted v)
  | .set _ _ (.var v) => .ok (scVar id inverted v)
  | .set _ _ _ => .error .ub
  | .list _ v _ => .ok (scVar id inverted v)
  | .freq f => .ok (scAnd (scVar id inverted f.attr) (scVar id inverted f.now))
  | .segment s => .ok (scAnd (scVar id inverted s.attr) (scVar id inverted s.now))
  | .geo g => .ok (scAnd (scVar id inverted g.latVar) (scVar id inverted g.lonVar))
  | .str s => .ok (scVar id inverted s.attr)

/-- `short_circuit_for_node` (tree.c:1457-1567): `not` flips `inverted`; `and`/`or` are combined by the same rules
whatever `inverted` is. -/
def scExpr (id : Nat) (inverted : Bool) : Expr → Except Fault SC
  | .leaf p => scPred id inverted p
  | .not e => scExpr id (!inverted) e
  | .or l r =>
    match scExpr id inverted l with
    | .error e => .error e
    | .ok l =>
      match scExpr id inverted r with
      | .error e => .error e
      | .ok r => .ok (scOr l r)
  | .and l r =>
    match scExpr id inverted l with
    | .error e => .error e
    | .ok l =>
      match scExpr id inverted r with
      | .error e => .error e
      | .ok r => .ok (scAnd l r)

/-- `fill_pred` (tree.c:1372-1442), leaf cases: the variables a node sets in `sub->attr_vars`. -/
def predVars : Pred → List Nat
  | .isNull _ v => [v.var]
  | .freq f => [f.attr.var]
  | .geo g => [g.latVar.var, g.lonVar.var]
  | .str s => [s.attr.var]
  | .segment s => [s.attr.var]
  | .boolVar v => [v.var]
  | .boolLit _ => []
  | .compare _ v _ => [v.var]
  | .equality _ v _ => [v.var]
  | .set _ (.var v) _ => [v.var]
  | .set _ _ (.var v) => [v.var]
  | .set _ _ _ => []
  | .list _ v _ => [v.var]

/-- `fill_pred` (tree.c:1372-1442). -/
def exprVars : Expr → List Nat
  | .leaf p => predVars p
  | .not e => exprVars e
  | .and l r => exprVars l ++ exprVars r
  | .or l r => exprVars l ++ exprVars r

/-- `struct betree_sub` (tree.h).  `attr_vars` is a bit set in the code (memoize.c, see `Bits`); here it is the list of
set bits (property C38 shows that set_bit/test_bit implement a set) (tree.h:22-27). -/
structure Sub where
  id : Nat
  attrVars : List Nat
  expr : AExpr
  pass : Bits
  fail : Bits
  deriving DecidableEq

/-- `test_bit(sub->attr_vars, var)` (tree.c:481-484 sub_has_attribute). -/
def Sub.has (s : Sub) (var : Nat) : Bool := decide (var ∈ s.attrVars)

/-- `fill_short_circuit` (tree.c:1569-1585), from domain number `i` on. -/
def fillShortCircuit (e : Expr) : List Domain → Nat → Bits → Bits → Except Fault (Bits × Bits)
  | [], _, pass, fail => .ok (pass, fail)
  | d :: ds, i, pass, fail =>
    if d.allowUndefined then
      match scExpr d.attr.var false e with
      | .error e => .error e
      | .ok .pass =>
        match setBit pass i with
        | .error e => .error e
        | .ok pass => fillShortCircuit e ds (i + 1) pass fail
      | .ok .fail =>
        match setBit fail i with
        | .error e => .error e
        | .ok fail => fillShortCircuit e ds (i + 1) pass fail
      | .ok .none => fillShortCircuit e ds (i + 1) pass fail
    else fillShortCircuit e ds (i + 1) pass fail

/-- `make_sub` (tree.c:1587-1603).  `set_bit(sub->attr_vars, var)` beyond the `count` words is UB. -/
def makeSub (cfg : Config) (id : Nat) (e : AExpr) : Except Fault Sub :=
  let nd := cfg.domains.length
  if (exprVars e.erase).all (fun v => v / 64 < nd / 64 + 1) then
    match fillShortCircuit e.erase cfg.domains 0 (makeBits nd) (makeBits nd) with
    | .error e => .error e
    | .ok (pass, fail) => .ok { id := id, attrVars := exprVars e.erase, expr := e, pass := pass, fail := fail }
  else .error .ub

/-- `try_short_circuit` (tree.c:48-63): word by word, `pass` before `fail`.  The three arrays have the same number of
words. -/
def tryShortCircuit : Bits → Bits → Bits → SC
  | p :: ps, f :: fs, u :: us =>
    if p &&& u ≠ 0#64 then .pass
    else if f &&& u ≠ 0#64 then .fail
    else tryShortCircuit ps fs us
  | _, _, _ => .none

/-- `make_undefined` (tree.c:1715-1725), from position `i` on. -/
def markUndefined : Env → Nat → Bits → Except Fault Bits
  | [], _, bits => .ok bits
  | some _ :: vs, i, bits => markUndefined vs (i + 1) bits
  | none :: vs, i, bits =>
    match setBit bits i with
    | .error e => .error e
    | .ok bits => markUndefined vs (i + 1) bits

/-- `make_undefined` (tree.c:1715-1725). -/
def makeUndefined (env : Env) : Except Fault Bits := markUndefined env 0 (makeBits env.length)

end BeTree
