import Verif.Model.Bounds
import Verif.Model.Pipeline
/-
betree.c: `change_boundaries`, which widens the declared domains so that they cover an expression's constants.
-/
namespace BeTree

/-- `integer_bound`, `float_bound`, ... (betree.c:122-184): only the two ends matter (the union member says the kind). -/
structure SBound where
  lo : Scalar
  hi : Scalar
  deriving DecidableEq, Repr

/-- one value for both ends (betree.c:123-184, `boolean_bound` and the like). -/
def SBound.point (s : Scalar) : SBound := { lo := s, hi := s }

/-- the operator tested when the comparison is inverted (betree.c:192-195, 202-205) -/
def CmpOp.invert : CmpOp → CmpOp
  | .lt => .ge
  | .le => .gt
  | .gt => .le
  | .ge => .lt

/-- `compare_simple_bound` (betree.c:186-211); `i - 1`, `i + 1` overflow is UB. -/
def compareSimple (c : CmpVal) (op : CmpOp) (inverted : Bool) : Except Fault SBound :=
  let op := if inverted then op.invert else op
  match c with
  | .int i =>
    match op with
    | .lt => (checkedInt (i - 1)).map fun x => .point (.i x)
    | .le => .ok (.point (.i i))
    | .gt => (checkedInt (i + 1)).map fun x => .point (.i x)
    | .ge => .ok (.point (.i i))
  | .float f =>
    match op with
    | .lt => .ok (.point (.f (rnd (f - dblEps))))
    | .le => .ok (.point (.f f))
    | .gt => .ok (.point (.f (rnd (f + dblEps))))
    | .ge => .ok (.point (.f f))

/-- first and last element; `integers[0]` of an empty list is UB (betree.c:229-230, 234-235, 258-259, 263-264). -/
def firstLastS {α : Type} (f : α → Scalar) : List α → Except Fault SBound
  | [] => .error .ub
  | x :: xs => .ok { lo := f x, hi := f ((x :: xs).getLast (by simp)) }

/-- `set_simple_bound` (betree.c:224-252). -/
def setSimple : SetLeft → SetRight → Except Fault SBound
  | .var _, .intList l => firstLastS Scalar.i l
  | .var _, .strList l => firstLastS (fun s : StrVal => Scalar.s s.str) l
  | .var _, .var _ => .error .abort
  | .int i, _ => .ok (.point (.i i))
  | .string s, _ => .ok (.point (.s s.str))

/-- `list_simple_bound` (betree.c:254-269). -/
def listSimple : ListVal → Except Fault SBound
  | .intList l => firstLastS Scalar.i l
  | .strList l => firstLastS (fun s : StrVal => Scalar.s s.str) l

/-- is `v` the variable of one side of a set expression? (betree.c:281-284) -/
def SetLeft.isVar (var : Nat) : SetLeft → Bool
  | .var v => decide (v.var = var)
  | _ => false
/-- the same for the right side (betree.c:281-284) -/
def SetRight.isVar (var : Nat) : SetRight → Bool
  | .var v => decide (v.var = var)
  | _ => false

/-- leaf cases of `might_be_affected` + `get_simple_variable_bound` (betree.c:271-373): `none` is "not touched". -/
def simplePred (var : Nat) (inverted : Bool) : Pred → Except Fault (Option SBound)
  | .compare op v c => if v.var = var then (compareSimple c op inverted).map some else .ok none
  | .equality _ v c => if v.var = var then .ok (some (.point c.scalar)) else .ok none
  | .boolVar v => if v.var = var then .ok (some (.point (.b (!inverted)))) else .ok none
  | .boolLit _ => .ok none
  | .set _ l r => if l.isVar var || r.isVar var then (setSimple l r).map some else .ok none
  | .list _ v c => if v.var = var then (listSimple c).map some else .ok none
  | .freq _ => .ok none
  | .segment _ => .ok none
  | .geo _ => .ok none
  | .str _ => .ok none
  | .isNull _ _ => .ok none

/-- Union of the bounds of two operands (betree.c:310-340).  The right bound's union is read at the type of the left
one: UB when the kinds differ. -/
def unionSimple : Option SBound → Option SBound → Except Fault (Option SBound)
  | none, none => .ok none
  | none, some r => .ok (some r)
  | some l, none => .ok (some l)
  | some l, some r =>
    if l.lo.kind = r.lo.kind then .ok (some { lo := l.lo.min r.lo, hi := l.hi.max r.hi }) else .error .ub

/-- `get_simple_variable_bound` (betree.c:291-373). -/
def simpleBound (var : Nat) (inverted : Bool) : Expr → Except Fault (Option SBound)
  | .leaf p => simplePred var inverted p
  | .not e => simpleBound var (!inverted) e
  | .and l r =>
    match simpleBound var inverted l with
    | .error e => .error e
    | .ok l =>
      match simpleBound var inverted r with
      | .error e => .error e
      | .ok r => unionSimple l r
  | .or l r =>
    match simpleBound var inverted l with
    | .error e => .error e
    | .ok l =>
      match simpleBound var inverted r with
      | .error e => .error e
      | .ok r => unionSimple l r

/-- `smax` from the size of the variable's map (betree.c:421-446), `count - 1` in `size_t` arithmetic; every map with
that variable is visited. -/
def widenSmax (smax : Nat) : List Nat → Nat
  | [] => smax
  | count :: cs =>
    let m := (count + sizeMax) % 2 ^ 64
    widenSmax (if smax < sizeMax - 1 then (if m > smax then m else smax) else m) cs

/-- The body of the loop of `change_boundaries` for one domain (betree.c:388-454), given `bound`. -/
def widenDomain (cfg : Config) (d : Domain) (b : SBound) : Except Fault Domain :=
  match d.bound.ty with
  | .int | .intList =>
    match d.bound.lo, d.bound.hi, b.lo, b.hi with
    | .i dlo, .i dhi, .i lo, .i hi =>
      .ok { d with bound := { d.bound with
        lo := .i (if dlo ≠ int64Min then (if lo < dlo then lo else dlo) else lo)
        hi := .i (if dhi ≠ int64Max then (if hi > dhi then hi else dhi) else hi) } }
    | _, _, _, _ => .error .ub
  | .float =>
    match d.bound.lo, d.bound.hi, b.lo, b.hi with
    | .f dlo, .f dhi, .f lo, .f hi =>
      .ok { d with bound := { d.bound with
        lo := .f (if fne dlo (-dblMax) then (if lo < dlo then lo else dlo) else lo)
        hi := .f (if fne dhi dblMax then (if hi > dhi then hi else dhi) else hi) } }
    | _, _, _, _ => .error .ub
  | .string | .strList =>
    match d.bound.hi with
    | .s smax =>
      .ok { d with bound := { d.bound with
        hi := .s (widenSmax smax ((cfg.stringMaps.filter (fun m => m.attr.var = d.attr.var)).map (·.values.length))) } }
    | _ => .error .ub
  | .intEnum =>
    match d.bound.hi with
    | .s smax =>
      .ok { d with bound := { d.bound with
        hi := .s (widenSmax smax ((cfg.intMaps.filter (fun m => m.attr.var = d.attr.var)).map (·.values.length))) } }
    | _ => .error .ub
  | .bool => .ok d
  | .segments => .ok d
  | .freq => .ok d

/-- One iteration of the loop of `change_boundaries` (betree.c:378-455). -/
def changeDomain (cfg : Config) (e : Expr) (d : Domain) : Except Fault Domain :=
  match d.bound.ty with
  | .bool => .ok d
  | .segments => .ok d
  | .freq => .ok d
  | _ =>
    match simpleBound d.attr.var false e with
    | .error e => .error e
    | .ok none => .ok d
    | .ok (some b) => widenDomain cfg d b

/-- The loop over the domains (betree.c:377-456). -/
def changeDomains (cfg : Config) (e : Expr) : List Domain → Except Fault (List Domain)
  | [] => .ok []
  | d :: ds =>
    match changeDomain cfg e d with
    | .error e => .error e
    | .ok d =>
      match changeDomains cfg e ds with
      | .error e => .error e
      | .ok ds => .ok (d :: ds)

/-- `change_boundaries` (betree.c:375-457). -/
def changeBoundaries (cfg : Config) (e : Expr) : Except Fault Config :=
  match changeDomains cfg e cfg.domains with
  | .error e => .error e
  | .ok ds => .ok { cfg with domains := ds }

end BeTree
