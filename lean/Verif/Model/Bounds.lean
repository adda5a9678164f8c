import Verif.Model.Types
import Verif.Model.Eval
/-
The interval an expression allows for one variable: ast.c `get_variable_bound`.
-/
namespace BeTree

/-- The smaller of two union members (`d64min`, `fmin`, `smin` of utils.c:8-36, `&&` on booleans; ast.c:1416-1436).
The callers below only combine members of the kind of the domain; for different kinds the first is returned. -/
def Scalar.min : Scalar → Scalar → Scalar
  | .b x, .b y => .b (x && y)
  | .i x, .i y => .i (if x < y then x else y)
  | .f x, .f y => .f (if x < y then x else y)
  | .s x, .s y => .s (if x < y then x else y)
  | a, _ => a

/-- The larger of two union members (ast.c:1438-1460). -/
def Scalar.max : Scalar → Scalar → Scalar
  | .b x, .b y => .b (x || y)
  | .i x, .i y => .i (if x < y then y else x)
  | .f x, .f y => .f (if x < y then y else x)
  | .s x, .s y => .s (if x < y then y else x)
  | a, _ => a

/-- `struct value_bound` under construction with `struct bound_dirty` (ast.c:1073-1076): `none` is "not dirty". -/
structure Partial where
  lo : Option Scalar
  hi : Option Scalar
  deriving DecidableEq, Repr

/-- nothing set yet (ast.c:1073-1076) -/
def Partial.none : Partial := { lo := .none, hi := .none }

/-- `int64_t` arithmetic: out of range is undefined behaviour (`k - 1`, `k + 1` at ast.c:1715, 1737, 1767, 1789; the limits of `int64_t` are stdint.h's). -/
def checkedInt (i : Int) : Except Fault Int :=
  if int64Min ≤ i ∧ i ≤ int64Max then .ok i else .error .ub

/-- first and last elements of a list, if any (ast.c:1112-1122 and the like). -/
def firstLast {α : Type} (f : α → Scalar) : List α → Partial
  | [] => .none
  | x :: xs => { lo := some (f x), hi := some (f ((x :: xs).getLast (by simp))) }

/-- One value for both ends (ast.c:1606-1636). -/
def Partial.point (s : Scalar) : Partial := { lo := some s, hi := some s }

/-- Equality case: the interval of the constant (ast.c:1606-1636). -/
def EqVal.scalar : EqVal → Scalar
  | .int i => .i i
  | .float f => .f f
  | .string s => .s s.str
  | .intEnum e => .s e.ienum

/-- `equality_value_matches` (ast.c:436-442). -/
def eqMatches : EqVal → VType → Bool
  | .int _, .int => true
  | .float _, .float => true
  | .string _, .string => true
  | .intEnum _, .intEnum => true
  | _, _ => false

/-- `compare_value_matches` (ast.c:430-434). -/
def cmpMatches : CmpVal → VType → Bool
  | .int _, .int => true
  | .float _, .float => true
  | _, _ => false

/-- `list_value_matches` (ast.c:444-448). -/
def listMatches : ListVal → VType → Bool
  | .intList _, .intList => true
  | .strList _, .strList => true
  | _, _ => false

/-- Comparison case (ast.c:1697-1811): `v - 1`, `v`, `v + 1`, `v ± __DBL_EPSILON__`. -/
def compareBound (op : CmpOp) (c : CmpVal) (rev : Bool) : Except Fault Partial :=
  match c with
  | .int k =>
    match op, rev with
    | .lt, true => .ok { lo := some (.i k), hi := none }
    | .lt, false => (checkedInt (k - 1)).map fun x => { lo := none, hi := some (.i x) }
    | .le, true => (checkedInt (k + 1)).map fun x => { lo := some (.i x), hi := none }
    | .le, false => .ok { lo := none, hi := some (.i k) }
    | .gt, true => .ok { lo := none, hi := some (.i k) }
    | .gt, false => (checkedInt (k + 1)).map fun x => { lo := some (.i x), hi := none }
    | .ge, true => (checkedInt (k - 1)).map fun x => { lo := none, hi := some (.i x) }
    | .ge, false => .ok { lo := some (.i k), hi := none }
  | .float k =>
    .ok (match op, rev with
    | .lt, true => { lo := some (.f k), hi := none }
    | .lt, false => { lo := none, hi := some (.f (rnd (k - dblEps))) }
    | .le, true => { lo := some (.f (rnd (k + dblEps))), hi := none }
    | .le, false => { lo := none, hi := some (.f k) }
    | .gt, true => { lo := none, hi := some (.f k) }
    | .gt, false => { lo := some (.f (rnd (k + dblEps))), hi := none }
    | .ge, true => { lo := none, hi := some (.f (rnd (k - dblEps))) }
    | .ge, false => { lo := some (.f k), hi := none })

/-- Set case (ast.c:1198-1372).  `active` is "`in` not reversed, or `not in` reversed". -/
def setBound (d : Domain) (active : Bool) : SetLeft → SetRight → Except Fault Partial
  | .var v, r =>
    if d.attr.var ≠ v.var then .ok .none
    else
      match d.bound.ty, r with
      | .int, .intList l => .ok (if active then firstLast Scalar.i l else .none)
      | .string, .strList l => .ok (if active then firstLast (fun s : StrVal => Scalar.s s.str) l else .none)
      | _, _ => .error .abort
  | l, .var v =>
    if d.attr.var ≠ v.var then .ok .none
    else
      match d.bound.ty, l with
      | .intList, .int i => .ok (if active then .point (.i i) else .none)
      | .strList, .string s => .ok (if active then .point (.s s.str) else .none)
      | _, _ => .error .abort
  | _, _ => .error .abort

/-- Does the operator give an interval?  (ast.c:1198-1372) -/
def setActive (op : SetOp) (rev : Bool) : Bool :=
  match op with
  | .isIn => !rev
  | .notIn => rev

/-- Does the operator give an interval?  (ast.c:1100-1196) -/
def listActive (op : ListOp) (rev : Bool) : Bool :=
  match op with
  | .oneOf => !rev
  | .allOf => !rev
  | .noneOf => rev

/-- List case (ast.c:1091-1197). -/
def listBound (d : Domain) (rev : Bool) (op : ListOp) (v : AttrVar) (c : ListVal) : Except Fault Partial :=
  if d.attr.var ≠ v.var then .ok .none
  else if !listMatches c d.bound.ty then .error .abort
  else
    if listActive op rev then
      match c with
      | .intList l => .ok (firstLast Scalar.i l)
      | .strList l => .ok (firstLast (fun s : StrVal => Scalar.s s.str) l)
    else .ok .none

/-- leaf cases of `get_variable_bound_inner` (ast.c:1078-1813) -/
def boundPred (d : Domain) (rev : Bool) : Pred → Except Fault Partial
  | .isNull _ _ => .ok .none
  | .freq _ => .ok .none
  | .segment _ => .ok .none
  | .geo _ => .ok .none
  | .str _ => .ok .none
  | .boolLit _ => .ok .none
  | .list op v c => listBound d rev op v c
  | .set op l r =>
    setBound d (setActive op rev) l r
  | .boolVar v =>
    if d.attr.var ≠ v.var then .ok .none
    else if d.bound.ty ≠ .bool then .error .abort
    else .ok (.point (.b (!rev)))
  | .equality op v c =>
    if d.attr.var ≠ v.var then .ok .none
    else if !eqMatches c d.bound.ty then .error .abort
    else
      match op, rev with
      | .eq, false => .ok (.point c.scalar)
      | .ne, true => .ok (.point c.scalar)
      | _, _ => .ok .none
  | .compare op v c =>
    if d.attr.var ≠ v.var then .ok .none
    else if !cmpMatches c d.bound.ty then .error .abort
    else compareBound op c rev

/-- combination of one end for `or` (ast.c:1412-1462): dirty when both are. -/
def orEnd (f : Scalar → Scalar → Scalar) : Option Scalar → Option Scalar → Option Scalar
  | some a, some b => some (f a b)
  | _, _ => none

/-- combination of one end for `and` (ast.c:1475-1588): dirty when one is. -/
def andEnd (f : Scalar → Scalar → Scalar) : Option Scalar → Option Scalar → Option Scalar
  | some a, some b => some (f a b)
  | some a, none => some a
  | none, some b => some b
  | none, none => none

/-- `get_variable_bound_inner` (ast.c:1078-1813).  `rev` (is_reversed) only affects the leaves. -/
def boundInner (d : Domain) (rev : Bool) : Expr → Except Fault Partial
  | .leaf p => boundPred d rev p
  | .not e => boundInner d (!rev) e
  | .or l r =>
    match boundInner d rev l with
    | .error e => .error e
    | .ok l =>
      match boundInner d rev r with
      | .error e => .error e
      | .ok r => .ok { lo := orEnd Scalar.min l.lo r.lo, hi := orEnd Scalar.max l.hi r.hi }
  | .and l r =>
    match boundInner d rev l with
    | .error e => .error e
    | .ok l =>
      match boundInner d rev r with
      | .error e => .error e
      | .ok r => .ok { lo := andEnd Scalar.min l.lo r.lo, hi := andEnd Scalar.max l.hi r.hi }

/-- `get_variable_bound` (ast.c:1815-1866). -/
def getVariableBound (d : Domain) (e : Expr) : Except Fault Bound :=
  match boundInner d false e with
  | .error e => .error e
  | .ok p =>
    match d.bound.ty with
    | .segments => .error .abort
    | .freq => .error .abort
    | ty => .ok { ty := ty, lo := p.lo.getD d.bound.lo, hi := p.hi.getD d.bound.hi }

end BeTree
