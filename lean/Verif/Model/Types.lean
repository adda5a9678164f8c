import Verif.Model.Double
/-
Data types of the model.  Every definition cites the C code it models
(`file:lines` under /repo/src).
-/
namespace BeTree

/-- What a C call may do instead of returning.
* `abort`: an explicit `abort()` in the code;
* `ub`: undefined behaviour (out-of-range table access, union read at another type, null dereference);
* `fuel`: the recursion budget of the *model* ran out (C would still be running) (`abort()` as at clone.c:25, ast.c:26; the faults are not values of the program). -/
inductive Fault where
  | abort
  | ub
  | fuel
  deriving DecidableEq, Repr

/-- A C string: the bytes before the terminating NUL, as characters (`const char*` as at value.h:19-23). -/
abbrev Str := List Char

/-- `UINT64_MAX`, used for `INVALID_VAR`, `INVALID_STR`, `INVALID_IENUM`, `INVALID_PRED`
(value.h:9-17, memoize.h:7). -/
def invalidId : Nat := 2 ^ 64 - 1

/-- `INT64_MIN` (config.c:120). -/
def int64Min : Int := -(2 ^ 63)
/-- `INT64_MAX` (config.c:120). -/
def int64Max : Int := 2 ^ 63 - 1
/-- `SIZE_MAX` (config.c:125). -/
def sizeMax : Nat := 2 ^ 64 - 1
/-- `__DBL_EPSILON__` = 2^-52 (utils.c:40).  Doubles are modelled by the rationals they stand for, and the results of operations on them are
rounded (`Model/Double`). -/
def dblEps : Rat := mkRat 1 (2 ^ 52)
/-- `DBL_MAX` = (2 - 2^-52) * 2^1023 (config.c:137). -/
def dblMax : Rat := ((2 ^ 53 - 1) * 2 ^ 971 : Nat)

/-- `struct attr_var` (var.h:10-13). -/
structure AttrVar where
  attr : Str
  var : Nat
  deriving DecidableEq, Repr

/-- `struct string_value` (value.h:19-23). -/
structure StrVal where
  string : Str
  var : Nat
  str : Nat
  deriving DecidableEq, Repr

/-- `struct integer_enum_value` (value.h:25-29). -/
structure EnumVal where
  integer : Int
  var : Nat
  ienum : Nat
  deriving DecidableEq, Repr

/-- `struct betree_segment` (value.h:41-44). -/
structure Segment where
  id : Int
  timestamp : Int
  deriving DecidableEq, Repr

/-- `enum frequency_type_e` (value.h:51-63). -/
inductive FreqType where
  | invalid | advertiser | advertiserIp | campaign | campaignIp | campaignGroup
  | campaignGroupIp | flight | flightIp | product | productIp
  deriving DecidableEq, Repr

/-- `struct betree_frequency_cap` (value.h:65-72); `id` and `value` are `uint32_t`. -/
structure FreqCap where
  type : FreqType
  id : Nat
  ns : StrVal
  timestampDefined : Bool
  timestamp : Int
  value : Nat
  deriving DecidableEq, Repr

/-- `enum betree_value_type_e` (betree.h:40-50). -/
inductive VType where
  | bool | int | float | string | intList | strList | segments | freq | intEnum
  deriving DecidableEq, Repr

/-- `struct value` (value.h:79-93): the tag selects the union member. -/
inductive Value where
  | bool (b : Bool)
  | int (i : Int)
  | float (f : Rat)
  | string (s : StrVal)
  | intList (l : List Int)
  | strList (l : List StrVal)
  | segments (l : List Segment)
  | freq (l : List FreqCap)
  | intEnum (e : EnumVal)
  deriving DecidableEq, Repr

/-- The tag of a value (value.h:79-80). -/
def Value.vtype : Value → VType
  | .bool _ => .bool
  | .int _ => .int
  | .float _ => .float
  | .string _ => .string
  | .intList _ => .intList
  | .strList _ => .strList
  | .segments _ => .segments
  | .freq _ => .freq
  | .intEnum _ => .intEnum

/-- One end of a `struct value_bound` (value.h:95-115): the union members `bmin/bmax`,
`imin/imax`, `fmin/fmax`, `smin/smax`. -/
inductive Scalar where
  | b (x : Bool)
  | i (x : Int)
  | f (x : Rat)
  | s (x : Nat)
  deriving DecidableEq, Repr

/-- The four union members (value.h:95-115). -/
inductive Kind where
  | b | i | f | s
  deriving DecidableEq, Repr

/-- which union member it is (value.h:95-115) -/
def Scalar.kind : Scalar → Kind
  | .b _ => .b
  | .i _ => .i
  | .f _ => .f
  | .s _ => .s

/-- The union member the code reads for a value type (value.h:95-115 and every `switch` on
`value_type` in tree.c/ast.c).  `segments`/`freq` bounds are never read except `smax` of a frequency
domain (config.c:366, which is 0 by static initialisation). -/
def VType.kind : VType → Kind
  | .bool => .b
  | .int => .i
  | .intList => .i
  | .float => .f
  | .string => .s
  | .strList => .s
  | .intEnum => .s
  | .segments => .s
  | .freq => .s

/-- C comparison `a <= b` of two union members of the same kind.  (For different kinds the C code would
read the union at another type; the model returns `false` there and the callers check kinds first.) (value.h:95-115) -/
def Scalar.le : Scalar → Scalar → Bool
  | .b x, .b y => (!x) || y
  | .i x, .i y => decide (x ≤ y)
  | .f x, .f y => decide (x ≤ y)
  | .s x, .s y => decide (x ≤ y)
  | _, _ => false

/-- `struct value_bound` (value.h:95-115). -/
structure Bound where
  ty : VType
  lo : Scalar
  hi : Scalar
  deriving DecidableEq, Repr

/-- `struct attr_domain` (config.h:11-15). -/
structure Domain where
  attr : AttrVar
  bound : Bound
  allowUndefined : Bool
  deriving DecidableEq, Repr

/-! ### Expressions (ast.h) -/

/-- `enum ast_compare_e` (ast.h:14-19). -/
inductive CmpOp where
  | lt | le | gt | ge
  deriving DecidableEq, Repr

/-- `struct compare_value` (ast.h:26-32). -/
inductive CmpVal where
  | int (i : Int)
  | float (f : Rat)
  deriving DecidableEq, Repr

/-- `enum ast_equality_e` (ast.h:43-46). -/
inductive EqOp where
  | eq | ne
  deriving DecidableEq, Repr

/-- `struct equality_value` (ast.h:55-63). -/
inductive EqVal where
  | int (i : Int)
  | float (f : Rat)
  | string (s : StrVal)
  | intEnum (e : EnumVal)
  deriving DecidableEq, Repr

/-- `struct set_left_value` (ast.h:110-117). -/
inductive SetLeft where
  | int (i : Int)
  | string (s : StrVal)
  | var (v : AttrVar)
  deriving DecidableEq, Repr

/-- `struct set_right_value` (ast.h:125-132). -/
inductive SetRight where
  | intList (l : List Int)
  | strList (l : List StrVal)
  | var (v : AttrVar)
  deriving DecidableEq, Repr

/-- `enum ast_set_e` (ast.h:134-137). -/
inductive SetOp where
  | notIn | isIn
  deriving DecidableEq, Repr

/-- `enum ast_list_e` (ast.h:147-151). -/
inductive ListOp where
  | oneOf | noneOf | allOf
  deriving DecidableEq, Repr

/-- `struct list_value` (ast.h:158-164). -/
inductive ListVal where
  | intList (l : List Int)
  | strList (l : List StrVal)
  deriving DecidableEq, Repr

/-- `struct ast_special_frequency` (ast.h:178-187); the only operator is `within_frequency_cap`. -/
structure Frequency where
  attr : AttrVar
  type : FreqType
  ns : StrVal
  value : Int
  length : Nat
  now : AttrVar
  id : Nat
  deriving DecidableEq, Repr

/-- `enum ast_special_segment_e` (ast.h:189-192). -/
inductive SegOp where
  | within | before
  deriving DecidableEq, Repr

/-- `struct ast_special_segment` (ast.h:194-201). -/
structure SegmentExpr where
  op : SegOp
  hasVariable : Bool
  attr : AttrVar
  segmentId : Nat
  seconds : Int
  now : AttrVar
  deriving DecidableEq, Repr

/-- `struct ast_special_geo` (ast.h:207-215). -/
structure Geo where
  hasRadius : Bool
  latitude : Rat
  longitude : Rat
  radius : Rat
  latVar : AttrVar
  lonVar : AttrVar
  deriving DecidableEq, Repr

/-- `enum ast_special_string_e` (ast.h:217-221). -/
inductive StrOp where
  | contains | startsWith | endsWith
  deriving DecidableEq, Repr

/-- `struct ast_special_string` (ast.h:223-227). -/
structure StringExpr where
  op : StrOp
  attr : AttrVar
  pattern : Str
  deriving DecidableEq, Repr

/-- `enum ast_is_null_e` (ast.h:248-252). -/
inductive NullOp where
  | isNull | isNotNull | isEmpty
  deriving DecidableEq, Repr

/-- The node kinds without sub-expressions (ast.h:261-286). -/
inductive Pred where
  | compare (op : CmpOp) (v : AttrVar) (c : CmpVal)
  | equality (op : EqOp) (v : AttrVar) (c : EqVal)
  | boolVar (v : AttrVar)
  | boolLit (b : Bool)
  | set (op : SetOp) (l : SetLeft) (r : SetRight)
  | list (op : ListOp) (v : AttrVar) (c : ListVal)
  | freq (f : Frequency)
  | segment (s : SegmentExpr)
  | geo (g : Geo)
  | str (s : StringExpr)
  | isNull (op : NullOp) (v : AttrVar)
  deriving DecidableEq, Repr

/-- `struct ast_node` without its two ids (ast.h:271-286). -/
inductive Expr where
  | leaf (p : Pred)
  | not (e : Expr)
  | and (l r : Expr)
  | or (l r : Expr)
  deriving DecidableEq, Repr

/-- `struct ast_node` with the `global_id` assigned by `assign_pred` (ast.h:271-286, hashmap.c:13-45).
The `memoize_id` of a node is looked up in the predicate table through its `global_id`: in the code the
table holds the first node with that id and later nodes copy `memoize_id` from it (hashmap.c:38-43). -/
inductive AExpr where
  | leaf (gid : Nat) (p : Pred)
  | not (gid : Nat) (e : AExpr)
  | and (gid : Nat) (l r : AExpr)
  | or (gid : Nat) (l r : AExpr)
  deriving DecidableEq, Repr

/-- Forget the ids (ast.h:271-286 without `global_id`). -/
def AExpr.erase : AExpr → Expr
  | .leaf _ p => .leaf p
  | .not _ e => .not e.erase
  | .and _ l r => .and l.erase r.erase
  | .or _ l r => .or l.erase r.erase

/-- `node->global_id` (ast.h:271-286) -/
def AExpr.gid : AExpr → Nat
  | .leaf g _ => g
  | .not g _ => g
  | .and g _ _ => g
  | .or g _ _ => g

/-- `const struct betree_variable** preds` (betree.c:548-557): one entry per declared variable, `none` where
the event leaves the variable undefined. -/
abbrev Env := List (Option Value)

end BeTree
