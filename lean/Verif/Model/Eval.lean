import Verif.Model.Types
/-
Evaluation of an expression on an event: ast.c `match_*`, special.c, var.c, utils.c.
-/
namespace BeTree

/-! ### var.c -/

/-- `get_variable` (var.c:7-15): `preds[var]`, undefined when the entry is NULL, out of range is UB. -/
def getVariable (env : Env) (var : Nat) : Except Fault (Option Value) :=
  match env[var]? with
  | none => .error .ub
  | some v => .ok v

/-- `get_bool_var` (var.c:58-66). The getters read the union without looking at the tag: UB on another type. -/
def getBoolVar (env : Env) (var : Nat) : Except Fault (Option Bool) :=
  match getVariable env var with
  | .error e => .error e
  | .ok none => .ok none
  | .ok (some (.bool b)) => .ok (some b)
  | .ok (some _) => .error .ub

/-- `get_integer_var` (var.c:48-56). -/
def getIntVar (env : Env) (var : Nat) : Except Fault (Option Int) :=
  match getVariable env var with
  | .error e => .error e
  | .ok none => .ok none
  | .ok (some (.int i)) => .ok (some i)
  | .ok (some _) => .error .ub

/-- `get_float_var` (var.c:17-25). -/
def getFloatVar (env : Env) (var : Nat) : Except Fault (Option Rat) :=
  match getVariable env var with
  | .error e => .error e
  | .ok none => .ok none
  | .ok (some (.float f)) => .ok (some f)
  | .ok (some _) => .error .ub

/-- `get_string_var` (var.c:27-36). -/
def getStringVar (env : Env) (var : Nat) : Except Fault (Option StrVal) :=
  match getVariable env var with
  | .error e => .error e
  | .ok none => .ok none
  | .ok (some (.string s)) => .ok (some s)
  | .ok (some _) => .error .ub

/-- `get_integer_list_var` (var.c:68-77). -/
def getIntListVar (env : Env) (var : Nat) : Except Fault (Option (List Int)) :=
  match getVariable env var with
  | .error e => .error e
  | .ok none => .ok none
  | .ok (some (.intList l)) => .ok (some l)
  | .ok (some _) => .error .ub

/-- `get_string_list_var` (var.c:79-88). -/
def getStrListVar (env : Env) (var : Nat) : Except Fault (Option (List StrVal)) :=
  match getVariable env var with
  | .error e => .error e
  | .ok none => .ok none
  | .ok (some (.strList l)) => .ok (some l)
  | .ok (some _) => .error .ub

/-- `get_segments_var` (var.c:90-99). -/
def getSegmentsVar (env : Env) (var : Nat) : Except Fault (Option (List Segment)) :=
  match getVariable env var with
  | .error e => .error e
  | .ok none => .ok none
  | .ok (some (.segments l)) => .ok (some l)
  | .ok (some _) => .error .ub

/-- `get_frequency_var` (var.c:101-110). -/
def getFreqVar (env : Env) (var : Nat) : Except Fault (Option (List FreqCap)) :=
  match getVariable env var with
  | .error e => .error e
  | .ok none => .ok none
  | .ok (some (.freq l)) => .ok (some l)
  | .ok (some _) => .error .ub

/-- `is_empty_list` (var.c:113-119).  The four list structs start with their element count, so the four tests
read the same word. -/
def isEmptyList : Value → Bool
  | .intList l => l.isEmpty
  | .strList l => l.isEmpty
  | .segments l => l.isEmpty
  | .freq l => l.isEmpty
  | _ => false

/-! ### utils.c, integer conversions -/

/-- `feq` (utils.c:38-41). -/
def feq (a b : Rat) : Bool := decide ((rnd (a - b)).abs < dblEps)
/-- `fne` (utils.c:43-46). -/
def fne (a b : Rat) : Bool := !feq a b

/-- conversion to `uint32_t` (argument `value` of `within_frequency_caps`, special.c:15). -/
def toU32 (i : Int) : Nat := (i % 2 ^ 32).toNat
/-- conversion to `int32_t` (arguments `after_seconds`/`before_seconds`, special.c:43,58). -/
def toI32 (i : Int) : Int := (i + 2 ^ 31) % 2 ^ 32 - 2 ^ 31
/-- conversion to `int64_t` (argument `segment_id`, special.c:43,58; `(int64_t)length`, special.c:30). -/
def toI64 (n : Nat) : Int := ((n : Int) + 2 ^ 63) % 2 ^ 64 - 2 ^ 63

/-! ### Binary search (ast.c:382-418) -/

/-- The loop of `d64binary_search` / `sbinary_search` (ast.c:382-418); the two C functions differ only in the
key read from the element, so the model is generic in the key type.  `imin`, `imax` are C `int`s. -/
def bsearchLoop {α : Type} [LT α] [DecidableLT α] [DecidableEq α] (arr : List α) (x : α) :
    Nat → Int → Int → Except Fault Bool
  | 0, _, _ => .error .fuel
  | fuel + 1, imin, imax =>
    if imax ≥ imin then
      let imid := imin + (imax - imin) / 2
      if imid < 0 then .error .ub
      else
        match arr[imid.toNat]? with
        | none => .error .ub
        | some a =>
          if a = x then .ok true
          else if a < x then bsearchLoop arr x fuel (imid + 1) imax
          else bsearchLoop arr x fuel imin (imid - 1)
    else .ok false

/-- `d64binary_search` / `sbinary_search` (ast.c:382-418). -/
def bsearch {α : Type} [LT α] [DecidableLT α] [DecidableEq α] (arr : List α) (x : α) : Except Fault Bool :=
  bsearchLoop arr x (arr.length + 1) 0 ((arr.length : Int) - 1)

/-! ### Merge scans (ast.c:591-719) -/

/-- Inner part of the scan of `match_not_all_of_*`: advance `j` while `ys[j] < x` (ast.c:608-624, 642-658). -/
def scanStep {α : Type} [LT α] [DecidableLT α] [DecidableEq α] (x : α) (k : List α → Bool) : List α → Bool
  | [] => false
  | y :: ys => if x = y then true else if y < x then scanStep x k ys else k (y :: ys)

/-- The `while` loop of `match_not_all_of_int` / `match_not_all_of_string` (ast.c:608-624, 642-658);
the indices `i`, `j` are represented by the remaining suffixes of `xs` and `ys`. -/
def scanAny {α : Type} [LT α] [DecidableLT α] [DecidableEq α] : List α → List α → Bool
  | [], _ => false
  | x :: xs, ys => scanStep x (scanAny xs) ys

/-- `match_not_all_of_int` / `match_not_all_of_string` (ast.c:591-659): the shorter list plays `xs`. -/
def matchNotAllOf {α : Type} [LT α] [DecidableLT α] [DecidableEq α] (vals constants : List α) : Bool :=
  if vals.length < constants.length then scanAny vals constants
  else scanAny constants vals

/-- The `while` loop of `match_all_of_int` / `match_all_of_string` (ast.c:668-684, 698-714), on the remaining
suffixes of `ys` (event) and `xs` (constants), including the final `j < x_count` test. -/
def scanAll {α : Type} [LT α] [DecidableLT α] [DecidableEq α] : List α → List α → Bool
  | [], xs => xs.isEmpty
  | _ :: _, [] => true
  | y :: ys, x :: xs =>
    if y < x then scanAll ys (x :: xs)
    else if x = y then scanAll ys xs
    else false

/-- `match_all_of_int` / `match_all_of_string` (ast.c:661-719). -/
def matchAllOf {α : Type} [LT α] [DecidableLT α] [DecidableEq α] (vals constants : List α) : Bool :=
  if constants.length ≤ vals.length then scanAll vals constants else false

/-! ### special.c -/

/-- `within_frequency_caps` (special.c:11-40). `length` is a `size_t`, so `length <= 0` means `length == 0`. -/
def withinFrequencyCaps (type : FreqType) (id : Nat) (ns : StrVal) (value : Nat) (length : Nat) (now : Int) :
    List FreqCap → Bool
  | [] => true
  | c :: cs =>
    if c.id = id ∧ c.ns.str = ns.str ∧ c.type = type then
      if length = 0 then decide (value > c.value)
      else if !c.timestampDefined then true
      else if now - c.timestamp.tdiv 1000000 > toI64 length then true
      else if value > c.value then true
      else false
    else withinFrequencyCaps type id ns value length now cs

/-- `segment_within` (special.c:42-55). -/
def segmentWithin (segmentId : Int) (seconds : Int) (now : Int) : List Segment → Bool
  | [] => false
  | s :: ss =>
    if s.id < segmentId then segmentWithin segmentId seconds now ss
    else if s.id = segmentId then decide (now - seconds ≤ s.timestamp.tdiv 1000000)
    else false

/-- `segment_before` (special.c:57-70). -/
def segmentBefore (segmentId : Int) (seconds : Int) (now : Int) : List Segment → Bool
  | [] => false
  | s :: ss =>
    if s.id < segmentId then segmentBefore segmentId seconds now ss
    else if s.id = segmentId then decide (now - seconds > s.timestamp.tdiv 1000000)
    else false

/-- `strncmp(a, b, n) == 0` on the bytes of two strings (special.c:101, 113). -/
def strncmpEq (a b : Str) (n : Nat) : Bool := a.take n == b.take n

/-- `strstr(value, pattern) != NULL` (special.c:88-91): scan the start positions from left to right. -/
def strContains (pattern : Str) : Str → Bool
  | [] => pattern.isEmpty
  | c :: cs => strncmpEq (c :: cs) pattern pattern.length || strContains pattern cs

/-- `starts_with` (special.c:93-102). -/
def strStartsWith (value pattern : Str) : Bool :=
  if value.length < pattern.length then false else strncmpEq value pattern pattern.length

/-- `ends_with` (special.c:104-114). -/
def strEndsWith (value pattern : Str) : Bool :=
  if value.length < pattern.length then false
  else strncmpEq (value.drop (value.length - pattern.length)) pattern pattern.length

/-- `geo_within_radius` (special.c:75-86) is trigonometry on doubles; it is a parameter of the model:
latitude, longitude of the expression, latitude, longitude of the event, radius. -/
abbrev GeoTest := Rat → Rat → Rat → Rat → Rat → Bool

/-! ### ast.c: match functions -/

/-- `match_compare_expr` (ast.c:823-886). The union is read at the type of the constant. -/
def matchCompare (env : Env) (op : CmpOp) (v : AttrVar) (c : CmpVal) : Except Fault Bool :=
  match getVariable env v.var with
  | .error e => .error e
  | .ok none => .ok false
  | .ok (some val) =>
    match c, val with
    | .int k, .int x =>
      .ok (match op with
        | .lt => decide (x < k) | .le => decide (x ≤ k) | .gt => decide (x > k) | .ge => decide (x ≥ k))
    | .float k, .float x =>
      .ok (match op with
        | .lt => decide (x < k) | .le => decide (x ≤ k) | .gt => decide (x > k) | .ge => decide (x ≥ k))
    | _, _ => .error .ub

/-- `match_equality_expr` (ast.c:888-942). -/
def matchEquality (env : Env) (op : EqOp) (v : AttrVar) (c : EqVal) : Except Fault Bool :=
  match getVariable env v.var with
  | .error e => .error e
  | .ok none => .ok false
  | .ok (some val) =>
    match c, val with
    | .int k, .int x => .ok (match op with | .eq => decide (x = k) | .ne => decide (x ≠ k))
    | .float k, .float x => .ok (match op with | .eq => feq x k | .ne => fne x k)
    | .string k, .string x => .ok (match op with | .eq => decide (x.str = k.str) | .ne => decide (x.str ≠ k.str))
    | .intEnum k, .intEnum x =>
      .ok (match op with | .eq => decide (x.ienum = k.ienum) | .ne => decide (x.ienum ≠ k.ienum))
    | _, _ => .error .ub

/-- the operator switch at the end of `match_set_expr` (ast.c:812-820). -/
def applySetOp (op : SetOp) (isIn : Bool) : Bool :=
  match op with
  | .notIn => !isIn
  | .isIn => isIn

/-- `match_set_expr` (ast.c:767-821). Any other combination of sides reaches `invalid_expr`, i.e. `abort()`. -/
def matchSet (env : Env) (op : SetOp) (l : SetLeft) (r : SetRight) : Except Fault Bool :=
  match l, r with
  | .int i, .var v =>
    match getIntListVar env v.var with
    | .error e => .error e
    | .ok none => .ok false
    | .ok (some xs) => (bsearch xs i).map (applySetOp op)
  | .string s, .var v =>
    match getStrListVar env v.var with
    | .error e => .error e
    | .ok none => .ok false
    | .ok (some xs) => (bsearch (xs.map StrVal.str) s.str).map (applySetOp op)
  | .var v, .intList xs =>
    match getIntVar env v.var with
    | .error e => .error e
    | .ok none => .ok false
    | .ok (some x) => (bsearch xs x).map (applySetOp op)
  | .var v, .strList xs =>
    match getStringVar env v.var with
    | .error e => .error e
    | .ok none => .ok false
    | .ok (some x) => (bsearch (xs.map StrVal.str) x.str).map (applySetOp op)
  | _, _ => .error .abort

/-- the operator switch of `match_list_expr` (ast.c:730-765), given the two scans. -/
def applyListOp {α : Type} [LT α] [DecidableLT α] [DecidableEq α] (op : ListOp) (vals constants : List α) : Bool :=
  match op with
  | .oneOf => matchNotAllOf vals constants
  | .noneOf => !matchNotAllOf vals constants
  | .allOf => matchAllOf vals constants

/-- `match_list_expr` (ast.c:721-765). -/
def matchList (env : Env) (op : ListOp) (v : AttrVar) (c : ListVal) : Except Fault Bool :=
  match getVariable env v.var with
  | .error e => .error e
  | .ok none => .ok false
  | .ok (some val) =>
    match c, val with
    | .intList xs, .intList ys => .ok (applyListOp op ys xs)
    | .strList xs, .strList ys => .ok (applyListOp op (ys.map StrVal.str) (xs.map StrVal.str))
    | _, _ => .error .ub

/-- `match_special_expr`, frequency case (ast.c:505-527). -/
def matchFreq (env : Env) (f : Frequency) : Except Fault Bool :=
  match getFreqVar env f.attr.var with
  | .error e => .error e
  | .ok none => .ok false
  | .ok (some caps) =>
    if caps.isEmpty then .ok true
    else
      match getIntVar env f.now.var with
      | .error e => .error e
      | .ok none => .ok false
      | .ok (some now) => .ok (withinFrequencyCaps f.type f.id f.ns (toU32 f.value) f.length now caps)

/-- `match_special_expr`, segment case (ast.c:529-548). -/
def matchSegment (env : Env) (s : SegmentExpr) : Except Fault Bool :=
  match getSegmentsVar env s.attr.var with
  | .error e => .error e
  | .ok none => .ok false
  | .ok (some segs) =>
    match getIntVar env s.now.var with
    | .error e => .error e
    | .ok none => .ok false
    | .ok (some now) =>
      match s.op with
      | .within => .ok (segmentWithin (toI64 s.segmentId) (toI32 s.seconds) now segs)
      | .before => .ok (segmentBefore (toI64 s.segmentId) (toI32 s.seconds) now segs)

/-- `match_special_expr`, geo case (ast.c:549-567). -/
def matchGeo (geo : GeoTest) (env : Env) (g : Geo) : Except Fault Bool :=
  match getFloatVar env g.latVar.var with
  | .error e => .error e
  | .ok lat =>
    match getFloatVar env g.lonVar.var with
    | .error e => .error e
    | .ok lon =>
      match lat, lon with
      | some lat, some lon => .ok (geo g.latitude g.longitude lat lon g.radius)
      | _, _ => .ok false

/-- `match_special_expr`, string case (ast.c:568-586). -/
def matchStr (env : Env) (s : StringExpr) : Except Fault Bool :=
  match getStringVar env s.attr.var with
  | .error e => .error e
  | .ok none => .ok false
  | .ok (some v) =>
    match s.op with
    | .contains => .ok (strContains s.pattern v.string)
    | .startsWith => .ok (strStartsWith v.string s.pattern)
    | .endsWith => .ok (strEndsWith v.string s.pattern)

/-- `match_is_null_expr` (ast.c:988-1002). -/
def matchIsNull (env : Env) (op : NullOp) (v : AttrVar) : Except Fault Bool :=
  match getVariable env v.var with
  | .error e => .error e
  | .ok val =>
    match op with
    | .isNull => .ok val.isNone
    | .isNotNull => .ok val.isSome
    | .isEmpty => .ok (match val with | none => false | some x => isEmptyList x)

/-- The leaf cases of the `switch` in `match_node_inner` (ast.c:1024-1052) and of `match_bool_expr`
(ast.c:953-955, 975-983). -/
def matchPred (geo : GeoTest) (env : Env) : Pred → Except Fault Bool
  | .compare op v c => matchCompare env op v c
  | .equality op v c => matchEquality env op v c
  | .boolVar v =>
    match getBoolVar env v.var with
    | .error e => .error e
    | .ok none => .ok false
    | .ok (some b) => .ok b
  | .boolLit b => .ok b
  | .set op l r => matchSet env op l r
  | .list op v c => matchList env op v c
  | .freq f => matchFreq env f
  | .segment s => matchSegment env s
  | .geo g => matchGeo geo env g
  | .str s => matchStr env s
  | .isNull op v => matchIsNull env op v

/-- `match_node_inner` (ast.c:1004-1063) with all nodes having `memoize_id == INVALID_PRED`, i.e. plain
evaluation; `and`/`or` evaluate the second operand only when needed (ast.c:956-974). -/
def evalExpr (geo : GeoTest) (env : Env) : Expr → Except Fault Bool
  | .leaf p => matchPred geo env p
  | .not e =>
    match evalExpr geo env e with
    | .error x => .error x
    | .ok b => .ok (!b)
  | .and l r =>
    match evalExpr geo env l with
    | .error x => .error x
    | .ok false => .ok false
    | .ok true => evalExpr geo env r
  | .or l r =>
    match evalExpr geo env l with
    | .error x => .error x
    | .ok true => .ok true
    | .ok false => evalExpr geo env r

end BeTree
