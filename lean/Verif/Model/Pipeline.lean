import Verif.Model.Config
/-
The passes an expression goes through when it is inserted (ast.c:1868-2232, 2466-2806; betree.c:74-121).
-/
namespace BeTree

/-! ### assign_variable_id (ast.c:1966-2089) -/

/-- `try_get_id_for_attr` into `attr_var.var` (ast.c:1966-2089) -/
def resolveVar (cfg : Config) (v : AttrVar) : AttrVar := { v with var := tryGetIdForAttr cfg v.attr }

/-- leaf cases of `assign_variable_id` (ast.c:1966-2089) -/
def assignVarPred (cfg : Config) : Pred → Pred
  | .compare op v c => .compare op (resolveVar cfg v) c
  | .equality op v c => .equality op (resolveVar cfg v) c
  | .boolVar v => .boolVar (resolveVar cfg v)
  | .boolLit b => .boolLit b
  | .set op l r =>
    .set op (match l with | .var v => .var (resolveVar cfg v) | l => l)
      (match r with | .var v => .var (resolveVar cfg v) | r => r)
  | .list op v c => .list op (resolveVar cfg v) c
  | .freq f => .freq { f with attr := resolveVar cfg f.attr, now := resolveVar cfg f.now }
  | .segment s => .segment { s with attr := resolveVar cfg s.attr, now := resolveVar cfg s.now }
  | .geo g => .geo { g with latVar := resolveVar cfg g.latVar, lonVar := resolveVar cfg g.lonVar }
  | .str s => .str { s with attr := resolveVar cfg s.attr }
  | .isNull op v => .isNull op (resolveVar cfg v)

/-- `assign_variable_id` (ast.c:1966-2089) -/
def assignVar (cfg : Config) : Expr → Expr
  | .leaf p => .leaf (assignVarPred cfg p)
  | .not e => .not (assignVar cfg e)
  | .and l r => .and (assignVar cfg l) (assignVar cfg r)
  | .or l r => .or (assignVar cfg l) (assignVar cfg r)

/-! ### all_variables_in_config (ast.c:2629-2672) -/

/-- `is_variable_valid` (ast.c:2540-2546). -/
def varValid (v : AttrVar) : Bool := v.var != invalidId

/-- leaf cases of `all_variables_in_config` (ast.c:2629-2672); a set expression without variable aborts, a geo
expression is not checked. -/
def varsInConfigPred : Pred → Except Fault Bool
  | .compare _ v _ => .ok (varValid v)
  | .equality _ v _ => .ok (varValid v)
  | .boolVar v => .ok (varValid v)
  | .boolLit _ => .ok true
  | .set _ (.var v) _ => .ok (varValid v)
  | .set _ _ (.var v) => .ok (varValid v)
  | .set _ _ _ => .error .abort
  | .list _ v _ => .ok (varValid v)
  | .freq f => .ok (varValid f.attr && varValid f.now)
  | .segment s => .ok (varValid s.attr && varValid s.now)
  | .geo _ => .ok true
  | .str s => .ok (varValid s.attr)
  | .isNull _ v => .ok (varValid v)

/-- C's `a && b` on calls that may fault (ast.c:1868-1964). -/
def andThen (a : Except Fault Bool) (b : Except Fault Bool) : Except Fault Bool :=
  match a with
  | .error e => .error e
  | .ok false => .ok false
  | .ok true => b

/-- `all_variables_in_config` (ast.c:2629-2672). -/
def varsInConfig : Expr → Except Fault Bool
  | .leaf p => varsInConfigPred p
  | .not e => varsInConfig e
  | .and l r => andThen (varsInConfig l) (varsInConfig r)
  | .or l r => andThen (varsInConfig l) (varsInConfig r)

/-! ### all_bounded_strings_valid (ast.c:2674-2806) -/

/-- `get_attr_string_bound` (ast.c:2674-2687): by exact name. -/
def attrStringBound (attr : Str) : List Domain → Except Fault Nat
  | [] => .ok sizeMax
  | d :: ds =>
    if d.attr.attr = attr then
      match d.bound.smax with
      | .error e => .error e
      | .ok smax => .ok (if smax = sizeMax then sizeMax else smax + 1)
    else attrStringBound attr ds

/-- `get_string_map_for_attr` (ast.c:2689-2698): by exact name. -/
def strMapForAttr (cfg : Config) (attr : Str) : Option StringMap := cfg.stringMaps.find? (fun m => m.attr.attr = attr)

/-- `bound - string_value_count` in `size_t` arithmetic (ast.c:2704, 2730). -/
def spaceLeft (bound : Nat) (m : Option StringMap) : Nat :=
  match m with
  | none => bound
  | some m => (bound + (2 ^ 64 - m.values.length % 2 ^ 64)) % 2 ^ 64

/-- `str_valid` (ast.c:2700-2721). -/
def strValid (cfg : Config) (attr : Str) (s : Str) : Except Fault Bool :=
  match attrStringBound attr cfg.domains with
  | .error e => .error e
  | .ok bound =>
    match strMapForAttr cfg attr with
    | none => .ok (decide (bound > 0))
    | some m =>
      match strMapGet cfg.stringMaps m s with
      | .error e => .error e
      | .ok (some _) => .ok true
      | .ok none => .ok (decide (spaceLeft bound (some m) > 0))

/-- the counting loop of `strs_valid` (ast.c:2733-2741) -/
def countFound (maps : List StringMap) (m : StringMap) : List StrVal → Except Fault Nat
  | [] => .ok 0
  | s :: ss =>
    match strMapGet maps m s.string with
    | .error e => .error e
    | .ok r =>
      match countFound maps m ss with
      | .error e => .error e
      | .ok n => .ok (if r.isSome then n + 1 else n)

/-- `strs_valid` (ast.c:2723-2752). -/
def strsValid (cfg : Config) (attr : Str) (ss : List StrVal) : Except Fault Bool :=
  match attrStringBound attr cfg.domains with
  | .error e => .error e
  | .ok bound =>
    if bound = sizeMax then .ok true
    else
      match strMapForAttr cfg attr with
      | none => .ok (decide (bound ≥ ss.length))
      | some m =>
        match countFound cfg.stringMaps m ss with
        | .error e => .error e
        | .ok found => .ok (decide (spaceLeft bound (some m) ≥ ss.length - found))

/-- leaf cases of `all_bounded_strings_valid` (ast.c:2754-2806) -/
def boundedStringsPred (cfg : Config) : Pred → Except Fault Bool
  | .equality _ v (.string s) => strValid cfg v.attr s.string
  | .set _ (.var v) (.strList ss) => strsValid cfg v.attr ss
  | .set _ (.string s) (.var v) => strValid cfg v.attr s.string
  | .list _ v (.strList ss) => strsValid cfg v.attr ss
  | _ => .ok true

/-- `all_bounded_strings_valid` (ast.c:2754-2806). -/
def boundedStringsValid (cfg : Config) : Expr → Except Fault Bool
  | .leaf p => boundedStringsPred cfg p
  | .not e => boundedStringsValid cfg e
  | .and l r => andThen (boundedStringsValid cfg l) (boundedStringsValid cfg r)
  | .or l r => andThen (boundedStringsValid cfg l) (boundedStringsValid cfg r)

/-! ### assign_constants (ast.c:1868-1964) -/

/-- `struct betree_constant` (tree.h:114-117): a name and a value (here: integer or not). -/
structure Constant where
  name : Str
  value : Value
  deriving DecidableEq, Repr

/-- `get_constant_name_for_type` (ast.c:1886-1909). -/
def constantName : FreqType → Option Str
  | .advertiser | .advertiserIp => some "advertiser_id".toList
  | .campaign | .campaignIp => some "campaign_id".toList
  | .campaignGroup | .campaignGroupIp => some "campaign_group_id".toList
  | .flight | .flightIp => some "flight_id".toList
  | .product | .productIp => some "product_id".toList
  | .invalid => none

/-- `get_integer_constant` (ast.c:1868-1884): the first constant with the name decides. -/
def integerConstant (name : Str) (cs : List Constant) : Option Int :=
  match cs.find? (fun c => c.name = name) with
  | some { value := .int i, .. } => some i
  | _ => none

/-- leaf cases of `assign_constants` (ast.c:1911-1964): `none` is the C result `false`.  `(uint32_t)constant`. -/
def assignConstantsPred (cs : List Constant) : Pred → Option Pred
  | .freq f =>
    match constantName f.type with
    | none => none
    | some name =>
      match integerConstant name cs with
      | none => none
      | some i => some (.freq { f with id := toU32' i })
  | p => some p
where
  /-- conversion to `uint32_t` -/
  toU32' (i : Int) : Nat := (i % 2 ^ 32).toNat

/-- `assign_constants` (ast.c:1911-1964). -/
def assignConstants (cs : List Constant) : Expr → Option Expr
  | .leaf p => (assignConstantsPred cs p).map .leaf
  | .not e => (assignConstants cs e).map .not
  | .and l r =>
    match assignConstants cs l, assignConstants cs r with
    | some l, some r => some (.and l r)
    | _, _ => none
  | .or l r =>
    match assignConstants cs l, assignConstants cs r with
    | some l, some r => some (.or l r)
    | _, _ => none

/-! ### assign_str_id (ast.c:2135-2232) -/

/-- the two ids of a string constant (ast.c:2135-2232) -/
def StrVal.resolve (s : StrVal) (v : AttrVar) (id : Nat) : StrVal := { s with var := v.var, str := id }

/-- the loops over string lists (ast.c:2196-2204, 2218-2226) -/
def assignStrList (cfg : Config) (v : AttrVar) (always : Bool) : List StrVal → Except Fault (List StrVal × Config)
  | [] => .ok ([], cfg)
  | s :: ss =>
    match getIdForString cfg v s.string always with
    | .error e => .error e
    | .ok (id, cfg) =>
      match assignStrList cfg v always ss with
      | .error e => .error e
      | .ok (ss, cfg) => .ok (s.resolve v id :: ss, cfg)

/-- leaf cases of `assign_str_id` (ast.c:2135-2232).  A string on the left of `in` reads `right_value.variable_value`,
a string list on the right reads `left_value.variable_value`, whatever the tags: UB when the other side is not a
variable. -/
def assignStrPred (cfg : Config) (always : Bool) : Pred → Except Fault (Pred × Config)
  | .freq f =>
    match getIdForString cfg f.attr f.ns.string always with
    | .error e => .error e
    | .ok (id, cfg) => .ok (.freq { f with ns := f.ns.resolve f.attr id }, cfg)
  | .equality op v (.string s) =>
    match getIdForString cfg v s.string always with
    | .error e => .error e
    | .ok (id, cfg) => .ok (.equality op v (.string (s.resolve v id)), cfg)
  | .list op v (.strList ss) =>
    match assignStrList cfg v always ss with
    | .error e => .error e
    | .ok (ss, cfg) => .ok (.list op v (.strList ss), cfg)
  | .set op (.string s) (.var v) =>
    match getIdForString cfg v s.string always with
    | .error e => .error e
    | .ok (id, cfg) => .ok (.set op (.string (s.resolve v id)) (.var v), cfg)
  | .set op (.var v) (.strList ss) =>
    match assignStrList cfg v always ss with
    | .error e => .error e
    | .ok (ss, cfg) => .ok (.set op (.var v) (.strList ss), cfg)
  | .set _ (.string _) _ => .error .ub
  | .set _ _ (.strList _) => .error .ub
  | p => .ok (p, cfg)

/-- `assign_str_id` (ast.c:2135-2232): left operand first. -/
def assignStr (cfg : Config) (always : Bool) : Expr → Except Fault (Expr × Config)
  | .leaf p =>
    match assignStrPred cfg always p with
    | .error e => .error e
    | .ok (p, cfg) => .ok (.leaf p, cfg)
  | .not e =>
    match assignStr cfg always e with
    | .error e => .error e
    | .ok (e, cfg) => .ok (.not e, cfg)
  | .and l r =>
    match assignStr cfg always l with
    | .error e => .error e
    | .ok (l, cfg) =>
      match assignStr cfg always r with
      | .error e => .error e
      | .ok (r, cfg) => .ok (.and l r, cfg)
  | .or l r =>
    match assignStr cfg always l with
    | .error e => .error e
    | .ok (l, cfg) =>
      match assignStr cfg always r with
      | .error e => .error e
      | .ok (r, cfg) => .ok (.or l r, cfg)

/-! ### assign_ienum_id (ast.c:2091-2133) -/

/-- leaf cases of `assign_ienum_id` (ast.c:2091-2133) -/
def assignIenumPred (cfg : Config) (always : Bool) : Pred → Except Fault (Pred × Config)
  | .equality op v (.int i) =>
    match getDomain cfg v.var with
    | .error e => .error e
    | .ok d =>
      if d.bound.ty = .intEnum then
        match getIdForIenum cfg v i always with
        | .error e => .error e
        | .ok (id, cfg) => .ok (.equality op v (.intEnum { integer := i, var := v.var, ienum := id }), cfg)
      else .ok (.equality op v (.int i), cfg)
  | p => .ok (p, cfg)

/-- `assign_ienum_id` (ast.c:2091-2133). -/
def assignIenum (cfg : Config) (always : Bool) : Expr → Except Fault (Expr × Config)
  | .leaf p =>
    match assignIenumPred cfg always p with
    | .error e => .error e
    | .ok (p, cfg) => .ok (.leaf p, cfg)
  | .not e =>
    match assignIenum cfg always e with
    | .error e => .error e
    | .ok (e, cfg) => .ok (.not e, cfg)
  | .and l r =>
    match assignIenum cfg always l with
    | .error e => .error e
    | .ok (l, cfg) =>
      match assignIenum cfg always r with
      | .error e => .error e
      | .ok (r, cfg) => .ok (.and l r, cfg)
  | .or l r =>
    match assignIenum cfg always l with
    | .error e => .error e
    | .ok (l, cfg) =>
      match assignIenum cfg always r with
      | .error e => .error e
      | .ok (r, cfg) => .ok (.or l r, cfg)

/-! ### sort_lists (ast.c:2468-2528, value.c:417-454) -/

/-- insertion into a sorted list (by key) (for `qsort` at value.c:417-420, 446-449) -/
def insertBy {α β : Type} [LT β] [DecidableLT β] (key : α → β) (x : α) : List α → List α
  | [] => [x]
  | y :: ys => if key y < key x then y :: insertBy key x ys else x :: y :: ys

/-- `qsort` with `icmpfunc` / `scmpfunc` (value.c:417-420, 446-449; utils.c:48-72): an ascending rearrangement. -/
def sortBy {α β : Type} [LT β] [DecidableLT β] (key : α → β) : List α → List α
  | [] => []
  | x :: xs => insertBy key x (sortBy key xs)

/-- leaf cases of `sort_lists` (ast.c:2468-2528) -/
def sortListsPred : Pred → Pred
  | .set op (.var v) (.intList l) => .set op (.var v) (.intList (sortBy id l))
  | .set op (.var v) (.strList l) => .set op (.var v) (.strList (sortBy StrVal.str l))
  | .list op v (.intList l) => .list op v (.intList (sortBy id l))
  | .list op v (.strList l) => .list op v (.strList (sortBy StrVal.str l))
  | p => p

/-- `sort_lists` (ast.c:2468-2528) -/
def sortLists : Expr → Expr
  | .leaf p => .leaf (sortListsPred p)
  | .not e => .not (sortLists e)
  | .and l r => .and (sortLists l) (sortLists r)
  | .or l r => .or (sortLists l) (sortLists r)

/-! ### fix_float_with_no_fractions (betree.c:74-121) -/

/-- leaf cases of `fix_float_with_no_fractions` (betree.c:74-121): the domain is read for every comparison and
equality. -/
def fixFloatPred (cfg : Config) : Pred → Except Fault Pred
  | .compare op v c =>
    match getDomain cfg v.var with
    | .error e => .error e
    | .ok d =>
      match c with
      | .int i => .ok (.compare op v (if d.bound.ty = .float then .float (rnd i) else .int i))
      | c => .ok (.compare op v c)
  | .equality op v c =>
    match getDomain cfg v.var with
    | .error e => .error e
    | .ok d =>
      match c with
      | .int i => .ok (.equality op v (if d.bound.ty = .float then .float (rnd i) else .int i))
      | c => .ok (.equality op v c)
  | p => .ok p

/-- `fix_float_with_no_fractions` (betree.c:74-121) -/
def fixFloat (cfg : Config) : Expr → Except Fault Expr
  | .leaf p =>
    match fixFloatPred cfg p with
    | .error e => .error e
    | .ok p => .ok (.leaf p)
  | .not e =>
    match fixFloat cfg e with
    | .error e => .error e
    | .ok e => .ok (.not e)
  | .and l r =>
    match fixFloat cfg l with
    | .error e => .error e
    | .ok l =>
      match fixFloat cfg r with
      | .error e => .error e
      | .ok r => .ok (.and l r)
  | .or l r =>
    match fixFloat cfg l with
    | .error e => .error e
    | .ok l =>
      match fixFloat cfg r with
      | .error e => .error e
      | .ok r => .ok (.or l r)

/-! ### all_exprs_valid (ast.c:2553-2627) -/

/-- leaf cases of `all_exprs_valid` (ast.c:2553-2627) -/
def exprValidPred (cfg : Config) : Pred → Except Fault Bool
  | .isNull op v =>
    match getDomain cfg v.var with
    | .error e => .error e
    | .ok d =>
      .ok (match op with
        | .isNull => d.allowUndefined
        | .isNotNull => d.allowUndefined
        | .isEmpty => decide (d.bound.ty = .intList ∨ d.bound.ty = .strList))
  | .compare _ v c =>
    match getDomain cfg v.var with
    | .error e => .error e
    | .ok d =>
      .ok (match c with
        | .int _ => decide (d.bound.ty = .int)
        | .float _ => decide (d.bound.ty = .float))
  | .equality _ v c =>
    match getDomain cfg v.var with
    | .error e => .error e
    | .ok d =>
      .ok (match c with
        | .int _ => decide (d.bound.ty = .int)
        | .float _ => decide (d.bound.ty = .float)
        | .string _ => decide (d.bound.ty = .string)
        | .intEnum _ => decide (d.bound.ty = .intEnum))
  | .list _ v c =>
    match getDomain cfg v.var with
    | .error e => .error e
    | .ok d =>
      .ok (match c with
        | .intList _ => decide (d.bound.ty = .intList)
        | .strList _ => decide (d.bound.ty = .strList))
  | .boolVar v =>
    match getDomain cfg v.var with
    | .error e => .error e
    | .ok d => .ok (decide (d.bound.ty = .bool))
  | .boolLit _ => .ok true
  | .set _ (.var v) r =>
    match getDomain cfg v.var with
    | .error e => .error e
    | .ok d =>
      .ok (match r with
        | .intList _ => decide (d.bound.ty = .int)
        | .strList _ => decide (d.bound.ty = .string)
        | .var _ => false)
  | .set _ l (.var v) =>
    match getDomain cfg v.var with
    | .error e => .error e
    | .ok d =>
      .ok (match l with
        | .int _ => decide (d.bound.ty = .intList)
        | .string _ => decide (d.bound.ty = .strList)
        | .var _ => false)
  | .set _ _ _ => .ok false
  | .freq f => .ok (decide (f.type ≠ .invalid))
  | .segment _ => .ok true
  | .geo _ => .ok true
  | .str _ => .ok true

/-- `all_exprs_valid` (ast.c:2553-2627) -/
def exprsValid (cfg : Config) : Expr → Except Fault Bool
  | .leaf p => exprValidPred cfg p
  | .not e => exprsValid cfg e
  | .and l r => andThen (exprsValid cfg l) (exprsValid cfg r)
  | .or l r => andThen (exprsValid cfg l) (exprsValid cfg r)

end BeTree
