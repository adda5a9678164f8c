import Verif.Model.ParserTables
import Verif.Model.Lexer
import Verif.Model.EqExpr
/-
parser.y: the semantic actions and `parse`.
-/
namespace BeTree

/-- the semantic values of parser.y:37-53 (a C union: reading another member than was written is undefined) -/
inductive PVal where
  | token
  | string (s : Str)
  | int (n : Int)
  | float (q : Rat)
  | strVal (s : StrVal)
  | ints (l : List Int)
  | strs (l : List StrVal)
  | cmp (c : CmpVal)
  | eq (c : EqVal)
  | var (v : AttrVar)
  | setLeft (l : SetLeft)
  | setRight (r : SetRight)
  | list (l : ListVal)
  | node (e : Expr)
  deriving DecidableEq, Repr

/-- the internal number of a token (parser.h:48-86 through `yytranslate`, parser.c:517-548) -/
def Tok.num : Tok → Nat
  | .minus => 3
  | .eq => 4
  | .ne => 5
  | .gt => 6
  | .ge => 7
  | .lt => 8
  | .le => 9
  | .lparen => 10
  | .rparen => 11
  | .comma => 12
  | .notIn => 13
  | .isIn => 14
  | .oneOf => 15
  | .noneOf => 16
  | .allOf => 17
  | .and => 18
  | .or => 19
  | .not => 20
  | .withinFrequencyCap => 21
  | .segmentWithin => 22
  | .segmentBefore => 23
  | .geoWithinRadius => 24
  | .contains => 25
  | .startsWith => 26
  | .endsWith => 27
  | .isNotNull => 28
  | .isNull => 29
  | .isEmpty => 30
  | .true => 31
  | .false => 32
  | .string _ => 33
  | .ident _ => 34
  | .int _ => 35
  | .float _ => 36

/-- `yylval` (lexer.l:6-14) -/
def Tok.val : Tok → PVal
  | .string s => .string s
  | .ident s => .string s
  | .int n => .int n
  | .float q => .float q
  | _ => .token

/-- `make_attr_var(name, NULL)` (tree.c:1823-1834) -/
def makeAttrVar (name : Str) : AttrVar := ⟨name, invalidId⟩

/-- `get_type_from_string` (value.c:217-250) -/
def freqTypeOf (s : Str) : FreqType :=
  if s = "advertiser".toList then .advertiser
  else if s = "advertiser:ip".toList then .advertiserIp
  else if s = "campaign".toList then .campaign
  else if s = "campaign:ip".toList then .campaignIp
  else if s = "campaign_group".toList then .campaignGroup
  else if s = "campaign_group:ip".toList then .campaignGroupIp
  else if s = "product".toList then .product
  else if s = "product:ip".toList then .productIp
  else if s = "flight".toList then .flight
  else if s = "flight:ip".toList then .flightIp
  else .invalid

/-- conversion of an `int64_t` to `uint64_t` or `size_t` (for the `size_t` and `uint64_t` parameters of ast.c:184-222) -/
def toU64 (n : Int) : Nat := (n % 2 ^ 64).toNat

/-- `ast_special_frequency_create` (ast.c:184-203) -/
def mkFrequency (type : Str) (ns : StrVal) (value length : Int) : Expr :=
  .leaf (.freq ⟨makeAttrVar "frequency_caps".toList, freqTypeOf type, ns, value, toU64 length, makeAttrVar "now".toList, 2 ^ 32 - 1⟩)

/-- `ast_special_segment_create` (ast.c:205-222) -/
def mkSegment (op : SegOp) (name : Option Str) (id seconds : Int) : Expr :=
  match name with
  | none => .leaf (.segment ⟨op, false, makeAttrVar "segments_with_timestamp".toList, toU64 id, seconds, makeAttrVar "now".toList⟩)
  | some x => .leaf (.segment ⟨op, true, makeAttrVar x, toU64 id, seconds, makeAttrVar "now".toList⟩)

/-- `ast_special_geo_create` (ast.c:224-242), radius present -/
def mkGeo (lat lon radius : Rat) : Expr :=
  .leaf (.geo ⟨true, lat, lon, radius, makeAttrVar "latitude".toList, makeAttrVar "longitude".toList⟩)

/-- The action of each rule (parser.y:96-226, numbered as in parser.c:1449-1899) on the values of the right-hand side.  The `var` of a
string value is left uninitialised by the code (parser.y:108) and set by `assign_str_id` before it is read; here it starts as
`INVALID_VAR`.  Any other shape of values would be a union read at another member.  What `and` and `or` build is a parameter here. -/
def xxActionWith (conj disj : Expr → Expr → Expr) : Nat → List PVal → Except Fault PVal
  | 2, [.node e] => .ok (.node e)
  | 3, [.string s] => .ok (.string s)
  | 4, [.int n] => .ok (.int n)
  | 5, [_, .int n] => .ok (.int (-n))
  | 6, [.float q] => .ok (.float q)
  | 7, [_, .float q] => .ok (.float (-q))
  | 8, [.string s] => .ok (.strVal ⟨s, invalidId, invalidId⟩)
  | 9, [_, .ints l, _] => .ok (.ints l)
  | 10, [.int n] => .ok (.ints [n])
  | 11, [.ints l, _, .int n] => .ok (.ints (l ++ [n]))
  | 12, [_, .strs l, _] => .ok (.strs l)
  | 13, [.strVal s] => .ok (.strs [s])
  | 14, [.strs l, _, .strVal s] => .ok (.strs (l ++ [s]))
  | 15, [_, .node e, _] => .ok (.node e)
  | 16, [.node e] => .ok (.node e)
  | 17, [.node e] => .ok (.node e)
  | 18, [.node e] => .ok (.node e)
  | 19, [.node e] => .ok (.node e)
  | 20, [.node e] => .ok (.node e)
  | 21, [.node e] => .ok (.node e)
  | 22, [.node e] => .ok (.node e)
  | 23, [.string x, _] => .ok (.node (.leaf (.isNull .isNull (makeAttrVar x))))
  | 24, [.string x, _] => .ok (.node (.leaf (.isNull .isNotNull (makeAttrVar x))))
  | 25, [.string x, _] => .ok (.node (.leaf (.isNull .isEmpty (makeAttrVar x))))
  | 26, [.int n] => .ok (.cmp (.int n))
  | 27, [.float q] => .ok (.cmp (.float q))
  | 28, [.string x, _, .cmp c] => .ok (.node (.leaf (.compare .gt (makeAttrVar x) c)))
  | 29, [.string x, _, .cmp c] => .ok (.node (.leaf (.compare .ge (makeAttrVar x) c)))
  | 30, [.string x, _, .cmp c] => .ok (.node (.leaf (.compare .lt (makeAttrVar x) c)))
  | 31, [.string x, _, .cmp c] => .ok (.node (.leaf (.compare .le (makeAttrVar x) c)))
  | 32, [.cmp c, _, .string x] => .ok (.node (.leaf (.compare .gt (makeAttrVar x) c)))
  | 33, [.cmp c, _, .string x] => .ok (.node (.leaf (.compare .ge (makeAttrVar x) c)))
  | 34, [.cmp c, _, .string x] => .ok (.node (.leaf (.compare .lt (makeAttrVar x) c)))
  | 35, [.cmp c, _, .string x] => .ok (.node (.leaf (.compare .le (makeAttrVar x) c)))
  | 36, [.int n] => .ok (.eq (.int n))
  | 37, [.float q] => .ok (.eq (.float q))
  | 38, [.strVal s] => .ok (.eq (.string s))
  | 39, [.string x, _, .eq c] => .ok (.node (.leaf (.equality .eq (makeAttrVar x) c)))
  | 40, [.string x, _, .eq c] => .ok (.node (.leaf (.equality .ne (makeAttrVar x) c)))
  | 41, [.eq c, _, .string x] => .ok (.node (.leaf (.equality .eq (makeAttrVar x) c)))
  | 42, [.eq c, _, .string x] => .ok (.node (.leaf (.equality .ne (makeAttrVar x) c)))
  | 43, [.string x] => .ok (.var (makeAttrVar x))
  | 44, [.int n] => .ok (.setLeft (.int n))
  | 45, [.strVal s] => .ok (.setLeft (.string s))
  | 46, [.var v] => .ok (.setLeft (.var v))
  | 47, [.ints l] => .ok (.setRight (.intList l))
  | 48, [.strs l] => .ok (.setRight (.strList l))
  | 49, [.var v] => .ok (.setRight (.var v))
  | 50, [.setLeft l, _, .setRight r] => .ok (.node (.leaf (.set .notIn l r)))
  | 51, [.setLeft l, _, .setRight r] => .ok (.node (.leaf (.set .isIn l r)))
  | 52, [.ints l] => .ok (.list (.intList l))
  | 53, [.strs l] => .ok (.list (.strList l))
  | 54, [.string x, _, .list l] => .ok (.node (.leaf (.list .oneOf (makeAttrVar x) l)))
  | 55, [.string x, _, .list l] => .ok (.node (.leaf (.list .noneOf (makeAttrVar x) l)))
  | 56, [.string x, _, .list l] => .ok (.node (.leaf (.list .allOf (makeAttrVar x) l)))
  | 57, [.node l, _, .node r] => .ok (.node (conj l r))
  | 58, [.node l, _, .node r] => .ok (.node (disj l r))
  | 59, [_, .node e] => .ok (.node (.not e))
  | 60, [.string x] => .ok (.node (.leaf (.boolVar (makeAttrVar x))))
  | 61, [_] => .ok (.node (.leaf (.boolLit true)))
  | 62, [_] => .ok (.node (.leaf (.boolLit false)))
  | 63, [.node e] => .ok (.node e)
  | 64, [.node e] => .ok (.node e)
  | 65, [.node e] => .ok (.node e)
  | 66, [.node e] => .ok (.node e)
  | 67, [_, _, .string ty, _, .strVal ns, _, .int value, _, .int length, _] => .ok (.node (mkFrequency ty ns value length))
  | 68, [_, _, .int id, _, .int secs, _] => .ok (.node (mkSegment .within none id secs))
  | 69, [_, _, .string x, _, .int id, _, .int secs, _] => .ok (.node (mkSegment .within (some x) id secs))
  | 70, [_, _, .int id, _, .int secs, _] => .ok (.node (mkSegment .before none id secs))
  | 71, [_, _, .string x, _, .int id, _, .int secs, _] => .ok (.node (mkSegment .before (some x) id secs))
  | 72, [_, _, .int a, _, .int b, _, .int c, _] => .ok (.node (mkGeo (rnd a) (rnd b) (rnd c)))
  | 73, [_, _, .float a, _, .float b, _, .float c, _] => .ok (.node (mkGeo a b c))
  | 74, [_, _, .string x, _, .strVal s, _] => .ok (.node (.leaf (.str ⟨.contains, makeAttrVar x, s.string⟩)))
  | 75, [_, _, .string x, _, .strVal s, _] => .ok (.node (.leaf (.str ⟨.startsWith, makeAttrVar x, s.string⟩)))
  | 76, [_, _, .string x, _, .strVal s, _] => .ok (.node (.leaf (.str ⟨.endsWith, makeAttrVar x, s.string⟩)))
  | _, _ => .error .ub

/-- The actions of parser.y:96-226, with `ast_bool_expr_binary_create` (ast.c:137-152) for `and` and `or`. -/
def xxAction : Nat → List PVal → Except Fault PVal := xxActionWith mkAnd mkOr

/-- `xxparse` (parser.c:1203-2130) on the tokens of a text: `none` is a nonzero result.  The number of steps allowed is enough
(`parseTokens_ok`). -/
def parseTokens (ts : List Tok) : Except Fault (Option Expr) :=
  match lrRun xxTables Tok.num Tok.val .token xxAction (11 * (ts.length + 1) + 2) [] ts with
  | .error e => .error e
  | .ok none => .ok none
  | .ok (some (.node e)) => .ok (some e)
  | .ok (some _) => .error .ub

/-- `parse` (parser.y:236-255): `none` is the result -1 -/
def parseText (text : Str) : Except Fault (Option Expr) := parseTokens (lexExpr text)

end BeTree
