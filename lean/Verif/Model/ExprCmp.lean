import Verif.Model.Types
/-
ast_compare.c: the order of predicates used by the predicate table.
-/
namespace BeTree

/-- `if(a > b) return 1; if(a < b) return -1;` and go on: the pattern of every comparison in ast_compare.c (ast_compare.c:8-23 and every other function there). -/
def cmp3 {α : Type} [LT α] [DecidableLT α] (a b : α) : Ordering :=
  if b < a then .gt else if a < b then .lt else .eq

/-- the enum constants, in declaration order (ast.h) (ast.h:14-19) -/
def CmpOp.toNat : CmpOp → Nat
  | .lt => 0 | .le => 1 | .gt => 2 | .ge => 3
/-- `enum ast_compare_value_e` (ast.h:21-24). -/
def CmpVal.tag : CmpVal → Nat
  | .int _ => 0 | .float _ => 1
/-- ast.h:43-46 -/
def EqOp.toNat : EqOp → Nat
  | .eq => 0 | .ne => 1
/-- `enum ast_equality_value_e` (ast.h:48-53). -/
def EqVal.tag : EqVal → Nat
  | .int _ => 0 | .float _ => 1 | .string _ => 2 | .intEnum _ => 3
/-- ast.h:134-137 -/
def SetOp.toNat : SetOp → Nat
  | .notIn => 0 | .isIn => 1
/-- `enum set_left_value_e` (ast.h:104-108). -/
def SetLeft.tag : SetLeft → Nat
  | .int _ => 0 | .string _ => 1 | .var _ => 2
/-- `enum set_right_value_e` (ast.h:119-123). -/
def SetRight.tag : SetRight → Nat
  | .intList _ => 0 | .strList _ => 1 | .var _ => 2
/-- ast.h:147-151 -/
def ListOp.toNat : ListOp → Nat
  | .oneOf => 0 | .noneOf => 1 | .allOf => 2
/-- `enum ast_list_value_e` (ast.h:153-156). -/
def ListVal.tag : ListVal → Nat
  | .intList _ => 0 | .strList _ => 1
/-- value.h:51-63 -/
def FreqType.toNat : FreqType → Nat
  | .invalid => 0 | .advertiser => 1 | .advertiserIp => 2 | .campaign => 3 | .campaignIp => 4 | .campaignGroup => 5
  | .campaignGroupIp => 6 | .flight => 7 | .flightIp => 8 | .product => 9 | .productIp => 10
/-- ast.h:189-192 -/
def SegOp.toNat : SegOp → Nat
  | .within => 0 | .before => 1
/-- ast.h:217-221 -/
def StrOp.toNat : StrOp → Nat
  | .contains => 0 | .startsWith => 1 | .endsWith => 2
/-- ast.h:248-252 -/
def NullOp.toNat : NullOp → Nat
  | .isNull => 0 | .isNotNull => 1 | .isEmpty => 2

/-- `enum ast_node_type_e` (ast.h:261-269) of a node. -/
def AExpr.typeTag : AExpr → Nat
  | .leaf _ (.compare ..) => 0
  | .leaf _ (.equality ..) => 1
  | .leaf _ (.boolVar _) => 2
  | .leaf _ (.boolLit _) => 2
  | .not .. => 2
  | .and .. => 2
  | .or .. => 2
  | .leaf _ (.set ..) => 3
  | .leaf _ (.list ..) => 4
  | .leaf _ (.freq _) => 5
  | .leaf _ (.segment _) => 5
  | .leaf _ (.geo _) => 5
  | .leaf _ (.str _) => 5
  | .leaf _ (.isNull ..) => 6

/-- element loop of `cmp_integer_list` (ast_compare.c:14-21) -/
def cmpElems {α : Type} [LT α] [DecidableLT α] : List α → List α → Ordering
  | x :: xs, y :: ys => (cmp3 x y).then (cmpElems xs ys)
  | _, _ => .eq

/-- `cmp_integer_list` (ast_compare.c:6-23). -/
def cmpIntList (l1 l2 : List Int) : Ordering := (cmp3 l1.length l2.length).then (cmpElems l1 l2)

/-- `cmp_string_list` (ast_compare.c:25-42). -/
def cmpStrList (l1 l2 : List StrVal) : Ordering :=
  (cmp3 l1.length l2.length).then (cmpElems (l1.map StrVal.str) (l2.map StrVal.str))

/-- `compare_expr_cmp` (ast_compare.c:44-82). -/
def compareExprCmp (o1 : CmpOp) (v1 : AttrVar) (c1 : CmpVal) (o2 : CmpOp) (v2 : AttrVar) (c2 : CmpVal) : Ordering :=
  (cmp3 o1.toNat o2.toNat).then <| (cmp3 v1.var v2.var).then <| (cmp3 c1.tag c2.tag).then <|
  match c1, c2 with
  | .int a, .int b => cmp3 a b
  | .float a, .float b => cmp3 a b
  | _, _ => .eq

/-- `equality_expr_cmp` (ast_compare.c:84-138). -/
def equalityExprCmp (o1 : EqOp) (v1 : AttrVar) (c1 : EqVal) (o2 : EqOp) (v2 : AttrVar) (c2 : EqVal) : Ordering :=
  (cmp3 o1.toNat o2.toNat).then <| (cmp3 v1.var v2.var).then <| (cmp3 c1.tag c2.tag).then <|
  match c1, c2 with
  | .intEnum a, .intEnum b => cmp3 a.ienum b.ienum
  | .int a, .int b => cmp3 a b
  | .float a, .float b => cmp3 a b
  | .string a, .string b => cmp3 a.str b.str
  | _, _ => .eq

/-- `enum ast_bool_e` (ast.h:76-82) of a boolean node. -/
def AExpr.boolTag : AExpr → Nat
  | .or .. => 0
  | .and .. => 1
  | .not .. => 2
  | .leaf _ (.boolVar _) => 3
  | _ => 4

/-- `bool_expr_cmp` (ast_compare.c:140-191). -/
def boolExprCmp (b1 b2 : AExpr) : Ordering :=
  (cmp3 b1.boolTag b2.boolTag).then <|
  match b1, b2 with
  | .or _ l1 r1, .or _ l2 r2 => (cmp3 l1.gid l2.gid).then (cmp3 r1.gid r2.gid)
  | .and _ l1 r1, .and _ l2 r2 => (cmp3 l1.gid l2.gid).then (cmp3 r1.gid r2.gid)
  | .not _ e1, .not _ e2 => cmp3 e1.gid e2.gid
  | .leaf _ (.boolVar v1), .leaf _ (.boolVar v2) => cmp3 v1.var v2.var
  | .leaf _ (.boolLit a), .leaf _ (.boolLit b) => cmp3 a.toNat b.toNat
  | _, _ => .eq

/-- `set_expr_cmp` (ast_compare.c:193-257). -/
def setExprCmp (o1 : SetOp) (l1 : SetLeft) (r1 : SetRight) (o2 : SetOp) (l2 : SetLeft) (r2 : SetRight) : Ordering :=
  (cmp3 o1.toNat o2.toNat).then <| (cmp3 l1.tag l2.tag).then <| (cmp3 r1.tag r2.tag).then <|
  (match l1, l2 with
  | .int a, .int b => cmp3 a b
  | .string a, .string b => cmp3 a.str b.str
  | .var a, .var b => cmp3 a.var b.var
  | _, _ => .eq).then <|
  match r1, r2 with
  | .intList a, .intList b => cmpIntList a b
  | .strList a, .strList b => cmpStrList a b
  | .var a, .var b => cmp3 a.var b.var
  | _, _ => .eq

/-- `list_expr_cmp` (ast_compare.c:259-286). -/
def listExprCmp (o1 : ListOp) (v1 : AttrVar) (c1 : ListVal) (o2 : ListOp) (v2 : AttrVar) (c2 : ListVal) : Ordering :=
  (cmp3 o1.toNat o2.toNat).then <| (cmp3 v1.var v2.var).then <| (cmp3 c1.tag c2.tag).then <|
  match c1, c2 with
  | .intList a, .intList b => cmpIntList a b
  | .strList a, .strList b => cmpStrList a b
  | _, _ => .eq

/-- `enum ast_special_e` (ast.h:229-234) of a special node. -/
def Pred.specialTag : Pred → Nat
  | .freq _ => 0
  | .segment _ => 1
  | .geo _ => 2
  | _ => 3

/-- `strcmp` (ast_compare.c:430), on the byte codes. -/
def strcmp : Str → Str → Ordering
  | [], [] => .eq
  | [], _ :: _ => .lt
  | _ :: _, [] => .gt
  | a :: as, b :: bs => (cmp3 a.toNat b.toNat).then (strcmp as bs)

/-- `special_expr_cmp` (ast_compare.c:288-433); the attributes called `now` are not compared. -/
def specialExprCmp (p1 p2 : Pred) : Ordering :=
  (cmp3 p1.specialTag p2.specialTag).then <|
  match p1, p2 with
  | .freq a, .freq b =>
    (cmp3 a.attr.var b.attr.var).then <| (cmp3 a.id b.id).then <| (cmp3 a.length b.length).then <|
    (cmp3 a.ns.str b.ns.str).then <| (cmp3 a.type.toNat b.type.toNat).then <| cmp3 a.value b.value
  | .segment a, .segment b =>
    (cmp3 a.op.toNat b.op.toNat).then <| (cmp3 a.hasVariable.toNat b.hasVariable.toNat).then <|
    (cmp3 a.attr.var b.attr.var).then <| (cmp3 a.seconds b.seconds).then <| cmp3 a.segmentId b.segmentId
  | .geo a, .geo b =>
    (cmp3 a.hasRadius.toNat b.hasRadius.toNat).then <| (cmp3 a.latVar.var b.latVar.var).then <|
    (cmp3 a.lonVar.var b.lonVar.var).then <| (cmp3 a.latitude b.latitude).then <|
    (cmp3 a.longitude b.longitude).then <| cmp3 a.radius b.radius
  | .str a, .str b =>
    (cmp3 a.op.toNat b.op.toNat).then <| (cmp3 a.attr.var b.attr.var).then <| strcmp a.pattern b.pattern
  | _, _ => .eq

/-- `is_null_expr_cmp` (ast_compare.c:435-450). -/
def isNullExprCmp (o1 : NullOp) (v1 : AttrVar) (o2 : NullOp) (v2 : AttrVar) : Ordering :=
  (cmp3 v1.var v2.var).then (cmp3 o1.toNat o2.toNat)

/-- `expr_cmp` (ast_compare.c:452-474). -/
def exprCmp (n1 n2 : AExpr) : Ordering :=
  (cmp3 n1.typeTag n2.typeTag).then <|
  match n1, n2 with
  | .leaf _ (.compare o1 v1 c1), .leaf _ (.compare o2 v2 c2) => compareExprCmp o1 v1 c1 o2 v2 c2
  | .leaf _ (.equality o1 v1 c1), .leaf _ (.equality o2 v2 c2) => equalityExprCmp o1 v1 c1 o2 v2 c2
  | .leaf _ (.set o1 l1 r1), .leaf _ (.set o2 l2 r2) => setExprCmp o1 l1 r1 o2 l2 r2
  | .leaf _ (.list o1 v1 c1), .leaf _ (.list o2 v2 c2) => listExprCmp o1 v1 c1 o2 v2 c2
  | .leaf _ (.isNull o1 v1), .leaf _ (.isNull o2 v2) => isNullExprCmp o1 v1 o2 v2
  | n1, n2 =>
    if n1.typeTag = 2 then boolExprCmp n1 n2
    else
      match n1, n2 with
      | .leaf _ p1, .leaf _ p2 => specialExprCmp p1 p2
      | _, _ => .eq

end BeTree
