import Verif.Model.Types
/-
printer.c: `ast_to_string`, the text of an expression.  `basprintf` is taken to succeed.
-/
namespace BeTree

/-- `%ld` (printer.c:16, 50, 65, 90, value.c:79-85) -/
def fmtInt (n : Int) : Str := if n < 0 then '-' :: Nat.toDigits 10 n.natAbs else Nat.toDigits 10 n.natAbs

/-- the nearest integer, the even one of two equally near, as `printf` rounds (printer.c:21, 55, 237) -/
def roundEven (q : Rat) : Nat :=
  let n := q.floor.toNat
  if q - n < 1 / 2 then n
  else if 1 / 2 < q - n then n + 1
  else if n % 2 = 0 then n else n + 1

/-- `%.2f`.  (Doubles are rationals here: there is no negative zero, no infinity.) (printer.c:21, 55, 237) -/
def fmtFloat (q : Rat) : Str :=
  let n := roundEven (100 * (if q < 0 then -q else q))
  (if q < 0 then ['-'] else []) ++ Nat.toDigits 10 (n / 100) ++ ['.', Nat.digitChar (n % 100 / 10), Nat.digitChar (n % 10)]

/-- `"\"%s\""` (printer.c:60, 95, value.c:122-128) -/
def fmtStr (s : Str) : Str := '"' :: s ++ ['"']

/-- the loop of `integer_list_value_to_string` and `string_list_value_to_string` (value.c:73-92, 116-135) after the first entry -/
def fmtRest (acc : Str) : List Str → Str
  | [] => acc
  | x :: l => fmtRest (acc ++ ", ".toList ++ x) l

/-- `"(%s)"` around `integer_list_value_to_string` or `string_list_value_to_string` (value.c:73-92, 116-135, printer.c:115-130, 151-166):
for an empty list they return NULL, and printing that is undefined -/
def fmtList : List Str → Except Fault Str
  | [] => .error .ub
  | x :: l => .ok ('(' :: fmtRest x l ++ [')'])

/-- `compare_value_to_string` (printer.c:11-28) -/
def CmpVal.print : CmpVal → Str
  | .int n => fmtInt n
  | .float q => fmtFloat q

/-- `compare_op_to_string` (printer.c:30-43) -/
def CmpOp.print : CmpOp → Str
  | .lt => "<".toList
  | .le => "<=".toList
  | .gt => ">".toList
  | .ge => ">=".toList

/-- `equality_value_to_string` (printer.c:45-72) -/
def EqVal.print : EqVal → Str
  | .int n => fmtInt n
  | .float q => fmtFloat q
  | .string s => fmtStr s.string
  | .intEnum e => fmtInt e.integer

/-- `equality_op_to_string` (printer.c:74-83) -/
def EqOp.print : EqOp → Str
  | .eq => "=".toList
  | .ne => "<>".toList

/-- `set_left_value_to_string` (printer.c:85-106) -/
def SetLeft.print : SetLeft → Str
  | .int n => fmtInt n
  | .string s => fmtStr s.string
  | .var v => v.attr

/-- `set_right_value_to_string` (printer.c:108-134) -/
def SetRight.print : SetRight → Except Fault Str
  | .var v => .ok v.attr
  | .intList l => fmtList (l.map fmtInt)
  | .strList l => fmtList (l.map (fun s => fmtStr s.string))

/-- `set_op_to_string` (printer.c:136-145) -/
def SetOp.print : SetOp → Str
  | .isIn => "in".toList
  | .notIn => "not in".toList

/-- `list_value_to_string` (printer.c:147-170) -/
def ListVal.print : ListVal → Except Fault Str
  | .intList l => fmtList (l.map fmtInt)
  | .strList l => fmtList (l.map (fun s => fmtStr s.string))

/-- `list_op_to_string` (printer.c:172-186) -/
def ListOp.print : ListOp → Str
  | .oneOf => "one of".toList
  | .noneOf => "none of".toList
  | .allOf => "all of".toList

/-- `frequency_type_to_string` (ast.c:450-502): an invalid type aborts -/
def FreqType.print : FreqType → Except Fault Str
  | .invalid => .error .abort
  | .advertiser => .ok "advertiser".toList
  | .advertiserIp => .ok "advertiser:ip".toList
  | .campaign => .ok "campaign".toList
  | .campaignIp => .ok "campaign:ip".toList
  | .campaignGroup => .ok "campaign_group".toList
  | .campaignGroupIp => .ok "campaign_group:ip".toList
  | .flight => .ok "flight".toList
  | .flightIp => .ok "flight:ip".toList
  | .product => .ok "product".toList
  | .productIp => .ok "product:ip".toList

/-- `ast_to_string` (printer.c:188-355) without the connectives -/
def Pred.print : Pred → Except Fault Str
  | .isNull _ v => .ok ('?' :: v.attr)
  | .freq f =>
    match f.type.print with
    | .error e => .error e
    | .ok ty => .ok ("within_frequency_cap(".toList ++ fmtStr ty ++ ", ".toList ++ fmtStr f.ns.string ++ ", ".toList ++ fmtInt f.value ++
        ", ".toList ++ Nat.toDigits 10 f.length ++ [')'])
  | .segment s => .ok ((match s.op with | .within => "segment_within".toList | .before => "segment_before".toList) ++ '(' :: s.attr.attr ++
      ", ".toList ++ Nat.toDigits 10 s.segmentId ++ ", ".toList ++ fmtInt s.seconds ++ [')'])
  | .geo g => .ok ("geo_within_radius(".toList ++ fmtFloat g.latitude ++ ", ".toList ++ fmtFloat g.longitude ++ ", ".toList ++
      fmtFloat g.radius ++ [')'])
  | .str s => .ok ((match s.op with
      | .contains => "contains".toList
      | .startsWith => "starts_with".toList
      | .endsWith => "ends_with".toList) ++ '(' :: s.attr.attr ++ ", ".toList ++ fmtStr s.pattern ++ [')'])
  | .boolLit b => .ok (if b then "true".toList else "false".toList)
  | .boolVar v => .ok v.attr
  | .set o l r =>
    match r.print with
    | .error e => .error e
    | .ok r => .ok (l.print ++ ' ' :: o.print ++ ' ' :: r)
  | .list o v l =>
    match l.print with
    | .error e => .error e
    | .ok l => .ok (v.attr ++ ' ' :: o.print ++ ' ' :: l)
  | .equality o v x => .ok (v.attr ++ ' ' :: o.print ++ ' ' :: x.print)
  | .compare o v x => .ok (v.attr ++ ' ' :: o.print ++ ' ' :: x.print)

/-- `ast_to_string` (printer.c:188-355) -/
def Expr.print : Expr → Except Fault Str
  | .leaf p => p.print
  | .not e =>
    match e.print with
    | .error x => .error x
    | .ok a => .ok ("(not (".toList ++ a ++ "))".toList)
  | .or l r =>
    match l.print with
    | .error x => .error x
    | .ok a =>
      match r.print with
      | .error x => .error x
      | .ok b => .ok ("((".toList ++ a ++ ") or (".toList ++ b ++ "))".toList)
  | .and l r =>
    match l.print with
    | .error x => .error x
    | .ok a =>
      match r.print with
      | .error x => .error x
      | .ok b => .ok ("((".toList ++ a ++ ") and (".toList ++ b ++ "))".toList)

end BeTree
