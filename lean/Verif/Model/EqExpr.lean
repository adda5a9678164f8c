import Verif.Model.Eval
/-
ast.c: `eq_expr` (structural comparison of expressions) and the operand reordering done when an expression is built.
-/
namespace BeTree

/-- `eq_compare_value` (ast.c:2235-2248). -/
def eqCmpVal : CmpVal → CmpVal → Bool
  | .int a, .int b => decide (a = b)
  | .float a, .float b => feq a b
  | _, _ => false

/-- `eq_equality_value` (ast.c:2250-2269). -/
def eqEqVal : EqVal → EqVal → Bool
  | .int a, .int b => decide (a = b)
  | .float a, .float b => feq a b
  | .string a, .string b => decide (a.var = b.var ∧ a.str = b.str)
  | .intEnum a, .intEnum b => decide (a.var = b.var ∧ a.ienum = b.ienum)
  | _, _ => false

/-- `eq_set_left_value` (ast.c:2291-2307). -/
def eqSetLeft : SetLeft → SetLeft → Bool
  | .int a, .int b => decide (a = b)
  | .string a, .string b => decide (a.var = b.var ∧ a.str = b.str)
  | .var a, .var b => decide (a.var = b.var)
  | _, _ => false

/-- `eq_string_list` (ast.c:2322-2333): entries differ only when the variables agree and the ids do not. -/
def eqStrList : List StrVal → List StrVal → Bool
  | [], [] => true
  | a :: as, b :: bs => if a.var = b.var ∧ a.str ≠ b.str then false else eqStrList as bs
  | _, _ => false

/-- `eq_set_right_value` (ast.c:2335-2350); `eq_integer_list` (ast.c:2309-2320) is list equality. -/
def eqSetRight : SetRight → SetRight → Bool
  | .intList a, .intList b => decide (a = b)
  | .strList a, .strList b => eqStrList a b
  | .var a, .var b => decide (a.var = b.var)
  | _, _ => false

/-- `eq_list_value` (ast.c:2361-2374). -/
def eqListVal : ListVal → ListVal → Bool
  | .intList a, .intList b => decide (a = b)
  | .strList a, .strList b => eqStrList a b
  | _, _ => false

/-- leaf cases of `eq_expr` (ast.c:2271-2289, 2352-2359, 2376-2440). `id` and `now` of a frequency, `now` of a segment, and
the variables of a geo expression are not compared; nor is the operator of a null test. -/
def eqPred : Pred → Pred → Bool
  | .isNull _ v, .isNull _ w => decide (v.var = w.var)
  | .compare o v c, .compare p w d => decide (v.var = w.var) && decide (o = p) && eqCmpVal c d
  | .equality o v c, .equality p w d => decide (v.var = w.var) && decide (o = p) && eqEqVal c d
  | .boolVar v, .boolVar w => decide (v.var = w.var)
  | .boolLit a, .boolLit b => a == b
  | .set o l r, .set p l' r' => decide (o = p) && eqSetLeft l l' && eqSetRight r r'
  | .list o v c, .list p w d => decide (o = p) && decide (v.var = w.var) && eqListVal c d
  | .freq a, .freq b =>
    decide (a.attr.var = b.attr.var ∧ a.length = b.length ∧ a.ns.var = b.ns.var ∧ a.ns.str = b.ns.str ∧
      a.type = b.type ∧ a.value = b.value)
  | .segment a, .segment b =>
    decide (a.attr.var = b.attr.var ∧ a.hasVariable = b.hasVariable ∧ a.op = b.op ∧ a.seconds = b.seconds ∧
      a.segmentId = b.segmentId)
  | .geo a, .geo b =>
    a.hasRadius == b.hasRadius && feq a.latitude b.latitude && feq a.longitude b.longitude && feq a.radius b.radius
  | .str a, .str b => decide (a.attr.var = b.attr.var ∧ a.op = b.op ∧ a.pattern = b.pattern)
  | _, _ => false

/-- `eq_expr` (ast.c:2406-2440). -/
def eqExpr : Expr → Expr → Bool
  | .leaf p, .leaf q => eqPred p q
  | .not a, .not b => eqExpr a b
  | .and a b, .and c d => eqExpr a c && eqExpr b d
  | .or a b, .or c d => eqExpr a c && eqExpr b d
  | _, _ => false

/-! ### building `and` / `or` -/

/-- leaf cases of `score_node` (ast.c:102-135) with `enum scores` (ast.c:94-100) -/
def scorePred : Pred → Nat
  | .isNull _ _ => 0
  | .compare _ _ _ => 1
  | .equality _ _ _ => 1
  | .boolVar _ => 1
  | .boolLit _ => 0
  | .set _ _ _ => 5
  | .list _ _ _ => 10
  | .freq _ => 20
  | .segment _ => 20
  | .geo _ => 0
  | .str _ => 20

/-- `score_node` (ast.c:102-135); `uint64_t` wrap-around of the sum is not modelled. -/
def scoreExpr : Expr → Nat
  | .leaf p => scorePred p
  | .not e => scoreExpr e
  | .and l r => scoreExpr l + scoreExpr r
  | .or l r => scoreExpr l + scoreExpr r

/-- `ast_bool_expr_binary_create(AST_BOOL_AND, ..)` (ast.c:137-152): the cheaper operand goes first. -/
def mkAnd (l r : Expr) : Expr := if scoreExpr r < scoreExpr l then .and r l else .and l r
/-- `ast_bool_expr_binary_create(AST_BOOL_OR, ..)` (ast.c:137-152). -/
def mkOr (l r : Expr) : Expr := if scoreExpr r < scoreExpr l then .or r l else .or l r

/-- What the parser builds from an expression as written: the same tree, with the operands of every `and`/`or` reordered
bottom-up by `ast_bool_expr_binary_create` (ast.c:137-152, called from the grammar's actions). -/
def parseBuild : Expr → Expr
  | .leaf p => .leaf p
  | .not e => .not (parseBuild e)
  | .and l r => mkAnd (parseBuild l) (parseBuild r)
  | .or l r => mkOr (parseBuild l) (parseBuild r)

end BeTree
