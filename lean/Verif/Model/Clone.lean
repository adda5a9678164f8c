import Verif.Model.Eval
/-
Copies of expressions (clone.c).  Allocation always succeeds in the model.
-/
namespace BeTree

/-- the members `ast_node_create` leaves at zero (ast.c:21-31): a null name and the variable 0.  Simplification: the null name is the
empty string; evaluation reads only the variable. -/
def zeroVar : AttrVar := ⟨[], 0⟩

/-- `clone_attr_var` (clone.c:8-12). -/
def cloneAttrVar (orig : AttrVar) : AttrVar := ⟨orig.attr, orig.var⟩

/-- `clone_compare_value` (clone.c:14-28). -/
def cloneCompareValue : CmpVal → CmpVal
  | .int i => .int i
  | .float f => .float f

/-- `clone_string_value` (clone.c:42-46). -/
def cloneStringValue (orig : StrVal) : StrVal := ⟨orig.string, orig.var, orig.str⟩

/-- `clone_equality_value` (clone.c:48-68). -/
def cloneEqualityValue : EqVal → EqVal
  | .int i => .int i
  | .float f => .float f
  | .string s => .string (cloneStringValue s)
  | .intEnum e => .intEnum e

/-- `clone_set_left_value` (clone.c:113-130). -/
def cloneSetLeft : SetLeft → SetLeft
  | .int i => .int i
  | .string s => .string (cloneStringValue s)
  | .var v => .var (cloneAttrVar v)

/-- the loop of `clone_integer_list` (clone.c:132-141). -/
def cloneIntegerList : List Int → List Int
  | [] => []
  | i :: l => i :: cloneIntegerList l

/-- the loop of `clone_string_list` (clone.c:143-153). -/
def cloneStringList : List StrVal → List StrVal
  | [] => []
  | s :: l => cloneStringValue s :: cloneStringList l

/-- `clone_set_right_value` (clone.c:155-172). -/
def cloneSetRight : SetRight → SetRight
  | .intList l => .intList (cloneIntegerList l)
  | .strList l => .strList (cloneStringList l)
  | .var v => .var (cloneAttrVar v)

/-- `clone_list_value` (clone.c:186-200). -/
def cloneListValue : ListVal → ListVal
  | .intList l => .intList (cloneIntegerList l)
  | .strList l => .strList (cloneStringList l)

/-- the leaves of `clone_node` (clone.c:261-290): `clone_compare` (30-40), `clone_equality` (70-80), the leaves of `clone_bool`
(100-106), `clone_set` (174-184), `clone_list` (202-212), `clone_special` (214-248), `clone_is_null` (250-259).  Not copied, so left at
zero: `now` and `id` of a frequency cap, `now` of a segment test, `latitude_var` and `longitude_var` of a geo test. -/
def clonePred : Pred → Pred
  | .compare op v c => .compare op (cloneAttrVar v) (cloneCompareValue c)
  | .equality op v c => .equality op (cloneAttrVar v) (cloneEqualityValue c)
  | .boolVar v => .boolVar (cloneAttrVar v)
  | .boolLit b => .boolLit b
  | .set op l r => .set op (cloneSetLeft l) (cloneSetRight r)
  | .list op v c => .list op (cloneAttrVar v) (cloneListValue c)
  | .freq f => .freq ⟨cloneAttrVar f.attr, f.type, cloneStringValue f.ns, f.value, f.length, zeroVar, 0⟩
  | .segment s => .segment ⟨s.op, s.hasVariable, cloneAttrVar s.attr, s.segmentId, s.seconds, zeroVar⟩
  | .geo g => .geo ⟨g.hasRadius, g.latitude, g.longitude, g.radius, zeroVar, zeroVar⟩
  | .str s => .str ⟨s.op, cloneAttrVar s.attr, s.pattern⟩
  | .isNull op v => .isNull op (cloneAttrVar v)

/-- `clone_node` (clone.c:261-290) with `clone_bool` (clone.c:82-111), on a node with its ids. -/
def cloneNode : AExpr → AExpr
  | .leaf g p => .leaf g (clonePred p)
  | .not g e => .not g (cloneNode e)
  | .and g l r => .and g (cloneNode l) (cloneNode r)
  | .or g l r => .or g (cloneNode l) (cloneNode r)

end BeTree
