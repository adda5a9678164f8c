import Verif.Model.Late
import Verif.Model.Lexer
/-
helper.c, and `betree_get_variable_definition` of betree.c.
-/
namespace BeTree

/-! ### the variables of a tree -/

/-- `betree_get_variable_definition` (betree.c:894-899): the name and the type of the variable at an index; an index out of range
reads past `attr_domains`. -/
def Tree.variableDefinition (t : Tree) (index : Nat) : Except Fault (Str × VType) :=
  match t.cfg.domains[index]? with
  | none => .error .ub
  | some d => .ok (d.attr.attr, d.bound.ty)

/-! ### emptying a tree -/

/-- `empty_tree` (helper.c:97-105): a new root and a new predicate map; the variables with their boundaries and the strings and
integers learned (`config`) stay. -/
def Tree.emptied (t : Tree) : Tree :=
  { cfg := { t.cfg with predMap := PredMap.empty }, root := emptyCNode t.cfg }

/-- `empty_tree` (helper.c:97-105).  The subscriptions of the tree are freed with it.  Those built with `betree_make_sub` and not
inserted are not, but they carry numbers of the predicate map that is gone (see `C53_stale_subscription`): the history goes on
without them. -/
def World.emptied (w : World) : World := { tree := w.tree.emptied, pool := [], live := [] }

/-- A mutating call (betree.h:75-100), or `empty_tree` (helper.h:6). -/
inductive EmptyOp where
  | empty
  | op (o : Op)
  deriving DecidableEq

/-- A sequence of calls (betree.c:459-541) and of `empty_tree` (helper.c:97-105). -/
def World.emptyRun (R : Rounding) (w : World) : List EmptyOp → Except Fault World
  | [] => .ok w
  | .empty :: os => w.emptied.emptyRun R os
  | .op o :: os =>
    match w.step R o with
    | .error x => .error x
    | .ok w => w.emptyRun R os

/-! ### a variable declared by a line of text -/

/-- `strtok_r` (string.h; called at helper.c:14-18): delimiters are skipped, the token ends before the next one, which is skipped too.
`none` is the null pointer. -/
def strtok (delims : List Char) (s : Str) : Option Str × Str :=
  match s.dropWhile (· ∈ delims) with
  | [] => (none, [])
  | c :: cs => (some ((c :: cs).takeWhile (· ∉ delims)), ((c :: cs).dropWhile (· ∉ delims)).drop 1)

/-- `isspace` in the C locale (used by `strtoll`, helper.c:22) -/
def isSpace (c : Char) : Bool := c = ' ' ∨ (9 ≤ c.toNat ∧ c.toNat ≤ 13)

/-- `strtoll(s, NULL, 10)` on any text (helper.c:22, 25, 52, ...): spaces, a sign, digits, and anything after them ignored; no digits
are 0; saturates. -/
def strtollAny (s : Str) : Int :=
  match s.dropWhile isSpace with
  | '-' :: ds =>
    let n : Int := digitsVal (ds.takeWhile Char.isDigit)
    if int64Min ≤ -n then -n else int64Min
  | '+' :: ds => strtoll (ds.takeWhile Char.isDigit)
  | ds => strtoll (ds.takeWhile Char.isDigit)

/-- `size_t max = strtol(s, NULL, 10)` (helper.c:52, 61, 85) -/
def strtolSize (s : Str) : Nat := (strtollAny s % 2 ^ 64).toNat

/-- the fields of a line (helper.c:12-18): name, type, "true" or not, and what may follow -/
structure LineFields where
  name : Str
  type : Str
  allowUndefined : Bool
  min : Option Str
  max : Option Str
  deriving DecidableEq

/-- helper.c:12-18.  With fewer than three fields `strcmp` is given a null pointer. -/
def lineFields (line : Str) : Except Fault LineFields :=
  let (name, r) := strtok ['|'] line
  let (type, r) := strtok ['|'] r
  let (und, r) := strtok ['|', '\n'] r
  let (min, r) := strtok ['|', '\n'] r
  let (max, _) := strtok ['|', '\n'] r
  match name, type, und with
  | some name, some type, some und => .ok { name := name, type := type, allowUndefined := und = "true".toList, min := min, max := max }
  | _, _, _ => .error .ub

/-- the declaration for the type and the limits of a line (helper.c:19-93).  `strtod` is an arbitrary function here. -/
def lineDecl (strtod : Str → Rat) (f : LineFields) : Except Fault Decl :=
  if f.type = "integer".toList then
    .ok (.int ((f.min.map strtollAny).getD int64Min) ((f.max.map strtollAny).getD int64Max))
  else if f.type = "float".toList then .ok (.float ((f.min.map strtod).getD (-dblMax)) ((f.max.map strtod).getD dblMax))
  else if f.type = "boolean".toList then .ok .bool
  else if f.type = "frequency".toList then .ok .freq
  else if f.type = "segments".toList then .ok .segments
  else if f.type = "string".toList then .ok (.string ((f.min.map strtolSize).getD sizeMax))
  else if f.type = "integer enum".toList then .ok (.intEnum ((f.min.map strtolSize).getD sizeMax))
  else if f.type = "integer list".toList then
    match f.min, f.max with
    | some a, some b => .ok (.intList (strtollAny a) (strtollAny b))
    | _, _ => .ok (.intList int64Min int64Max)
  else if f.type = "string list".toList then .ok (.strList ((f.min.map strtolSize).getD sizeMax))
  else .error .abort

/-- `add_variable_from_string` (helper.c:9-95). -/
def Tree.addVariableFromString (strtod : Str → Rat) (t : Tree) (line : Str) : Except Fault Tree :=
  match lineFields line with
  | .error e => .error e
  | .ok f =>
    match lineDecl strtod f with
    | .error e => .error e
    | .ok d => .ok (t.declare f.name d f.allowUndefined)

end BeTree
