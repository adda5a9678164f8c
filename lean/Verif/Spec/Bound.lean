import Verif.Spec.Sat
import Verif.Spec.Short
import Verif.Spec.Double
/-
Specification: the expressions, events and declarations for which the intervals used to prune the search are right.
Conditions on what the caller writes; each one excludes inputs on which the code misses matching expressions (see the
counter-example theorems of C03 and C20).
-/
namespace BeTree.Spec
open BeTree

/-- the attributes a predicate gives an interval for -/
def predBoundNames : Pred → List Str
  | .compare _ v _ => [v.attr]
  | .equality _ v _ => [v.attr]
  | .boolVar v => [v.attr]
  | .set _ l r =>
    (match l with | .var v => [v.attr] | _ => []) ++ (match r with | .var v => [v.attr] | _ => [])
  | .list _ v _ => [v.attr]
  | _ => []

/-- the attributes an expression gives an interval for -/
def boundNames : Expr → List Str
  | .leaf p => predBoundNames p
  | .not e => boundNames e
  | .and l r => boundNames l ++ boundNames r
  | .or l r => boundNames l ++ boundNames r

/-- Below an odd number of `not`s, no `and` has an operand that compares an attribute of `lim`.  (`odd`: below an odd number
of `not`s.) -/
def BoundSafe (lim : Str → Prop) : Bool → Expr → Prop
  | _, .leaf _ => True
  | odd, .not e => BoundSafe lim (!odd) e
  | odd, .and l r =>
    BoundSafe lim odd l ∧ BoundSafe lim odd r ∧ (odd = true → ∀ n ∈ boundNames l ++ boundNames r, ¬ lim n)
  | odd, .or l r => BoundSafe lim odd l ∧ BoundSafe lim odd r

/-- equal, or a `double` at least `DBL_EPSILON` away -/
def Apart (x k : Rat) : Prop := x = k ∨ (IsDouble x ∧ dblEps ≤ (x - k).abs)

/-- every number of the expression that a float attribute of `lim` is compared with is equal to, or `DBL_EPSILON` apart from, the
event's value of that attribute -/
def Separated (lim : Str → Prop) (ev : Event) : Expr → Prop
  | .leaf (.compare _ v (.int k)) => lim v.attr → ∀ x, ev.get v = some (.float x) → Apart x (rnd (k : Int))
  | .leaf (.compare _ v (.float k)) => lim v.attr → ∀ x, ev.get v = some (.float x) → Apart x k
  | .leaf (.equality _ v (.int k)) => lim v.attr → ∀ x, ev.get v = some (.float x) → Apart x (rnd (k : Int))
  | .leaf (.equality _ v (.float k)) => lim v.attr → ∀ x, ev.get v = some (.float x) → Apart x k
  | .leaf _ => True
  | .not e => Separated lim ev e
  | .and l r => Separated lim ev l ∧ Separated lim ev r
  | .or l r => Separated lim ev l ∧ Separated lim ev r

/-- an integer constant far enough from the ends of `int64_t`, which the code uses as "no limit" -/
def ModInt (k : Int) : Prop := int64Min + 1 < k ∧ k < int64Max - 1

/-- every integer of the expression is well inside the range of its type -/
def Moderate : Expr → Prop
  | .leaf (.compare _ _ (.int k)) => ModInt k
  | .leaf (.equality _ _ (.int k)) => ModInt k
  | .leaf (.set _ (.int k) _) => ModInt k
  | .leaf (.set _ _ (.intList l)) => ∀ k ∈ l, ModInt k
  | .leaf (.list _ _ (.intList l)) => ∀ k ∈ l, ModInt k
  | .leaf _ => True
  | .not e => Moderate e
  | .and l r => Moderate l ∧ Moderate r
  | .or l r => Moderate l ∧ Moderate r

/-- the number and its neighbours at a distance of `DBL_EPSILON` may become limits -/
def MayLimit [Floats] (k : Rat) : Prop := Floats.limit k ∧ Floats.limit (rnd (k - dblEps)) ∧ Floats.limit (rnd (k + dblEps))

/-- every number of the expression that a float attribute is compared with may become a limit of that attribute (`float v`: the attribute
is a float attribute) -/
def FloatsFit [Floats] (float : AttrVar → Prop) : Expr → Prop
  | .leaf (.compare _ v (.int k)) => float v → MayLimit (rnd k)
  | .leaf (.compare _ _ (.float k)) => MayLimit k
  | .leaf (.equality _ v (.int k)) => float v → MayLimit (rnd k)
  | .leaf (.equality _ _ (.float k)) => MayLimit k
  | .leaf _ => True
  | .not e => FloatsFit float e
  | .and l r => FloatsFit float l ∧ FloatsFit float r
  | .or l r => FloatsFit float l ∧ FloatsFit float r

/-- a declaration whose interval is not empty; the limits of a float attribute, where it has limits, are among the numbers that may be -/
def ProperDecl [Floats] (name : Str) : Decl → Prop
  | .int min max => min ≤ max
  | .intList min max => min ≤ max
  | .float min max => Floats.attr name ∧ min ≤ max ∧ (min = -dblMax ∨ Floats.limit min) ∧ (max = dblMax ∨ Floats.limit max)
  | .string count => 1 ≤ count ∧ count < 2 ^ 64
  | .strList count => 1 ≤ count ∧ count < 2 ^ 64
  | .intEnum count => 1 ≤ count ∧ count < 2 ^ 64
  | _ => True

/-- not the code's "no lower limit" -/
def NotLow : Scalar → Prop
  | .i x => x ≠ int64Min
  | .f x => ¬ closeTo x (-dblMax)
  | _ => True

/-- not the code's "no upper limit" -/
def NotHigh : Scalar → Prop
  | .i x => x ≠ int64Max
  | .f x => ¬ closeTo x dblMax
  | .s x => x < sizeMax - 1
  | _ => True

/-- a domain with limits, on which the tree may partition -/
structure Limited (b : Bound) : Prop where
  seg : b.ty ≠ .segments
  freq : b.ty ≠ .freq
  low : NotLow b.lo
  high : NotHigh b.hi

/-- an attribute whose domain, in this configuration, has limits -/
def HasLimits (cfg : Config) (name : Str) : Prop := ∃ d ∈ cfg.domains, d.attr.attr = lowerKey name ∧ Limited d.bound

/-- the numbers a filled value consists of (strings and enums: their ids) -/
def _root_.BeTree.Value.members : Value → List Scalar
  | .bool b => [.b b]
  | .int i => [.i i]
  | .float f => [.f f]
  | .string s => [.s s.str]
  | .intEnum e => [.s e.ienum]
  | .intList l => l.map .i
  | .strList l => l.map fun s => .s s.str
  | .segments _ => []
  | .freq _ => []

/-- The interval `b`, computed with the domain `dom`, has room for the value: each end is the domain's, or is on the right side of
a number of the value.  (An end of the domain stands for everything beyond it.) -/
def Within (b dom : Bound) (val : Value) : Prop :=
  (b.lo = dom.lo ∨ ∃ m ∈ val.members, b.lo.le m = true) ∧ (b.hi = dom.hi ∨ ∃ m ∈ val.members, m.le b.hi = true)

end BeTree.Spec
