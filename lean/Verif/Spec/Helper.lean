import Verif.Model.Helper
import Verif.Spec.Text
import Verif.Spec.Late
/-
Specification: what a variable of a tree is, and lines of text that declare variables.
-/
namespace BeTree.Spec
open BeTree

/-- the type a declaration gives its variable -/
def declaredAs : Decl → VType
  | .bool => .bool
  | .int _ _ => .int
  | .float _ _ => .float
  | .string _ => .string
  | .intList _ _ => .intList
  | .strList _ => .strList
  | .segments => .segments
  | .freq => .freq
  | .intEnum _ => .intEnum

/-- a number in decimal, perhaps after a minus sign -/
inductive Numeral : Str → Int → Prop
  | nat {w} : w ≠ [] → Digits w → Numeral w (decimal w)
  | neg {w} : w ≠ [] → Digits w → Numeral ('-' :: w) (-(decimal w : Int))

/-- the type and the limits written on a line, and the declaration they stand for.  `real` says which number a text is.  Limits left out
are the largest there are. -/
inductive Describes (real : Str → Rat) : String → List Str → Decl → Prop
  | bool : Describes real "boolean" [] .bool
  | segments : Describes real "segments" [] .segments
  | freq : Describes real "frequency" [] .freq
  | int : Describes real "integer" [] (.int (-2 ^ 63) (2 ^ 63 - 1))
  | intMin {a m} : Numeral a m → -2 ^ 63 ≤ m → m < 2 ^ 63 → Describes real "integer" [a] (.int m (2 ^ 63 - 1))
  | intBoth {a b m n} : Numeral a m → -2 ^ 63 ≤ m → m < 2 ^ 63 → Numeral b n → -2 ^ 63 ≤ n → n < 2 ^ 63 →
    Describes real "integer" [a, b] (.int m n)
  | float : Describes real "float" [] (.float (-dblMax) dblMax)
  | floatMin {a} : Describes real "float" [a] (.float (real a) dblMax)
  | floatBoth {a b} : Describes real "float" [a, b] (.float (real a) (real b))
  | intList : Describes real "integer list" [] (.intList (-2 ^ 63) (2 ^ 63 - 1))
  | intListBoth {a b m n} : Numeral a m → -2 ^ 63 ≤ m → m < 2 ^ 63 → Numeral b n → -2 ^ 63 ≤ n → n < 2 ^ 63 →
    Describes real "integer list" [a, b] (.intList m n)
  | string : Describes real "string" [] (.string (2 ^ 64 - 1))
  | stringMax {a} {n : Nat} : Numeral a n → n < 2 ^ 63 → Describes real "string" [a] (.string n)
  | strList : Describes real "string list" [] (.strList (2 ^ 64 - 1))
  | strListMax {a} {n : Nat} : Numeral a n → n < 2 ^ 63 → Describes real "string list" [a] (.strList n)
  | intEnum : Describes real "integer enum" [] (.intEnum (2 ^ 64 - 1))
  | intEnumMax {a} {n : Nat} : Numeral a n → n < 2 ^ 63 → Describes real "integer enum" [a] (.intEnum n)

/-- something that can stand between two bars -/
def Field (s : Str) : Prop := s ≠ [] ∧ '|' ∉ s ∧ '\n' ∉ s

/-- A line declares a variable: its name, its type, whether it may be left undefined (`true` or anything else), then the limits, with bars
between them, and perhaps the end of the line. -/
inductive LineSays (real : Str → Rat) : Str → Str × Decl × Bool → Prop
  | mk {name flag : Str} {type : String} {limits : List Str} {d : Decl} {ending : Str} : Field name → Field flag → (∀ l ∈ limits, Field l) →
    Describes real type limits d → ending ∈ ["".toList, "\n".toList] →
    LineSays real (List.intercalate ['|'] (name :: type.toList :: flag :: limits) ++ ending) (name, d, decide (flag = "true".toList))

end BeTree.Spec
