import Verif.Spec.Static
import Verif.Spec.Limit
import Verif.Spec.Exact
import Verif.Spec.WellTyped
/-
Specification: ordinary use, in conditions on the declarations, requests and events alone.
-/
namespace BeTree.Spec
open BeTree

/-- An ordinary declaration: limits in order and of at most 61 bits (or absent; those of a float attribute are among the numbers that may be
limits), the name in lower case. -/
structure OrdinaryDecl [Floats] (d : Str × Decl × Bool) : Prop where
  proper : ProperDecl d.1 d.2.1
  mid : MidDecl d.2.1
  positive : PositiveDecl d.2.1
  lower : d.1.map Char.toLower = d.1

/-- An ordinary request, `ds` being the declared domains:
* its attributes are declared, at the types its operators need; the special functions have the types and constants they need;
* it has no number at the ends of its type, and none beyond it;
* the tree can cope with the limits of its float attributes, if they have limits;
* its attributes with string constants are written in lower case;
* below an odd number of `not`s, no `and` has an operand with an attribute with limits, and `and`s and `or`s have no optional
  attributes there, with the exceptions of `ShortSafe`. -/
structure Ordinary (decls : List (Str × Decl × Bool)) (ds : List Domain) (q : Req) : Prop where
  fitting : Fitting ds q.expr
  special : SpecialTyped ds q.expr
  supplied : ∀ f ∈ caps q.expr, ∃ i, supplied q.consts f.type = some i
  floats : FloatFit ds q.expr
  supported : Supported decls q
  safe : BoundSafe (fun n => ∃ d ∈ ds, d.attr.attr = lowerKey n ∧ Limited d.bound) false q.expr
  lower : LowerStrs q.expr

/-- The event keeps clear of the numbers the request compares float attributes with limits with: its value of such an attribute is equal to
the number, or `DBL_EPSILON` apart from it.  (True of all events if the request's float attributes have no limits, see `clear_of_floatFree`;
needed otherwise, see `C03_float_missed`.) -/
def Clear (ds : List Domain) (ev : List EventVar) (q : Req) : Prop :=
  Separated (fun n => ∃ d ∈ ds, d.attr.attr = lowerKey n ∧ Limited d.bound) (eventOf ev) q.expr

/-- The requests keep to the limits on the number of values: all of them together have for an attribute at most as many distinct values
as it was declared to have (in particular, one namespace for a frequency-cap attribute), and a list of strings for an attribute with such
a limit has no string twice. -/
structure Enough (decls : List (Str × Decl × Bool)) (qs : List Req) : Prop where
  strs : ∀ a n, limitOf decls a = some n → n < sizeMax → ∀ l : List Str, l.Nodup →
    (∀ x ∈ l, ∃ q ∈ qs, ∃ c ∈ strConsts q.expr, c.1.map Char.toLower = a.map Char.toLower ∧ c.2 = x) → l.length ≤ n
  ints : ∀ a n, limitOf decls a = some n → n < sizeMax → ∀ l : List Int, l.Nodup →
    (∀ x ∈ l, ∃ q ∈ qs, ∃ c ∈ enumConsts q.expr, c.1.map Char.toLower = a.map Char.toLower ∧ c.2 = x) → l.length ≤ n
  once : ∀ q ∈ qs, ∀ p ∈ preds q.expr, ∀ a ts n, predTexts p = some (a, ts) → limitOf decls a = some n → n < sizeMax → ts.Nodup

end BeTree.Spec
