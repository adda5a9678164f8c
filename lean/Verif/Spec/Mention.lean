import Verif.Spec.Bound
import Verif.Model.Config
/-
Specification: the constants an expression, as written, compares an attribute with, and what it means that the attribute's
domain has room for them.
-/
namespace BeTree.Spec
open BeTree

/-- one constant an attribute is compared with: by an order comparison, by (in)equality, in or with an integer list, as a string -/
inductive Mention where
  | cmpInt (op : CmpOp) (k : Int)
  | cmpFloat (op : CmpOp) (k : Rat)
  | eqInt (k : Int)
  | eqFloat (k : Rat)
  | member (k : Int)
  | str (s : Str)

/-- the opposite comparison -/
def opposite : CmpOp → CmpOp
  | .lt => .ge
  | .ge => .lt
  | .le => .gt
  | .gt => .le

/-- the constants a predicate compares the attribute of (lower-case) name `n` with; `odd`: below an odd number of `not`s -/
def predMentions (n : Str) (odd : Bool) : Pred → List Mention
  | .compare op v c =>
    if lowerKey v.attr = n then
      match c with
      | .int k => [.cmpInt (if odd then opposite op else op) k]
      | .float k => [.cmpFloat (if odd then opposite op else op) k]
    else []
  | .equality _ v c =>
    if lowerKey v.attr = n then
      match c with
      | .int k => [.eqInt k]
      | .float k => [.eqFloat k]
      | .string s => [.str s.string]
      | .intEnum _ => []
    else []
  | .set _ (.var v) (.intList l) => if lowerKey v.attr = n then l.map .member else []
  | .set _ (.var v) (.strList l) => if lowerKey v.attr = n then l.map fun s => .str s.string else []
  | .set _ (.int k) (.var v) => if lowerKey v.attr = n then [.member k] else []
  | .set _ (.string s) (.var v) => if lowerKey v.attr = n then [.str s.string] else []
  | .list _ v (.intList l) => if lowerKey v.attr = n then l.map .member else []
  | .list _ v (.strList l) => if lowerKey v.attr = n then l.map fun s => .str s.string else []
  | _ => []

/-- the constants an expression compares the attribute with -/
def mentions (n : Str) : Bool → Expr → List Mention
  | odd, .leaf p => predMentions n odd p
  | odd, .not e => mentions n (!odd) e
  | odd, .and l r => mentions n odd l ++ mentions n odd r
  | odd, .or l r => mentions n odd l ++ mentions n odd r

/-- the value nearest to the constant with which the comparison is true -/
def edgeInt : CmpOp → Int → Int
  | .lt, k => k - 1
  | .gt, k => k + 1
  | _, k => k

/-- the same for floats -/
def edgeRat : CmpOp → Rat → Rat
  | .lt, k => rnd (k - dblEps)
  | .gt, k => rnd (k + dblEps)
  | _, k => k

/-- The domain has room for the constant (for an order comparison, for the value nearest to the constant with which it is true).
`strs`, `ints`: the strings and the enum values of the attribute, in the order of their ids.  Constants of another type than the
attribute's are ignored. -/
def Room (strs : List Str) (ints : List Int) (b : Bound) (m : Mention) : Prop :=
  match b.ty, m with
  | .int, .cmpInt op k | .intList, .cmpInt op k => b.lo.le (.i (edgeInt op k)) = true ∧ Scalar.le (.i (edgeInt op k)) b.hi = true
  | .int, .eqInt k | .int, .member k | .intList, .member k => b.lo.le (.i k) = true ∧ Scalar.le (.i k) b.hi = true
  | .float, .cmpInt op k => b.lo.le (.f (edgeRat op (rnd k))) = true ∧ Scalar.le (.f (edgeRat op (rnd k))) b.hi = true
  | .float, .cmpFloat op k => b.lo.le (.f (edgeRat op k)) = true ∧ Scalar.le (.f (edgeRat op k)) b.hi = true
  | .float, .eqInt k => b.lo.le (.f (rnd k)) = true ∧ Scalar.le (.f (rnd k)) b.hi = true
  | .float, .eqFloat k => b.lo.le (.f k) = true ∧ Scalar.le (.f k) b.hi = true
  | .string, .str s | .strList, .str s => ∃ id, strs[id]? = some s ∧ Scalar.le (.s id) b.hi = true
  | .intEnum, .eqInt k => ∃ id, ints[id]? = some k ∧ Scalar.le (.s id) b.hi = true
  | _, _ => True

end BeTree.Spec
