import Verif.Model.Pipeline
import Verif.Model.Event
import Verif.Spec.Sat
/-
Specification: which expressions, constants and events the exactness theorems speak about.  Every condition is on what the
caller writes; each excludes an input on which the code disagrees with `Spec.sat` (see the counter-example theorems).
-/
namespace BeTree.Spec
open BeTree

/-- * the constants of an `all of` list are distinct (a repeated one makes the code never match: C14);
* the numbers of the special functions fit the C parameter types (`uint32_t` value, `int64_t` length and segment id,
  `int32_t` seconds): special.c:11-70;
* the parser never builds enum constants: they are integers as written. -/
def Pred.InRange : Pred → Prop
  | .list .allOf _ (.intList xs) => xs.Nodup
  | .list .allOf _ (.strList xs) => (xs.map StrVal.string).Nodup
  | .freq f => 0 ≤ f.value ∧ f.value < 2 ^ 32 ∧ f.length < 2 ^ 63
  | .segment s => s.segmentId < 2 ^ 63 ∧ -(2 ^ 31) ≤ s.seconds ∧ s.seconds < 2 ^ 31
  | .equality _ _ (.intEnum _) => False
  | _ => True

def Expr.InRange : Expr → Prop
  | .leaf p => Pred.InRange p
  | .not e => Expr.InRange e
  | .and l r => Expr.InRange l ∧ Expr.InRange r
  | .or l r => Expr.InRange l ∧ Expr.InRange r

/-- the constants given at insertion, as the specification reads them -/
def constants (cs : List Constant) : Constants :=
  cs.filterMap fun c => match c.value with | .int i => some (c.name, i) | _ => none

/-- constants are ids of campaigns etc. that fit `uint32_t` -/
def ConstantsInRange (cs : List Constant) : Prop := ∀ c ∈ cs, ∀ i, c.value = .int i → 0 ≤ i ∧ i < 2 ^ 32

/-- the segments of the event are given in ascending order of their ids -/
def EventInRange (ev : List EventVar) : Prop := ∀ v ∈ ev, ∀ l, v.value = .segments l → (l.map Segment.id).Pairwise (· ≤ ·)

end BeTree.Spec
