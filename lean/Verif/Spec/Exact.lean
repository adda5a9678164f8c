import Verif.Spec.Supported
import Verif.Spec.Bound
import Verif.Spec.Event
/-
Specification: the histories, requests and events for which the search is claimed to be exact.
-/
namespace BeTree.Spec
open BeTree

/-- the expression may widen a domain: its integers are well inside the range of their type, the numbers compared with float attributes may
become limits -/
def MayWiden [Floats] (e : Expr) : Prop := Moderate e ∧ FloatsFit (fun v => Floats.attr (lowerKey v.attr)) e

/-- a call whose expression may widen the domains it widens -/
def ModerateOp [Floats] : Op → Prop
  | .makeSub q => MayWiden q.expr
  | .changeBoundaries e => MayWiden e
  | .insert _ => True
  | .insertSub _ => True

/-- A request and an event on which the search is right about the request: the request is supported, none of its `and`s below
an odd number of `not`s compares an attribute with limits, and the event has no value of a float attribute with limits
that is different from, but closer than `DBL_EPSILON` to, a number the request compares it with. -/
structure Prunable (decls : List (Str × Decl × Bool)) (cfg : Config) (ev : List EventVar) (q : Req) : Prop where
  supported : Supported decls q
  safe : BoundSafe (HasLimits cfg) false q.expr
  apart : Separated (HasLimits cfg) (eventOf ev) q.expr

end BeTree.Spec
