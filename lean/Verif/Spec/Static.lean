import Verif.Spec.Place
import Verif.Spec.Exact
/-
Specification: conditions on declarations and calls alone under which every insertion returns.
-/
namespace BeTree.Spec
open BeTree

/-- an integer of at most 61 bits -/
def MidInt (k : Int) : Prop := -2 ^ 61 ≤ k ∧ k ≤ 2 ^ 61

/-- the integers of the predicate have at most 61 bits -/
def MidPred : Pred → Prop
  | .compare _ _ (.int k) => MidInt k
  | .equality _ _ (.int k) => MidInt k
  | .set _ (.int k) _ => MidInt k
  | .set _ _ (.intList l) => ∀ k ∈ l, MidInt k
  | .list _ _ (.intList l) => ∀ k ∈ l, MidInt k
  | _ => True

/-- the integers of the expression have at most 61 bits -/
def Mid : Expr → Prop
  | .leaf p => MidPred p
  | .not e => Mid e
  | .and l r => Mid l ∧ Mid r
  | .or l r => Mid l ∧ Mid r

/-- each limit of an integer attribute is absent or has at most 61 bits -/
def MidDecl : Decl → Prop
  | .int min max => (min = int64Min ∨ MidInt min) ∧ (max = int64Max ∨ MidInt max)
  | .intList min max => (min = int64Min ∨ MidInt min) ∧ (max = int64Max ∨ MidInt max)
  | _ => True

/-- how many constants a predicate has -/
def predConstants : Pred → Nat
  | .set _ _ (.strList l) => l.length
  | .set _ (.string _) _ => 1
  | .list _ _ (.strList l) => l.length
  | .equality _ _ _ => 1
  | .freq _ => 1
  | _ => 0

/-- how many constants an expression has that may be given a number of their own -/
def numConstants : Expr → Nat
  | .leaf p => predConstants p
  | .not e => numConstants e
  | .and l r => numConstants l + numConstants r
  | .or l r => numConstants l + numConstants r

/-- those of a call -/
def opConstants : Op → Nat
  | .insert q => numConstants q.expr
  | .makeSub q => numConstants q.expr
  | .insertSub _ => 0
  | .changeBoundaries e => numConstants e

/-- those of a sequence of calls -/
def opsConstants : List Op → Nat
  | [] => 0
  | o :: os => opConstants o + opsConstants os

/-- the number a comparison with `k` asks for as a limit: `k`, or the nearest number within the comparison (`odd`: below an odd number of
`not`s) -/
def edge (odd : Bool) (op : CmpOp) (k : Rat) : Rat :=
  match op, odd with
  | .lt, false => rnd (k - dblEps)
  | .ge, true => rnd (k - dblEps)
  | .gt, false => rnd (k + dblEps)
  | .le, true => rnd (k + dblEps)
  | _, _ => k

/-- the numbers that the comparisons of the expression ask for as limits of their attributes are in `K` -/
def Asks (K : AttrVar → Rat → Prop) : Bool → Expr → Prop
  | odd, .leaf (.compare op v (.int k)) => K v (edge odd op (rnd k))
  | odd, .leaf (.compare op v (.float k)) => K v (edge odd op k)
  | _, .leaf (.equality _ v (.int k)) => K v (rnd k)
  | _, .leaf (.equality _ v (.float k)) => K v k
  | _, .leaf _ => True
  | odd, .not e => Asks K (!odd) e
  | odd, .and l r => Asks K odd l ∧ Asks K odd r
  | odd, .or l r => Asks K odd l ∧ Asks K odd r

/-- The expression asks for no new limits of the float attributes in `kept`: it compares one of them only if it has both limits, and with
numbers between them. -/
def Keeps (kept : Str → Prop) (ds : List Domain) (e : Expr) : Prop :=
  Asks (fun v x => kept (v.attr.map Char.toLower) → ∀ d, ds.find? (fun d => d.attr.attr = v.attr.map Char.toLower) = some d →
    d.bound.ty = .float → Limited d.bound ∧ ∀ a b, d.bound = ⟨.float, .f a, .f b⟩ → a ≤ x ∧ x ≤ b) false e

/-- the float attributes of the expression are in `kept`, and the tree can cope with their limits, if they have limits -/
def FloatsKept (kept : Str → Prop) (ds : List Domain) (e : Expr) : Prop :=
  (∀ n ∈ exprNames e, declaredType ds n = some .float → kept (n.map Char.toLower)) ∧ FloatFit ds e

/-- A call C23 speaks of: expressions of the declared types (for `betree_make_sub`, which checks them itself, of any types), whose integers
have at most 61 bits if they may widen a domain, and whose floats may become limits. -/
def StaticOp [Floats] (ds : List Domain) : Op → Prop
  | .insert q => Fitting ds q.expr ∧ SpecialTyped ds q.expr
  | .makeSub q => Usable ds q.expr ∧ MayWiden q.expr ∧ Mid q.expr
  | .insertSub _ => True
  | .changeBoundaries e => Fitting ds e ∧ Mid e ∧ FloatsFit (fun v => Floats.attr (lowerKey v.attr)) e

/-- What C23 asks of a call's floats: requests mention only float attributes in `kept`, and no call changes the limits of those. -/
def FloatOp (kept : Str → Prop) (ds : List Domain) : Op → Prop
  | .insert q => FloatsKept kept ds q.expr
  | .makeSub q => FloatsKept kept ds q.expr ∧ Keeps kept ds q.expr
  | .insertSub _ => True
  | .changeBoundaries e => Keeps kept ds e

end BeTree.Spec
