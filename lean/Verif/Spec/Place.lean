import Verif.Spec.Typed
import Verif.Spec.Bound
import Verif.Model.History
/-
Specification: the requests, configurations and roundings for which insertion is claimed to return.
-/
namespace BeTree.Spec
open BeTree

/-- the limits of the domain, if integers and both present, span at most `INT64_MAX` -/
def NarrowBound (b : Bound) : Prop :=
  ∀ lo hi, b.lo = .i lo → b.hi = .i hi → lo ≠ int64Min → hi ≠ int64Max → hi - lo ≤ int64Max

/-- no integer attribute's limits are so far apart that their difference is not an `int64_t` -/
def NarrowCfg (cfg : Config) : Prop := ∀ d ∈ cfg.domains, NarrowBound d.bound

/-- What the scores need of the rounding of `double`s: it keeps the order, and 2^-10 is a `double`.  True of IEEE rounding. -/
structure Sane (R : Rounding) : Prop where
  mono : ∀ x y, x ≤ y → R.rnd64 x ≤ R.rnd64 y
  exact : R.rnd64 (1 / 1024) = 1 / 1024

/-- the expression mentions no float attribute with limits -/
def FloatFree (ds : List Domain) (e : Expr) : Prop :=
  ∀ n ∈ exprNames e, ∀ d, ds.find? (fun d => d.attr.attr = n.map Char.toLower) = some d → Limited d.bound → d.bound.ty ≠ .float

/-- The range from `a` to `b` can be cut, and its parts again, down to single numbers in at most `n` rounds. -/
inductive CutsUp : Nat → Rat → Rat → Prop
  | point {n : Nat} {a b : Rat} : (rnd (a - b)).abs < dblEps → CutsUp n a b
  | cut {n : Nat} {a b m m' : Rat} : cut a b = some (m, m') → CutsUp n a m → CutsUp n m' b → CutsUp (n + 1) a b

/-- The tree can cope with a float attribute whose limits are `a` and `b`: their distance fits in 64 bits, and if it is less than 1000 (only
such ranges are cut) the range can be cut down to single numbers in at most 999 rounds.  (True of limits with at most 20 binary digits after
the point that are a whole number apart, see `copes_of_whole`; limits that are not nearly a whole number apart cannot be cut up, see
`C23_float_domain_aborts`.) -/
def Copes (a b : Rat) : Prop := (rnd (b - a)).abs < 2 ^ 64 ∧ ((rnd (b - a)).abs < 1000 → CutsUp 999 a b)

/-- the tree can cope with the limits of the float attributes the expression mentions -/
def FloatFit (ds : List Domain) (e : Expr) : Prop :=
  ∀ n ∈ exprNames e, ∀ d, ds.find? (fun d => d.attr.attr = n.map Char.toLower) = some d → Limited d.bound →
    ∀ a b, d.bound = ⟨.float, .f a, .f b⟩ → Copes a b

/-- the expression mentions no float attribute at all -/
def NoFloat (ds : List Domain) (e : Expr) : Prop := ∀ n ∈ exprNames e, declaredType ds n ≠ some .float

/-- an expression of the declared types, whose numbers are not at the ends of their type -/
structure Fitting (ds : List Domain) (e : Expr) : Prop where
  accepts : Accepts ds e
  usable : Usable ds e
  moderate : Moderate e

/-- attribute names are declared in lower case, as they are looked up -/
def LowerNames (ds : List Domain) : Prop := ∀ d ∈ ds, lowerKey d.attr.attr = d.attr.attr

end BeTree.Spec
