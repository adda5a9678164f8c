import Verif.Spec.Room
import Verif.Spec.Typed
import Verif.Spec.Caps
/-
Specification: the limit a declaration puts on the strings of an attribute.
-/
namespace BeTree.Spec
open BeTree

/-- the domain an attribute name refers to -/
def domainOf (ds : List Domain) (name : Str) : Option Domain := ds.find? (fun d => d.attr.attr = name.map Char.toLower)

/-- how many strings the attribute may have -/
def strLimit (ds : List Domain) (name : Str) : Option Nat :=
  match domainOf ds name with
  | none => none
  | some d =>
    match d.bound.hi with
    | .s n => some (n + 1)
    | _ => none

/-- the texts of a predicate's constants (frequency-cap namespaces apart) and the attribute they are compared to -/
def predTexts : Pred → Option (Str × List Str)
  | .equality _ v (.string s) => some (v.attr, [s.string])
  | .set _ (.string s) (.var v) => some (v.attr, [s.string])
  | .set _ (.var v) (.strList l) => some (v.attr, l.map StrVal.string)
  | .list _ v (.strList l) => some (v.attr, l.map StrVal.string)
  | _ => none

/-- The attribute has room for the predicate's texts: those it does not have yet, counted as often as they are written, fit under
the limit. -/
def FitsPred (cfg : Config) (p : Pred) : Prop :=
  ∀ a ts n, predTexts p = some (a, ts) → strLimit cfg.domains a = some n →
    (knownStrs cfg a).length + (ts.filter (fun s => s ∉ knownStrs cfg a)).length ≤ n

/-- each predicate of the expression, taken alone, is as above -/
def FitsStrs (cfg : Config) : Expr → Prop
  | .leaf p => FitsPred cfg p
  | .not e => FitsStrs cfg e
  | .and l r => FitsStrs cfg l ∧ FitsStrs cfg r
  | .or l r => FitsStrs cfg l ∧ FitsStrs cfg r

/-- the attributes `betree_insert` looks at to see whether they are declared: all but those of geo functions and, in `in` between two
attributes, the right one -/
def lookedAt : Pred → List AttrVar
  | .compare _ v _ => [v]
  | .equality _ v _ => [v]
  | .boolVar v => [v]
  | .boolLit _ => []
  | .set _ (.var v) _ => [v]
  | .set _ _ (.var v) => [v]
  | .set _ _ _ => []
  | .list _ v _ => [v]
  | .freq f => [f.attr, f.now]
  | .segment s => [s.attr, s.now]
  | .geo _ => []
  | .str s => [s.attr]
  | .isNull _ v => [v]

/-- they are declared -/
def DeclaredIn (ds : List Domain) : Expr → Prop
  | .leaf p => ∀ v ∈ lookedAt p, Known ds v
  | .not e => DeclaredIn ds e
  | .and l r => DeclaredIn ds l ∧ DeclaredIn ds r
  | .or l r => DeclaredIn ds l ∧ DeclaredIn ds r

/-- the attributes for which the expression has string constants are written in lower case -/
def LowerStrs (e : Expr) : Prop := ∀ a ∈ strAttrs e, a.map Char.toLower = a

/-- the expressions of the call are so written -/
def LowerOp : Op → Prop
  | .insert q => LowerStrs q.expr
  | .makeSub q => LowerStrs q.expr
  | .changeBoundaries e => LowerStrs e
  | .insertSub _ => True

/-- the predicates of an expression -/
def preds : Expr → List Pred
  | .leaf p => [p]
  | .not e => preds e
  | .and l r => preds l ++ preds r
  | .or l r => preds l ++ preds r

/-- The predicate needs more distinct strings than its attribute's limit: those known together with its own. -/
def NeedsTooMany (cfg : Config) (p : Pred) : Prop :=
  ∃ a ts n, predTexts p = some (a, ts) ∧ strLimit cfg.domains a = some n ∧
    ∃ l : List Str, l.Nodup ∧ (∀ s ∈ l, s ∈ knownStrs cfg a ∨ s ∈ ts) ∧ n < l.length

/-- Calls that intern strings without limit make room for them: `betree_make_sub` and `betree_change_boundaries` are called with
expressions of the declared types, the former with the constants it needs. -/
def MakesRoom (ds : List Domain) : Op → Prop
  | .makeSub q => Accepts ds q.expr ∧ SpecialTyped ds q.expr ∧ ∀ f ∈ caps q.expr, ∃ i, supplied q.consts f.type = some i
  | .changeBoundaries e => Accepts ds e ∧ SpecialTyped ds e
  | _ => True

/-- a limit on strings or enum values, where there is one, is not 0 -/
def PositiveDecl : Decl → Prop
  | .string n => 0 < n ∧ n < 2 ^ 64
  | .strList n => 0 < n ∧ n < 2 ^ 64
  | .intEnum n => 0 < n ∧ n < 2 ^ 64
  | _ => True

end BeTree.Spec
