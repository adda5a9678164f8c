import Verif.Spec.FloatLits
/-
Specification: the expressions `betree_make_sub` accepts, and what it does not look at.
-/
namespace BeTree.Spec
open BeTree

/-- the attribute is declared at one of these types -/
def Is (ds : List Domain) (v : AttrVar) (tys : List VType) : Prop := ∃ t ∈ tys, declaredType ds v.attr = some t

/-- the attribute is declared -/
def Known (ds : List Domain) (v : AttrVar) : Prop := ∃ t, declaredType ds v.attr = some t

/-- the attribute is declared as possibly undefined -/
def Nullable (ds : List Domain) (v : AttrVar) : Prop :=
  ∃ d, ds.find? (fun d => d.attr.attr = v.attr.map Char.toLower) = some d ∧ d.allowUndefined = true

/-- A predicate whose attributes are declared, at the type its operator and constants need.  The attributes of the special
functions only have to be declared, those of geo functions not even that. -/
def AcceptsPred (ds : List Domain) : Pred → Prop
  | .compare _ v (.int _) => Is ds v [.int, .float]
  | .compare _ v (.float _) => Is ds v [.float]
  | .equality _ v (.int _) => Is ds v [.int, .float, .intEnum]
  | .equality _ v (.float _) => Is ds v [.float]
  | .equality _ v (.string _) => Is ds v [.string]
  | .equality _ v (.intEnum _) => Is ds v [.intEnum]
  | .boolVar v => Is ds v [.bool]
  | .boolLit _ => True
  | .set _ (.var v) (.intList _) => Is ds v [.int]
  | .set _ (.var v) (.strList _) => Is ds v [.string]
  | .set _ (.int _) (.var v) => Is ds v [.intList]
  | .set _ (.string _) (.var v) => Is ds v [.strList]
  | .set _ _ _ => False
  | .list _ v (.intList _) => Is ds v [.intList]
  | .list _ v (.strList _) => Is ds v [.strList]
  | .freq f => Known ds f.attr ∧ Known ds f.now ∧ f.type ≠ .invalid
  | .segment s => Known ds s.attr ∧ Known ds s.now
  | .geo _ => True
  | .str s => Known ds s.attr
  | .isNull .isEmpty v => Is ds v [.intList, .strList]
  | .isNull _ v => Nullable ds v

/-- every predicate of the expression is as above -/
def Accepts (ds : List Domain) : Expr → Prop
  | .leaf p => AcceptsPred ds p
  | .not e => Accepts ds e
  | .and l r => Accepts ds l ∧ Accepts ds r
  | .or l r => Accepts ds l ∧ Accepts ds r

/-- the attributes of a special function have the types it reads them at -/
def SpecialTypedPred (ds : List Domain) : Pred → Prop
  | .freq f => Is ds f.attr [.freq] ∧ Is ds f.now [.int]
  | .segment s => Is ds s.attr [.segments] ∧ Is ds s.now [.int]
  | .geo g => Is ds g.latVar [.float] ∧ Is ds g.lonVar [.float]
  | .str s => Is ds s.attr [.string]
  | _ => True

/-- every special function of the expression is as above -/
def SpecialTyped (ds : List Domain) : Expr → Prop
  | .leaf p => SpecialTypedPred ds p
  | .not e => SpecialTyped ds e
  | .and l r => SpecialTyped ds l ∧ SpecialTyped ds r
  | .or l r => SpecialTyped ds l ∧ SpecialTyped ds r

/-- The predicate has an attribute on one side of `in`, no empty list of constants (parser.y has none), and geo functions are only
used when `latitude` and `longitude` are declared. -/
def UsablePred (ds : List Domain) : Pred → Prop
  | .set _ (.var _) (.intList l) => l ≠ []
  | .set _ (.var _) (.strList l) => l ≠ []
  | .set _ _ (.var _) => True
  | .set _ _ _ => False
  | .list _ _ (.intList l) => l ≠ []
  | .list _ _ (.strList l) => l ≠ []
  | .geo g => Known ds g.latVar ∧ Known ds g.lonVar
  | _ => True

/-- every predicate of the expression is as above -/
def Usable (ds : List Domain) : Expr → Prop
  | .leaf p => UsablePred ds p
  | .not e => Usable ds e
  | .and l r => Usable ds l ∧ Usable ds r
  | .or l r => Usable ds l ∧ Usable ds r

end BeTree.Spec
