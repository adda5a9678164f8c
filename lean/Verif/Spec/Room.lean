import Verif.Spec.Exact
import Verif.Model.History
/-
Specification: the requests whose string and enum constants all get an id, whatever the attributes' limits do.
-/
namespace BeTree.Spec
open BeTree

/-- the attributes for which a predicate, as written, has string constants (or a frequency-cap namespace) -/
def predStrAttrs : Pred → List Str
  | .equality _ v (.string _) => [v.attr]
  | .set _ (.string _) (.var v) => [v.attr]
  | .set _ (.var v) (.strList _) => [v.attr]
  | .list _ v (.strList _) => [v.attr]
  | .freq f => [f.attr.attr]
  | _ => []

/-- the attributes a predicate, as written, compares for equality with an integer -/
def predEnumAttrs : Pred → List Str
  | .equality _ v (.int _) => [v.attr]
  | _ => []

def strAttrs : Expr → List Str
  | .leaf p => predStrAttrs p
  | .not e => strAttrs e
  | .and l r => strAttrs l ++ strAttrs r
  | .or l r => strAttrs l ++ strAttrs r

def enumAttrs : Expr → List Str
  | .leaf p => predEnumAttrs p
  | .not e => enumAttrs e
  | .and l r => enumAttrs l ++ enumAttrs r
  | .or l r => enumAttrs l ++ enumAttrs r

/-- no limit on the number of values -/
def Unlimited (b : Bound) : Prop := (b.ty = .string ∨ b.ty = .strList ∨ b.ty = .intEnum) ∧ b.hi = .s (sizeMax - 1)

/-- the string constants (and frequency-cap namespaces) of a predicate, as written, each with the attribute it is compared to -/
def predStrConsts : Pred → List (Str × Str)
  | .equality _ v (.string s) => [(v.attr, s.string)]
  | .set _ (.string s) (.var v) => [(v.attr, s.string)]
  | .set _ (.var v) (.strList l) => l.map fun s => (v.attr, s.string)
  | .list _ v (.strList l) => l.map fun s => (v.attr, s.string)
  | .freq f => [(f.attr.attr, f.ns.string)]
  | _ => []

/-- the integers a predicate compares for equality, each with its attribute -/
def predEnumConsts : Pred → List (Str × Int)
  | .equality _ v (.int k) => [(v.attr, k)]
  | _ => []

def strConsts : Expr → List (Str × Str)
  | .leaf p => predStrConsts p
  | .not e => strConsts e
  | .and l r => strConsts l ++ strConsts r
  | .or l r => strConsts l ++ strConsts r

def enumConsts : Expr → List (Str × Int)
  | .leaf p => predEnumConsts p
  | .not e => enumConsts e
  | .and l r => enumConsts l ++ enumConsts r
  | .or l r => enumConsts l ++ enumConsts r

/-- how many values a declaration lets an attribute have; the namespaces of a frequency-cap attribute count as its strings, and there is
room for one -/
def declLimit : Decl → Option Nat
  | .string n => some n
  | .strList n => some n
  | .intEnum n => some n
  | .freq => some 1
  | _ => none

/-- how many values the attribute is declared to have -/
def limitOf (decls : List (Str × Decl × Bool)) (a : Str) : Option Nat :=
  (decls.find? fun d => d.1 = a.map Char.toLower).bind fun d => declLimit d.2.1

/-- the strings the attribute has so far: the map of the domain the name refers to -/
def knownStrs (cfg : Config) (name : Str) : List Str :=
  match cfg.domains.findIdx? (fun d => d.attr.attr = name.map Char.toLower) with
  | none => []
  | some v =>
    match cfg.stringMaps.find? (fun m => m.attr.var = v) with
    | none => []
    | some m => m.values

/-- the integers the enum has so far -/
def knownInts (cfg : Config) (name : Str) : List Int :=
  match cfg.domains.findIdx? (fun d => d.attr.attr = name.map Char.toLower) with
  | none => []
  | some v =>
    match cfg.intMaps.find? (fun m => m.attr.var = v) with
    | none => []
    | some m => m.values

/-- There is room for the string `x`: the attribute has no limit, or the strings it has at the end, `x` apart, are fewer than it was
declared to have. -/
def RoomFor (decls : List (Str × Decl × Bool)) (cfg : Config) (a x : Str) : Prop :=
  (∀ d ∈ cfg.domains, d.attr.attr = lowerKey a → Unlimited d.bound) ∨
  ∃ n, limitOf decls a = some n ∧ n < sizeMax ∧ ((knownStrs cfg a).filter (· ≠ x)).length < n

/-- The same of an integer: nothing is asked of attributes that are not enums. -/
def RoomForInt (decls : List (Str × Decl × Bool)) (cfg : Config) (a : Str) (x : Int) : Prop :=
  (∀ d ∈ cfg.domains, d.attr.attr = lowerKey a → d.bound.ty = .intEnum → Unlimited d.bound) ∨
  ∃ n, limitOf decls a = some n ∧ n < sizeMax ∧ ((knownInts cfg a).filter (· ≠ x)).length < n

/-- Plain insertion (`betree_insert*`) leaves a constant without an id when its attribute is full; `betree_make_sub` never
does.  So: there is room for the strings and enum values of a plainly inserted expression. -/
def Roomy (decls : List (Str × Decl × Bool)) (cfg : Config) : Op → Prop
  | .insert q =>
    (∀ c ∈ strConsts q.expr, RoomFor decls cfg c.1 c.2) ∧ (∀ c ∈ enumConsts q.expr, RoomForInt decls cfg c.1 c.2)
  | _ => True

/-- the call is made so that every constant of every subscription gets an id; `cfg` is the configuration after the last call -/
def NamedOp (decls : List (Str × Decl × Bool)) (cfg : Config) (o : Op) : Prop :=
  Roomy decls cfg o ∧ match o with
    | .insert q => Expr.InRange q.expr
    | .makeSub q => Expr.InRange q.expr
    | _ => True

end BeTree.Spec
