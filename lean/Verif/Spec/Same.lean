import Verif.Model.Types
/-
When two stored expressions are the same expression: everything but the spelling of names and strings, which the ids stand
for, and but the clock attribute of the special functions, which is always called `now`.
-/
namespace BeTree.Spec

/-- a variable without its spelling -/
def varCore (v : AttrVar) : AttrVar := { attr := [], var := v.var }
/-- a string constant without its spelling -/
def strCore (s : StrVal) : StrVal := { string := [], var := 0, str := s.str }
/-- an enum constant without its spelling -/
def enumCore (e : EnumVal) : EnumVal := { integer := 0, var := 0, ienum := e.ienum }
/-- the clock attribute is left out -/
def clock : AttrVar := { attr := [], var := 0 }

/-- a predicate without spellings -/
def predCore : Pred → Pred
  | .compare o v c => .compare o (varCore v) c
  | .equality o v (.string s) => .equality o (varCore v) (.string (strCore s))
  | .equality o v (.intEnum e) => .equality o (varCore v) (.intEnum (enumCore e))
  | .equality o v c => .equality o (varCore v) c
  | .boolVar v => .boolVar (varCore v)
  | .boolLit b => .boolLit b
  | .set o l r =>
    .set o (match l with | .string s => .string (strCore s) | .var v => .var (varCore v) | .int i => .int i)
      (match r with | .strList s => .strList (s.map strCore) | .var v => .var (varCore v) | .intList l => .intList l)
  | .list o v c => .list o (varCore v) (match c with | .strList s => .strList (s.map strCore) | .intList l => .intList l)
  | .freq f => .freq { f with attr := varCore f.attr, ns := strCore f.ns, now := clock }
  | .segment s => .segment { s with attr := varCore s.attr, now := clock }
  | .geo g => .geo { g with latVar := varCore g.latVar, lonVar := varCore g.lonVar }
  | .str s => .str { s with attr := varCore s.attr }
  | .isNull o v => .isNull o (varCore v)

/-- an expression without spellings -/
def core : Expr → Expr
  | .leaf p => .leaf (predCore p)
  | .not e => .not (core e)
  | .and l r => .and (core l) (core r)
  | .or l r => .or (core l) (core r)

/-- structurally the same expression over the same attributes and constants -/
def Same (a b : Expr) : Prop := core a = core b

/-- the special functions of the expression as written read the attribute called `now`; the parser always writes it
(ast.c:200, 219) -/
def Clocked : Expr → Prop
  | .leaf (.freq f) => f.now.attr = "now".toList
  | .leaf (.segment s) => s.now.attr = "now".toList
  | .leaf _ => True
  | .not e => Clocked e
  | .and l r => Clocked l ∧ Clocked r
  | .or l r => Clocked l ∧ Clocked r

end BeTree.Spec
