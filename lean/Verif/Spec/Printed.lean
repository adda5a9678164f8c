import Verif.Spec.Text
import Verif.Spec.Syntax
/-
What a printed expression keeps of the expression.  Nothing here refers to the printer.
-/
namespace BeTree

/-- the `double` for a multiple of one hundredth, of magnitude below 2^45 -/
def Hundredths (q : Rat) : Prop := ∃ n : Int, -(2 ^ 45 : Rat) < n / 100 ∧ (n : Rat) / 100 < 2 ^ 45 ∧ q = rnd (n / 100)

/-- `y` is the `double` for `x` rounded to two decimals -/
def Nearest (x y : Rat) : Prop := ∃ n : Int, x - 1 / 200 ≤ n / 100 ∧ (n : Rat) / 100 ≤ x + 1 / 200 ∧ y = rnd (n / 100)

/-- Can the condition be written down at all: its strings between double quotes, its numbers as signed 64-bit numbers, its cap type by
name?  (Null tests have a form of their own, which the language does not have.) -/
def Writable : Pred → Prop
  | .equality _ _ (.string s) => Quotable '"' s.string
  | .set _ (.string s) (.strList l) => Quotable '"' s.string ∧ ∀ x ∈ l, Quotable '"' x.string
  | .set _ (.string s) _ => Quotable '"' s.string
  | .set _ _ (.strList l) => ∀ x ∈ l, Quotable '"' x.string
  | .list _ _ (.strList l) => ∀ x ∈ l, Quotable '"' x.string
  | .freq f => f.type ≠ .invalid ∧ Quotable '"' f.ns.string ∧ f.length < 2 ^ 63
  | .segment s => s.segmentId < 2 ^ 63
  | .str s => Quotable '"' s.pattern
  | .isNull _ _ => False
  | _ => True

/-- the decimal constants of the condition have at most two decimals -/
def TwoDecimals : Pred → Prop
  | .compare _ _ (.float q) => Hundredths q
  | .equality _ _ (.float q) => Hundredths q
  | .geo g => Hundredths g.latitude ∧ Hundredths g.longitude ∧ Hundredths g.radius
  | _ => True

/-- the condition with its decimal constants rounded, and the name of its segments written out -/
def Rounded : Pred → Pred → Prop
  | .compare o v (.float x), p => ∃ y, Nearest x y ∧ p = .compare o v (.float y)
  | .equality o v (.float x), p => ∃ y, Nearest x y ∧ p = .equality o v (.float y)
  | .geo g, p => ∃ a b c, Nearest g.latitude a ∧ Nearest g.longitude b ∧ Nearest g.radius c ∧
      p = .geo { g with latitude := a, longitude := b, radius := c }
  | .segment s, p => p = .segment { s with hasVariable := true }
  | p, p' => p' = p

/-- the condition with the name of its segments written out (`segment_within(1, 20)` is `segment_within(segments_with_timestamp, 1, 20)`) -/
def writeSegments : Pred → Pred
  | .segment s => .segment { s with hasVariable := true }
  | p => p

/-- every condition of the expression satisfies `P` -/
def Everywhere (P : Pred → Prop) : Expr → Prop
  | .leaf p => P p
  | .not e => Everywhere P e
  | .and l r => Everywhere P l ∧ Everywhere P r
  | .or l r => Everywhere P l ∧ Everywhere P r

/-- a null test somewhere -/
def HasNull : Expr → Prop
  | .leaf p => ∃ o v, p = .isNull o v
  | .not e => HasNull e
  | .and l r => HasNull l ∨ HasNull r
  | .or l r => HasNull l ∨ HasNull r

/-- the same connectives, and conditions related by `P` -/
inductive Alongside (P : Pred → Pred → Prop) : Expr → Expr → Prop where
  | leaf {p p'} : P p p' → Alongside P (.leaf p) (.leaf p')
  | not {e e'} : Alongside P e e' → Alongside P (.not e) (.not e')
  | and {l l' r r'} : Alongside P l l' → Alongside P r r' → Alongside P (.and l r) (.and l' r')
  | or {l l' r r'} : Alongside P l l' → Alongside P r r' → Alongside P (.or l r) (.or l' r')

/-- how deep parentheses and `not`s nest when every operand is put in parentheses, and every compound expression too -/
def depthInParens : Expr → Nat
  | .leaf _ => 0
  | .not e => depthInParens e + 3
  | .and l r => max (depthInParens l) (depthInParens r) + 2
  | .or l r => max (depthInParens l) (depthInParens r) + 2

end BeTree
