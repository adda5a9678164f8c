import Verif.Spec.Sat
import Verif.Spec.Room
/-
Specification: expressions that differ only in the letter case of attribute names, or only in the order of the constants of a
list.
-/
namespace BeTree.Spec
open BeTree

/-- Predicates of the grammar that differ at most in how they name attributes (related by `N`), in their string constants (`T`),
their lists of integers (`I`) and their lists of strings (`S`). -/
inductive LikePred (N : AttrVar → AttrVar → Prop) (T : StrVal → StrVal → Prop) (I : List Int → List Int → Prop)
    (S : List StrVal → List StrVal → Prop) : Pred → Pred → Prop
  | compare {op v v' c} (h : N v v') : LikePred N T I S (.compare op v c) (.compare op v' c)
  | eqInt {op v v' k} (h : N v v') : LikePred N T I S (.equality op v (.int k)) (.equality op v' (.int k))
  | eqFloat {op v v' k} (h : N v v') : LikePred N T I S (.equality op v (.float k)) (.equality op v' (.float k))
  | eqStr {op v v' s s'} (h : N v v') (hs : T s s') :
      LikePred N T I S (.equality op v (.string s)) (.equality op v' (.string s'))
  | boolVar {v v'} (h : N v v') : LikePred N T I S (.boolVar v) (.boolVar v')
  | boolLit {b} : LikePred N T I S (.boolLit b) (.boolLit b)
  | setInts {op v v' l l'} (h : N v v') (hl : I l l') :
      LikePred N T I S (.set op (.var v) (.intList l)) (.set op (.var v') (.intList l'))
  | setStrs {op v v' l l'} (h : N v v') (hl : S l l') :
      LikePred N T I S (.set op (.var v) (.strList l)) (.set op (.var v') (.strList l'))
  | inInts {op v v' k} (h : N v v') : LikePred N T I S (.set op (.int k) (.var v)) (.set op (.int k) (.var v'))
  | inStrs {op v v' s s'} (h : N v v') (hs : T s s') :
      LikePred N T I S (.set op (.string s) (.var v)) (.set op (.string s') (.var v'))
  | listInts {op v v' l l'} (h : N v v') (hl : I l l') : LikePred N T I S (.list op v (.intList l)) (.list op v' (.intList l'))
  | listStrs {op v v' l l'} (h : N v v') (hl : S l l') : LikePred N T I S (.list op v (.strList l)) (.list op v' (.strList l'))
  | freq {f : Frequency} {v n : AttrVar} {s : StrVal} (hv : N f.attr v) (hn : N f.now n) (hs : T f.ns s) :
      LikePred N T I S (.freq f) (.freq { f with attr := v, now := n, ns := s })
  | segment {s : SegmentExpr} {v n : AttrVar} (hv : N s.attr v) (hn : N s.now n) :
      LikePred N T I S (.segment s) (.segment { s with attr := v, now := n })
  | geo {g : Geo} {a o : AttrVar} (ha : N g.latVar a) (ho : N g.lonVar o) :
      LikePred N T I S (.geo g) (.geo { g with latVar := a, lonVar := o })
  | str {s : StringExpr} {v : AttrVar} (h : N s.attr v) : LikePred N T I S (.str s) (.str { s with attr := v })
  | isNull {op v v'} (h : N v v') : LikePred N T I S (.isNull op v) (.isNull op v')

/-- the same expression up to such differences in its predicates -/
inductive Like (P : Pred → Pred → Prop) : Expr → Expr → Prop
  | leaf {p p'} (h : P p p') : Like P (.leaf p) (.leaf p')
  | not {e e'} (h : Like P e e') : Like P (.not e) (.not e')
  | and {l l' r r'} (hl : Like P l l') (hr : Like P r r') : Like P (.and l r) (.and l' r')
  | or {l l' r r'} (hl : Like P l l') (hr : Like P r r') : Like P (.or l r) (.or l' r')

/-- the same text -/
def SameText (s s' : StrVal) : Prop := s'.string = s.string
/-- the same texts in the same order -/
def SameTexts (l l' : List StrVal) : Prop := l'.map StrVal.string = l.map StrVal.string
/-- the same texts, in any order -/
def SameTextsAnyOrder (l l' : List StrVal) : Prop := (l.map StrVal.string).Perm (l'.map StrVal.string)
/-- the same name -/
def SameName (v v' : AttrVar) : Prop := v'.attr = v.attr
/-- the same name up to letter case -/
def SameLower (v v' : AttrVar) : Prop := lower v'.attr = lower v.attr

/-- The second expression is the first one with attribute names written in another letter case. -/
def Recased : Expr → Expr → Prop := Like (LikePred SameLower SameText Eq SameTexts)

/-- The second expression is the first one with the constants of its lists in another order. -/
def Reordered : Expr → Expr → Prop := Like (LikePred SameName SameText List.Perm SameTextsAnyOrder)

/-- The second expression is the first one with the integers of its lists in another order. -/
def IntsReordered : Expr → Expr → Prop := Like (LikePred Eq Eq List.Perm Eq)

/-- Both differences at once. -/
def Alike : Expr → Expr → Prop := Like (LikePred SameLower SameText List.Perm SameTextsAnyOrder)

/-- The two requests have the same id and constants, and related expressions. -/
def SameReq (P : Expr → Expr → Prop) (q q' : Req) : Prop := q'.id = q.id ∧ q'.consts = q.consts ∧ P q.expr q'.expr

/-- The two lists of requests have the same members up to that. -/
def SameReqs (P : Expr → Expr → Prop) (l l' : List Req) : Prop :=
  (∀ q ∈ l, ∃ q' ∈ l', SameReq P q q') ∧ ∀ q' ∈ l', ∃ q ∈ l, SameReq P q q'

/-- None of these attributes has a limit on its strings. -/
def FreeStrs (ds : List Domain) (names : List Str) : Prop :=
  ∀ a ∈ names, ∀ d ∈ ds, d.attr.attr = lowerKey a → Unlimited d.bound

end BeTree.Spec
