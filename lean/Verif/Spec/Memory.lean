import Verif.Model.Memory
/-
What it means that certain blocks of memory are allocated, and how many an expression has.
-/
namespace BeTree

/-- The allocated blocks are exactly those of the list, each once. -/
def Holds (h : Heap) (blocks : List Nat) : Prop :=
  h.live.Perm blocks ∧ blocks.Nodup ∧ ∀ b ∈ blocks, b < h.next

/-! ### all blocks reached from an expression -/

def ListImg.blocks : ListImg → List Nat
  | .ints l a => [l, a]
  | .strs l a ss => l :: a :: ss
  | .name b => [b]

def LeafImg.blocks : LeafImg → List Nat
  | .isNull a => [a]
  | .compare a => [a]
  | .equality a s => a :: s.toList
  | .boolVar a => [a]
  | .boolLit => []
  | .set l r => l.toList ++ r.blocks
  | .list a v => a :: v.blocks
  | .freq a n s => [a, n, s]
  | .segment a n => [a, n]
  | .geo a b => [a, b]
  | .str a p => [a, p]

def Img.blocks : Img → List Nat
  | .leaf n l => n :: l.blocks
  | .not n e => n :: e.blocks
  | .bin n l r => n :: (l.blocks ++ r.blocks)

/-! ### how many blocks an expression has -/

/-- a list: its header and its array; and each string -/
def listBlocks : ListVal → Nat
  | .intList _ => 2
  | .strList ss => 2 + ss.length

def setLeftBlocks : SetLeft → Nat
  | .int _ => 0
  | .string _ => 1
  | .var _ => 1

def setRightBlocks : SetRight → Nat
  | .intList _ => 2
  | .strList ss => 2 + ss.length
  | .var _ => 1

def eqBlocks : EqVal → Nat
  | .string _ => 1
  | _ => 0

/-- the names and the strings of a predicate, and its lists -/
def predBlocks : Pred → Nat
  | .isNull _ _ => 1
  | .compare _ _ _ => 1
  | .equality _ _ c => 1 + eqBlocks c
  | .boolVar _ => 1
  | .boolLit _ => 0
  | .set _ l r => setLeftBlocks l + setRightBlocks r
  | .list _ _ l => 1 + listBlocks l
  | .freq _ => 3
  | .segment _ => 2
  | .geo _ => 2
  | .str _ => 2

/-- one block for each node, and those of the predicates -/
def exprBlocks : Expr → Nat
  | .leaf p => 1 + predBlocks p
  | .not e => 1 + exprBlocks e
  | .and l r => 1 + exprBlocks l + exprBlocks r
  | .or l r => 1 + exprBlocks l + exprBlocks r

end BeTree
