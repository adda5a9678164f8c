import Verif.Model.NodeMemory
import Verif.Spec.Memory
/-
Which blocks the nodes of a tree are, and how many a tree needs.
-/
namespace BeTree

/-! ### all blocks reached from a node -/

/-- a directory of partitions and its array, if there is one -/
def dirBlocks : Option (Nat × Nat) → List Nat
  | none => []
  | some (d, a) => [d, a]

mutual
def CImg.blocks : CImg → List Nat
  | .mk c l arr pd ps => c :: l :: (arr.toList ++ (dirBlocks pd ++ ps.blocks))
def PImgs.blocks : PImgs → List Nat
  | .nil => []
  | .cons p n d rest => p :: n :: (d.blocks ++ rest.blocks)
def DImg.blocks : DImg → List Nat
  | .leaf d n c => d :: n :: c.blocks
  | .node d n c x y => d :: n :: (c.blocks ++ (x.blocks ++ y.blocks))
end

/-! ### how many blocks a tree needs -/

/-- the directory of partitions and its array, if there are any -/
def dirCount : PNodes → Nat
  | .nil => 0
  | .cons _ _ _ _ => 2

mutual
/-- A node: itself and its leaf node; an array if it has subscriptions; if it has partitions, their directory, its array, and what they need. -/
def CNode.blockCount : CNode → Nat
  | .mk subs _ pns => 2 + (if subs.length = 0 then 0 else 1) + dirCount pns + pns.blockCount
/-- a partition: itself, its name, and the cdir below it -/
def PNodes.blockCount : PNodes → Nat
  | .nil => 0
  | .cons _ _ cd rest => 2 + cd.blockCount + rest.blockCount
/-- a cdir: itself, its name, its node and the two halves, if it was cut -/
def CDir.blockCount : CDir → Nat
  | .leaf _ _ c => 2 + c.blockCount
  | .node _ _ c l r => 2 + c.blockCount + l.blockCount + r.blockCount
end

end BeTree
