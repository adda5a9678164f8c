import Verif.Model.Tree
/-
Specification: the subscriptions stored in a tree, as a list (wherever they are stored).
-/
namespace BeTree

mutual
/-- everything stored at or below a cnode -/
def CNode.contents : CNode → List Sub
  | .mk subs _ pns => subs ++ pns.contents
/-- everything stored below the partitions -/
def PNodes.contents : PNodes → List Sub
  | .nil => []
  | .cons _ _ cd rest => cd.contents ++ rest.contents
/-- everything stored at or below a cdir -/
def CDir.contents : CDir → List Sub
  | .leaf _ _ c => c.contents
  | .node _ _ c l r => c.contents ++ l.contents ++ r.contents
end

end BeTree
