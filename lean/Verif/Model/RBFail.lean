import Verif.Model.RBErase
/-
jsw_rbtree.c: inserting into the red-black tree when memory has run out.
-/
namespace BeTree
namespace RB
variable {α : Type}

/-- where the node is that `tree->root` points to (jsw_rbtree.c:136-191), which changes only after the loop: on the way from the top to `q`, with
`n` nodes above it, or beside it, as the root of a subtree -/
inductive RootAt (α : Type) where
  | onPath (n : Nat)
  | beside (t : RB α)

/-- `tree->root` when the loop is left (jsw_rbtree.c:156-158), with `q` below `path` -/
def RootAt.tree (r : RootAt α) (q : RB α) (path : List (Frame α)) : RB α :=
  match r with
  | .onPath n => zip (path.take (path.length - n)) q
  | .beside t => t

/-- where that node is after the rotation of `g` (jsw_rbtree.c:167-176), `rest` being above `g`.  After `jsw_single` `p` is in the place of `g`, which
is beside the way.  After `jsw_double` `q` is, with `g` and `p` below it; `right` says that the way goes on to the right. -/
def RootAt.rotate (r : RootAt α) (q : RB α) (p g : Frame α) (rest : List (Frame α)) (right : Bool) : RootAt α :=
  match r with
  | .beside t => .beside t
  | .onPath n =>
    if n < rest.length then .onPath n
    else if p.dir = g.dir then
      if n = rest.length then .beside (if g.dir then node true g.x g.other p.other else node true g.x p.other g.other)
      else .onPath (n - 1)
    else
      match q with
      | nil => .onPath n
      | node _ _ ql qr =>
        let gt := if g.dir then node true g.x g.other ql else node true g.x qr g.other
        let pt := if g.dir then node true p.x qr p.other else node true p.x p.other ql
        if n = rest.length then if right = g.dir then .beside gt else .onPath (rest.length + 1)
        else if n = rest.length + 1 then if right = g.dir then .onPath (rest.length + 1) else .beside pt
        else .onPath rest.length

/-- The loop of `jsw_rbinsert` (jsw_rbtree.c:151-190) when `new_node` fails: `tree->root` afterwards, and whether 1 is returned.  Faults as in
`insertLoop`. -/
def failLoop (cmp : α → α → Ordering) (data : α) : Nat → Nat → RootAt α → RB α → List (Frame α) → Except Fault (RB α × Bool)
  | 0, _, _, _, _ => .error .fuel
  | _ + 1, _, r, nil, path => .ok (r.tree nil path, false)
  | fuel + 1, cool, r, node c x l rt, path =>
    let q := flip (node c x l rt)
    let rotated : Except Fault (RB α × List (Frame α) × Nat × (Bool → RootAt α)) :=
      if q.isRed && topRed path then
        if cool > 0 then .error .ub
        else
          match path with
          | p :: g :: rest =>
            match rotate q p g rest with
            | .error e => .error e
            | .ok (q', path', cool') => .ok (q', path', cool', r.rotate q p g rest)
          | _ => .error .ub
      else .ok (q, path, cool - 1, fun _ => r)
    match rotated with
    | .error e => .error e
    | .ok (nil, _, _, _) => .error .ub
    | .ok (node red x l rt, path, cool, r) =>
      match cmp x data with
      | .eq => .ok (blacken (zip path (node red x l rt)), true)
      | .lt => failLoop cmp data fuel cool (r true) rt ({ dir := true, red := red, x := x, other := l } :: path)
      | .gt => failLoop cmp data fuel cool (r false) l ({ dir := false, red := red, x := x, other := rt } :: path)

/-- `jsw_rbinsert` (jsw_rbtree.c:132-198) when `new_node` fails: `tree->root`, and whether 1 is returned -/
def insertFail (cmp : α → α → Ordering) (data : α) (t : RB α) : Except Fault (RB α × Bool) :=
  match t with
  | nil => .ok (nil, false)
  | t => failLoop cmp data (2 * t.size + 3) 0 (.onPath 0) t []

end RB
end BeTree
