import Verif.Model.Types
/-
jsw_rbtree.c: the red-black tree that holds the predicates (find and insert; erase is never called by be-tree).
-/
namespace BeTree

/-- `struct jsw_rbnode` (jsw_rbtree.c:26-30), `nil` is NULL. -/
inductive RB (α : Type) where
  | nil
  | node (red : Bool) (x : α) (l r : RB α)
  deriving DecidableEq, Repr

namespace RB
variable {α : Type}

/-- `is_red` (jsw_rbtree.c:38-41). -/
def isRed : RB α → Bool
  | nil => false
  | node red _ _ _ => red

/-- `jsw_rbfind` (jsw_rbtree.c:115-130): `it = it->link[cmp < 0]`. -/
def find (cmp : α → α → Ordering) (data : α) : RB α → Option α
  | nil => none
  | node _ x l r =>
    match cmp x data with
    | .eq => some x
    | .lt => find cmp data r
    | .gt => find cmp data l

/-- One step of the descent: the ancestor `x` (with its colour and its other subtree); `dir = true` when the path
goes to `link[1]` (jsw_rbtree.c:178-189). -/
structure Frame (α : Type) where
  dir : Bool
  red : Bool
  x : α
  other : RB α

/-- Put `t` below the frame (jsw_rbtree.c:178-189). -/
def plug (f : Frame α) (t : RB α) : RB α :=
  if f.dir then node f.red f.x f.other t else node f.red f.x t f.other

/-- Rebuild the tree from the path (jsw_rbtree.c:191). -/
def zip : List (Frame α) → RB α → RB α
  | [], t => t
  | f :: fs, t => zip fs (plug f t)

/-- `is_red(p)` (jsw_rbtree.c:167) -/
def topRed : List (Frame α) → Bool
  | [] => false
  | f :: _ => f.red

/-- colour flip (jsw_rbtree.c:161-165): only when both links are red. -/
def flip : RB α → RB α
  | node _ x (node true lx ll lr) (node true rx rl rr) => node true x (node false lx ll lr) (node false rx rl rr)
  | t => t

/-- `tree->root->red = 0` (jsw_rbtree.c:194). -/
def blacken : RB α → RB α
  | nil => nil
  | node _ x l r => node false x l r

/-- The two rotations (jsw_rbtree.c:167-176, 43-61), as seen from `q`, its parent `p` and its grandparent `g`.
Same directions: `jsw_single(g, !last)` puts `p` in the place of `g`, so `q`'s path is now `p` followed by the
rest.  Opposite directions: `jsw_double(g, !last)` puts `q` itself in the place of `g`.
Returns the new focus, the new path and for how many further iterations the C pointers `g`/`t` are stale. -/
def rotate (q : RB α) (p g : Frame α) (rest : List (Frame α)) : Except Fault (RB α × List (Frame α) × Nat) :=
  if p.dir = g.dir then
    -- g becomes the red sibling of q, keeping p's other subtree
    .ok (q, { dir := p.dir, red := false, x := p.x,
              other := if g.dir then node true g.x g.other p.other else node true g.x p.other g.other } :: rest, 1)
  else
    match q with
    | nil => .error .ub
    | node _ x ql qr =>
      if g.dir then
        -- g.link[1] = p, p.link[0] = q : q gets g on the left and p on the right
        .ok (node false x (node true g.x g.other ql) (node true p.x qr p.other), rest, 2)
      else
        .ok (node false x (node true p.x p.other ql) (node true g.x qr g.other), rest, 2)

/-- The `for(;;)` loop of `jsw_rbinsert` (jsw_rbtree.c:151-190).  `q` is the focus, the path holds `p`, `g`, `t`, ...
After a rotation the C variables `g`, `t` no longer point to the ancestors of `q` for `cool` iterations;
a rotation in that window would corrupt the tree, so it is `Fault.ub` here (and shown never to happen).
A rotation with no grandparent would dereference NULL: `Fault.ub`. -/
def insertLoop (cmp : α → α → Ordering) (data : α) : Nat → Nat → RB α → List (Frame α) → Except Fault (RB α)
  | 0, _, _, _ => .error .fuel
  | fuel + 1, cool, q, path =>
    let q := match q with
      | nil => node true data nil nil
      | t => flip t
    let rotated : Except Fault (RB α × List (Frame α) × Nat) :=
      if q.isRed && topRed path then
        if cool > 0 then .error .ub
        else
          match path with
          | p :: g :: rest => rotate q p g rest
          | _ => .error .ub
      else .ok (q, path, cool - 1)
    match rotated with
    | .error e => .error e
    | .ok (nil, _, _) => .error .ub
    | .ok (node red x l r, path, cool) =>
      match cmp x data with
      | .eq => .ok (zip path (node red x l r))
      | .lt => insertLoop cmp data fuel cool r ({ dir := true, red := red, x := x, other := l } :: path)
      | .gt => insertLoop cmp data fuel cool l ({ dir := false, red := red, x := x, other := r } :: path)

/-- number of nodes, used only as a recursion budget (bounds the loop of jsw_rbtree.c:151-190) -/
def size : RB α → Nat
  | nil => 0
  | node _ _ l r => l.size + r.size + 1

/-- `jsw_rbinsert` (jsw_rbtree.c:132-198); allocation failure is not modelled, so it always returns 1. -/
def insert (cmp : α → α → Ordering) (data : α) (t : RB α) : Except Fault (RB α) :=
  match t with
  | nil => .ok (node false data nil nil)
  | t =>
    match insertLoop cmp data (2 * t.size + 3) 0 t [] with
    | .error e => .error e
    | .ok t => .ok (blacken t)

end RB
end BeTree
