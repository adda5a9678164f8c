import Verif.Model.RBTree
/-
jsw_rbtree.c: erasing from the red-black tree, and the count of its nodes.  (be-tree itself never erases.)
-/
namespace BeTree
namespace RB
variable {α : Type}

/-- One iteration of the loop of `jsw_rberase` (jsw_rbtree.c:213-253): from the node `q` the descent goes to `child`; `path` holds `p`, `g`, ... above
`q`, and `f` says where in it the item is that was found.  The result is the path above `child`, and where the item is in it; if `q` is red or `child`
is, nothing changes (line 223).  Here as in the code `p` and `g` are the parent and the grandparent of `q` in every iteration: after
`jsw_single(q, dir)` (225) `p` is the new parent, after the rotations of `p` (239-244) it still is. -/
def eraseStep (path : List (Frame α)) (f : Option Nat) (q : Frame α) (child : RB α) : List (Frame α) × Option Nat :=
  if q.red || child.isRed then (q :: path, f.map (· + 1))
  else
    match q.other with
    | node true ox ol or =>
      -- p = p->link[last] = jsw_single(q, dir)
      ({ q with red := true, other := if q.dir then or else ol } ::
        { dir := q.dir, red := false, x := ox, other := if q.dir then ol else or } :: path, f.map (· + 2))
    | _ =>
      match path with
      | [] => ([q], f.map (· + 1))
      | p :: rest =>
        match p.other with
        | nil => (q :: p :: rest, f.map (· + 1))
        | node _ sx sl sr =>
          if (sl.isRed || sr.isRed) = false then
            ({ q with red := true } :: { p with red := false, other := node true sx sl sr } :: rest, f.map (· + 1))
          else
            match if p.dir then sr else sl with
            | node true nx nl nr =>
              -- jsw_double(p, last)
              ({ q with red := true } :: { p with red := false, other := if p.dir then nr else nl } ::
                { dir := p.dir, red := true, x := nx, other := if p.dir then node false sx sl nl else node false sx nr sr } :: rest,
               f.map fun k => if k = 0 then 1 else k + 2)
            | near =>
              -- jsw_single(p, last)
              ({ q with red := true } :: { p with red := false, other := near } ::
                { dir := p.dir, red := true, x := sx, other := blacken (if p.dir then sl else sr) } :: rest,
               f.map fun k => if k = 0 then 1 else k + 2)

/-- after the loop of `jsw_rberase` (jsw_rbtree.c:255-259): the item that was found is overwritten with that of the last node, which is taken out -/
def eraseEnd (path : List (Frame α)) (f : Option Nat) : RB α :=
  match f, path with
  | some 0, q :: rest => zip rest q.other
  | some (k + 1), q :: rest => zip (rest.modify k fun fr => { fr with x := q.x }) q.other
  | _, path => zip path nil

/-- the loop of `jsw_rberase` and what follows it (jsw_rbtree.c:212-259) -/
def eraseLoop (cmp : α → α → Ordering) (data : α) : RB α → List (Frame α) → Option Nat → RB α
  | nil, path, f => eraseEnd path f
  | node red x l r, path, f =>
    match cmp x data with
    | .lt =>
      let s := eraseStep path f ⟨true, red, x, l⟩ r
      eraseLoop cmp data r s.1 s.2
    | .eq =>
      let s := eraseStep path f ⟨false, red, x, r⟩ l
      eraseLoop cmp data l s.1 (some 0)
    | .gt =>
      let s := eraseStep path f ⟨false, red, x, r⟩ l
      eraseLoop cmp data l s.1 s.2

/-- `jsw_rberase` (jsw_rbtree.c:200-271), the tree -/
def erase (cmp : α → α → Ordering) (data : α) (t : RB α) : RB α := blacken (eraseLoop cmp data t [] none)

end RB

/-- `struct jsw_rbtree` (jsw_rbtree.c:32-36) -/
structure RBSet (α : Type) where
  root : RB α
  size : Nat

/-- a call (jsw_rbtree.h:20-28) -/
inductive RBOp (α : Type) where
  | insert (x : α)
  | erase (x : α)

/-- `jsw_rbinsert`, `jsw_rberase` (jsw_rbtree.c:132-271) with the count `size`, which is a `size_t`: it goes up with every insertion, also of an
item that is there, and down with every erasure from a tree that is not empty, also of an item that is not there. -/
def RBSet.step {α : Type} (cmp : α → α → Ordering) (t : RBSet α) : RBOp α → Except Fault (RBSet α)
  | .insert x =>
    match t.root.insert cmp x with
    | .error e => .error e
    | .ok r => .ok ⟨r, (t.size + 1) % 2 ^ 64⟩
  | .erase x =>
    match t.root with
    | .nil => .ok t
    | r => .ok ⟨r.erase cmp x, (t.size + sizeMax) % 2 ^ 64⟩

/-- a sequence of calls (jsw_rbtree.h:20-28) -/
def RBSet.run {α : Type} (cmp : α → α → Ordering) (t : RBSet α) : List (RBOp α) → Except Fault (RBSet α)
  | [] => .ok t
  | o :: os =>
    match t.step cmp o with
    | .error e => .error e
    | .ok t => t.run cmp os

end BeTree
