import Verif.Model.Parser
/-
Memory: the heap blocks allocated for an expression by the lexer and the parser, and given back by `free_ast_node`.
-/
namespace BeTree

/-- The heap (alloc.h:3-14): the blocks that are allocated, and a number above all of them for the next one.  Allocation never fails here
(the code aborts when it does). -/
structure Heap where
  next : Nat
  live : List Nat
  deriving DecidableEq, Repr

/-- A program that allocates, frees and uses blocks (alloc.h:3-14), as the sequence of these operations: each one is a step, and what comes
after an allocation depends on the block it gave.  `fault` is where it aborts or does something undefined. -/
inductive Mem (α : Type) where
  | done (a : α)
  | malloc (k : Nat → Mem α)
  | free (b : Nat) (k : Mem α)
  | touch (b : Nat) (k : Mem α)
  | fault (e : Fault)

/-- one program and then another (alloc.h:3-14; no function of the code) -/
def Mem.bind {α β : Type} : Mem α → (α → Mem β) → Mem β
  | .done a, f => f a
  | .malloc k, f => .malloc fun b => (k b).bind f
  | .free b k, f => .free b (k.bind f)
  | .touch b k, f => .touch b (k.bind f)
  | .fault e, _ => .fault e

instance : Monad Mem where
  pure := Mem.done
  bind := Mem.bind

/-- A program run alone (alloc.h:3-14, alloc.c:20-31): an allocation gives a block that was not allocated; to free or use a block that is not
allocated (never was, or was freed before) is undefined. -/
def Mem.run {α : Type} : Mem α → Heap → Except Fault (α × Heap)
  | .done a, h => .ok (a, h)
  | .malloc k, h => (k h.next).run { next := h.next + 1, live := h.next :: h.live }
  | .free b k, h => if b ∈ h.live then k.run { h with live := h.live.erase b } else .error .ub
  | .touch b k, h => if b ∈ h.live then k.run h else .error .ub
  | .fault e, _ => .error e

instance {α : Type} : CoeFun (Mem α) (fun _ => Heap → Except Fault (α × Heap)) := ⟨Mem.run⟩

/-- `bmalloc`, `bcalloc`, `bstrdup` (alloc.h:3-14, alloc.c:20-31) -/
def malloc : Mem Nat := .malloc .done

/-- `bfree` (alloc.h:8, 14) -/
def bfree (b : Nat) : Mem Unit := .free b (.done ())

/-- `brealloc` (alloc.h:7, 13): the old block is given back and there is a new one -/
def brealloc (b : Nat) : Mem Nat := do
  bfree b
  malloc

/-! ### the blocks of an expression -/

/-- the right side of a set expression, or the value of a list expression (ast.h:13-275): `struct betree_integer_list` with its array,
`struct betree_string_list` with its array and the strings in it (value.h:18-22, 30-38), or the name of a variable -/
inductive ListImg where
  | ints (list array : Nat)
  | strs (list array : Nat) (strings : List Nat)
  | name (attr : Nat)
  deriving DecidableEq, Repr

/-- the pointers in an `ast_node` that is a predicate (ast.h:13-275) -/
inductive LeafImg where
  | isNull (attr : Nat)
  | compare (attr : Nat)
  | equality (attr : Nat) (string : Option Nat)
  | boolVar (attr : Nat)
  | boolLit
  | set (left : Option Nat) (right : ListImg)
  | list (attr : Nat) (value : ListImg)
  | freq (attr now ns : Nat)
  | segment (attr now : Nat)
  | geo (latitude longitude : Nat)
  | str (attr pattern : Nat)
  deriving DecidableEq, Repr

/-- an `ast_node` as blocks of memory (ast.h:276-289): the node itself and what it points to -/
inductive Img where
  | leaf (node : Nat) (l : LeafImg)
  | not (node : Nat) (e : Img)
  | bin (node : Nat) (lhs rhs : Img)
  deriving DecidableEq, Repr

/-- what a semantic value of the parser points to (parser.y:37-53): nothing, one string (a token, a string value, the name of a variable),
a string or nothing, the value of a list, an expression -/
inductive MVal where
  | plain
  | one (b : Nat)
  | opt (b : Option Nat)
  | lst (l : ListImg)
  | node (i : Img)
  deriving DecidableEq, Repr

/-! ### freeing -/

/-- `bfree` of a pointer that may be absent -/
def freeOpt : Option Nat → Mem Unit
  | none => pure ()
  | some b => bfree b

/-- the loop of `free_string_list` (value.c:259-261) -/
def freeStrings : List Nat → Mem Unit
  | [] => pure ()
  | b :: bs => do
    bfree b
    freeStrings bs

/-- `free_integer_list`, `free_string_list`, `free_attr_var` (value.c:251-265, tree.c:1836-1839) -/
def freeListImg : ListImg → Mem Unit
  | .ints l a => do
    bfree a
    bfree l
  | .strs l a ss => do
    freeStrings ss
    bfree a
    bfree l
  | .name b => bfree b

/-- `free_special_expr`, `free_set_expr`, `free_list_expr` and the cases of `free_ast_node` for predicates (ast.c:254-390) -/
def freeLeaf : LeafImg → Mem Unit
  | .isNull a => bfree a
  | .compare a => bfree a
  | .equality a s => do
    bfree a
    freeOpt s
  | .boolVar a => bfree a
  | .boolLit => pure ()
  | .set l r => do
    freeOpt l
    freeListImg r
  | .list a v => do
    freeListImg v
    bfree a
  | .freq a n s => do
    bfree a
    bfree n
    bfree s
  | .segment a n => do
    bfree a
    bfree n
  | .geo a b => do
    bfree a
    bfree b
  | .str a p => do
    bfree a
    bfree p

/-- `free_ast_node` (ast.c:336-391) -/
def freeAst : Img → Mem Unit
  | .leaf n l => do
    freeLeaf l
    bfree n
  | .not n e => do
    freeAst e
    bfree n
  | .bin n l r => do
    freeAst l
    freeAst r
    bfree n

/-! ### building -/

/-- `SAVE_STRING` and `SAVE_IDENTIFIER` (lexer.l:6-11); the other tokens own nothing -/
def tokMem : Tok → Mem MVal
  | .string _ | .ident _ => do
    let b ← malloc
    pure (.one b)
  | _ => pure .plain

/-- a node with the name of its variable copied, the token freed (ast.c:33-61, 77-82, 166-175 as called at parser.y:132-227) -/
def memNamed (tok : Nat) (mk : Nat → LeafImg) : Mem MVal := do
  let n ← malloc
  let a ← malloc
  bfree tok
  pure (.node (.leaf n (mk a)))

/-- `ast_bool_expr_binary_create` (ast.c:137-152): the operand with the smaller score comes first; `swap` says that the second has the
smaller one -/
def memBinary (swap : Bool) (l r : Img) : Mem MVal := do
  let n ← malloc
  pure (.node (if swap then .bin n r l else .bin n l r))

/-- `ast_special_string_create` (ast.c:244-252), then the tokens are freed (parser.y:221-227) -/
def memString (tok str : Nat) : Mem MVal := do
  let n ← malloc
  let a ← malloc
  let p ← malloc
  bfree tok
  bfree str
  pure (.node (.leaf n (.str a p)))

/-- `ast_special_segment_create` (ast.c:205-222); the name is copied from a token, freed after, or from a literal -/
def memSegment (tok : Option Nat) : Mem MVal := do
  let n ← malloc
  let a ← malloc
  let w ← malloc
  freeOpt tok
  pure (.node (.leaf n (.segment a w)))

/-- `ast_special_geo_create` (ast.c:224-242) -/
def memGeo : Mem MVal := do
  let n ← malloc
  let a ← malloc
  let b ← malloc
  pure (.node (.leaf n (.geo a b)))

/-- `ast_special_frequency_create` (ast.c:184-203), then the token of the type is freed (parser.y:201-203) -/
def memFrequency (tok ns : Nat) : Mem MVal := do
  let n ← malloc
  let a ← malloc
  let w ← malloc
  bfree tok
  pure (.node (.leaf n (.freq a w ns)))

/-- a literal (ast.c:70-75) -/
def memLiteral : Mem MVal := do
  let n ← malloc
  pure (.node (.leaf n .boolLit))

/-- `ast_set_expr_create` (ast.c:154-164) -/
def memSet (l : Option Nat) (r : ListImg) : Mem MVal := do
  let n ← malloc
  pure (.node (.leaf n (.set l r)))

/-- What the action of each rule does to the heap (parser.y:96-226, numbered as in parser.c:1449-1899), given what the values of the
right-hand side point to; `swap` is as for `memBinary`. -/
def xxMem (swap : Bool) : Nat → List MVal → Mem MVal
  | 2, [.node e] => pure (.node e)
  | 3, [.one b] => pure (.one b)
  | 4, [.plain] => pure .plain
  | 5, [.plain, .plain] => pure .plain
  | 6, [.plain] => pure .plain
  | 7, [.plain, .plain] => pure .plain
  | 8, [.one b] => do
    let s ← malloc
    bfree b
    pure (.one s)
  | 9, [.plain, .lst l, .plain] => pure (.lst l)
  | 10, [.plain] => do
    let l ← malloc
    let a ← malloc
    pure (.lst (.ints l a))
  | 11, [.lst (.ints l a), .plain, .plain] => do
    let a ← brealloc a
    pure (.lst (.ints l a))
  | 12, [.plain, .lst l, .plain] => pure (.lst l)
  | 13, [.one s] => do
    let l ← malloc
    let a ← malloc
    pure (.lst (.strs l a [s]))
  | 14, [.lst (.strs l a ss), .plain, .one s] => do
    let a ← brealloc a
    pure (.lst (.strs l a (ss ++ [s])))
  | 15, [.plain, .node e, .plain] => pure (.node e)
  | 16, [.node e] => pure (.node e)
  | 17, [.node e] => pure (.node e)
  | 18, [.node e] => pure (.node e)
  | 19, [.node e] => pure (.node e)
  | 20, [.node e] => pure (.node e)
  | 21, [.node e] => pure (.node e)
  | 22, [.node e] => pure (.node e)
  | 23, [.one x, .plain] => memNamed x .isNull
  | 24, [.one x, .plain] => memNamed x .isNull
  | 25, [.one x, .plain] => memNamed x .isNull
  | 26, [.plain] => pure .plain
  | 27, [.plain] => pure .plain
  | 28, [.one x, .plain, .plain] => memNamed x .compare
  | 29, [.one x, .plain, .plain] => memNamed x .compare
  | 30, [.one x, .plain, .plain] => memNamed x .compare
  | 31, [.one x, .plain, .plain] => memNamed x .compare
  | 32, [.plain, .plain, .one x] => memNamed x .compare
  | 33, [.plain, .plain, .one x] => memNamed x .compare
  | 34, [.plain, .plain, .one x] => memNamed x .compare
  | 35, [.plain, .plain, .one x] => memNamed x .compare
  | 36, [.plain] => pure (.opt none)
  | 37, [.plain] => pure (.opt none)
  | 38, [.one s] => pure (.opt (some s))
  | 39, [.one x, .plain, .opt c] => memNamed x (fun a => .equality a c)
  | 40, [.one x, .plain, .opt c] => memNamed x (fun a => .equality a c)
  | 41, [.opt c, .plain, .one x] => memNamed x (fun a => .equality a c)
  | 42, [.opt c, .plain, .one x] => memNamed x (fun a => .equality a c)
  | 43, [.one x] => do
    let a ← malloc
    bfree x
    pure (.one a)
  | 44, [.plain] => pure (.opt none)
  | 45, [.one s] => pure (.opt (some s))
  | 46, [.one v] => pure (.opt (some v))
  | 47, [.lst l] => pure (.lst l)
  | 48, [.lst l] => pure (.lst l)
  | 49, [.one v] => pure (.lst (.name v))
  | 50, [.opt l, .plain, .lst r] => memSet l r
  | 51, [.opt l, .plain, .lst r] => memSet l r
  | 52, [.lst l] => pure (.lst l)
  | 53, [.lst l] => pure (.lst l)
  | 54, [.one x, .plain, .lst l] => memNamed x (fun a => .list a l)
  | 55, [.one x, .plain, .lst l] => memNamed x (fun a => .list a l)
  | 56, [.one x, .plain, .lst l] => memNamed x (fun a => .list a l)
  | 57, [.node l, .plain, .node r] => memBinary swap l r
  | 58, [.node l, .plain, .node r] => memBinary swap l r
  | 59, [.plain, .node e] => do
    let n ← malloc
    pure (.node (.not n e))
  | 60, [.one x] => memNamed x .boolVar
  | 61, [.plain] => memLiteral
  | 62, [.plain] => memLiteral
  | 63, [.node e] => pure (.node e)
  | 64, [.node e] => pure (.node e)
  | 65, [.node e] => pure (.node e)
  | 66, [.node e] => pure (.node e)
  | 67, [.plain, .plain, .one ty, .plain, .one ns, .plain, .plain, .plain, .plain, .plain] => memFrequency ty ns
  | 68, [.plain, .plain, .plain, .plain, .plain, .plain] => memSegment none
  | 69, [.plain, .plain, .one x, .plain, .plain, .plain, .plain, .plain] => memSegment (some x)
  | 70, [.plain, .plain, .plain, .plain, .plain, .plain] => memSegment none
  | 71, [.plain, .plain, .one x, .plain, .plain, .plain, .plain, .plain] => memSegment (some x)
  | 72, [.plain, .plain, .plain, .plain, .plain, .plain, .plain, .plain] => memGeo
  | 73, [.plain, .plain, .plain, .plain, .plain, .plain, .plain, .plain] => memGeo
  | 74, [.plain, .plain, .one x, .plain, .one s, .plain] => memString x s
  | 75, [.plain, .plain, .one x, .plain, .one s, .plain] => memString x s
  | 76, [.plain, .plain, .one x, .plain, .one s, .plain] => memString x s
  | _, _ => .fault .ub

/-- whether `ast_bool_expr_binary_create` exchanges the operands (ast.c:141-147) -/
def swapsOperands : List PVal → Bool
  | [.node l, _, .node r] => decide (scoreExpr r < scoreExpr l)
  | _ => false

/-- The action of a rule: the value and its blocks (parser.y:96-226). -/
def xxActionMem (r : Nat) (us : List (PVal × MVal)) : Mem (PVal × MVal) := do
  let v ← (match xxAction r (us.map Prod.fst) with | .error e => .fault e | .ok v => pure v : Mem PVal)
  let m ← xxMem (swapsOperands (us.map Prod.fst)) r (us.map Prod.snd)
  pure (v, m)

/-- a token: its value and its blocks (lexer.l:6-14) -/
def tokValMem (t : Tok) : Mem (PVal × MVal) := do
  let m ← tokMem t
  pure (t.val, m)

/-- `yyparse` (parser.c:1225-2130) as `lrRun`, but with tokens and actions that use the heap.  There are no `%destructor`s: when it gives
up, the blocks of the values on the stack stay allocated (parser.c:1940-2080; `yydestruct`, parser.c:1180-1198, does nothing), and so
does the token at which the error is found.  Simplification: a token is allocated here when it is shifted, not when it is first
looked at, and when the stack is full the token looked at, if any, is not counted. -/
def lrMem {τ W : Type} (T : LRTables) (num : τ → Nat) (tok : τ → Mem W) (eofVal : W) (action : Nat → List W → Mem W) :
    Nat → List (Nat × W) → List τ → Mem (Option W)
  | 0, _, _ => .fault .fuel
  | fuel + 1, stack, input =>
    if T.depth ≤ stack.length + 1 then pure none
    else if topState stack = T.final then
      match stack with
      | [_, (_, v)] => pure (some v)
      | _ => .fault .ub
    else
      match T.act (topState stack) (nextNum num input) with
      | .bad => .fault .ub
      | .error =>
        match input with
        | [] => pure none
        | t :: _ => do
          let _ ← tok t
          pure none
      | .shift s =>
        match input with
        | [] => lrMem T num tok eofVal action fuel ((s, eofVal) :: stack) []
        | t :: rest => do
          let v ← tok t
          lrMem T num tok eofVal action fuel ((s, v) :: stack) rest
      | .reduce r =>
        match T.r1[r]?, T.r2[r]? with
        | some nt, some len =>
          if stack.length < len then .fault .ub
          else do
            let v ← action r ((stack.take len).reverse.map Prod.snd)
            match T.goto (topState (stack.drop len)) nt with
            | none => .fault .ub
            | some s => lrMem T num tok eofVal action fuel ((s, v) :: stack.drop len) input
        | _, _ => .fault .ub

/-- `parse` (parser.y:237-256) with the heap: the expression and its blocks; `none` is the result -1.  The buffer and the scanner
(parser.y:242-247) are allocated and freed by the call and are not represented. -/
def parseMem (text : Str) : Mem (Option (Expr × Img)) := do
  let ts := lexExpr text
  let r ← lrMem xxTables Tok.num tokValMem (.token, .plain) xxActionMem (11 * (ts.length + 1) + 2) [] ts
  match r with
  | none => pure none
  | some (.node e, .node i) => pure (some (e, i))
  | some _ => .fault .ub

end BeTree
