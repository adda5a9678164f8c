import Verif.Model.Types
/-
The table-driven parser that bison puts into parser.c (lines 1175-2130) and event_parser.c (lines 1240-1990): the same code in
both, with different tables and actions.
-/
namespace BeTree

/-- the tables of a generated parser (parser.c:492-767, event_parser.c:511-719) -/
structure LRTables where
  /-- `yypact` -/
  pact : List Int
  /-- `yydefact` -/
  defact : List Nat
  /-- `yypgoto` -/
  pgoto : List Int
  /-- `yydefgoto` -/
  defgoto : List Int
  /-- `yytable` -/
  table : List Int
  /-- `yycheck` -/
  check : List Int
  /-- `yyr1` -/
  r1 : List Nat
  /-- `yyr2` -/
  r2 : List Nat
  /-- `YYPACT_NINF` -/
  ninf : Int
  /-- `YYNTOKENS` -/
  ntokens : Nat
  /-- `YYLAST` -/
  last : Int
  /-- `YYFINAL` -/
  final : Nat
  /-- `YYMAXDEPTH` (parser.c:950, event_parser.c:997) -/
  depth : Nat

/-- what `yybackup`/`yydefault` decide (parser.c:1358-1428); `bad` is an access outside a table -/
inductive LRAct where
  | shift (state : Nat)
  | reduce (rule : Nat)
  | error
  | bad
  deriving DecidableEq, Repr

/-- `yydefault` (parser.c:1422-1427) -/
def LRTables.default (T : LRTables) (state : Nat) : LRAct :=
  match T.defact[state]? with
  | none => .bad
  | some 0 => .error
  | some r => .reduce r

/-- an entry of `yytable` in use: positive is a shift, otherwise a reduction (parser.c:1391-1398; `yytable_value_is_error` is 0) -/
def LRTables.entry (T : LRTables) (i : Int) : LRAct :=
  match T.table[i.toNat]? with
  | none => .bad
  | some a => if a ≤ 0 then .reduce (-a).toNat else .shift a.toNat

/-- `yybackup` (parser.c:1358-1398): what to do in a state when the next token has this (internal) number.  (The code does not read
the token when the state has only a default; that makes no difference, as reading it has no effect.) -/
def LRTables.act (T : LRTables) (state : Nat) (token : Nat) : LRAct :=
  match T.pact[state]? with
  | none => .bad
  | some n =>
    if n = T.ninf then T.default state
    else if n + token < 0 ∨ T.last < n + token then T.default state
    else
      match T.check[(n + token).toNat]? with
      | none => .bad
      | some c => if c ≠ token then T.default state else T.entry (n + token)

/-- the state after a reduction (parser.c:1927-1933): from the state uncovered and the nonterminal; `none` is an access outside a
table -/
def LRTables.goto (T : LRTables) (state : Nat) (nt : Nat) : Option Nat :=
  match T.pgoto[nt - T.ntokens]?, T.defgoto[nt - T.ntokens]? with
  | some g, some d =>
    if 0 ≤ g + state ∧ g + state ≤ T.last ∧ T.check[(g + state).toNat]? = some (state : Int) then
      (T.table[(g + state).toNat]?).map Int.toNat
    else some d.toNat
  | _, _ => none

/-- the state on top of the stack (the bottom state is 0, parser.c:1268) -/
def topState {V : Type} : List (Nat × V) → Nat
  | [] => 0
  | (s, _) :: _ => s

/-- the number of the next token, 0 at the end of the input (`YYEOF`, parser.c:1371-1375) -/
def nextNum {τ : Type} (num : τ → Nat) : List τ → Nat
  | [] => 0
  | t :: _ => num t

/-- `yyparse` (parser.c:1225-2130) with an explicit stack, top first, without the bottom state.  `num` and `val` give the number and the
semantic value of a token, `eofVal` is the (meaningless) value shifted with the end of input, `action` runs the semantic action of a
rule on the values of its right-hand side.  `none` is a syntax error or the exhaustion of the stack (results 1 and 2; there are no
error productions, so `yyerrlab` empties the stack and gives up, parser.c:1940-2080); `some v` is acceptance (result 0) with the value of
the start symbol.  The stack grows by doubling from 200 to `YYMAXDEPTH` (parser.c:1283-1340): exhausted when its size, with the bottom
state, reaches `YYMAXDEPTH`.  The first argument bounds the number of steps. -/
def lrRun {τ V : Type} (T : LRTables) (num : τ → Nat) (val : τ → V) (eofVal : V) (action : Nat → List V → Except Fault V) :
    Nat → List (Nat × V) → List τ → Except Fault (Option V)
  | 0, _, _ => .error .fuel
  | fuel + 1, stack, input =>
    if T.depth ≤ stack.length + 1 then .ok none
    else if topState stack = T.final then
      match stack with
      | [_, (_, v)] => .ok (some v)
      | _ => .error .ub
    else
      match T.act (topState stack) (nextNum num input) with
      | .bad => .error .ub
      | .error => .ok none
      | .shift s =>
        match input with
        | [] => lrRun T num val eofVal action fuel ((s, eofVal) :: stack) []
        | t :: rest => lrRun T num val eofVal action fuel ((s, val t) :: stack) rest
      | .reduce r =>
        match T.r1[r]?, T.r2[r]? with
        | some nt, some len =>
          if stack.length < len then .error .ub
          else
            match action r ((stack.take len).reverse.map Prod.snd) with
            | .error e => .error e
            | .ok v =>
              match T.goto (topState (stack.drop len)) nt with
              | none => .error .ub
              | some s => lrRun T num val eofVal action fuel ((s, v) :: stack.drop len) input
        | _, _ => .error .ub

end BeTree
