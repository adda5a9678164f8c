import Verif.Model.Lexer
/-
The table-driven scanner that flex puts into lexer.c and event_lexer.c: the same code in both, with different tables and actions.
Texts are C strings: a character stands for the byte with its code, which is neither 0 nor above 255.
-/
namespace BeTree

/-- the tables of a generated scanner (lexer.c:573-741, event_lexer.c:573-660) -/
structure FlexTables where
  /-- `yy_accept`: the rule a state accepts, 0: none -/
  accept : List Nat
  /-- `yy_ec`: the class of a byte -/
  ec : List Nat
  /-- `yy_meta`: the class of a class in template states -/
  metas : List Nat
  /-- `yy_base` -/
  base : List Nat
  /-- `yy_def` -/
  defs : List Nat
  /-- `yy_nxt` -/
  nxt : List Nat
  /-- `yy_chk` -/
  chk : List Nat
  /-- `yy_base` of the states without transitions (lexer.c:1087) -/
  jamBase : Nat
  /-- the first template state (lexer.c:1081) -/
  templates : Nat
  /-- `YY_END_OF_BUFFER` (lexer.c:565) -/
  endOfBuffer : Nat

/-- the transition out of a state on a class of bytes (lexer.c:1078-1084, event_lexer.c:996-1002).  The first argument bounds the
`while` loop: it ends long before, see `C51`; an index outside a table is UB. -/
def flexNext (T : FlexTables) : Nat → Nat → Nat → Except Fault Nat
  | 0, _, _ => .error .ub
  | fuel + 1, d, k =>
    match T.base[d]? with
    | none => .error .ub
    | some b =>
      match T.chk[b + k]? with
      | none => .error .ub
      | some c =>
        if c = d then
          match T.nxt[b + k]? with
          | none => .error .ub
          | some e => .ok e
        else
          match T.defs[d]? with
          | none => .error .ub
          | some d' =>
            if T.templates ≤ d' then
              match T.metas[k]? with
              | none => .error .ub
              | some k' => flexNext T fuel d' k'
            else flexNext T fuel d' k

/-- the transition out of a state on a byte (lexer.c:1072, 1078-1084) -/
def flexTrans (T : FlexTables) (d c : Nat) : Except Fault Nat :=
  match T.ec[c]? with
  | none => .error .ub
  | some k => flexNext T (T.defs.length + 1) d k

/-- `yy_last_accepting_state` and `yy_last_accepting_cpos` at state `d` and position `p` (lexer.c:1073-1077) -/
def flexMark (T : FlexTables) (d p : Nat) (last : Option (Nat × Nat)) : Except Fault (Option (Nat × Nat)) :=
  match T.accept[d]? with
  | none => .error .ub
  | some 0 => .ok last
  | some (_ + 1) => .ok (some (d, p))

/-- `yy_match` (lexer.c:1069-1087, event_lexer.c:987-1005): from state `d` over the rest of the buffer, `p` the position counted from
the beginning of the token.  Reading past the buffer is UB.  Result: the state, the position and the last accepting ones. -/
def flexMatch (T : FlexTables) : Nat → List Nat → Nat → Option (Nat × Nat) → Except Fault (Nat × Nat × Option (Nat × Nat))
  | _, [], _, _ => .error .ub
  | d, c :: buf, p, last =>
    match flexMark T d p last with
    | .error x => .error x
    | .ok last =>
      match flexTrans T d c with
      | .error x => .error x
      | .ok e =>
        match T.base[e]? with
        | none => .error .ub
        | some b => if b = T.jamBase then .ok (e, p + 1, last) else flexMatch T e buf (p + 1) last

/-- `yy_find_action` (lexer.c:1089-1096, event_lexer.c:1007-1014): the rule and the end of the token.  Backing up before any
accepting state was met in the token is UB (in the program the variables are uninitialised or left from the token before); backing
up to no action never ends in the program (lexer.c:1104-1109) and is UB too. -/
def flexAction (T : FlexTables) (d p : Nat) (last : Option (Nat × Nat)) : Except Fault (Nat × Nat) :=
  match T.accept[d]? with
  | none => .error .ub
  | some (a + 1) => .ok (a + 1, p)
  | some 0 =>
    match last with
    | none => .error .ub
    | some (d', p') =>
      match T.accept[d']? with
      | none => .error .ub
      | some 0 => .error .ub
      | some (a + 1) => .ok (a + 1, p')

/-- `yy_get_previous_state` (lexer.c:1592-1620, event_lexer.c:1395-1423): the same transitions over the rest of the text, without
stopping -/
def flexPrevious (T : FlexTables) : Nat → List Nat → Nat → Option (Nat × Nat) → Except Fault (Nat × Option (Nat × Nat))
  | d, [], _, last => .ok (d, last)
  | d, c :: s, p, last =>
    match flexMark T d p last with
    | .error x => .error x
    | .ok last =>
      match flexTrans T d c with
      | .error x => .error x
      | .ok e => flexPrevious T e s (p + 1) last

/-- One round of `yylex` (lexer.c:1057-1440): which rule matches how many bytes of the rest of the text, `none` at its end.  The buffer
holds the text and two zero bytes (`yy_scan_bytes`, lexer.c:2097-2125).  `YY_END_OF_BUFFER` (lexer.c:1318-1433): with
`yy_fill_buffer == 0` (lexer.c:2070) `yy_get_next_buffer` ends the scan if nothing was matched, else the last match is taken. -/
def flexToken (T : FlexTables) (s : List Nat) : Except Fault (Option (Nat × Nat)) :=
  match flexMatch T 1 (s ++ [0, 0]) 0 none with
  | .error x => .error x
  | .ok (d, p, last) =>
    match flexAction T d p last with
    | .error x => .error x
    | .ok (a, p) =>
      if a = T.endOfBuffer then
        if p ≤ s.length then .error .ub -- a zero byte inside the text: excluded
        else if s.length + 1 < p then .error .abort -- "end of buffer missed" (lexer.c:1462-1464)
        else if p = 1 then .ok none
        else
          match flexPrevious T 1 s 0 last with
          | .error x => .error x
          | .ok (d, last) =>
            match flexAction T d s.length last with
            | .error x => .error x
            | .ok (a, p) => if a = T.endOfBuffer then .error .ub else .ok (some (a, p))
      else .ok (some (a, p))

/-- `yylex` called until the end of the text or `yyterminate()`, with the actions of the rules.  The first argument counts bytes still
to be passed over (lexer.c, called at parser.c:1372). -/
def flexGo {τ : Type} (T : FlexTables) (acts : List (Str → LexAct τ)) : Nat → Str → Except Fault (List τ)
  | k + 1, _ :: s => flexGo T acts k s
  | _, [] =>
    match flexToken T [] with
    | .error x => .error x
    | .ok none => .ok []
    | .ok (some _) => .error .ub -- the scanner would never end
  | 0, c :: s =>
    match flexToken T ((c :: s).map Char.toNat) with
    | .error x => .error x
    | .ok none => .ok []
    | .ok (some (a, n)) =>
      match acts[a - 1]? with
      | none => .error .abort -- "no action found" (lexer.c:1436-1438)
      | some act =>
        match act ((c :: s).take n) with
        | .stop => .ok []
        | .skip => if n = 0 then .error .ub else flexGo T acts (n - 1) s
        | .emit t =>
          if n = 0 then .error .ub
          else
            match flexGo T acts (n - 1) s with
            | .error x => .error x
            | .ok ts => .ok (t :: ts)

end BeTree
