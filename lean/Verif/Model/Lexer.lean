import Verif.Model.Types
/-
lexer.l: the expression lexer, and what it shares with event_lexer.l.  flex picks the rule with the longest match, the first one among
equals.
-/
namespace BeTree

/-- the tokens of lexer.l:36-72 with their values; numbers have passed `strtoll`/`atof`, strings have lost their quotes -/
inductive Tok where
  | minus | eq | ne | gt | ge | lt | le | lparen | rparen | comma | notIn | isIn | oneOf | noneOf | allOf
  | and | or | not | withinFrequencyCap | segmentWithin | segmentBefore | geoWithinRadius | contains | startsWith | endsWith
  | isNotNull | isNull | isEmpty | true | false
  | string (s : Str)
  | ident (s : Str)
  | int (n : Int)
  | float (q : Rat)
  deriving DecidableEq, Repr

/-- what a rule of the lexer does: nothing, return a token, or `yyterminate()`, which the parser sees as the end of the input (lexer.l:35-73) -/
inductive LexAct (τ : Type) where
  | skip
  | emit (t : τ)
  | stop

/-- a rule: how many characters of the text it matches at its beginning (0: it does not match), and its action on them (lexer.l:35-73) -/
structure LexRule (τ : Type) where
  len : Str → Nat
  act : Str → LexAct τ

/-- a literal pattern (lexer.l:36-67) -/
def litLen (k s : Str) : Nat := if k.isPrefixOf s then k.length else 0

/-- `[ \t\n]` (lexer.l:35, event_lexer.l:34) -/
def blankLen : Str → Nat
  | c :: _ => if c = ' ' ∨ c = '\t' ∨ c = '\n' then 1 else 0
  | [] => 0

/-- after an opening quote `q`: `(\\.|[^q\\])*q`, a backslash takes the next character with it, which cannot be a newline
(lexer.l:68-69, event_lexer.l:45-46) -/
def bodyLen (q : Char) : Str → Option Nat
  | [] => none
  | c :: s =>
    if c = q then some 1
    else if c = '\\' then
      match s with
      | [] => none
      | d :: s => if d = '\n' then none else (bodyLen q s).map (· + 2)
    else (bodyLen q s).map (· + 1)

/-- `q(\\.|[^q\\])*q` (lexer.l:68-69, event_lexer.l:45-46) -/
def quotedLen (q : Char) : Str → Nat
  | c :: s => if c = q then (match bodyLen q s with | some n => n + 1 | none => 0) else 0
  | [] => 0

/-- how many characters at the beginning satisfy `p` (lexer.l:70-72) -/
def spanLen (p : Char → Bool) : Str → Nat
  | c :: s => if p c then spanLen p s + 1 else 0
  | [] => 0

/-- `[0-9]` (lexer.l:71) -/
def isDigit (c : Char) : Bool := '0' ≤ c && c ≤ '9'
/-- `[a-zA-Z_]` (lexer.l:70) -/
def isNameStart (c : Char) : Bool := ('a' ≤ c && c ≤ 'z') || ('A' ≤ c && c ≤ 'Z') || c == '_'
/-- `[a-zA-Z0-9_-]` (lexer.l:70) -/
def isNameChar (c : Char) : Bool := isNameStart c || isDigit c || c == '-'

/-- `[a-zA-Z_][a-zA-Z0-9_-]*` (lexer.l:70) -/
def nameLen : Str → Nat
  | c :: s => if isNameStart c then spanLen isNameChar s + 1 else 0
  | [] => 0

/-- `[0-9]+` (lexer.l:71, event_lexer.l:47) -/
def intLen (s : Str) : Nat := spanLen isDigit s

/-- `[0-9]+\.[0-9]*` (lexer.l:72, event_lexer.l:48) -/
def floatLen (s : Str) : Nat :=
  if spanLen isDigit s = 0 then 0
  else
    match s.drop (spanLen isDigit s) with
    | '.' :: rest => spanLen isDigit s + 1 + spanLen isDigit rest
    | _ => 0

/-- `.`: any character but a newline (lexer.l:73, event_lexer.l:50) -/
def anyLen : Str → Nat
  | c :: _ => if c = '\n' then 0 else 1
  | [] => 0

/-- the number a string of digits denotes (for `strtoll` and `atof` at lexer.l:12-13) -/
def digitsVal (s : Str) : Nat := s.foldl (fun n c => 10 * n + (c.toNat - '0'.toNat)) 0

/-- `strtoll(yytext, NULL, 10)` on digits: numbers too large become `INT64_MAX` (lexer.l:12) -/
def strtoll (s : Str) : Int := if (digitsVal s : Int) ≤ int64Max then digitsVal s else int64Max

/-- `atof(yytext)` on digits with a point (lexer.l:13): the nearest `double` -/
def atof (s : Str) : Rat :=
  rnd (digitsVal (s.take (spanLen isDigit s))
    + mkRat (digitsVal (s.drop (spanLen isDigit s + 1))) (10 ^ (s.drop (spanLen isDigit s + 1)).length))

/-- `SAVE_STRING` (lexer.l:6-10): without the quotes; backslashes stay -/
def unquote (s : Str) : Str := (s.drop 1).dropLast

/-- the longest match, the first among equals (flex's rule); `none` when nothing matches (lexer.l:35-73) -/
def lexBest {τ : Type} (s : Str) : List (LexRule τ) → Option (Nat × LexRule τ)
  | [] => none
  | r :: rs =>
    match lexBest s rs with
    | none => if r.len s = 0 then none else some (r.len s, r)
    | some (n, r') => if r.len s ≠ 0 ∧ n ≤ r.len s then some (r.len s, r) else some (n, r')

/-- `yylex` called until the end of the text or `yyterminate()`.  The first argument counts characters still to be passed over.  (An
unmatched character would be echoed and skipped by flex; with a rule for every character this does not happen.) (parser.c:1372) -/
def lexGo {τ : Type} (rules : List (LexRule τ)) : Nat → Str → List τ
  | _, [] => []
  | k + 1, _ :: s => lexGo rules k s
  | 0, c :: s =>
    match lexBest (c :: s) rules with
    | none => lexGo rules 0 s
    | some (n, r) =>
      match r.act ((c :: s).take n) with
      | .skip => lexGo rules (n - 1) s
      | .emit t => t :: lexGo rules (n - 1) s
      | .stop => []

/-- a rule with a literal pattern (lexer.l:36-67) -/
def litRule {τ : Type} (k : String) (t : τ) : LexRule τ := ⟨litLen k.toList, fun _ => .emit t⟩

/-- the rules of lexer.l:35-73, in their order -/
def xxRules : List (LexRule Tok) := [
  ⟨blankLen, fun _ => .skip⟩,
  litRule "within_frequency_cap" .withinFrequencyCap,
  litRule "segment_within" .segmentWithin,
  litRule "segment_before" .segmentBefore,
  litRule "geo_within_radius" .geoWithinRadius,
  litRule "contains" .contains,
  litRule "starts_with" .startsWith,
  litRule "ends_with" .endsWith,
  litRule "-" .minus,
  litRule "=" .eq,
  litRule "<>" .ne,
  litRule ">" .gt,
  litRule ">=" .ge,
  litRule "<" .lt,
  litRule "<=" .le,
  litRule "(" .lparen,
  litRule ")" .rparen,
  litRule "," .comma,
  litRule "not in" .notIn,
  litRule "in" .isIn,
  litRule "one of" .oneOf,
  litRule "none of" .noneOf,
  litRule "all of" .allOf,
  litRule "&&" .and,
  litRule "and" .and,
  litRule "||" .or,
  litRule "or" .or,
  litRule "not" .not,
  litRule "is not null" .isNotNull,
  litRule "is null" .isNull,
  litRule "is empty" .isEmpty,
  litRule "true" .true,
  litRule "false" .false,
  ⟨quotedLen '"', fun s => .emit (.string (unquote s))⟩,
  ⟨quotedLen '\'', fun s => .emit (.string (unquote s))⟩,
  ⟨nameLen, fun s => .emit (.ident s)⟩,
  ⟨intLen, fun s => .emit (.int (strtoll s))⟩,
  ⟨floatLen, fun s => .emit (.float (atof s))⟩,
  ⟨anyLen, fun _ => .stop⟩]

/-- the tokens of an expression text (lexer.l) (lexer.l:35-73) -/
def lexExpr (text : Str) : List Tok := lexGo xxRules 0 text

end BeTree
