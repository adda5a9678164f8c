import Verif.Model.FlexTables
import Verif.Model.EventParser
/-
The scanners of lexer.c and event_lexer.c, and the parsers that call them.
-/
namespace BeTree

/-- the actions of the expression scanner (lexer.c:1111-1313), which are those of lexer.l:35-73; rule 40 is flex's default rule `ECHO` -/
def xxActs : List (Str → LexAct Tok) := xxRules.map LexRule.act ++ [fun _ => .skip]

/-- the actions of the event scanner (event_lexer.c:1029-1116), which are those of event_lexer.l:34-50; rule 17 is `ECHO` -/
def zzActs : List (Str → LexAct ETok) := zzRules.map LexRule.act ++ [fun _ => .skip]

/-- the tokens of an expression text, by the generated scanner (lexer.c:1015-1446) -/
def flexExpr (text : Str) : Except Fault (List Tok) := flexGo xxFlex xxActs 0 text

/-- the tokens of an event text, by the generated scanner (event_lexer.c:933-1249) -/
def flexEvent (text : Str) : Except Fault (List ETok) := flexGo zzFlex zzActs 0 text

/-- `parse` (parser.y:237-255) with the generated scanner.  Simplification: all tokens are made before the parser runs; the scanner does
not depend on the parser. -/
def parseFlex (text : Str) : Except Fault (Option Expr) :=
  match flexExpr text with
  | .error x => .error x
  | .ok ts => parseTokens ts

/-- `event_parse` (event_parser.y:179-198) with the generated scanner -/
def parseEventFlex (text : Str) : Except Fault (Option (List EventVar)) :=
  match flexEvent text with
  | .error x => .error x
  | .ok ts => parseEventTokens ts

end BeTree
