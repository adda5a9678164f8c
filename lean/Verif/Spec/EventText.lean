import Verif.Spec.Text
import Verif.Spec.EventSyntax
/-
How the tokens of an event are written, and how an event text divides into tokens.  Nothing here refers to the lexer.
-/
namespace BeTree

/-- the tokens with one fixed way of writing them -/
def evFixed : List (String × ETok) := [("-", .minus), ("[", .lsquare), ("]", .rsquare), ("{", .lcurly), ("}", .rcurly), (",", .comma),
  (":", .colon), ("true", .true), ("false", .false), ("null", .null)]

/-- `w` is a way of writing the token `t` -/
inductive EvSpells : ETok → Str → Prop where
  | fixed {t k} : (k, t) ∈ evFixed → EvSpells t k.toList
  | string {q s} : q = '"' ∨ q = '\'' → Quotable q s → EvSpells (.string s) (q :: s ++ [q])
  /-- numbers beyond the largest one are read as the largest one -/
  | int {w} : w ≠ [] → Digits w → EvSpells (.int (min (decimal w : Int) (2 ^ 63 - 1))) w
  | float {w f} : w ≠ [] → Digits w → Digits f → EvSpells (.float (rnd (decimal w + decimal f / 10 ^ f.length))) (w ++ '.' :: f)

/-- A text is divided from the left, each time into the longest token that can begin there; white space separates.  `EvScan s ts r`: the
text `s` gives the tokens `ts`, up to the rest `r`, which is empty or begins with a character that begins no token. -/
inductive EvScan : Str → List ETok → Str → Prop where
  | done : EvScan [] [] []
  | stuck {c s} : ¬ Blank c → (∀ t w, EvSpells t w → ¬ w <+: c :: s) → EvScan (c :: s) [] (c :: s)
  | blank {c s ts r} : Blank c → EvScan s ts r → EvScan (c :: s) ts r
  | token {t w s ts r} : EvSpells t w → (∀ t' w', EvSpells t' w' → w' <+: w ++ s → w'.length ≤ w.length) → EvScan s ts r →
      EvScan (w ++ s) (t :: ts) r

/-- a token that is a number -/
def IsNumber : ETok → Prop
  | .int _ => True
  | .float _ => True
  | _ => False

/-- Tokens written one after another: white space anywhere between them, and none needed except that a number is not directly before a
digit or a point. -/
inductive EvWritten : List ETok → Str → Prop where
  | nil : EvWritten [] []
  | blank {c ts s} : Blank c → EvWritten ts s → EvWritten ts (c :: s)
  | token {t w ts s} : EvSpells t w → (IsNumber t → ∀ c ∈ s.head?, ¬ c.isDigit ∧ c ≠ '.') → EvWritten ts s →
      EvWritten (t :: ts) (w ++ s)

end BeTree
