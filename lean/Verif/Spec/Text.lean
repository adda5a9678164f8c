import Verif.Model.Lexer
/-
How the tokens of an expression are written, and how a text divides into tokens.  Nothing here refers to the lexer.
-/
namespace BeTree

/-- the fixed ways of writing a token -/
def spellings : Tok → List String
  | .minus => ["-"]
  | .eq => ["="]
  | .ne => ["<>"]
  | .gt => [">"]
  | .ge => [">="]
  | .lt => ["<"]
  | .le => ["<="]
  | .lparen => ["("]
  | .rparen => [")"]
  | .comma => [","]
  | .notIn => ["not in"]
  | .isIn => ["in"]
  | .oneOf => ["one of"]
  | .noneOf => ["none of"]
  | .allOf => ["all of"]
  | .and => ["&&", "and"]
  | .or => ["||", "or"]
  | .not => ["not"]
  | .withinFrequencyCap => ["within_frequency_cap"]
  | .segmentWithin => ["segment_within"]
  | .segmentBefore => ["segment_before"]
  | .geoWithinRadius => ["geo_within_radius"]
  | .contains => ["contains"]
  | .startsWith => ["starts_with"]
  | .endsWith => ["ends_with"]
  | .isNotNull => ["is not null"]
  | .isNull => ["is null"]
  | .isEmpty => ["is empty"]
  | .true => ["true"]
  | .false => ["false"]
  | .string _ => []
  | .ident _ => []
  | .int _ => []
  | .float _ => []

/-- a name: a letter or underscore, then letters, digits, underscores and dashes; not one of the words above -/
def IsName (w : Str) : Prop :=
  (∃ c r, w = c :: r ∧ (c.isAlpha ∨ c = '_') ∧ ∀ d ∈ r, d.isAlphanum ∨ d = '_' ∨ d = '-') ∧
    ∀ (t : Tok) (k : String), k ∈ spellings t → w ≠ k.toList

/-- only digits -/
def Digits (w : Str) : Prop := ∀ c ∈ w, c.isDigit

/-- the number digits denote -/
def decimal : Str → Nat
  | [] => 0
  | c :: w => (c.toNat - '0'.toNat) * 10 ^ w.length + decimal w

/-- the inside of a string quoted with `q`: no `q` and no newline after a backslash, except that a backslash takes the next character
with it -/
inductive Quotable (q : Char) : Str → Prop where
  | nil : Quotable q []
  | char {c s} : c ≠ q → c ≠ '\\' → Quotable q s → Quotable q (c :: s)
  | escape {c s} : c ≠ '\n' → Quotable q s → Quotable q ('\\' :: c :: s)

/-- `w` is a way of writing the token `t` -/
inductive Spells : Tok → Str → Prop where
  | fixed {t k} : k ∈ spellings t → Spells t k.toList
  | ident {w} : IsName w → Spells (.ident w) w
  | string {q s} : q = '"' ∨ q = '\'' → Quotable q s → Spells (.string s) (q :: s ++ [q])
  /-- numbers beyond the largest one are read as the largest one -/
  | int {w} : w ≠ [] → Digits w → Spells (.int (min (decimal w : Int) (2 ^ 63 - 1))) w
  | float {w f} : w ≠ [] → Digits w → Digits f → Spells (.float (rnd (decimal w + decimal f / 10 ^ f.length))) (w ++ '.' :: f)

/-- white space -/
def Blank (c : Char) : Prop := c = ' ' ∨ c = '\t' ∨ c = '\n'

/-- A text is divided from the left, each time into the longest token that can begin there; white space separates.  `Scan s ts r`: the
text `s` gives the tokens `ts`, up to the rest `r`, which is empty or begins with a character that begins no token. -/
inductive Scan : Str → List Tok → Str → Prop where
  | done : Scan [] [] []
  | stuck {c s} : ¬ Blank c → (∀ t w, Spells t w → ¬ w <+: c :: s) → Scan (c :: s) [] (c :: s)
  | blank {c s ts r} : Blank c → Scan s ts r → Scan (c :: s) ts r
  | token {t w s ts r} : Spells t w → (∀ t' w', Spells t' w' → w' <+: w ++ s → w'.length ≤ w.length) → Scan s ts r →
      Scan (w ++ s) (t :: ts) r

/-- the tokens written as several words -/
def phrases : List String := ["not in", "one of", "none of", "all of", "is not null", "is null", "is empty"]

/-- The token written `w` does not run into the text `s` after it. -/
inductive Apart : Str → Str → Prop where
  /-- there is nothing after it -/
  | last {w} : Apart w []
  /-- it is a sign after which anything may follow -/
  | sign {w s} : w ∈ ["-", "=", "<>", ">=", "<=", "(", ")", ",", "&&", "||"].map String.toList → Apart w s
  /-- `<` and `>`: not before `=` or `>` -/
  | less {c d s} : c = '<' ∨ c = '>' → d ≠ '=' → d ≠ '>' → Apart [c] (d :: s)
  /-- words, numbers and strings: before white space or a sign -/
  | word {w c s} : w ≠ ['<'] → w ≠ ['>'] → Blank c ∨ c ∈ ['(', ')', ',', '=', '<', '>', '&', '|'] → Apart w (c :: s)

/-- The ordinary way of writing tokens one after another: white space anywhere between them, and none needed next to a sign; and no word
taken together with what follows is one of the `phrases`. -/
inductive Written : List Tok → Str → Prop where
  | nil : Written [] []
  | blank {c ts s} : Blank c → Written ts s → Written ts (c :: s)
  | token {t w ts s} : Spells t w → Apart w s → (∀ k ∈ phrases, k.toList <+: w ++ s → k.toList = w) → Written ts s →
      Written (t :: ts) (w ++ s)

end BeTree
