import Verif.Lemmas.Lex
import Verif.Lemmas.XxComplete
/-
C44: what an expression text means.

The full property: a text is accepted exactly when the whole of it is an expression of the language, and then it means what it says;
white space between the tokens does not matter, and a number is the number its digits denote.  `C44_ignores_the_rest`,
`C44_space_inside_matters`, `C44_word_split` and `C44_numbers_saturate` show where the code departs from it.  What holds: the tokens of a
text are those of Spec/Text.lean's left-to-right longest division, up to the first character that begins no token; the text is accepted
when (and, up to that character, only when) those tokens are an expression of the grammar; and texts written in the ordinary way (`Written`)
mean what their tokens say, wherever the white space is.
-/
namespace BeTree

/-- C44: every text divides into tokens up to a rest, in one way, and the parser reads exactly those tokens. -/
theorem C44_divided (s : Str) : ∃ ts r, Scan s ts r ∧ (∀ ts' r', Scan s ts' r' → ts' = ts ∧ r' = r) ∧ parseText s = parseTokens ts := by
  obtain ⟨r, h⟩ := lexExpr_scan s
  exact ⟨_, r, h, fun ts' r' h' => scan_unique h' h, rfl⟩

/-- C44, partial: an accepted text begins with an expression of the language and means it.  Missing: that the expression is the whole
text; the text may go on with a character that begins no token, and everything from there on is ignored. -/
theorem C44_accepted_partial (s : Str) (e : Expr) (h : parseText s = .ok (some e)) :
    ∃ ts r d e', Scan s ts r ∧ Reads .or d ts e' ∧ e = parseBuild e' := by
  obtain ⟨r, hs⟩ := lexExpr_scan s
  rcases xx_parse (lexExpr s) with h' | ⟨d, e', hr, h'⟩
  · rw [parseText, h'] at h; cases h
  · rw [parseText, h'] at h
    exact ⟨_, r, d, e', hs, hr, (Option.some.inj (Except.ok.inj h)).symm⟩

/-- C44: a text whose tokens are not an expression of the language is refused. -/
theorem C44_refused (s : Str) (ts : List Tok) (r : Str) (hs : Scan s ts r) (hn : ∀ d e, ¬ Reads .or d ts e) : parseText s = .ok none := by
  rw [parseText, lexExpr_eq hs]
  rcases xx_parse ts with h | ⟨d, e, hr, _⟩
  · exact h
  · exact absurd hr (hn d e)

/-- C44, partial: a text that is an expression of the language is accepted and means it.  Missing: expressions nested 1990 deep or more. -/
theorem C44_scanned_partial (s : Str) (ts : List Tok) (d : Nat) (e : Expr) (hs : Scan s ts []) (hr : Reads .or d ts e) (hd : d < 1990) :
    parseText s = .ok (some (parseBuild e)) := by
  rw [parseText, lexExpr_eq hs]
  exact xx_accepts hr hd

/-- C44, partial: an expression written in the ordinary way is accepted and means what it says.  Missing: as above, and ways of writing
that are not ordinary (`C44_divided` says what their tokens are). -/
theorem C44_written_partial (s : Str) (ts : List Tok) (d : Nat) (e : Expr) (hw : Written ts s) (hr : Reads .or d ts e) (hd : d < 1990) :
    parseText s = .ok (some (parseBuild e)) :=
  C44_scanned_partial s ts d e (written_scan hw) hr hd

/-- C44, partial: two texts that write the same tokens in the ordinary way mean the same: which white space there is does not matter.
Missing: white space inside the `phrases`. -/
theorem C44_layout_partial (s s' : Str) (ts : List Tok) (h : Written ts s) (h' : Written ts s') : parseText s = parseText s' := by
  rw [parseText, parseText, lexExpr_eq (written_scan h), lexExpr_eq (written_scan h')]

/-- the code departs from the property: `x != 3` is accepted as `x`, the rest is silently ignored -/
theorem C44_ignores_the_rest : ¬ ∀ (s : Str) (e : Expr), parseText s = .ok (some e) → ∃ ts, Scan s ts [] := by
  intro h
  obtain ⟨ts, hs⟩ := h "x != 3".toList (.leaf (.boolVar (named ['x']))) rfl
  have h2 : Scan (['x'] ++ ' ' :: '!' :: "= 3".toList) [.ident ['x']] ('!' :: "= 3".toList) := by
    have hx : Spells (.ident ['x']) ['x'] := spells_name (by decide)
    refine .token hx (written_longest hx (.word (by decide) (by decide) (.inl (.inl rfl))) (by decide)) ?_
    refine .blank (.inl rfl) (.stuck (by unfold Blank; decide) ?_)
    intro t w hw hp
    obtain ⟨r, hr, hl⟩ := spells_matched hw hp
    have h0 : ∀ r ∈ tokenRules, r.len ('!' :: "= 3".toList) = 0 := by decide
    obtain ⟨c, x, rfl, _⟩ := spells_first hw
    rw [h0 r hr] at hl
    simp at hl
  have h3 : ([] : Str) = '!' :: "= 3".toList := (scan_unique hs h2).2
  cases h3

/-- ... white space inside `not in` matters: with two blanks the text is refused -/
theorem C44_space_inside_matters :
    parseText "x not in (1)".toList = .ok (some (.leaf (.set .notIn (.var (named ['x'])) (.intList [1])))) ∧
      parseText "x not  in (1)".toList = .ok none :=
  ⟨rfl, rfl⟩

/-- ... a word is split when it begins like one of the phrases: `not inside` is refused, `not  inside` is read -/
theorem C44_word_split :
    parseText "not inside".toList = .ok none ∧
      parseText "not  inside".toList = .ok (some (.not (.leaf (.boolVar (named "inside".toList))))) :=
  ⟨rfl, rfl⟩

/-- ... a number that is too large is another number -/
theorem C44_numbers_saturate :
    parseText "x = 9223372036854775808".toList = .ok (some (.leaf (.equality .eq (named ['x']) (.int 9223372036854775807)))) := rfl

/-- a text, its tokens, and what it says -/
example : ∃ ts, Written ts "not (a = -1.5) or b".toList ∧ ∃ d < 1990, Reads .or d ts
    (.or (.not (.leaf (.equality .eq (named ['a']) (.float (-(3 / 2)))))) (.leaf (.boolVar (named ['b'])))) := by
  have hf : Spells (.float (3 / 2)) "1.5".toList := by
    have h := Spells.float (w := ['1']) (f := ['5']) (by simp) (by unfold Digits; decide) (by unfold Digits; decide)
    have e : rnd (((decimal ['1'] : Nat) : Rat) + (decimal ['5'] : Nat) / 10 ^ ['5'].length) = 3 / 2 := by decide +kernel
    rw [e] at h
    exact h
  have fixed : ∀ (t : Tok) (k : String), k ∈ spellings t → Spells t k.toList := fun t k h => .fixed h
  refine ⟨[.not, .lparen, .ident ['a'], .eq, .minus, .float (3 / 2), .rparen, .or, .ident ['b']], ?_, 2, by omega, ?_⟩
  · refine .token (w := "not".toList) (s := " (a = -1.5) or b".toList) (fixed .not "not" (by decide))
      (.word (by decide) (by decide) (.inl (.inl rfl))) (by decide) ?_
    refine .blank (.inl rfl) (.token (w := "(".toList) (s := "a = -1.5) or b".toList) (fixed .lparen "(" (by decide))
      (.sign (by decide)) (by decide) ?_)
    refine .token (w := ['a']) (s := " = -1.5) or b".toList) (spells_name (by decide))
      (.word (by decide) (by decide) (.inl (.inl rfl))) (by decide) ?_
    refine .blank (.inl rfl) (.token (w := "=".toList) (s := " -1.5) or b".toList) (fixed .eq "=" (by decide))
      (.sign (by decide)) (by decide) ?_)
    refine .blank (.inl rfl) (.token (w := "-".toList) (s := "1.5) or b".toList) (fixed .minus "-" (by decide))
      (.sign (by decide)) (by decide) ?_)
    refine .token (w := "1.5".toList) (s := ") or b".toList) hf (.word (by decide) (by decide) (.inr (by decide))) (by decide) ?_
    refine .token (w := ")".toList) (s := " or b".toList) (fixed .rparen ")" (by decide)) (.sign (by decide)) (by decide) ?_
    refine .blank (.inl rfl) (.token (w := "or".toList) (s := " b".toList) (fixed .or "or" (by decide))
      (.word (by decide) (by decide) (.inl (.inl rfl))) (by decide) ?_)
    exact .blank (.inl rfl) (.token (w := ['b']) (s := []) (spells_name (by decide)) .last (by decide) .nil)
  · exact .or (t1 := [_, _, _, _, _, _, _])
      (.only (.one (.not (.paren (ts := [_, _, _, _]) (.only (.one (.atom _ (.equality _ .eq (.float (.neg _))))))))))
      (.one (.atom _ (.boolVar _)))

end BeTree
