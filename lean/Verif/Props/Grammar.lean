import Verif.Lemmas.XxComplete
/-
C43: the expression parser accepts exactly the sequences of tokens the grammar of Spec/Syntax.lean reads, and builds what they say.
-/
namespace BeTree

/-- C43: the parser returns on every sequence of tokens: it refuses, or gives an expression. -/
theorem C43_parse_total (ts : List Tok) : ∃ r, parseTokens ts = .ok r := by
  rcases xx_parse ts with h | ⟨d, e, _, h⟩
  · exact ⟨_, h⟩
  · exact ⟨_, h⟩

/-- C43: what it accepts is an expression of the grammar, and what it builds is that expression (with the operands of `and` and `or`
ordered by cost). -/
theorem C43_accepted_is_written (ts : List Tok) (e : Expr) (h : parseTokens ts = .ok (some e)) :
    ∃ d e', Reads .or d ts e' ∧ e = parseBuild e' := by
  rcases xx_parse ts with h' | ⟨d, e', hr, h'⟩
  · rw [h'] at h; cases h
  · rw [h'] at h
    exact ⟨d, e', hr, (Option.some.inj (Except.ok.inj h)).symm⟩

/-- C43: it accepts every expression of the grammar whose parentheses and `not`s are nested less than 1990 deep; lists and chains of
`and` and `or` may have any length. -/
theorem C43_written_is_accepted (d : Nat) (ts : List Tok) (e : Expr) (h : Reads .or d ts e) (hd : d < 1990) :
    parseTokens ts = .ok (some (parseBuild e)) :=
  xx_accepts h hd

/-- C43: a sequence of tokens says one thing only. -/
theorem C43_unambiguous (d d' : Nat) (ts : List Tok) (e e' : Expr) (h : Reads .or d ts e) (h' : Reads .or d' ts e') : e = e' :=
  reads_unique h h'

/-- C43: a text that opens 9999 parentheses is refused, whatever follows. -/
theorem C43_too_deep_refused (n : Nat) (hn : 9999 ≤ n) (ts : List Tok) :
    parseTokens (List.replicate n .lparen ++ ts) = .ok none := by
  have := xx_deep ts n 0 (11 * ((List.replicate n Tok.lparen ++ ts).length + 1) + 1) [] rfl
    (by simp only [xxTables]; omega) (by simp only [List.length_append, List.length_replicate]; omega) (Or.inl rfl)
  simp only [parseTokens, this]

/-- `a or b and not (c or d)` is a disjunction -/
example : ∃ d < 1990, Reads .or d
    [.ident ['a'], .or, .ident ['b'], .and, .not, .lparen, .ident ['c'], .or, .ident ['d'], .rparen]
    (.or (.leaf (.boolVar (named ['a'])))
      (.and (.leaf (.boolVar (named ['b'])))
        (.not (.or (.leaf (.boolVar (named ['c']))) (.leaf (.boolVar (named ['d']))))))) := by
  refine ⟨2, by omega, ?_⟩
  exact .or (t1 := [_]) (.only (.one (.atom _ (.boolVar _))))
    (.and (t1 := [_]) (.one (.atom _ (.boolVar _)))
      (.not (.paren (ts := [_, _, _]) (.or (t1 := [_]) (.only (.one (.atom _ (.boolVar _)))) (.one (.atom _ (.boolVar _)))))))

/-- ... and the parser reads it so -/
example : parseTokens [.ident ['a'], .or, .ident ['b'], .and, .not, .lparen, .ident ['c'], .or, .ident ['d'], .rparen] =
    .ok (some (.or (.leaf (.boolVar (named ['a'])))
      (.and (.leaf (.boolVar (named ['b'])))
        (.not (.or (.leaf (.boolVar (named ['c']))) (.leaf (.boolVar (named ['d'])))))))) := by
  rfl

/-- refused: a connective without its right side -/
example : parseTokens [.ident ['a'], .and] = .ok none := by rfl

end BeTree
