import Verif.Lemmas.Printed
/-
C49: the text of an expression.

The full property: printing an expression that was read from a text gives a text that is read as the same expression, and prints the same
again.  `C49_null_test_refused`, `C49_digits_lost`, `C49_quote_changes_meaning`, `C49_negative_length` and `C49_unknown_type_aborts` show
where the code departs from it.  What holds: decimal constants come back rounded to two decimals, everything else comes back as it was,
as long as strings can be put between double quotes, the unsigned numbers fit in 63 bits and there are no null tests.
-/
namespace BeTree

/-- C49: printing an expression read from a text never fails, when its cap types are known ones. -/
theorem C49_prints (text : Str) (e : Expr) (h : parseText text = .ok (some e))
    (ht : Everywhere (fun p => ∀ f, p = .freq f → f.type ≠ .invalid) e) : ∃ s, e.print = .ok s := by
  obtain ⟨h1, _⟩ := parsed_everywhere (P := fun p => (∀ f, p = .freq f → f.type ≠ .invalid) → ∃ w, p.print = .ok w)
    (fun _ _ h _ hf => print_atom_ok h hf) h
  exact print_ok (everywhere_mono (fun p hp => hp.1 hp.2) (everywhere_and h1 ht))

/-- C49, partial: the text printed for an expression is read as that expression, up to rounding.  Missing: null tests, strings that cannot
be put between double quotes, lengths and segment ids of 2^63 or more, unknown cap types, and expressions nested too deep. -/
theorem C49_reads_back_partial (text : Str) (e : Expr) (h : parseText text = .ok (some e)) (hw : Everywhere Writable e)
    (hd : depthInParens e < 1990) :
    ∃ s e', e.print = .ok s ∧ parseText s = .ok (some e') ∧ Alongside Rounded e e' :=
  parse_printed h hw hd

/-- C49, partial: ... and without rounding, when the constants have at most two decimals: only the name of the segments is written out; it
holds on the same events, and prints the same again.  Missing: as above. -/
theorem C49_same_meaning_partial (text : Str) (e : Expr) (h : parseText text = .ok (some e)) (hw : Everywhere Writable e)
    (ht : Everywhere TwoDecimals e) (hd : depthInParens e < 1990) :
    ∃ s e', e.print = .ok s ∧ parseText s = .ok (some e') ∧ Alongside (fun p p' => p' = writeSegments p) e e' ∧
      (∀ geo cs ev, Spec.sat geo cs ev e' ↔ Spec.sat geo cs ev e) ∧ e'.print = .ok s := by
  obtain ⟨s, e', h1, h2, h3⟩ := parse_printed h hw hd
  have h4 := alongside_exact h3 ht
  exact ⟨s, e', h1, h2, h4, alongside_sat h4, by rw [alongside_print h4, h1]⟩

/-- the code departs from the property: whatever has a null test in it prints as a text that is refused -/
theorem C49_null_test_refused (text : Str) (e : Expr) (h : parseText text = .ok (some e)) (hn : HasNull e)
    (hw : Everywhere (fun p => Writable p ∨ ∃ o v, p = .isNull o v) e) :
    ∃ s, e.print = .ok s ∧ parseText s = .ok none := by
  have h0 : Everywhere (fun p => ∀ f, p = .freq f → f.type ≠ .invalid) e := by
    refine everywhere_mono ?_ hw
    rintro p (hp | ⟨o, v, rfl⟩) f hf
    · subst hf; exact hp.1
    · cases hf
  obtain ⟨s, hs⟩ := C49_prints text e h h0
  refine ⟨s, hs, ?_⟩
  obtain ⟨h1, _⟩ := parsed_everywhere (P := fun p => Writable p → PrintsBack p) (fun _ _ h hs hp => prints_atom h hs hp) h
  have h2 : Everywhere (fun p => PrintsBack p ∨ ∃ o v, p = .isNull o v) e :=
    everywhere_mono (fun p hp => hp.2.imp_left hp.1) (everywhere_and h1 hw)
  have h3 := null_prints h2 hn hs []
  rw [List.append_nil] at h3
  exact unfinished_refused h3

/-- ... constants with more than two decimals are other constants: `x > 0.001` prints as `x > 0.00` -/
theorem C49_digits_lost :
    parseText "x > 0.001".toList = .ok (some (.leaf (.compare .gt (named ['x']) (.float (rnd (1 / 1000)))))) ∧
      Expr.print (.leaf (.compare .gt (named ['x']) (.float (rnd (1 / 1000))))) = .ok "x > 0.00".toList ∧
      parseText "x > 0.00".toList = .ok (some (.leaf (.compare .gt (named ['x']) (.float 0)))) := by
  refine ⟨?_, ?_, ?_⟩ <;> decide +kernel

/-- ... a string with double quotes in it may print as another expression: this equality prints as a disjunction -/
theorem C49_quote_changes_meaning :
    parseText "s = 'a\" or x or s = \"b'".toList = .ok (some (.leaf (.equality .eq (named ['s']) (.string (quoted "a\" or x or s = \"b".toList))))) ∧
      Expr.print (.leaf (.equality .eq (named ['s']) (.string (quoted "a\" or x or s = \"b".toList)))) =
        .ok "s = \"a\" or x or s = \"b\"".toList ∧
      parseText "s = \"a\" or x or s = \"b\"".toList = .ok (some (.or (.leaf (.equality .eq (named ['s']) (.string (quoted ['b']))))
        (.or (.leaf (.equality .eq (named ['s']) (.string (quoted ['a'])))) (.leaf (.boolVar (named ['x'])))))) := by
  refine ⟨?_, ?_, ?_⟩ <;> decide +kernel

/-- ... a negative length is kept as a large number, which is printed, and read as another one -/
theorem C49_negative_length :
    ∃ e s e', parseText "within_frequency_cap(\"flight\", \"ns\", 1, -1)".toList = .ok (some e) ∧
      e.print = .ok s ∧ s = "within_frequency_cap(\"flight\", \"ns\", 1, 18446744073709551615)".toList ∧
      parseText s = .ok (some e') ∧ e' ≠ e := by
  refine ⟨.leaf (.freq ⟨named "frequency_caps".toList, .flight, quoted "ns".toList, 1, 2 ^ 64 - 1, named "now".toList, 2 ^ 32 - 1⟩), _,
    .leaf (.freq ⟨named "frequency_caps".toList, .flight, quoted "ns".toList, 1, 2 ^ 63 - 1, named "now".toList, 2 ^ 32 - 1⟩),
    ?_, ?_, rfl, ?_, ?_⟩ <;> decide +kernel

/-- ... a cap type the language does not know is read, and aborts when printed -/
theorem C49_unknown_type_aborts :
    ∃ e, parseText "within_frequency_cap(\"x\", \"ns\", 1, 2)".toList = .ok (some e) ∧ e.print = .error .abort := by
  refine ⟨.leaf (.freq ⟨named "frequency_caps".toList, .invalid, quoted "ns".toList, 1, 2, named "now".toList, 2 ^ 32 - 1⟩), ?_, ?_⟩ <;>
    decide +kernel

/-- an expression that comes back as it was, but for the name of the segments -/
example : ∃ e, parseText "not (f >= -1.5) and (segment_within(1, 20) or s not in (\"a\", \"b\"))".toList = .ok (some e) ∧
    Everywhere Writable e ∧ Everywhere TwoDecimals e ∧ depthInParens e < 1990 ∧
    e.print = .ok "(((not (f >= -1.50))) and (((s not in (\"a\", \"b\")) or (segment_within(segments_with_timestamp, 1, 20)))))".toList := by
  refine ⟨.and (.not (.leaf (.compare .ge (named ['f']) (.float (-(3 / 2))))))
    (.or (.leaf (.set .notIn (.var (named ['s'])) (.strList [quoted ['a'], quoted ['b']])))
      (.leaf (.segment ⟨.within, false, named "segments_with_timestamp".toList, 1, 20, named "now".toList⟩))), ?_, ?_, ?_, ?_, ?_⟩
  · decide +kernel
  · refine ⟨trivial, ?_, ?_⟩
    · intro x hx
      exact quotable_plain (by revert x; decide)
    · show (1 : Nat) < 2 ^ 63
      norm_num
  · exact ⟨⟨-150, by norm_num, by norm_num, by decide +kernel⟩, trivial, trivial⟩
  · decide
  · decide +kernel

/-- a null test -/
example : ∃ e, parseText "b and x is null".toList = .ok (some e) ∧ HasNull e ∧ Everywhere (fun p => Writable p ∨ ∃ o v, p = .isNull o v) e :=
  ⟨.and (.leaf (.isNull .isNull (named ['x']))) (.leaf (.boolVar (named ['b']))), by decide +kernel, .inl ⟨_, _, rfl⟩, .inr ⟨_, _, rfl⟩, .inl trivial⟩

end BeTree
