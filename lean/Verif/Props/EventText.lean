import Verif.Lemmas.EvLex
import Verif.Lemmas.ZzComplete
/-
C45: what an event text means.

The full property: a text is accepted exactly when the whole of it is an event, and then it means what it says; white space between the
tokens does not matter, and a number is the number its digits denote.  `C45_ignores_the_rest`, `C45_numbers_saturate` and
`C45_caps_truncated` show where the code departs from it.
-/
namespace BeTree

/-- C45: reading an event never faults and never runs out of stack, whatever the text and however long. -/
theorem C45_parse_total (s : Str) : ∃ r, parseEventText s = .ok r := by
  rcases zz_parse (lexEvent s) with h | ⟨l, _, h⟩
  · exact ⟨none, h⟩
  · exact ⟨some l, h⟩

/-- C45: every text divides into tokens up to a rest, in one way, and the parser reads exactly those tokens. -/
theorem C45_divided (s : Str) :
    ∃ ts r, EvScan s ts r ∧ (∀ ts' r', EvScan s ts' r' → ts' = ts ∧ r' = r) ∧ parseEventText s = parseEventTokens ts := by
  obtain ⟨r, h⟩ := lexEvent_scan s
  exact ⟨_, r, h, fun ts' r' h' => evScan_unique h' h, rfl⟩

/-- C45, partial: an accepted text begins with an event and means it.  Missing: that the event is the whole text; the text may go on with
a character that begins no token, and everything from there on is ignored. -/
theorem C45_accepted_partial (s : Str) (l : List EventVar) (h : parseEventText s = .ok (some l)) :
    ∃ ts r, EvScan s ts r ∧ EvEvent ts l := by
  obtain ⟨r, hs⟩ := lexEvent_scan s
  rcases zz_parse (lexEvent s) with h' | ⟨l', hr, h'⟩
  · rw [parseEventText, h'] at h; cases h
  · rw [parseEventText, h'] at h
    cases h
    exact ⟨_, r, hs, hr⟩

/-- C45: a text whose tokens are not an event is refused. -/
theorem C45_refused (s : Str) (ts : List ETok) (r : Str) (hs : EvScan s ts r) (hn : ∀ l, ¬ EvEvent ts l) :
    parseEventText s = .ok none := by
  rw [parseEventText, lexEvent_eq hs]
  rcases zz_parse ts with h | ⟨l, hr, _⟩
  · exact h
  · exact absurd hr (hn l)

/-- C45: a text that is an event is accepted and means it, however many variables and values there are. -/
theorem C45_scanned (s : Str) (ts : List ETok) (l : List EventVar) (hs : EvScan s ts []) (hr : EvEvent ts l) :
    parseEventText s = .ok (some l) := by
  rw [parseEventText, lexEvent_eq hs]
  exact zz_accepts hr

/-- C45: an event written in the ordinary way is accepted and means what it says. -/
theorem C45_written (s : Str) (ts : List ETok) (l : List EventVar) (hw : EvWritten ts s) (hr : EvEvent ts l) :
    parseEventText s = .ok (some l) :=
  C45_scanned s ts l (evWritten_scan hw) hr

/-- C45: tokens say at most one event, a text too. -/
theorem C45_unambiguous (ts : List ETok) (l l' : List EventVar) (h : EvEvent ts l) (h' : EvEvent ts l') : l = l' := by
  have h1 := zz_accepts h
  rw [zz_accepts h'] at h1
  cases h1
  rfl

/-- C45: which white space there is between the tokens does not matter. -/
theorem C45_layout (s s' : Str) (ts : List ETok) (h : EvWritten ts s) (h' : EvWritten ts s') : parseEventText s = parseEventText s' := by
  rw [parseEventText, parseEventText, lexEvent_eq (evWritten_scan h), lexEvent_eq (evWritten_scan h')]

/-- C45: writing a variable with the value `null` is the same as leaving it out. -/
theorem C45_null_is_absent (ts ts' : List ETok) (l l' : List (Option EventVar)) 
    (h : EvMany EvVar ts (l ++ l')) (h' : EvMany EvVar ts' (l ++ none :: l')) :
    parseEventTokens (.lcurly :: ts' ++ [.rcurly]) = parseEventTokens (.lcurly :: ts ++ [.rcurly]) := by
  rw [zz_accepts (.vars h), zz_accepts (.vars h')]
  simp

/-- the code departs from the property: what follows an event is silently ignored from the first character that begins no token -/
theorem C45_ignores_the_rest :
    ¬ ∀ (s : Str) (l : List EventVar), parseEventText s = .ok (some l) → ∃ ts, EvScan s ts [] := by
  intro h
  obtain ⟨ts, hs⟩ := h "{}; junk".toList [] rfl
  have h2 : EvScan (['{'] ++ (['}'] ++ "; junk".toList)) [.lcurly, .rcurly] "; junk".toList := by
    have h1 : EvSpells .lcurly ['{'] := .fixed (k := "{") (by decide)
    have h2 : EvSpells .rcurly ['}'] := .fixed (k := "}") (by decide)
    refine .token h1 (evWritten_longest h1 (fun h => h.elim)) (.token h2 (evWritten_longest h2 (fun h => h.elim)) ?_)
    refine .stuck (c := ';') (s := " junk".toList) (by unfold Blank; decide) ?_
    intro t w hw hp
    obtain ⟨r, hr, hl⟩ := evSpells_matched hw hp
    have h0 : ∀ r ∈ zTokenRules, r.len (';' :: " junk".toList) = 0 := by decide
    obtain ⟨c, x, rfl, _⟩ := evSpells_first hw
    rw [h0 r hr] at hl
    simp at hl
  have h3 : ([] : Str) = "; junk".toList := (evScan_unique hs h2).2
  cases h3

/-- ... a number that is too large is another number; the least `int64_t` cannot be written -/
theorem C45_numbers_saturate :
    parseEventText "{\"x\": -9223372036854775808}".toList = .ok (some [⟨['x'], .int (-9223372036854775807)⟩]) := by decide +kernel

/-- ... the id and the value of a frequency cap are taken modulo 2^32 -/
theorem C45_caps_truncated :
    parseEventText "{\"f\": [[\"campaign\", 4294967296, \"ns\", -1, 0]]}".toList =
      .ok (some [⟨['f'], .freq [{ type := .campaign, id := 0, ns := quoted "ns".toList, timestampDefined := true, timestamp := 0, value := 4294967295 }]⟩]) := by
  decide +kernel

/-- ... a backslash in a string stays there: `"a\"b"` is the four characters `a\"b` -/
theorem C45_backslash_stays :
    parseEventText "{\"x\": \"a\\\"b\"}".toList = .ok (some [⟨['x'], .string (quoted ['a', '\\', '"', 'b'])⟩]) := by decide +kernel

/-- a text, its tokens, and what it says -/
example : ∃ ts, EvWritten ts "{'a':-1, \"b\" : null }".toList ∧
    EvEvent ts [⟨['a'], .int (-1)⟩] := by
  have fixed : ∀ (t : ETok) (k : String), (k, t) ∈ evFixed → EvSpells t k.toList := fun t k h => .fixed h
  have h1 : EvSpells (.int 1) ['1'] := EvSpells.int (w := ['1']) (by simp) (by unfold Digits; decide)
  refine ⟨[.lcurly, .string ['a'], .colon, .minus, .int 1, .comma, .string ['b'], .colon, .null, .rcurly], ?_, ?_⟩
  · refine .token (w := "{".toList) (s := "'a':-1, \"b\" : null }".toList) (fixed .lcurly "{" (by decide)) (fun h => h.elim) ?_
    refine .token (w := "'a'".toList) (s := ":-1, \"b\" : null }".toList)
      (.string (q := '\'') (s := ['a']) (.inr rfl) (.char (by decide) (by decide) .nil)) (fun h => h.elim) ?_
    refine .token (w := ":".toList) (s := "-1, \"b\" : null }".toList) (fixed .colon ":" (by decide)) (fun h => h.elim) ?_
    refine .token (w := "-".toList) (s := "1, \"b\" : null }".toList) (fixed .minus "-" (by decide)) (fun h => h.elim) ?_
    refine .token (w := ['1']) (s := ", \"b\" : null }".toList) h1 (fun _ => by decide) ?_
    refine .token (w := ",".toList) (s := " \"b\" : null }".toList) (fixed .comma "," (by decide)) (fun h => h.elim) ?_
    refine .blank (.inl rfl) (.token (w := "\"b\"".toList) (s := " : null }".toList)
      (.string (q := '"') (s := ['b']) (.inl rfl) (.char (by decide) (by decide) .nil)) (fun h => h.elim) ?_)
    refine .blank (.inl rfl) (.token (w := ":".toList) (s := " null }".toList) (fixed .colon ":" (by decide)) (fun h => h.elim) ?_)
    refine .blank (.inl rfl) (.token (w := "null".toList) (s := " }".toList) (fixed .null "null" (by decide)) (fun h => h.elim) ?_)
    exact .blank (.inl rfl) (.token (w := "}".toList) (s := []) (fixed .rcurly "}" (by decide)) (fun h => h.elim) .nil)
  · exact .vars (ts := [_, _, _, _, _, _, _, _]) (l := [some _, none])
      (.more (ts := [_, _, _, _]) (l := [_]) (.one (.value _ (.int (.neg 1)))) (.null _))

/-- an event with values of every kind -/
example : parseEventText "{\"b\": true, \"i\": 3, \"f\": -2.50, \"s\": 'x', \"n\": null, \"il\": [1, -2], \"sl\": [\"u\", 'v'],
      \"e\": [], \"seg\": [[1, 20]], \"fc\": [[[\"flight\", 7, \"ns\"], 2, 30]]}".toList =
    .ok (some [⟨"b".toList, .bool true⟩, ⟨"i".toList, .int 3⟩, ⟨"f".toList, .float (-(5 / 2))⟩, ⟨"s".toList, .string (quoted "x".toList)⟩,
      ⟨"il".toList, .intList [1, -2]⟩, ⟨"sl".toList, .strList [quoted "u".toList, quoted "v".toList]⟩, ⟨"e".toList, .intList []⟩,
      ⟨"seg".toList, .segments [⟨1, 20⟩]⟩,
      ⟨"fc".toList, .freq [{ type := .flight, id := 7, ns := quoted "ns".toList, timestampDefined := true, timestamp := 30, value := 2 }]⟩]) := by
  decide +kernel

/-- a text whose tokens are not an event: a list with a float -/
example : ∃ ts, EvScan "{\"b\":[1.5]}".toList ts [] ∧ ∀ l, ¬ EvEvent ts l := by
  have fixed : ∀ (t : ETok) (k : String), (k, t) ∈ evFixed → EvSpells t k.toList := fun t k h => .fixed h
  have hf : EvSpells (.float (3 / 2)) "1.5".toList := by
    have h := EvSpells.float (w := ['1']) (f := ['5']) (by simp) (by unfold Digits; decide) (by unfold Digits; decide)
    have e : rnd (((decimal ['1'] : Nat) : Rat) + (decimal ['5'] : Nat) / 10 ^ ['5'].length) = 3 / 2 := by decide +kernel
    rw [e] at h
    exact h
  refine ⟨[.lcurly, .string ['b'], .colon, .lsquare, .float (3 / 2), .rsquare, .rcurly], evWritten_scan ?_, ?_⟩
  · refine .token (w := "{".toList) (s := "\"b\":[1.5]}".toList) (fixed .lcurly "{" (by decide)) (fun h => h.elim) ?_
    refine .token (w := "\"b\"".toList) (s := ":[1.5]}".toList)
      (.string (q := '"') (s := ['b']) (.inl rfl) (.char (by decide) (by decide) .nil)) (fun h => h.elim) ?_
    refine .token (w := ":".toList) (s := "[1.5]}".toList) (fixed .colon ":" (by decide)) (fun h => h.elim) ?_
    refine .token (w := "[".toList) (s := "1.5]}".toList) (fixed .lsquare "[" (by decide)) (fun h => h.elim) ?_
    refine .token (w := "1.5".toList) (s := "]}".toList) hf (fun _ => by decide) ?_
    refine .token (w := "]".toList) (s := "}".toList) (fixed .rsquare "]" (by decide)) (fun h => h.elim) ?_
    exact .token (w := "}".toList) (s := []) (fixed .rcurly "}" (by decide)) (fun h => h.elim) .nil
  · intro l h
    have h1 := zz_accepts h
    have h2 : parseEventTokens [.lcurly, .string ['b'], .colon, .lsquare, .float (3 / 2), .rsquare, .rcurly] = .ok none := rfl
    rw [h2] at h1
    cases h1

end BeTree
