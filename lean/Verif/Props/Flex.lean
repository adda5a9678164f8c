import Verif.Lemmas.FlexCheck
import Verif.Props.Text
import Verif.Props.EventText
/-
C51: the generated scanners.
-/
namespace BeTree


/-- a C string: its bytes are neither 0 nor above 255 -/
def Bytes (s : Str) : Prop := ∀ c ∈ s, 0 < c.toNat ∧ c.toNat < 256

theorem flexExpr_eq {s : Str} (h : Bytes s) : flexExpr s = .ok (lexExpr s) :=
  flexGo_eq xxSpec xxFits (acts := xxActs) (fun {i r} hr => by
    have hl : i < xxRules.length := (List.getElem?_eq_some_iff.1 hr).1
    rw [xxActs, List.getElem?_append_left (by simpa using hl), List.getElem?_map, hr]; rfl) h

theorem flexEvent_eq {s : Str} (h : Bytes s) : flexEvent s = .ok (lexEvent s) :=
  flexGo_eq zzSpec zzFits (acts := zzActs) (fun {i r} hr => by
    have hl : i < zzRules.length := (List.getElem?_eq_some_iff.1 hr).1
    rw [zzActs, List.getElem?_append_left (by simpa using hl), List.getElem?_map, hr]; rfl) h

/-- **C51**: the scanner of expression texts, run on its tables, never leaves them or the text, ends, and gives exactly the tokens
of the division of the text into longest tokens. -/
theorem C51_expression_scanner (s : Str) (h : Bytes s) :
    (∃ ts, flexExpr s = .ok ts) ∧ ∀ ts, flexExpr s = .ok ts ↔ ∃ r, Scan s ts r := by
  obtain ⟨r, hr⟩ := lexExpr_scan s
  refine ⟨⟨_, flexExpr_eq h⟩, fun ts => ⟨fun h1 => ?_, fun ⟨r', h1⟩ => ?_⟩⟩
  · rw [flexExpr_eq h] at h1; cases h1; exact ⟨r, hr⟩
  · rw [flexExpr_eq h, (scan_unique h1 hr).1]

/-- **C51** for event texts. -/
theorem C51_event_scanner (s : Str) (h : Bytes s) :
    (∃ ts, flexEvent s = .ok ts) ∧ ∀ ts, flexEvent s = .ok ts ↔ ∃ r, EvScan s ts r := by
  obtain ⟨r, hr⟩ := lexEvent_scan s
  refine ⟨⟨_, flexEvent_eq h⟩, fun ts => ⟨fun h1 => ?_, fun ⟨r', h1⟩ => ?_⟩⟩
  · rw [flexEvent_eq h] at h1; cases h1; exact ⟨r, hr⟩
  · rw [flexEvent_eq h, (evScan_unique h1 hr).1]

/-- **C51**: so the parsers with their generated scanners read what C43–C46 say they read. -/
theorem C51_parsers (s : Str) (h : Bytes s) : parseFlex s = parseText s ∧ parseEventFlex s = parseEventText s := by
  refine ⟨?_, ?_⟩
  · unfold parseFlex; rw [flexExpr_eq h]; rfl
  · unfold parseEventFlex; rw [flexEvent_eq h]; rfl

example : Bytes "x in (1, 2.5) and s = \"\\\"é\" !rest".toList := by unfold Bytes; decide

/-- backing up: `none ` is a name, `none of` a token -/
example : (match flexExpr "none o not inx is nul <>= 3.".toList with | .ok ts => some ts | .error _ => none) =
    some [.ident "none".toList, .ident "o".toList, .notIn, .ident "x".toList, .ident "is".toList, .ident "nul".toList, .ne, .eq,
      .float 3] := by decide +kernel

example : (match flexEvent "{\"a\": [1, -2.5, \"\\\"é\"]} nulls".toList with | .ok ts => some ts.length | .error _ => none) = some 13 := by
  decide +kernel

end BeTree
