import Verif.Lemmas.Eval
/-
C12 (integer enums), C17 (frequency caps), C18 (segments).
-/
namespace BeTree

/-- C12: (in)equality of integer enums, by id (ids are in bijection with integers by C26). -/
theorem C12_equality_ienum (geo : GeoTest) (env : Env) (v : AttrVar) (k x : EnumVal)
    (hx : env[v.var]? = some (some (.intEnum x))) :
    (matchPred geo env (.equality .eq v (.intEnum k)) = .ok true ↔ x.ienum = k.ienum) ∧
    (matchPred geo env (.equality .ne v (.intEnum k)) = .ok true ↔ x.ienum ≠ k.ienum) := by
  simp [matchPred, matchEquality, getVariable, hx]

example : matchPred (fun _ _ _ _ _ => true) [some (.intEnum ⟨7, 0, 1⟩)]
    (.equality .ne ⟨"x".toList, 0⟩ (.intEnum ⟨9, 0, 2⟩)) = .ok true :=
  (C12_equality_ienum _ _ ⟨_, 0⟩ ⟨9, 0, 2⟩ ⟨7, 0, 1⟩ rfl).2.2 (by decide)

/-! ### C17 -/

/-- C17, the cap list alone: no cap of that type, id and namespace, or the first one is below `value`, or (for a positive
length) has no timestamp or one older than `length` seconds.  `length < 2^63`: above, the code's conversion of the
length to `int64_t` makes it negative. -/
theorem C17_within_frequency_caps (type : FreqType) (id : Nat) (ns : StrVal) (value : Nat) (length : Nat) (now : Int)
    (hlen : length < 2 ^ 63) (caps : List FreqCap) :
    withinFrequencyCaps type id ns value length now caps = true ↔
      ∀ c, caps.find? (fun c => decide (c.type = type ∧ c.id = id ∧ c.ns.str = ns.str)) = some c →
        c.value < value ∨
          (0 < length ∧ (c.timestampDefined = false ∨ now - c.timestamp.tdiv 1000000 > length)) := by
  rw [withinFrequencyCaps_eq _ _ _ _ _ _ hlen]
  split <;> rename_i h
  · simp only [h, reduceCtorEq, false_implies, implies_true]
  · rename_i c; simp only [h, Option.some.injEq, forall_eq']

/-- C17, the whole predicate: undefined caps: false; no caps at all: true; otherwise `now` must be defined and the
caps within their limits. -/
theorem C17_frequency (geo : GeoTest) (env : Env) (f : Frequency) (caps : Option (List FreqCap)) (now : Option Int)
    (hlen : f.length < 2 ^ 63) (hv0 : 0 ≤ f.value) (hv : f.value < 2 ^ 32)
    (hc : env[f.attr.var]? = some (caps.map Value.freq)) (hn : env[f.now.var]? = some (now.map Value.int)) :
    matchPred geo env (.freq f) = .ok true ↔
      ∃ cs, caps = some cs ∧ (cs = [] ∨ ∃ n, now = some n ∧
        ∀ c, cs.find? (fun c => decide (c.type = f.type ∧ c.id = f.id ∧ c.ns.str = f.ns.str)) = some c →
          (c.value : Int) < f.value ∨
            (0 < f.length ∧ (c.timestampDefined = false ∨ n - c.timestamp.tdiv 1000000 > f.length))) := by
  have hval := toU32_of_lt hv0 hv
  cases caps with
  | none => simp [matchPred, matchFreq, getFreqVar, getVariable, hc]
  | some cs =>
    cases cs with
    | nil => simp [matchPred, matchFreq, getFreqVar, getVariable, hc]
    | cons c cs =>
      cases now with
      | none => simp [matchPred, matchFreq, getFreqVar, getIntVar, getVariable, hc, hn]
      | some n =>
        simp only [matchPred, matchFreq, getFreqVar, getIntVar, getVariable, hc, hn, Option.map_some, List.isEmpty_cons,
          Bool.false_eq_true, if_false, Except.ok.injEq, Option.some.injEq, exists_eq_left', reduceCtorEq, false_or]
        rw [C17_within_frequency_caps _ _ _ _ _ _ hlen]
        constructor
        · intro h c hc
          rcases h c hc with h | h
          · left; omega
          · right; exact h
        · intro h c hc
          rcases h c hc with h | h
          · left; omega
          · right; exact h

/-- a cap that has been used 3 times out of 5, ten seconds ago -/
def exampleCap : FreqCap :=
  { type := .flight, id := 7, ns := ⟨"ns".toList, 0, 0⟩, timestampDefined := true, timestamp := 90000000, value := 3 }

example : matchPred (fun _ _ _ _ _ => true) [some (.freq [exampleCap]), some (.int 100)]
    (.freq { attr := ⟨"frequency_caps".toList, 0⟩, type := .flight, ns := ⟨"ns".toList, 0, 0⟩, value := 5, length := 60,
             now := ⟨"now".toList, 1⟩, id := 7 }) = .ok true := by
  refine (C17_frequency _ _ _ (some [exampleCap]) (some 100) (by decide) (by decide) (by decide) rfl rfl).2 ?_
  exact ⟨_, rfl, Or.inr ⟨100, rfl, fun c hc => by
    simp [exampleCap] at hc; subst hc; left; decide⟩⟩

/-- and one that is exhausted -/
example : matchPred (fun _ _ _ _ _ => true) [some (.freq [exampleCap]), some (.int 100)]
    (.freq { attr := ⟨"frequency_caps".toList, 0⟩, type := .flight, ns := ⟨"ns".toList, 0, 0⟩, value := 3, length := 60,
             now := ⟨"now".toList, 1⟩, id := 7 }) ≠ .ok true := by
  rw [Ne, C17_frequency _ _ _ (some [exampleCap]) (some 100) (by decide) (by decide) (by decide) rfl rfl]
  rintro ⟨cs, h, h2⟩
  cases h
  rcases h2 with h2 | ⟨n, hn, h2⟩
  · cases h2
  · cases hn
    have := h2 exampleCap (by simp [exampleCap])
    simp [exampleCap] at this

/-! ### C18 -/

/-- C18: with ascending segment ids (the code stops at the first larger id) the two functions look at the event's
segment with that id: `segment_within` holds when it is at most `seconds` old, `segment_before` when it is older. -/
theorem C18_segments (geo : GeoTest) (env : Env) (s : SegmentExpr) (segs : Option (List Segment)) (now : Option Int)
    (hid : s.segmentId < 2 ^ 63) (hs0 : -(2 ^ 31) ≤ s.seconds) (hs : s.seconds < 2 ^ 31)
    (hsorted : ∀ l, segs = some l → (l.map Segment.id).Pairwise (· ≤ ·))
    (hc : env[s.attr.var]? = some (segs.map Value.segments)) (hn : env[s.now.var]? = some (now.map Value.int)) :
    matchPred geo env (.segment s) = .ok true ↔
      ∃ l n g, segs = some l ∧ now = some n ∧ l.find? (fun g => decide (g.id = (s.segmentId : Int))) = some g ∧
        (match s.op with
         | .within => n - g.timestamp.tdiv 1000000 ≤ s.seconds
         | .before => n - g.timestamp.tdiv 1000000 > s.seconds) := by
  cases segs with
  | none => simp [matchPred, matchSegment, getSegmentsVar, getVariable, hc]
  | some l =>
    cases now with
    | none => simp [matchPred, matchSegment, getSegmentsVar, getIntVar, getVariable, hc, hn]
    | some n =>
      have h := hsorted l rfl
      simp only [matchPred, matchSegment, getSegmentsVar, getIntVar, getVariable, hc, hn, Option.map_some,
        Option.some.injEq, toI64_of_lt hid, toI32_of_lt hs0 hs]
      cases hop : s.op
      · simp only [Except.ok.injEq]
        rw [segmentWithin_spec _ _ _ _ h, Spec.segHolds]
        constructor
        · intro h; split at h
          · exact h.elim
          · rename_i g hg; exact ⟨l, n, g, rfl, rfl, hg, h⟩
        · rintro ⟨_, _, g, rfl, rfl, hg, h⟩; simp only [hg]; exact h
      · simp only [Except.ok.injEq]
        rw [segmentBefore_spec _ _ _ _ h, Spec.segHolds]
        constructor
        · intro h; split at h
          · exact h.elim
          · rename_i g hg; exact ⟨l, n, g, rfl, rfl, hg, h⟩
        · rintro ⟨_, _, g, rfl, rfl, hg, h⟩; simp only [hg]; exact h

example : matchPred (fun _ _ _ _ _ => true) [some (.segments [⟨1, 0⟩, ⟨4, 90000000⟩, ⟨9, 0⟩]), some (.int 100)]
    (.segment { op := .within, hasVariable := false, attr := ⟨"segments_with_timestamp".toList, 0⟩, segmentId := 4,
                seconds := 20, now := ⟨"now".toList, 1⟩ }) = .ok true := by
  refine (C18_segments _ _ _ (some [⟨1, 0⟩, ⟨4, 90000000⟩, ⟨9, 0⟩]) (some 100) (by decide) (by decide) (by decide) ?_ rfl rfl).2 ?_
  · intro l h; cases h; decide
  · exact ⟨_, 100, ⟨4, 90000000⟩, rfl, rfl, rfl, by decide⟩

/-- Without ascending ids the code misses a segment: `segment_before`/`segment_within` on an event whose segments are
given as 9, 4 do not find segment 4.  (Events' segment lists are not sorted by the code.) -/
theorem C18_unsorted_segments_missed :
    ∃ (segs : List Segment), (∃ g ∈ segs, g.id = 4) ∧
      segmentWithin 4 20 100 segs = false ∧ segmentBefore 4 20 100 segs = false :=
  ⟨[⟨9, 0⟩, ⟨4, 90000000⟩], by decide, by decide, by decide⟩

end BeTree
