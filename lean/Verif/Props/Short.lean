import Verif.Lemmas.Short
import Verif.Props.Memo
import Verif.Props.Semantics
import Verif.Props.Intern
import Verif.Spec.Supported
/-
C09: the undefined-variable shortcut.  C02: no false positive.
-/
namespace BeTree
open Spec

/-- C09 (partial).  After any history, on every event and for every stored subscription: when the shortcut decides, its
verdict is the one evaluation gives, whenever evaluation gives one.  Partial because of `ShortSafe`: below `not`s the code
combines verdicts without De Morgan, and it treats `within_frequency_cap` as false when only the clock is undefined; the
three counter-examples below show that the condition cannot be dropped. -/
theorem C09_short_circuit_partial (geo : GeoTest) (R : Rounding) (cap min : Nat) (decls : List (Str × Decl × Bool))
    (hdecls : decls.length ≤ invalidId) (ops : List Op) (w : World)
    (h : (World.init (makeTree cap min decls)).run R ops = .ok w) (hids : (w.live.map Req.id).Nodup)
    (hsafe : ∀ q ∈ w.live, ShortSafe (Optional decls) false q.expr)
    (env : Env) (undef : Bits) (hu : makeUndefined env = .ok undef) (s : Sub) (hs : s ∈ w.tree.root.contents) (b : Bool)
    (hb : evalExpr geo env s.expr.erase = .ok b) :
    (tryShortCircuit s.pass s.fail undef = .pass → b = true) ∧ (tryShortCircuit s.pass s.fail undef = .fail → b = false) := by
  obtain ⟨hw, hl⟩ := run_traced (init_traced cap min decls) h
  obtain ⟨q, hq, hm⟩ := stored_made hw hids hs
  exact hm.short hl.ext (hsafe q hq) hdecls hu hb

/-- C09 (partial), against the specification: when the shortcut decides, its verdict is whether the expression, as written,
is true on the event. -/
theorem C09_short_circuit_sat_partial (geo : GeoTest) (R : Rounding) (cap min : Nat) (decls : List (Str × Decl × Bool))
    (ops : List Op) (w : World) (h : (World.init (makeTree cap min decls)).run R ops = .ok w) (hsmall : Small w.tree.cfg)
    (hids : (w.live.map Req.id).Nodup) (ev : List EventVar) (env : Env) (henv : eventEnv w.tree.cfg ev = .ok env)
    (undef : Bits) (hu : makeUndefined env = .ok undef) (s : Sub) (hs : s ∈ w.tree.root.contents) :
    ∃ q ∈ w.live, q.id = s.id ∧ (ShortSafe (Optional decls) false q.expr →
      (tryShortCircuit s.pass s.fail undef = .pass → sat geo (constants q.consts) (eventOf ev) q.expr) ∧
      (tryShortCircuit s.pass s.fail undef = .fail → ¬ sat geo (constants q.consts) (eventOf ev) q.expr)) := by
  obtain ⟨hw, hl⟩ := run_traced (init_traced cap min decls) h
  obtain ⟨q, hq, hm⟩ := stored_made hw hids hs
  refine ⟨q, hq, hm.id.symm, fun hsafe => ?_⟩
  have := hm.short_sat (geo := geo) hl.ext hsafe hsmall henv hu (constants q.consts)
  rw [← C15_reorder_preserves_sat]
  exact ⟨fun hp => (this.1 hp).2 rfl, fun hf hc => absurd ((this.2 hf).1 hc) (by simp)⟩

/-! ### C02 -/

theorem inRange_mk {l r : Expr} (hl : Expr.InRange l) (hr : Expr.InRange r) :
    Expr.InRange (mkAnd l r) ∧ Expr.InRange (mkOr l r) := by
  unfold mkAnd mkOr
  constructor <;> split <;> first | exact ⟨hl, hr⟩ | exact ⟨hr, hl⟩

theorem inRange_parse {e : Expr} (h : Expr.InRange e) : Expr.InRange (parseBuild e) := by
  induction e with
  | leaf p => exact h
  | not e ih => exact ih h
  | and l r ihl ihr => exact (inRange_mk (ihl h.1) (ihr h.2)).1
  | or l r ihl ihr => exact (inRange_mk (ihl h.1) (ihr h.2)).2

/-- the verdict on a stored subscription, without memoisation, is whether the request's expression is true on the event -/
theorem Made.verdict {geo : GeoTest} {env : Env} {cfg : Config} {q : Req} {s : Sub} (hm : Made cfg q s)
    {cap min : Nat} {decls : List (Str × Decl × Bool)} (hx : CfgExt (makeTree cap min decls).cfg cfg)
    (hq : Supported decls q) (hs : Small cfg) (hok : TablesOK cfg) (hi : s.expr.erase.AllIds)
    {ev : List EventVar} (hev : EventInRange ev) (he : eventEnv cfg ev = .ok env) {undef : Bits}
    (hu : makeUndefined env = .ok undef) {b : Bool} (hb : plainMatch geo env undef s = .ok b) :
    b = true ↔ sat geo (constants q.consts) (eventOf ev) q.expr := by
  have hsc := hm.short_sat (geo := geo) hx hq.short hs he hu (constants q.consts)
  rw [← C15_reorder_preserves_sat]
  unfold plainMatch at hb
  split at hb
  · rename_i hp
    cases hb
    simpa using (hsc.1 hp)
  · rename_i hf
    cases hb
    simpa using (hsc.2 hf)
  · exact evalExpr_sat hs hok he hev hm.res hi (inRange_parse hq.inRange) hq.consts hb

theorem plainLoop_mem {geo : GeoTest} {env : Env} {undef : Bits} : ∀ {subs : List Sub} {ids : List Nat},
    plainLoop geo env undef subs = .ok ids →
    (∀ s ∈ subs, ∃ b, plainMatch geo env undef s = .ok b) ∧
    ∀ id, id ∈ ids ↔ ∃ s ∈ subs, s.id = id ∧ plainMatch geo env undef s = .ok true := by
  intro subs
  induction subs with
  | nil => intro ids h; cases h; simp
  | cons s ss ih =>
    intro ids h
    simp only [plainLoop] at h
    split at h
    · cases h
    · rename_i b hb
      split at h
      · cases h
      · rename_i rest hr
        cases h
        obtain ⟨h1, h2⟩ := ih hr
        constructor
        · intro t ht
          rcases List.mem_cons.1 ht with rfl | ht
          · exact ⟨b, hb⟩
          · exact h1 t ht
        · intro id
          cases b with
          | false =>
            simp only [Bool.false_eq_true, if_false, h2]
            constructor
            · rintro ⟨t, ht, h3⟩; exact ⟨t, List.mem_cons_of_mem _ ht, h3⟩
            · rintro ⟨t, ht, h3, h4⟩
              rcases List.mem_cons.1 ht with rfl | ht
              · rw [hb] at h4; cases h4
              · exact ⟨t, ht, h3, h4⟩
          | true =>
            simp only [if_true, List.mem_cons, h2]
            constructor
            · rintro (rfl | ⟨t, ht, h3⟩)
              · exact ⟨s, Or.inl rfl, rfl, hb⟩
              · exact ⟨t, Or.inr ht, h3⟩
            · rintro ⟨t, (rfl | ht), h3, h4⟩
              · exact Or.inl h3.symm
              · exact Or.inr ⟨t, ht, h3, h4⟩

/-- C02 (partial).  After any history with distinct ids, whatever the event: every id a search adds to the report is that of
an accepted request whose expression, as written, is true on the event.  Partial: `Supported` excludes the constructions on
which the shortcut is wrong (C09) and `all of` with a repeated constant (C14, harmless here); `AllIds` says that no string or
enum constant was left without an id when its attribute was full (C30). -/
theorem C02_no_false_positive_partial (geo : GeoTest) (R : Rounding) (cap min : Nat) (decls : List (Str × Decl × Bool))
    (ops : List Op) (w : World) (h : (World.init (makeTree cap min decls)).run R ops = .ok w) (hsmall : Small w.tree.cfg)
    (hids : (w.live.map Req.id).Nodup) (hsup : ∀ q ∈ w.live, Supported decls q)
    (hall : ∀ s ∈ w.tree.root.contents, s.expr.erase.AllIds)
    (ev : List EventVar) (hev : EventInRange ev) (rep rep' : Report) (hs : w.tree.search geo ev rep = .ok (some rep')) :
    ∀ id ∈ rep'.subs, id ∈ rep.subs ∨
      ∃ q ∈ w.live, q.id = id ∧ sat geo (constants q.consts) (eventOf ev) q.expr := by
  obtain ⟨env, undef, subs, ids, h1, h2, h3, h4, h5⟩ :=
    C08_search geo R cap min decls ops w h hids (fun q hq => (hsup q hq).clocked) ev rep rep' hs
  obtain ⟨hw, hl⟩ := run_traced (init_traced cap min decls) h
  intro id hid
  rw [h5] at hid
  rcases List.mem_append.1 hid with hid | hid
  · exact Or.inl hid
  · right
    obtain ⟨s, hs1, hs2, hs3⟩ := ((plainLoop_mem h4).2 id).1 hid
    have hsc := (CNode.collect_sublist _ h3).subset hs1
    obtain ⟨q, hq, hm⟩ := stored_made hw hids hsc
    exact ⟨q, hq, hm.id.symm.trans hs2,
      (hm.verdict hl.ext (hsup q hq) hsmall (run_tablesOK h) (hall s hsc) hev h1 h2 hs3).1 rfl⟩

/-! ### where the shortcut is wrong -/

def shortDecls : List (Str × Decl × Bool) :=
  [("i".toList, .int 0 10, true), ("b".toList, .bool, false), ("frequency_caps".toList, .freq, true), ("now".toList, .int 0 10, true)]

/-- the ids a search reports after a history on these declarations -/
def shortSearch (ops : List Op) (ev : List EventVar) : Option (List Nat) :=
  match (World.init (makeTree 3 0 shortDecls)).run exactRounding ops with
  | .error _ => none
  | .ok w =>
    match w.tree.search exGeo ev .empty with
    | .ok (some r) => some r.subs
    | _ => none

/-- `not (i < 5 or b)` on `{b: true}`, where it is false, is reported: the shortcut takes the undefined `i` to make the
whole expression true. -/
theorem C09_not_or_false_positive :
    shortSearch [.insert ⟨1, [], .not (.or (exI .lt 5) exB)⟩] [⟨"b".toList, .bool true⟩] = some [1] ∧
    ¬ sat exGeo [] (eventOf [⟨"b".toList, .bool true⟩]) (.not (.or (exI .lt 5) exB)) := by
  refine ⟨by decide +kernel, ?_⟩
  intro h
  exact h (Or.inr rfl)

/-- `not (not (i < 5) and b)` on `{b: false}`, where it is true, is not reported. -/
theorem C09_not_and_missed :
    shortSearch [.insert ⟨1, [], .not (.and (.not (exI .lt 5)) exB)⟩] [⟨"b".toList, .bool false⟩] = some [] ∧
    sat exGeo [] (eventOf [⟨"b".toList, .bool false⟩]) (.not (.and (.not (exI .lt 5)) exB)) := by
  refine ⟨by decide +kernel, ?_⟩
  rintro ⟨_, h2⟩
  have h3 : (some (Value.bool false)) = some (Value.bool true) := h2
  simp at h3

def shortFreq : Expr :=
  .leaf (.freq { attr := ⟨"frequency_caps".toList, 0⟩, now := ⟨"now".toList, 0⟩, type := .flight, ns := ⟨"ns".toList, 0, 0⟩,
                 id := 0, value := 3, length := 0 })

/-- `within_frequency_cap` on an event with no caps and no clock is true, but not reported when `now` is optional. -/
theorem C09_frequency_cap_missed :
    shortSearch [.insert ⟨1, [⟨"flight_id".toList, .int 7⟩], shortFreq⟩]
      [⟨"b".toList, .bool false⟩, ⟨"frequency_caps".toList, .freq []⟩] = some [] ∧
    sat exGeo (constants [⟨"flight_id".toList, .int 7⟩])
      (eventOf [⟨"b".toList, .bool false⟩, ⟨"frequency_caps".toList, .freq []⟩]) shortFreq := by
  refine ⟨by decide +kernel, ?_⟩
  exact ⟨[], rfl, Or.inl rfl⟩

/-! ### concrete cases -/

/-- a history on which the hypotheses hold and the shortcut decides: `i` is undefined in the event -/
def shortOps : List Op :=
  [.insert ⟨1, [], .not (.and (exI .lt 5) exB)⟩, .insert ⟨2, [], .or (exI .lt 5) exB⟩, .insert ⟨3, [], .not (exI .gt 2)⟩,
   .insert ⟨4, [], .and (exI .lt 5) exB⟩]

def shortWorld : World :=
  match (World.init (makeTree 3 0 shortDecls)).run exactRounding shortOps with
  | .ok w => w
  | .error _ => World.init (makeTree 3 0 shortDecls)

example : (World.init (makeTree 3 0 shortDecls)).run exactRounding shortOps |>.isOk := by decide +kernel
example : (shortWorld.live.map Req.id).Nodup := by decide +kernel
example : ∀ q ∈ shortWorld.live, Supported shortDecls q := by
  have h : shortWorld.live = [⟨4, [], .and (exI .lt 5) exB⟩, ⟨3, [], .not (exI .gt 2)⟩, ⟨2, [], .or (exI .lt 5) exB⟩,
    ⟨1, [], .not (.and (exI .lt 5) exB)⟩] := by decide +kernel
  rw [h]
  intro q hq
  simp only [List.mem_cons, List.not_mem_nil, or_false] at hq
  rcases hq with rfl | rfl | rfl | rfl <;>
    refine ⟨?_, by simp [ConstantsInRange], ?_, ?_⟩ <;>
    simp [exI, exB, Expr.InRange, Pred.InRange, Clocked, ShortSafe, Positive]
example : shortSearch shortOps [⟨"b".toList, .bool true⟩] = some [3, 1, 2] ∧
    (shortWorld.tree.search exGeo [⟨"b".toList, .bool true⟩] .empty).toOption.map (·.map Report.shorted) = some (some 2) := by
  decide +kernel

end BeTree
