import Verif.Lemmas.Complete
import Verif.Lemmas.AllIds
/-
C03: no false negative.  C01: the search is exact.  C04: the order of insertion does not matter.
-/
namespace BeTree
open Spec

theorem plainLoop_sublist {geo : GeoTest} {env : Env} {undef : Bits} : ∀ {subs : List Sub} {ids : List Nat},
    plainLoop geo env undef subs = .ok ids → ids.Sublist (subs.map Sub.id) := by
  intro subs
  induction subs with
  | nil => intro ids h; cases h; exact List.Sublist.refl _
  | cons s ss ih =>
    intro ids h
    simp only [plainLoop] at h
    split at h
    · cases h
    · rename_i b hb
      split at h
      · cases h
      · rename_i rest hr
        cases h
        cases b
        · exact (ih hr).cons _
        · exact (ih hr).cons_cons _

/-- a live request is stored, as a subscription made from it -/
theorem live_stored {w : World} (hw : w.Traced) (hids : (w.live.map Req.id).Nodup) {q : Req} (hq : q ∈ w.live) :
    ∃ s ∈ w.tree.root.contents, Made w.tree.cfg q s := by
  obtain ⟨ps, h1, h2, h3⟩ := hw.stored hids
  rw [← h1] at hq
  obtain ⟨p, hp, rfl⟩ := List.mem_map.1 hq
  exact ⟨p.2, h2.mem_iff.2 (List.mem_map_of_mem hp), h3 p hp⟩

/-- What the theorems below ask of a history that led to the world `w`:
* the declared limits are not inside out;
* no call that widens a domain has a number at the very ends of its type, and plain insertions leave room for their constants;
* no more than 2^64 - 2 attributes, strings or enum values;
* the accepted requests have distinct ids. -/
structure Orderly [Floats] (decls : List (Str × Decl × Bool)) (ops : List Op) (w : World) : Prop where
  proper : ∀ d ∈ decls, ProperDecl d.1 d.2.1
  ops : ∀ o ∈ ops, ModerateOp o ∧ NamedOp decls w.tree.cfg o
  small : Small w.tree.cfg
  ids : (w.live.map Req.id).Nodup

/-- C03 (partial), as the property puts it: whatever the history, the search visits the subscription of every request whose
expression is true on the event.  Partial: `Prunable` and `ModerateOp`/`ProperDecl` exclude the inputs of the counter-examples
below. -/
theorem C03_visited_partial [Floats] (geo : GeoTest) (R : Rounding) (cap min : Nat) (decls : List (Str × Decl × Bool))
    (ops : List Op) (w : World) (h : (World.init (makeTree cap min decls)).run R ops = .ok w) (ho : Orderly decls ops w)
    (ev : List EventVar) (env : Env) (henv : eventEnv w.tree.cfg ev = .ok env)
    (hval : validateVariables w.tree.cfg.domains env = true) (visited : List Sub)
    (hvis : w.tree.root.collect w.tree.cfg env = .ok visited) (q : Req) (hq : q ∈ w.live)
    (hpr : Prunable decls w.tree.cfg ev q) (hsat : sat geo (constants q.consts) (eventOf ev) q.expr) :
    ∃ s ∈ visited, s.id = q.id := by
  have hdecls := ho.proper
  have hops := fun o h => (ho.ops o h).1
  have hsmall := ho.small
  have hids := ho.ids
  have hall := history_ids ho.proper ho.ops ho.small h ho.ids
  obtain ⟨hw, _⟩ := run_traced (init_traced cap min decls) h
  obtain ⟨s, hs, hm⟩ := live_stored hw hids hq
  obtain ⟨hpo, _⟩ := run_prune (makeTree_cfgOK (cap := cap) (min := min) hdecls) (makeTree_tablesOK cap min decls) hsmall hops h
  refine ⟨s, CNode.collect_complete hval hpo.root hvis s hs ?_, hm.id⟩
  exact hm.open hsmall (run_tablesOK h) (hall s hs) hpr.supported.inRange henv hpr.apart hpr.safe hsat

/-- C01 (partial).  After any history with distinct ids, on any event: a search that answers adds to the report exactly the ids
of the accepted requests whose expression, as written, is true on the event, each of them once.  Partial: the conditions
exclude the inputs of the counter-examples of C02, C03, C09, C14 and C30. -/
theorem C01_search_exact_partial [Floats] (geo : GeoTest) (R : Rounding) (cap min : Nat) (decls : List (Str × Decl × Bool))
    (ops : List Op) (w : World) (h : (World.init (makeTree cap min decls)).run R ops = .ok w) (ho : Orderly decls ops w)
    (ev : List EventVar) (hev : EventInRange ev) (hpr : ∀ q ∈ w.live, Prunable decls w.tree.cfg ev q)
    (rep rep' : Report) (hs : w.tree.search geo ev rep = .ok (some rep')) :
    ∃ ids, rep'.subs = rep.subs ++ ids ∧ ids.Nodup ∧
      ∀ id, id ∈ ids ↔ ∃ q ∈ w.live, q.id = id ∧ sat geo (constants q.consts) (eventOf ev) q.expr := by
  have hdecls := ho.proper
  have hops := fun o h => (ho.ops o h).1
  have hsmall := ho.small
  have hids := ho.ids
  have hall := history_ids ho.proper ho.ops ho.small h ho.ids
  obtain ⟨hw, hl⟩ := run_traced (init_traced cap min decls) h
  obtain ⟨hpo, _⟩ := run_prune (makeTree_cfgOK (cap := cap) (min := min) hdecls) (makeTree_tablesOK cap min decls) hsmall hops h
  have hok := run_tablesOK h
  obtain ⟨env, undef, subs, ids, h1, h2, h3, h4, h5⟩ :=
    C08_search geo R cap min decls ops w h hids (fun q hq => (hpr q hq).supported.clocked) ev rep rep' hs
  have hval : validateVariables w.tree.cfg.domains env = true := by
    obtain ⟨env', _, _, _, _, e1, e2, _⟩ := search_inv hs
    rw [h1] at e1; cases e1; exact e2
  have hsub := CNode.collect_sublist _ h3
  obtain ⟨p1, p2⟩ := plainLoop_mem h4
  refine ⟨ids, h5, ?_, fun id => ?_⟩
  · have h6 : (w.tree.root.contents.map Sub.id).Nodup :=
      (C05_history_conserves R cap min decls ops w h hids).nodup_iff.2 hids
    exact ((plainLoop_sublist h4).trans (hsub.map _)).nodup h6
  · rw [p2]
    constructor
    · rintro ⟨s, hs1, hs2, hs3⟩
      have hsc := hsub.subset hs1
      obtain ⟨q, hq, hm⟩ := stored_made hw hids hsc
      exact ⟨q, hq, hm.id.symm.trans hs2,
        (hm.verdict hl.ext (hpr q hq).supported hsmall hok (hall s hsc) hev h1 h2 hs3).1 rfl⟩
    · rintro ⟨q, hq, rfl, hsat⟩
      obtain ⟨s, hsc, hm⟩ := live_stored hw hids hq
      have hpq := hpr q hq
      have hin := CNode.collect_complete hval hpo.root h3 s hsc
        (hm.open hsmall hok (hall s hsc) hpq.supported.inRange h1 hpq.apart hpq.safe hsat)
      obtain ⟨b, hb⟩ := p1 s hin
      refine ⟨s, hin, hm.id, ?_⟩
      rw [hb, (hm.verdict hl.ext hpq.supported hsmall hok (hall s hsc) hev h1 h2 hb).2 hsat]

/-- C03 (partial): every accepted request whose expression, as written, is true on the event is reported. -/
theorem C03_no_false_negative_partial [Floats] (geo : GeoTest) (R : Rounding) (cap min : Nat) (decls : List (Str × Decl × Bool))
    (ops : List Op) (w : World) (h : (World.init (makeTree cap min decls)).run R ops = .ok w) (ho : Orderly decls ops w)
    (ev : List EventVar) (hev : EventInRange ev) (hpr : ∀ q ∈ w.live, Prunable decls w.tree.cfg ev q)
    (rep rep' : Report) (hs : w.tree.search geo ev rep = .ok (some rep')) (q : Req) (hq : q ∈ w.live)
    (hsat : sat geo (constants q.consts) (eventOf ev) q.expr) : q.id ∈ rep'.subs := by
  obtain ⟨ids, h1, _, h2⟩ := C01_search_exact_partial geo R cap min decls ops w h ho ev hev hpr rep rep' hs
  rw [h1]
  exact List.mem_append_right _ ((h2 q.id).2 ⟨q, hq, rfl, hsat⟩)

/-- C04 (partial).  Two histories that leave the same accepted requests, in whatever order and with whatever boundary
changes and capacities, report the same ids, each as often, on every event.  Partial as C01. -/
theorem C04_insertion_order_partial [Floats] (geo : GeoTest) (R : Rounding) (cap cap' min min' : Nat) (decls : List (Str × Decl × Bool))
    (ops ops' : List Op) (w w' : World)
    (h : (World.init (makeTree cap min decls)).run R ops = .ok w)
    (h' : (World.init (makeTree cap' min' decls)).run R ops' = .ok w')
    (ho : Orderly decls ops w) (ho' : Orderly decls ops' w') (hsame : w.live.Perm w'.live)
    (ev : List EventVar) (hev : EventInRange ev) (hpr : ∀ q ∈ w.live, Prunable decls w.tree.cfg ev q)
    (hpr' : ∀ q ∈ w'.live, Prunable decls w'.tree.cfg ev q)
    (r r' : Report) (hs : w.tree.search geo ev .empty = .ok (some r)) (hs' : w'.tree.search geo ev .empty = .ok (some r')) :
    r.subs.Perm r'.subs := by
  obtain ⟨ids, e1, n1, m1⟩ := C01_search_exact_partial geo R cap min decls ops w h ho ev hev hpr _ _ hs
  obtain ⟨ids', e2, n2, m2⟩ := C01_search_exact_partial geo R cap' min' decls ops' w' h' ho' ev hev hpr' _ _ hs'
  have hx : ids.Perm ids' := by
    rw [List.perm_ext_iff_of_nodup n1 n2]
    intro id
    rw [m1, m2]
    simp only [hsame.mem_iff]
  rw [e1, e2]
  exact hx

/-! ### where the search is wrong -/

/-- the ids a search reports after a history -/
def searchIds (cap : Nat) (decls : List (Str × Decl × Bool)) (ops : List Op) (ev : List EventVar) : Option (List Nat) :=
  match (World.init (makeTree cap 0 decls)).run exactRounding ops with
  | .error _ => none
  | .ok w =>
    match w.tree.search exGeo ev .empty with
    | .ok (some r) => some r.subs
    | _ => none

def exEq (k : Int) : Expr := .leaf (.equality .eq ⟨"i".toList, 0⟩ (.int k))
def exFloat (k : Rat) : Expr := .leaf (.equality .eq ⟨"f".toList, 0⟩ (.float k))

/-- `not (i < 5 and b)` is true on `{i: 3, b: false}` but missed: the interval of the negated conjunction is taken to be
`i ≥ 5`. -/
theorem C03_not_and_missed :
    searchIds 1 [("i".toList, .int 0 10, false), ("b".toList, .bool, true)]
      [.insert ⟨1, [], .not (.and (exI .lt 5) exB)⟩, .insert ⟨2, [], exI .gt 7⟩, .insert ⟨3, [], exI .gt 8⟩]
      [⟨"i".toList, .int 3⟩, ⟨"b".toList, .bool false⟩] = some [] ∧
    sat exGeo [] (eventOf [⟨"i".toList, .int 3⟩, ⟨"b".toList, .bool false⟩]) (.not (.and (exI .lt 5) exB)) := by
  refine ⟨by decide +kernel, ?_⟩
  rintro ⟨_, h2⟩
  have h3 : (some (Value.bool false)) = some (Value.bool true) := h2
  simp at h3

/-- `f = 0.0` is true on `f = 2^-60` (the code compares floats up to `DBL_EPSILON`) but missed: the halves of `[-10, 10]` are
`[-10, 0]` and `[DBL_EPSILON, 10]`. -/
theorem C03_float_missed :
    searchIds 1 [("f".toList, .float (-10) 10, false)]
      [.insert ⟨1, [], exFloat 0⟩, .insert ⟨2, [], exFloat 7⟩, .insert ⟨3, [], exFloat (-3)⟩]
      [⟨"f".toList, .float (1 / 2 ^ 60)⟩] = some [] ∧
    sat exGeo [] (eventOf [⟨"f".toList, .float (1 / 2 ^ 60)⟩]) (exFloat 0) := by
  refine ⟨by decide +kernel, ?_⟩
  refine ⟨_, rfl, ?_⟩
  show (rnd ((1 / 2 ^ 60 : Rat) - 0)).abs < dblEps
  decide +kernel

/-- with the declared limits the wrong way round, `not (i = 4)` is missed on `i = 8` -/
theorem C03_improper_declaration_missed :
    searchIds 1 [("i".toList, .int 10 0, false)] [.insert ⟨1, [], .not (exEq 4)⟩, .insert ⟨2, [], exI .gt 7⟩]
      [⟨"i".toList, .int 8⟩] = some [2] ∧
    sat exGeo [] (eventOf [⟨"i".toList, .int 8⟩]) (.not (exEq 4)) := by
  refine ⟨by decide +kernel, ?_⟩
  rintro (⟨x, h1, h2⟩ | ⟨x, h1, _⟩)
  · have h3 : (some 8 : Option Int) = some x := h1
    cases h3
    exact absurd (show (8 : Int) = 4 from h2) (by decide)
  · have h3 : some (Value.int 8) = some (Value.float x) := h1
    simp at h3

/-- a boundary change with the largest integer makes the domain count as unlimited, and the next one then shrinks it:
`i > 2` is missed on `i = 8` -/
theorem C03_extreme_boundary_missed :
    searchIds 1 [("i".toList, .int 0 10, false)]
      [.insert ⟨1, [], exI .lt 3⟩, .insert ⟨2, [], exI .gt 7⟩, .changeBoundaries (exI .le int64Max), .changeBoundaries (exI .lt 5),
       .insert ⟨4, [], exI .gt 2⟩] [⟨"i".toList, .int 8⟩] = some [2] ∧
    sat exGeo [] (eventOf [⟨"i".toList, .int 8⟩]) (exI .gt 2) := by
  refine ⟨by decide +kernel, Or.inl ⟨8, rfl, ?_⟩⟩
  show (8 : Int) > 2
  decide

/-- two strings on an attribute bounded to one: the second gets no id, and `s = "a" or s = "b"` is reported on `s = "c"` -/
theorem C02_full_attribute_false_positive :
    searchIds 1 [("s".toList, .string 1, false)] [.insert ⟨1, [], .or (exS "a") (exS "b")⟩]
      [⟨"s".toList, .string ⟨"c".toList, 0, 0⟩⟩] = some [1] ∧
    ¬ sat exGeo [] (eventOf [⟨"s".toList, .string ⟨"c".toList, 0, 0⟩⟩]) (.or (exS "a") (exS "b")) := by
  refine ⟨by decide +kernel, ?_⟩
  have key : ∀ k : String, "c".toList ≠ k.toList →
      ¬ sat exGeo [] (eventOf [⟨"s".toList, .string ⟨"c".toList, 0, 0⟩⟩]) (exS k) := by
    rintro k hk ⟨x, h1, h2⟩
    have h3 : some (Value.string ⟨"c".toList, 0, 0⟩) = some (Value.string x) := h1
    simp only [Option.some.injEq, Value.string.injEq] at h3
    subst h3
    exact hk h2
  rintro (h | h)
  · exact key "a" (by decide) h
  · exact key "b" (by decide) h

/-- The unrestricted C04 is false: the four subscriptions `not (i < 5 and b)`, `i > 7`, `b`, `i < 2` report number 1 on `{i: 3, b: false}`,
or nothing, depending on the order they are inserted in.  (With one subscription to a leaf, the first order puts number 1 into the part of
the tree for `b`, the second into the part for `i`, where its wrong interval of `C03_not_and_missed` matters.) -/
theorem C04_not_and_order :
    searchIds 1 [("i".toList, .int 0 10, false), ("b".toList, .bool, true)]
      [.insert ⟨1, [], .not (.and (exI .lt 5) exB)⟩, .insert ⟨3, [], exB⟩, .insert ⟨2, [], exI .gt 7⟩, .insert ⟨4, [], exI .lt 2⟩]
      [⟨"i".toList, .int 3⟩, ⟨"b".toList, .bool false⟩] = some [1] ∧
    searchIds 1 [("i".toList, .int 0 10, false), ("b".toList, .bool, true)]
      [.insert ⟨1, [], .not (.and (exI .lt 5) exB)⟩, .insert ⟨2, [], exI .gt 7⟩, .insert ⟨3, [], exB⟩, .insert ⟨4, [], exI .lt 2⟩]
      [⟨"i".toList, .int 3⟩, ⟨"b".toList, .bool false⟩] = some [] := by
  decide +kernel

/-! ### a concrete case -/

def searchDecls : List (Str × Decl × Bool) :=
  [("i".toList, .int 0 10, false), ("b".toList, .bool, true), ("s".toList, .string sizeMax, true), ("f".toList, .float 0 8, true),
   ("il".toList, .intList 0 20, true)]

/-- ten calls: plain insertions, the two-step way and a boundary change, over booleans, integers, strings, floats and lists -/
def searchOps : List Op :=
  [.insert ⟨1, [], exI .lt 3⟩, .insert ⟨2, [], .and (exI .gt 7) (.not (exI .gt 9))⟩, .makeSub ⟨3, [], .and exB (exI .le 2)⟩,
   .insert ⟨4, [], .or exB (exS "a")⟩, .insertSub 0, .insert ⟨5, [], .not (exI .gt 2)⟩, .insert ⟨6, [], exI .ge 9⟩,
   .changeBoundaries (exI .lt 40), .insert ⟨7, [], .and (exI .gt 7) (.leaf (.list .oneOf ⟨"il".toList, 0⟩ (.intList [3, 4])))⟩,
   .insert ⟨8, [], .leaf (.compare .lt ⟨"f".toList, 0⟩ (.int 3))⟩]

def searchWorld : World :=
  match (World.init (makeTree 2 0 searchDecls)).run exactRounding searchOps with
  | .ok w => w
  | .error _ => World.init (makeTree 2 0 searchDecls)

theorem searchWorld_run : (World.init (makeTree 2 0 searchDecls)).run exactRounding searchOps = .ok searchWorld := by
  have h : ((World.init (makeTree 2 0 searchDecls)).run exactRounding searchOps).isOk := by decide +kernel
  unfold searchWorld
  split
  · assumption
  · rename_i e he; rw [he] at h; cases h

/-- on `{i: 30, b: false, il: [4, 7], s: "a", f: 1}` five of the eight subscriptions are visited and four match -/
def searchEvent : List EventVar :=
  [⟨"i".toList, .int 30⟩, ⟨"b".toList, .bool false⟩, ⟨"il".toList, .intList [4, 7]⟩, ⟨"s".toList, .string ⟨"a".toList, 0, 0⟩⟩,
   ⟨"f".toList, .float 1⟩]

example : (searchWorld.tree.search exGeo searchEvent .empty).toOption.map (·.map (fun r => (r.subs, r.evaluated))) =
    some (some ([4, 8, 7, 6], 5)) := by decide +kernel

theorem small_of_lengths {cfg : Config} (h : cfg.domains.length ≤ 100) (hs : ∀ m ∈ cfg.stringMaps, m.values.length ≤ 100)
    (hi : ∀ m ∈ cfg.intMaps, m.values.length ≤ 100) : Small cfg := by
  have h100 : (100 : Nat) < invalidId := by decide
  refine ⟨by omega, fun v => ?_, fun v => ?_⟩
  · unfold strTable
    split
    · simp; omega
    · rename_i m hm
      have := hs m (List.mem_of_find?_eq_some hm); omega
  · unfold intTable
    split
    · simp; omega
    · rename_i m hm
      have := hi m (List.mem_of_find?_eq_some hm); omega

/-- for the examples: the limits are binary fractions with few digits -/
local instance searchFloats : Floats := coarseFloats fun _ => True

example : Orderly searchDecls searchOps searchWorld := by
  refine ⟨?_, ?_, ?_, by decide +kernel⟩
  · intro d hd
    simp only [searchDecls, List.mem_cons, List.not_mem_nil, or_false] at hd
    rcases hd with rfl | rfl | rfl | rfl | rfl <;> first
      | exact proper_float trivial (by decide +kernel) (.inr (by decide +kernel)) (.inr (by decide +kernel))
      | (simp [ProperDecl, sizeMax] <;> decide +kernel)
  · have hdom : searchWorld.tree.cfg.domains.map (fun d => (d.attr.attr, d.bound)) =
        [("i".toList, { ty := .int, lo := .i 0, hi := .i 39 }), ("b".toList, { ty := .bool, lo := .b false, hi := .b true }),
         ("s".toList, { ty := .string, lo := .s 0, hi := .s (sizeMax - 1) }),
         ("f".toList, { ty := .float, lo := .f 0, hi := .f 8 }), ("il".toList, { ty := .intList, lo := .i 0, hi := .i 20 })] := by
      decide +kernel
    have huns : ∀ d ∈ searchWorld.tree.cfg.domains, d.attr.attr = lowerKey "s".toList → Unlimited d.bound := by
      intro d hd hn
      have hm : (d.attr.attr, d.bound) ∈ searchWorld.tree.cfg.domains.map (fun d => (d.attr.attr, d.bound)) :=
        List.mem_map_of_mem (f := fun d : Domain => (d.attr.attr, d.bound)) hd
      rw [hdom, hn] at hm
      simp only [List.mem_cons, Prod.mk.injEq, List.not_mem_nil, or_false] at hm
      rcases hm with ⟨h, _⟩ | ⟨h, _⟩ | ⟨_, h⟩ | ⟨h, _⟩ | ⟨h, _⟩
      · exact absurd h (by decide)
      · exact absurd h (by decide)
      · rw [h]; exact ⟨Or.inl rfl, rfl⟩
      · exact absurd h (by decide)
      · exact absurd h (by decide)
    intro o ho
    simp only [searchOps, List.mem_cons, List.not_mem_nil, or_false] at ho
    rcases ho with rfl | rfl | rfl | rfl | rfl | rfl | rfl | rfl | rfl | rfl <;>
      simp [ModerateOp, MayWiden, NamedOp, Roomy, Moderate, exI, exB, exS, strConsts, enumConsts, predStrConsts, predEnumConsts, ModInt,
        int64Min, int64Max, Expr.InRange, Pred.InRange] <;>
      first
        | exact .inl huns
        | exact fit_of_check (by decide +kernel)
        | exact ⟨fit_of_check (by decide +kernel), .inl huns⟩
  · refine small_of_lengths (by decide +kernel) ?_ ?_ <;> decide +kernel

example : EventInRange searchEvent := by
  intro v hv l hl
  simp only [searchEvent, List.mem_cons, List.not_mem_nil, or_false] at hv
  rcases hv with rfl | rfl | rfl | rfl | rfl <;> cases hl

example : ∀ q ∈ searchWorld.live, Prunable searchDecls searchWorld.tree.cfg searchEvent q := by
  have h : searchWorld.live = [⟨8, [], .leaf (.compare .lt ⟨"f".toList, 0⟩ (.int 3))⟩,
      ⟨7, [], .and (exI .gt 7) (.leaf (.list .oneOf ⟨"il".toList, 0⟩ (.intList [3, 4])))⟩, ⟨6, [], exI .ge 9⟩,
      ⟨5, [], .not (exI .gt 2)⟩, ⟨3, [], .and exB (exI .le 2)⟩, ⟨4, [], .or exB (exS "a")⟩,
      ⟨2, [], .and (exI .gt 7) (.not (exI .gt 9))⟩, ⟨1, [], exI .lt 3⟩] := by decide +kernel
  rw [h]
  have hf : ∀ x, (eventOf searchEvent).get ⟨"i".toList, 0⟩ ≠ some (.float x) := by
    intro x hx
    have h3 : some (Value.int 30) = some (Value.float x) := hx
    simp at h3
  intro q hq
  simp only [List.mem_cons, List.not_mem_nil, or_false] at hq
  have hsep : ∀ x : Rat, (eventOf searchEvent).get ⟨"f".toList, 0⟩ = some (.float x) → Apart x (rnd ((3 : Int) : Rat)) := by
    intro x hx
    have h3 : some (Value.float 1) = some (Value.float x) := hx
    simp only [Option.some.injEq, Value.float.injEq] at h3
    subst h3
    exact .inr ⟨⟨1, 0, by decide, by decide, by norm_num⟩, by decide +kernel⟩
  rcases hq with rfl | rfl | rfl | rfl | rfl | rfl | rfl | rfl <;>
    refine ⟨⟨?_, by simp [ConstantsInRange], ?_, ?_⟩, ?_, ?_⟩ <;>
    simp [exI, exB, exS, Expr.InRange, Pred.InRange, Clocked, ShortSafe, BoundSafe, Separated] <;>
    first
      | exact fun _ => hsep
      | exact fun _ x hx => absurd hx (hf x)
      | exact ⟨fun _ x hx => absurd hx (hf x), fun _ x hx => absurd hx (hf x)⟩

end BeTree
