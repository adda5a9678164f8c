import Verif.Lemmas.Event
import Verif.Model.Api
import Verif.Props.Conserve
/-
C07 (mandatory variables), C37 (last setting wins), C27 (case of attribute names, event side).
-/
namespace BeTree
open Spec

theorem findAttr_of_nodup {ds : List Domain} (hnd : (ds.map (fun d => d.attr.attr)).Nodup) {j : Nat} {d : Domain}
    (h : ds[j]? = some d) (i : Nat) : findAttr d.attr.attr ds i = i + j := by
  induction ds generalizing j i with
  | nil => simp at h
  | cons d' ds ih =>
    rw [List.map_cons, List.nodup_cons] at hnd
    unfold findAttr
    cases j with
    | zero =>
      simp only [List.getElem?_cons_zero, Option.some.injEq] at h
      subst h; simp
    | succ j =>
      rw [List.getElem?_cons_succ] at h
      have hne : d'.attr.attr ≠ d.attr.attr := fun he =>
        hnd.1 (he ▸ List.mem_map_of_mem (f := fun d : Domain => d.attr.attr) (List.mem_of_getElem? h))
      rw [if_neg hne, ih hnd.2 h]; omega

/-- a declared variable is defined in the environment iff the event sets its name -/
theorem eventEnv_defined {cfg : Config} (hnd : (cfg.domains.map (fun d => d.attr.attr)).Nodup) {ev : List EventVar} {env : Env}
    (h : eventEnv cfg ev = .ok env) {i : Nat} {d : Domain} (hd : cfg.domains[i]? = some d) :
    (∃ x, env[i]? = some (some x)) ↔ Spec.sets ev d.attr.attr := by
  have hi : i < cfg.domains.length := by
    rcases Nat.lt_or_ge i cfg.domains.length with h | h
    · exact h
    · rw [List.getElem?_eq_none h] at hd; cases hd
  have hg := eventEnv_get h i hi
  have key : ∀ v : EventVar, lower v.attr = d.attr.attr → tryGetIdForAttr cfg v.attr = i := by
    intro v hv
    show findAttr (lower v.attr) _ _ = _
    rw [hv, findAttr_of_nodup hnd hd]; omega
  constructor
  · rintro ⟨x, hx⟩
    split at hg
    · rw [hg] at hx; cases hx
    · rename_i v hv
      refine ⟨v, by simpa using List.mem_of_find?_eq_some hv, ?_⟩
      have h1 : tryGetIdForAttr cfg v.attr = i := by simpa using List.find?_some hv
      obtain ⟨y, hy, _⟩ := hg
      have hne : tryGetIdForAttr cfg v.attr ≠ invalidId := by
        intro hc
        unfold fillOne at hy
        rw [if_pos hc] at hy; cases hy
      obtain ⟨_, d', h2, h3⟩ := tryGetId_lt hne
      rw [h1, hd] at h2
      cases h2
      exact h3.symm
  · rintro ⟨v, hv, hl⟩
    split at hg
    · rename_i hn
      have := List.find?_eq_none.1 hn v (by simpa using hv)
      simp [key v hl] at this
    · obtain ⟨x, _, hx⟩ := hg
      exact ⟨_, hx⟩

theorem validate_false {ds : List Domain} {env : Env} (hl : env.length = ds.length) :
    validateVariables ds env = false ↔ ∃ (i : Nat) (d : Domain), ds[i]? = some d ∧ d.allowUndefined = false ∧ env[i]? = some none := by
  induction ds generalizing env with
  | nil =>
    cases env with
    | nil => simp [validateVariables]
    | cons => simp at hl
  | cons d ds ih =>
    cases env with
    | nil => simp at hl
    | cons v vs =>
      simp only [validateVariables, Bool.and_eq_false_iff, Bool.or_eq_false_iff]
      rw [ih (by simpa using hl)]
      constructor
      · rintro (⟨h1, h2⟩ | ⟨i, d', h1, h2, h3⟩)
        · refine ⟨0, d, rfl, h1, ?_⟩
          cases v with
          | none => rfl
          | some x => simp at h2
        · exact ⟨i + 1, d', h1, h2, h3⟩
      · rintro ⟨i, d', h1, h2, h3⟩
        cases i with
        | zero =>
          simp only [List.getElem?_cons_zero, Option.some.injEq] at h1 h3
          subst h1; subst h3
          exact Or.inl ⟨h2, rfl⟩
        | succ i => exact Or.inr ⟨i, d', h1, h2, h3⟩

/-- C07: on an event that can be filled (its names are declared and its values have the declared types), a search returns
false, without giving back a report, exactly when some variable declared with `allow_undefined = false` is not set. -/
theorem C07_mandatory_variables (geo : GeoTest) (t : Tree) (ev : List EventVar) (rep : Report)
    (hnd : (t.cfg.domains.map (fun d => d.attr.attr)).Nodup) {env : Env} (henv : eventEnv t.cfg ev = .ok env) :
    ((∃ d ∈ t.cfg.domains, d.allowUndefined = false ∧ ¬ Spec.sets ev d.attr.attr) → t.search geo ev rep = .ok none) ∧
    ((¬ ∃ d ∈ t.cfg.domains, d.allowUndefined = false ∧ ¬ Spec.sets ev d.attr.attr) →
      (∃ x, t.search geo ev rep = .error x) ∨ ∃ rep', t.search geo ev rep = .ok (some rep')) := by
  have hv := validate_false (eventEnv_length henv)
  have hiff : validateVariables t.cfg.domains env = false ↔
      ∃ d ∈ t.cfg.domains, d.allowUndefined = false ∧ ¬ Spec.sets ev d.attr.attr := by
    rw [hv]
    constructor
    · rintro ⟨i, d, h1, h2, h3⟩
      refine ⟨d, List.mem_of_getElem? h1, h2, fun hs => ?_⟩
      obtain ⟨x, hx⟩ := (eventEnv_defined hnd henv h1).2 hs
      rw [h3] at hx; cases hx
    · rintro ⟨d, hd, h2, h3⟩
      obtain ⟨i, hi⟩ := List.mem_iff_getElem?.1 hd
      refine ⟨i, d, hi, h2, ?_⟩
      have hlt : i < env.length := by
        rw [eventEnv_length henv]
        rcases Nat.lt_or_ge i t.cfg.domains.length with h | h
        · exact h
        · rw [List.getElem?_eq_none h] at hi; cases hi
      rw [List.getElem?_eq_getElem hlt]
      cases hx : env[i] with
      | none => rfl
      | some x => exact absurd ((eventEnv_defined hnd henv hi).1 ⟨x, by rw [List.getElem?_eq_getElem hlt, hx]⟩) h3
  rw [← hiff]
  unfold Tree.search
  rw [henv]
  dsimp only
  cases validateVariables t.cfg.domains env with
  | false => exact ⟨fun _ => rfl, fun h => absurd rfl h⟩
  | true =>
    refine ⟨fun h => (by cases h), fun _ => ?_⟩
    cases searchWithPreds geo t.cfg env t.root rep with
    | error x => exact Or.inl ⟨x, rfl⟩
    | ok r => exact Or.inr ⟨r, rfl⟩

/-- C37: when a variable is set again later, the earlier setting is as if absent: the environment of the event, hence the
outcome of a search and of an existence test, is the same without it. -/
theorem C37_last_setting_wins (cfg : Config) (pre post : List EventVar) (v : EventVar) {env : Env}
    (hlater : ∃ w ∈ post, lower w.attr = lower v.attr) (h : eventEnv cfg (pre ++ v :: post) = .ok env) :
    eventEnv cfg (pre ++ post) = .ok env := by
  unfold eventEnv at h ⊢
  split at h
  · cases h
  · rename_i vars hf
    cases h
    obtain ⟨la, lb, h1, h2, rfl⟩ := fillEvent_append hf
    rw [fillEvent_cons] at h2
    split at h2
    · cases h2
    · rename_i p hp
      split at h2
      · cases h2
      · rename_i lb' hr
        cases h2
        rw [fillEvent_append_ok h1 hr]
        simp only [List.map_append, List.map_cons, makeEnvironment_append, makeEnvironment, Except.ok.injEq]
        -- the later setting overwrites the same entry
        obtain ⟨w, hw, hwl⟩ := hlater
        have hid := tryGetId_congr cfg hwl
        have hpid := (fillOne_id hp).1
        have hset : ∀ (vs : List EventVar) (l : List (Nat × Value)) (env : Env) (x : Value), w ∈ vs → fillEvent cfg vs = .ok l →
            makeEnvironment cfg.domains.length (l.map fun p => (p.1, sortValue p.2)) (env.set p.1 (some x)) =
              makeEnvironment cfg.domains.length (l.map fun p => (p.1, sortValue p.2)) env := by
          intro vs
          induction vs with
          | nil => intro l env x hm; cases hm
          | cons u us ih =>
            intro l env x hm hfill
            rw [fillEvent_cons] at hfill
            split at hfill
            · cases hfill
            · rename_i p' hp'
              split at hfill
              · cases hfill
              · rename_i rest hrest
                cases hfill
                simp only [List.map_cons, makeEnvironment]
                by_cases hc : p'.1 = p.1
                · rw [hc, List.set_set]
                · rw [List.set_comm _ _ (fun h => hc h.symm)]
                  refine ih rest _ x ?_ hrest
                  rcases List.mem_cons.1 hm with rfl | hm
                  · exact absurd ((fillOne_id hp').1.trans (hid.trans hpid.symm)) hc
                  · exact hm
        exact (hset post lb' _ _ hw hr).symm

/-- C37 at the API -/
theorem C37_search (geo : GeoTest) (t : Tree) (pre post : List EventVar) (v : EventVar) (rep : Report)
    (hlater : ∃ w ∈ post, lower w.attr = lower v.attr) {env : Env} (h : eventEnv t.cfg (pre ++ v :: post) = .ok env) :
    t.search geo (pre ++ v :: post) rep = t.search geo (pre ++ post) rep ∧
    t.exists geo (pre ++ v :: post) = t.exists geo (pre ++ post) := by
  unfold Tree.search Tree.exists
  rw [h, C37_last_setting_wins t.cfg pre post v hlater h]
  exact ⟨rfl, rfl⟩

/-- C27, event side: changing the letter case of the names in an event changes nothing. -/
theorem C27_event_names (geo : GeoTest) (t : Tree) (ev ev' : List EventVar) (rep : Report)
    (h : ev.map (fun v => (lower v.attr, v.value)) = ev'.map (fun v => (lower v.attr, v.value))) :
    t.search geo ev rep = t.search geo ev' rep ∧ t.exists geo ev = t.exists geo ev' := by
  have hf : fillEvent t.cfg ev = fillEvent t.cfg ev' := by
    induction ev generalizing ev' with
    | nil => cases ev' with
      | nil => rfl
      | cons => simp at h
    | cons v vs ih =>
      cases ev' with
      | nil => simp at h
      | cons v' vs' =>
        simp only [List.map_cons, List.cons.injEq, Prod.mk.injEq] at h
        obtain ⟨⟨h1, h2⟩, h3⟩ := h
        rw [fillEvent_cons, fillEvent_cons, ih vs' h3]
        have : fillOne t.cfg v = fillOne t.cfg v' := by
          unfold fillOne
          rw [tryGetId_congr t.cfg h1, h2]
        rw [this]
  unfold Tree.search Tree.exists eventEnv
  rw [hf]
  exact ⟨rfl, rfl⟩

/-! ### concrete cases -/

/-- the tree of the examples with its six subscriptions -/
def exampleTree : Tree :=
  match (World.init (makeTree 2 0 exampleDecls)).run exactRounding exampleOps with
  | .ok w => w.tree
  | .error _ => makeTree 2 0 exampleDecls

def exGeo : GeoTest := fun _ _ _ _ _ => false

/-- `{"I": 2, "b": true}` after an earlier setting of `i`: four subscriptions are visited, three match -/
def exampleEvent : List EventVar := [⟨"i".toList, .int 8⟩, ⟨"I".toList, .int 2⟩, ⟨"b".toList, .bool true⟩]

example : exampleTree.search exGeo exampleEvent .empty = exampleTree.search exGeo (exampleEvent.drop 1) .empty :=
  (C37_search exGeo exampleTree [] (exampleEvent.drop 1) ⟨"i".toList, .int 8⟩ .empty
    ⟨⟨"I".toList, .int 2⟩, by decide, by decide⟩
    (env := [some (.int 2), some (.bool true)]) (by decide +kernel)).1

example : (exampleTree.search exGeo exampleEvent .empty).toOption.map (·.map Report.subs) = some (some [4, 1, 3]) := by
  decide +kernel

/-- leaving out the mandatory `i`: refused -/
example : exampleTree.search exGeo [⟨"b".toList, .bool true⟩] .empty = .ok none :=
  (C07_mandatory_variables exGeo exampleTree [⟨"b".toList, .bool true⟩] .empty (by decide +kernel)
    (env := [none, some (.bool true)]) (by decide +kernel)).1
    ⟨⟨⟨"i".toList, 0⟩, ⟨.int, .i 0, .i 10⟩, false⟩, by decide +kernel, rfl, by
      rintro ⟨v, hv, hl⟩
      simp only [List.mem_singleton] at hv
      subst hv
      exact absurd hl (by decide)⟩

end BeTree
