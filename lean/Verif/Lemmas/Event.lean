import Verif.Spec.Event
/-
The environment built from an event.
-/
namespace BeTree
open Spec

theorem lowerKey_eq_lower (s : Str) : lowerKey s = lower s := rfl

theorem findAttr_lt {key : Str} {ds : List Domain} {i : Nat} (h : findAttr key ds i ≠ invalidId) :
    i ≤ findAttr key ds i ∧ findAttr key ds i < i + ds.length ∧
      ∃ d, ds[findAttr key ds i - i]? = some d ∧ d.attr.attr = key := by
  induction ds generalizing i with
  | nil => simp [findAttr] at h
  | cons d ds ih =>
    unfold findAttr at h ⊢
    split
    · rename_i hk
      exact ⟨Nat.le_refl _, by simp, d, by simp, hk⟩
    · rename_i hk
      rw [if_neg hk] at h
      obtain ⟨h1, h2, d', h3, h4⟩ := ih h
      refine ⟨by omega, by simp only [List.length_cons]; omega, d', ?_, h4⟩
      obtain ⟨k, hk⟩ : ∃ k, findAttr key ds (i + 1) - i = k + 1 := ⟨findAttr key ds (i + 1) - (i + 1), by omega⟩
      rw [hk, List.getElem?_cons_succ, ← h3]; congr 1; omega

theorem tryGetId_lt {cfg : Config} {a : Str} (h : tryGetIdForAttr cfg a ≠ invalidId) :
    tryGetIdForAttr cfg a < cfg.domains.length ∧
      ∃ d, cfg.domains[tryGetIdForAttr cfg a]? = some d ∧ d.attr.attr = lower a := by
  obtain ⟨_, h2, d, h3, h4⟩ := findAttr_lt h
  exact ⟨by simpa [tryGetIdForAttr] using h2, d, by simpa [tryGetIdForAttr] using h3, h4⟩

/-- the id is a function of the lower-cased name, and distinct names of declared attributes have distinct ids -/
theorem tryGetId_congr (cfg : Config) {a b : Str} (h : lower a = lower b) : tryGetIdForAttr cfg a = tryGetIdForAttr cfg b := by
  show findAttr (lower a) _ _ = findAttr (lower b) _ _
  rw [h]

theorem tryGetId_inj {cfg : Config} {a b : Str} (ha : tryGetIdForAttr cfg a ≠ invalidId)
    (h : tryGetIdForAttr cfg a = tryGetIdForAttr cfg b) : lower a = lower b := by
  obtain ⟨_, d, h1, h2⟩ := tryGetId_lt ha
  obtain ⟨_, d', h1', h2'⟩ := tryGetId_lt (h ▸ ha)
  rw [h] at h1
  rw [h1] at h1'
  cases h1'
  exact h2.symm.trans h2'

/-- one event variable's contribution -/
def fillOne (cfg : Config) (v : EventVar) : Except Fault (Nat × Value) :=
  if tryGetIdForAttr cfg v.attr = invalidId then .error .abort
  else
    match getDomain cfg (tryGetIdForAttr cfg v.attr) with
    | .error e => .error e
    | .ok d =>
      match fillValue cfg (tryGetIdForAttr cfg v.attr) d.bound.ty v.value with
      | .error e => .error e
      | .ok x => .ok (tryGetIdForAttr cfg v.attr, x)

theorem fillEvent_cons (cfg : Config) (v : EventVar) (vs : List EventVar) :
    fillEvent cfg (v :: vs) =
      match fillOne cfg v with
      | .error e => .error e
      | .ok p =>
        match fillEvent cfg vs with
        | .error e => .error e
        | .ok rest => .ok (p :: rest) := by
  unfold fillOne
  rw [fillEvent]
  by_cases hv : tryGetIdForAttr cfg v.attr = invalidId
  · rw [if_pos hv, if_pos hv]
  · rw [if_neg hv, if_neg hv]
    cases getDomain cfg (tryGetIdForAttr cfg v.attr) with
    | error e => rfl
    | ok d =>
      dsimp only
      cases fillValue cfg (tryGetIdForAttr cfg v.attr) d.bound.ty v.value <;> rfl

theorem fillOne_id {cfg : Config} {v : EventVar} {p : Nat × Value} (h : fillOne cfg v = .ok p) :
    p.1 = tryGetIdForAttr cfg v.attr ∧ p.1 < cfg.domains.length := by
  unfold fillOne at h
  split at h
  · cases h
  · rename_i hne
    split at h
    · cases h
    · split at h
      · cases h
      · cases h; exact ⟨rfl, (tryGetId_lt hne).1⟩

theorem fillEvent_append {cfg : Config} {a b : List EventVar} {l : List (Nat × Value)}
    (h : fillEvent cfg (a ++ b) = .ok l) :
    ∃ la lb, fillEvent cfg a = .ok la ∧ fillEvent cfg b = .ok lb ∧ l = la ++ lb := by
  induction a generalizing l with
  | nil => exact ⟨[], l, rfl, h, rfl⟩
  | cons v vs ih =>
    rw [List.cons_append, fillEvent_cons] at h
    split at h
    · cases h
    · rename_i p hp
      split at h
      · cases h
      · rename_i rest hr
        cases h
        obtain ⟨la, lb, h1, h2, h3⟩ := ih hr
        exact ⟨p :: la, lb, by rw [fillEvent_cons, hp, h1], h2, by simp [h3]⟩

theorem fillEvent_append_ok {cfg : Config} {a b : List EventVar} {la lb : List (Nat × Value)}
    (ha : fillEvent cfg a = .ok la) (hb : fillEvent cfg b = .ok lb) : fillEvent cfg (a ++ b) = .ok (la ++ lb) := by
  induction a generalizing la with
  | nil => cases ha; exact hb
  | cons v vs ih =>
    rw [fillEvent_cons] at ha
    rw [List.cons_append, fillEvent_cons]
    split at ha
    · cases ha
    · rename_i p hp
      split at ha
      · cases ha
      · rename_i rest hr
        cases ha
        rw [ih hr]
        rfl

theorem makeEnvironment_append (n : Nat) (a b : List (Nat × Value)) (env : Env) :
    makeEnvironment n (a ++ b) env = makeEnvironment n b (makeEnvironment n a env) := by
  induction a generalizing env with
  | nil => rfl
  | cons p ps ih => obtain ⟨v, x⟩ := p; exact ih _

theorem makeEnvironment_length (n : Nat) (a : List (Nat × Value)) (env : Env) :
    (makeEnvironment n a env).length = env.length := by
  induction a generalizing env with
  | nil => rfl
  | cons p ps ih => obtain ⟨v, x⟩ := p; simp [makeEnvironment, ih]

/-- what the environment holds: the last setting of each variable -/
theorem makeEnvironment_get (n : Nat) (a : List (Nat × Value)) (env : Env) (i : Nat) (hi : i < env.length) :
    (makeEnvironment n a env)[i]? =
      match a.reverse.find? (fun p => decide (p.1 = i)) with
      | some p => some (some p.2)
      | none => env[i]? := by
  induction a generalizing env with
  | nil => rfl
  | cons p ps ih =>
    obtain ⟨v, x⟩ := p
    rw [makeEnvironment, ih _ (by simpa using hi), List.reverse_cons, List.find?_append]
    cases hf : ps.reverse.find? (fun p => decide (p.1 = i)) with
    | some p => simp
    | none =>
      by_cases hv : v = i
      · subst hv; simp [hi]
      · simp [hv]

theorem eventEnv_length {cfg : Config} {ev : List EventVar} {env : Env} (h : eventEnv cfg ev = .ok env) :
    env.length = cfg.domains.length := by
  unfold eventEnv at h
  split at h
  · cases h
  · cases h; simp [makeEnvironment_length]

theorem fillEvent_find {cfg : Config} {ev : List EventVar} {l : List (Nat × Value)} (h : fillEvent cfg ev = .ok l) (i : Nat) :
    match ev.find? (fun v => decide (tryGetIdForAttr cfg v.attr = i)) with
    | none => l.find? (fun p => decide (p.1 = i)) = none
    | some v => ∃ x, fillOne cfg v = .ok (i, x) ∧ l.find? (fun p => decide (p.1 = i)) = some (i, x) := by
  induction ev generalizing l with
  | nil => cases h; rfl
  | cons v vs ih =>
    rw [fillEvent_cons] at h
    split at h
    · cases h
    · rename_i p hp
      split at h
      · cases h
      · rename_i rest hr
        cases h
        have := (fillOne_id hp).1
        by_cases hv : tryGetIdForAttr cfg v.attr = i
        · simp only [List.find?_cons, hv, decide_true, this]
          refine ⟨p.2, ?_, ?_⟩
          · rw [hp, ← hv, ← this]
          · rw [← hv, ← this]
        · simp only [List.find?_cons, hv, decide_false, this]
          exact ih hr

theorem fillEvent_reverse {cfg : Config} {ev : List EventVar} {l : List (Nat × Value)} (h : fillEvent cfg ev = .ok l) :
    fillEvent cfg ev.reverse = .ok l.reverse := by
  induction ev generalizing l with
  | nil => cases h; rfl
  | cons v vs ih =>
    rw [fillEvent_cons] at h
    split at h
    · cases h
    · rename_i p hp
      split at h
      · cases h
      · rename_i rest hr
        cases h
        rw [List.reverse_cons, List.reverse_cons]
        refine fillEvent_append_ok (ih hr) ?_
        rw [fillEvent_cons, hp]; rfl

/-- The value of variable `i` in the environment of an event: the filled and sorted value of the last setting with that
variable id, if any. -/
theorem eventEnv_get {cfg : Config} {ev : List EventVar} {env : Env} (h : eventEnv cfg ev = .ok env) (i : Nat)
    (hi : i < cfg.domains.length) :
    match ev.reverse.find? (fun v => decide (tryGetIdForAttr cfg v.attr = i)) with
    | none => env[i]? = some none
    | some v => ∃ x, fillOne cfg v = .ok (i, x) ∧ env[i]? = some (some (sortValue x)) := by
  unfold eventEnv at h
  split at h
  · cases h
  · rename_i vars hv
    cases h
    have hg := makeEnvironment_get cfg.domains.length (vars.map fun p => (p.1, sortValue p.2))
      (List.replicate cfg.domains.length none) i (by simpa using hi)
    have hf := fillEvent_find (fillEvent_reverse hv) i
    rw [← List.map_reverse, List.find?_map] at hg
    have he : ((fun p : Nat × Value => decide (p.1 = i)) ∘ fun p : Nat × Value => (p.1, sortValue p.2)) =
        fun p => decide (p.1 = i) := by funext p; rfl
    rw [he] at hg
    split
    · rename_i hn
      rw [hn] at hf
      simp only at hf
      rw [hg, hf]; simp [hi]
    · rename_i v hs
      rw [hs] at hf
      simp only at hf
      obtain ⟨x, h1, h2⟩ := hf
      exact ⟨x, h1, by rw [hg, h2]; rfl⟩

end BeTree
