import Verif.Lemmas.LR
/-
The table-driven parser: running it on tokens that are only partly known.
-/
namespace BeTree
section
variable {τ V : Type} (T : LRTables) (num : τ → Nat) (val : τ → V) (eofVal : V) (action : Nat → List V → Except Fault V)

/-- the top of a stack that stands on state `p` -/
def topOr (p : Nat) : List (Nat × V) → Nat
  | [] => p
  | (s, _) :: _ => s

/-- `n` steps of the parser above state `p`, with `la` the token after the given ones -/
def lrSim (p la : Nat) : Nat → List (Nat × V) → List τ → Option (List (Nat × V))
  | 0, stk, [] => some stk
  | 0, _, _ :: _ => none
  | n + 1, stk, input =>
    if topOr p stk = T.final then none
    else
      match T.act (topOr p stk) (nextOr num input la) with
      | .bad => none
      | .error => none
      | .shift s =>
        match input with
        | [] => none
        | t :: rest => lrSim p la n ((s, val t) :: stk) rest
      | .reduce r =>
        match T.r1[r]?, T.r2[r]? with
        | some nt, some len =>
          if stk.length < len ∨ len = 0 then none
          else
            match action r ((stk.take len).reverse.map Prod.snd) with
            | .error _ => none
            | .ok v =>
              match T.goto (topOr p (stk.drop len)) nt with
              | none => none
              | some s => lrSim p la n ((s, v) :: stk.drop len) input
        | _, _ => none

/-- reading `ts` before `la` above state `p` turns the stack `src` into `dst`, using at most `b` places above `p` -/
def Runs (p : Nat) (src : List (Nat × V)) (ts : List τ) (la : Nat) (dst : List (Nat × V)) (b : Nat) : Prop :=
  ∀ stk rest, topState stk = p → nextNum num rest = la → stk.length + b + 1 < T.depth →
    ∃ k, ∀ fuel, lrRun T num val eofVal action (fuel + k) (src ++ stk) (ts ++ rest) =
      lrRun T num val eofVal action fuel (dst ++ stk) rest

variable {T num val eofVal action}

theorem topState_append (src stk : List (Nat × V)) : topState (src ++ stk) = topOr (topState stk) src := by
  cases src <;> rfl

theorem runs_sim {p la n : Nat} {src dst : List (Nat × V)} {ts : List τ} (h : lrSim T num val action p la n src ts = some dst) :
    Runs T num val eofVal action p src ts la dst (src.length + ts.length) := by
  intro stk rest hp hla hlen
  refine ⟨n, ?_⟩
  subst hp hla
  induction n generalizing src ts with
  | zero =>
    intro fuel
    cases ts with
    | nil => simp only [lrSim, Option.some.injEq] at h; subst h; rfl
    | cons t ts => simp [lrSim] at h
  | succ n ih =>
    intro fuel
    have hd : ¬ T.depth ≤ (src ++ stk).length + 1 := by rw [List.length_append]; omega
    rw [Nat.add_succ, lrRun_succ, if_neg hd]
    rw [lrSim] at h
    rw [topState_append, ← nextOr_nextNum]
    by_cases hf : topOr (topState stk) src = T.final
    · rw [if_pos hf] at h; cases h
    · rw [if_neg hf] at h ⊢
      split at h
      · cases h
      · cases h
      · rename_i s ha
        rw [ha]
        cases ts with
        | nil => cases h
        | cons t ts =>
          simp only at h
          have := ih (src := (s, val t) :: src) (ts := ts) (by simp only [List.length_cons] at hlen ⊢; omega) h fuel
          simpa using this
      · rename_i r ha
        rw [ha]
        split at h
        · rename_i nt len h1 h2
          simp only [h1, h2]
          by_cases hl : src.length < len ∨ len = 0
          · rw [if_pos hl] at h; cases h
          · rw [if_neg hl] at h
            rw [not_or] at hl
            have hl1 : len ≤ src.length := Nat.le_of_not_lt hl.1
            rw [if_neg (by rw [List.length_append]; omega), List.take_append_of_le_length hl1, List.drop_append_of_le_length hl1]
            split at h
            · cases h
            · rename_i v hv
              simp only [hv]
              rw [topState_append]
              split at h
              · cases h
              · rename_i s hg
                simp only [hg]
                have := ih (src := (s, v) :: src.drop len) (ts := ts) (by simp only [List.length_cons, List.length_drop] at hlen ⊢; omega) h fuel
                exact this
        · cases h

theorem runs_trans {p la b1 b2 : Nat} {src mid dst : List (Nat × V)} {t1 t2 : List τ}
    (h1 : Runs T num val eofVal action p src t1 (nextOr num t2 la) mid b1)
    (h2 : Runs T num val eofVal action p mid t2 la dst b2) :
    Runs T num val eofVal action p src (t1 ++ t2) la dst (max b1 b2) := by
  intro stk rest hp hla hlen
  obtain ⟨k1, hk1⟩ := h1 stk (t2 ++ rest) hp (by rw [← nextOr_nextNum, hla]) (by omega)
  obtain ⟨k2, hk2⟩ := h2 stk rest hp hla (by omega)
  refine ⟨k2 + k1, fun fuel => ?_⟩
  rw [← Nat.add_assoc, List.append_assoc, hk1, hk2]

theorem runs_then {p la b1 b2 : Nat} {src mid dst : List (Nat × V)} {ts : List τ}
    (h1 : Runs T num val eofVal action p src ts la mid b1)
    (h2 : Runs T num val eofVal action p mid [] la dst b2) :
    Runs T num val eofVal action p src ts la dst (max b1 b2) := by
  have := runs_trans (t2 := []) h1 h2
  rwa [List.append_nil] at this

theorem runs_above {p q la b : Nat} {src dst base : List (Nat × V)} {ts : List τ}
    (h : Runs T num val eofVal action q src ts la dst b) (hq : topOr p base = q) :
    Runs T num val eofVal action p (src ++ base) ts la (dst ++ base) (b + base.length) := by
  intro stk rest hp hla hlen
  subst hq hp
  obtain ⟨k, hk⟩ := h (base ++ stk) rest (topState_append _ _) hla (by rw [List.length_append]; omega)
  refine ⟨k, fun fuel => ?_⟩
  rw [List.append_assoc, List.append_assoc]
  exact hk fuel

theorem runs_le {p la b b' : Nat} {src dst : List (Nat × V)} {ts : List τ}
    (h : Runs T num val eofVal action p src ts la dst b) (hb : b ≤ b') : Runs T num val eofVal action p src ts la dst b' :=
  fun stk rest hp hla hlen => h stk rest hp hla (by omega)

/-- more steps than needed change nothing -/
theorem lrRun_more {fuel : Nat} {stk : List (Nat × V)} {input : List τ} {r : Option V}
    (h : lrRun T num val eofVal action fuel stk input = .ok r) (k : Nat) :
    lrRun T num val eofVal action (fuel + k) stk input = .ok r := by
  induction fuel generalizing stk input with
  | zero => simp [lrRun] at h
  | succ fuel ih =>
    rw [Nat.add_right_comm, lrRun_succ]
    rw [lrRun_succ] at h
    by_cases hd : T.depth ≤ stk.length + 1
    · rw [if_pos hd] at h ⊢; exact h
    · rw [if_neg hd] at h ⊢
      by_cases hf : topState stk = T.final
      · rw [if_pos hf] at h ⊢; exact h
      · rw [if_neg hf] at h ⊢
        cases ha : T.act (topState stk) (nextNum num input) with
        | bad => simp [ha] at h
        | error => simpa [ha] using h
        | shift s =>
          cases input with
          | nil => simp only [ha] at h ⊢; exact ih h
          | cons t rest => simp only [ha] at h ⊢; exact ih h
        | reduce r' =>
          simp only [ha] at h ⊢
          split at h
          · rename_i nt len h1 h2
            split at h
            · cases h
            · rename_i hl
              simp only [hl, if_false]
              split at h
              · cases h
              · rename_i v hv
                split at h
                · cases h
                · rename_i s hg
                  exact ih h
          · cases h

end
end BeTree
