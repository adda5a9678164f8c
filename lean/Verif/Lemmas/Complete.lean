import Verif.Lemmas.WorldPrune
import Verif.Props.Short
/-
The collection of candidates misses no subscription that is true on the event.
-/
namespace BeTree
open Spec
variable [Floats]

/-- no interval of the tree's configuration keeps the search away from this subscription -/
def Open (cfg : Config) (env : Env) (s : Sub) : Prop :=
  ∀ (v : Nat) (b : Bound) (ol or : Bool) (d : Domain), BInv cfg v b ol or d → Admits s v b ol or →
    isEventEnclosed env v b ol or = .ok true

omit [Floats] in
theorem validate_get : ∀ {ds : List Domain} {env : Env}, validateVariables ds env = true → ∀ {v : Nat} {d : Domain} {x : Option Value},
    ds[v]? = some d → env[v]? = some x → (d.allowUndefined || x.isSome) = true
  | [], _, _, v, d, x, hd, _ => by simp at hd
  | _ :: _, [], _, v, d, x, _, hx => by simp at hx
  | d0 :: ds, x0 :: xs, h, v, d, x, hd, hx => by
    simp only [validateVariables, Bool.and_eq_true] at h
    cases v with
    | zero => simp at hd hx; subst hd; subst hx; exact h.1
    | succ v => simp at hd hx; exact validate_get h.2 hd hx

mutual
theorem CNode.collect_complete {cfg : Config} {env : Env} (hv : validateVariables cfg.domains env = true) :
    ∀ {c : CNode}, c.Pr cfg → ∀ {l : List Sub}, c.collect cfg env = .ok l → ∀ s ∈ c.contents, Open cfg env s → s ∈ l
  | .mk subs cap pns, hp, l, h, s, hs, ho => by
    simp only [CNode.Pr] at hp
    simp only [CNode.collect] at h
    split at h
    · cases h
    · rename_i rest hr
      cases h
      simp only [CNode.contents, List.mem_append] at hs
      rcases hs with hs | hs
      · exact List.mem_append_left _ hs
      · exact List.mem_append_right _ (PNodes.collect_complete hv hp hr s hs ho)
theorem PNodes.collect_complete {cfg : Config} {env : Env} (hv : validateVariables cfg.domains env = true) :
    ∀ {p : PNodes}, p.Pr cfg → ∀ {l : List Sub}, p.collect cfg env = .ok l → ∀ s ∈ p.contents, Open cfg env s → s ∈ l
  | .nil, _, l, h, s, hs, _ => by simp [PNodes.contents] at hs
  | .cons v sc cd rest, hp, l, h, s, hs, ho => by
    simp only [PNodes.Pr] at hp
    simp only [PNodes.collect] at h
    split at h
    · cases h
    · rename_i d hd
      split at h
      · cases h
      · rename_i x hx
        have hdd : cfg.domains[v]? = some d := by
          unfold getDomain at hd
          split at hd
          · cases hd
          · rename_i h1; cases hd; exact h1
        have hxx : env[v]? = some x := by
          unfold envGet getVariable at hx
          split at hx
          · cases hx
          · rename_i h1; cases hx; exact h1
        rw [validate_get hv hdd hxx] at h
        simp only [if_true] at h
        split at h
        · cases h
        · rename_i here hh
          split at h
          · cases h
          · rename_i rest' hr
            cases h
            simp only [PNodes.contents, List.mem_append] at hs
            rcases hs with hs | hs
            · exact List.mem_append_left _ (CDir.collect_complete hv hp.1 hh s hs ho)
            · exact List.mem_append_right _ (PNodes.collect_complete hv hp.2 hr s hs ho)
theorem CDir.collect_complete {cfg : Config} {env : Env} (hv : validateVariables cfg.domains env = true) :
    ∀ {ol or : Bool} {c : CDir}, c.Pr cfg ol or → ∀ {l : List Sub}, c.collect cfg env ol or = .ok l →
      ∀ s ∈ c.contents, Open cfg env s → s ∈ l
  | ol, or, .leaf v b c, hp, l, h, s, hs, ho => by
    simp only [CDir.Pr] at hp
    simp only [CDir.collect] at h
    simp only [CDir.contents] at hs
    exact CNode.collect_complete hv hp.2 h s hs ho
  | ol, or, .node v b c l r, hp, out, h, s, hs, ho => by
    simp only [CDir.Pr] at hp
    obtain ⟨_, hc, _, _, hl, hr, al, ar⟩ := hp
    simp only [CDir.collect] at h
    split at h
    · cases h
    · rename_i here hh
      split at h
      · cases h
      · rename_i inL hinL
        split at h
        · cases h
        · rename_i ls hls
          split at h
          · cases h
          · rename_i inR hinR
            split at h
            · cases h
            · rename_i rs hrs
              cases h
              simp only [CDir.contents, List.mem_append] at hs
              rcases hs with (hs | hs) | hs
              · exact List.mem_append_left _ (List.mem_append_left _ (CNode.collect_complete hv hc hh s hs ho))
              · obtain ⟨d, hd⟩ := hl.inv
                have := ho _ _ _ _ d hd (al s hs)
                rw [this] at hinL
                cases hinL
                exact List.mem_append_left _ (List.mem_append_right _ (CDir.collect_complete hv hl hls s hs ho))
              · obtain ⟨d, hd⟩ := hr.inv
                have := ho _ _ _ _ d hd (ar s hs)
                rw [this] at hinR
                cases hinR
                exact List.mem_append_right _ (CDir.collect_complete hv hr hrs s hs ho)
end

/-! ### conditions that parsing keeps -/

omit [Floats] in
theorem boundSafe_mono {p q : Str → Prop} (hpq : ∀ n, q n → p n) : ∀ {e : Expr} {odd : Bool}, BoundSafe p odd e → BoundSafe q odd e
  | .leaf _, _, _ => trivial
  | .not e, _, h => boundSafe_mono (e := e) hpq h
  | .and l r, _, h => ⟨boundSafe_mono (e := l) hpq h.1, boundSafe_mono (e := r) hpq h.2.1,
      fun ho n hn hq => h.2.2 ho n hn (hpq n hq)⟩
  | .or l r, _, h => ⟨boundSafe_mono (e := l) hpq h.1, boundSafe_mono (e := r) hpq h.2⟩

omit [Floats] in
theorem boundNames_parse (e : Expr) : ∀ n, n ∈ boundNames (parseBuild e) ↔ n ∈ boundNames e := by
  induction e with
  | leaf p => intro n; rfl
  | not e ih => exact ih
  | and l r ihl ihr =>
    intro n
    simp only [parseBuild, mkAnd, boundNames]
    split <;> simp only [boundNames, List.mem_append, ihl, ihr] <;> tauto
  | or l r ihl ihr =>
    intro n
    simp only [parseBuild, mkOr, boundNames]
    split <;> simp only [boundNames, List.mem_append, ihl, ihr] <;> tauto

omit [Floats] in
theorem boundSafe_parse {p : Str → Prop} : ∀ {e : Expr} {odd : Bool}, BoundSafe p odd e → BoundSafe p odd (parseBuild e) := by
  intro e
  induction e with
  | leaf p => intro odd h; exact h
  | not e ih => intro odd h; exact ih (odd := !odd) h
  | and l r ihl ihr =>
    intro odd h
    obtain ⟨h1, h2, h3⟩ := h
    have h4 : odd = true → ∀ n, (n ∈ boundNames l ∨ n ∈ boundNames r) → ¬ p n := fun ho n hn => h3 ho n (List.mem_append.2 hn)
    simp only [parseBuild, mkAnd]
    split
    · refine ⟨ihr h2, ihl h1, fun ho n hn => h4 ho n ?_⟩
      simp only [List.mem_append, boundNames_parse] at hn
      exact hn.symm
    · refine ⟨ihl h1, ihr h2, fun ho n hn => h4 ho n ?_⟩
      simpa only [List.mem_append, boundNames_parse] using hn
  | or l r ihl ihr =>
    intro odd h
    simp only [parseBuild, mkOr]
    split
    · exact ⟨ihr h.2, ihl h.1⟩
    · exact ⟨ihl h.1, ihr h.2⟩

omit [Floats] in
theorem separated_mono {lim lim' : Str → Prop} {ev : Event} (hl : ∀ n, lim' n → lim n) : ∀ {e : Expr}, Separated lim ev e → Separated lim' ev e := by
  intro e
  induction e with
  | leaf p =>
    intro h
    cases p with
    | compare op v c => cases c <;> exact fun hn => h (hl _ hn)
    | equality op v c => cases c <;> first | exact fun hn => h (hl _ hn) | trivial
    | _ => trivial
  | not e ih => intro h; exact ih h
  | and l r ihl ihr => intro h; exact ⟨ihl h.1, ihr h.2⟩
  | or l r ihl ihr => intro h; exact ⟨ihl h.1, ihr h.2⟩

omit [Floats] in
theorem separated_parse {lim : Str → Prop} {ev : Event} : ∀ {e : Expr}, Separated lim ev e → Separated lim ev (parseBuild e) := by
  intro e
  induction e with
  | leaf p => intro h; exact h
  | not e ih => intro h; exact ih h
  | and l r ihl ihr =>
    intro h
    simp only [parseBuild, mkAnd]
    split
    · exact ⟨ihr h.2, ihl h.1⟩
    · exact ⟨ihl h.1, ihr h.2⟩
  | or l r ihl ihr =>
    intro h
    simp only [parseBuild, mkOr]
    split
    · exact ⟨ihr h.2, ihl h.1⟩
    · exact ⟨ihl h.1, ihr h.2⟩

omit [Floats] in
/-- the attribute of a limited domain -/
theorem hasLimits_of_id {cfg : Config} (hs : Small cfg) {n : Str} {v : Nat} {d : Domain} (h : tryGetIdForAttr cfg n = v)
    (hd : cfg.domains[v]? = some d) (hl : Limited d.bound) : HasLimits cfg n := by
  have hlt := (List.getElem?_eq_some_iff.1 hd).1
  have hne : tryGetIdForAttr cfg n ≠ invalidId := by rw [h]; have := hs.domains; omega
  obtain ⟨_, d', h1, h2⟩ := tryGetId_lt hne
  rw [h, hd] at h1
  cases h1
  exact ⟨d, List.mem_of_getElem? hd, h2, hl⟩

/-- a stored subscription whose request is true on the event is open to the search -/
theorem Made.open {geo : GeoTest} {cfg : Config} {q : Req} {s : Sub} (hm : Made cfg q s) (hs : Small cfg) (hok : TablesOK cfg)
    (hi : s.expr.erase.AllIds) (hin : Expr.InRange q.expr) {ev : List EventVar} {env : Env} (he : eventEnv cfg ev = .ok env)
    (hsep : Separated (HasLimits cfg) (eventOf ev) q.expr) (hsafe : BoundSafe (HasLimits cfg) false q.expr)
    (hsat : sat geo (constants q.consts) (eventOf ev) q.expr) : Open cfg env s := by
  intro v b ol or d hb ha
  refine ha geo cfg q.consts (parseBuild q.expr) ev env d hm.res hs hok hi (inRange_parse hin) hb.dom.get hb.ty.symm
    (separated_parse (separated_mono (fun n hn => hasLimits_of_id hs hn hb.dom.get hb.lim) hsep)) ?_ he ((C15_reorder_preserves_sat _ _ _ _).2 hsat)
  exact boundSafe_parse (boundSafe_mono (fun n hn => hasLimits_of_id hs hn hb.dom.get hb.lim) hsafe)

end BeTree
