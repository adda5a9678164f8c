import Verif.Props.StrBound
import Verif.Lemmas.Used
/-
C69: the limit of an enum attribute.
-/
namespace BeTree
open Spec

theorem getIdForIenum_bound {cfg cfg' : Config} {v : AttrVar} {i : Int} {id : Nat} (h : getIdForIenum cfg v i false = .ok (id, cfg')) {u n : Nat}
    (hu : EndsAt cfg.domains u n) (hn : n + 1 < 2 ^ 64) (hl : (intTable cfg u).length ≤ n + 1) : (intTable cfg' u).length ≤ n + 1 := by
  obtain ⟨_, _, h3, h4, _⟩ := getIdForIenum_spec h
  by_cases hv : u = v.var
  · subst hv
    obtain ⟨d, hd, hh⟩ := hu
    have hs : domSmax cfg v.var = .ok n := by
      unfold domSmax getDomain
      rw [hd]
      dsimp only
      unfold Bound.smax
      rw [hh]
    generalize intTable cfg' v.var = t' at h4 ⊢
    cases h4 with
    | old => exact hl
    | new _ hroom =>
      rcases hroom with h | ⟨m, hm, hne⟩
      · cases h
      · rw [hs] at hm
        cases hm
        rw [Nat.mod_eq_of_lt hn] at hne
        simp only [List.length_append, List.length_cons, List.length_nil]
        omega
    | full => exact hl
  · rw [h3 u hv]; exact hl

theorem assignIenum_bound {e e' : Expr} {cfg cfg' : Config} (h : assignIenum cfg false e = .ok (e', cfg')) {u n : Nat}
    (hu : EndsAt cfg.domains u n) (hn : n + 1 < 2 ^ 64) (hl : (intTable cfg u).length ≤ n + 1) : (intTable cfg' u).length ≤ n + 1 := by
  induction e generalizing cfg cfg' e' with
  | leaf p =>
    rw [assignIenum] at h
    split at h
    · cases h
    · rename_i h1
      cases h
      unfold assignIenumPred at h1
      repeat' split at h1
      all_goals first
        | (cases h1; done)
        | (rename_i h2; cases h1; exact getIdForIenum_bound h2 hu hn hl)
        | (cases h1; exact hl)
  | not e ih =>
    rw [assignIenum] at h
    split at h
    · cases h
    · rename_i h1; cases h; exact ih h1 hu hl
  | and l r ihl ihr | or l r ihl ihr =>
    rw [assignIenum] at h
    split at h
    · cases h
    · rename_i h1
      split at h
      · cases h
      · rename_i h2; cases h
        exact ihr h2 (by rw [(assignIenum_grow h1).base.domains]; exact hu) (ihl h1 hu hl)

theorem prepareInsert_enums {cfg cfg' : Config} {id : Nat} {cs : List Constant} {e : Expr} {o : Option Sub}
    (h : prepareInsert cfg id cs e = .ok (o, cfg')) {u n : Nat} (hu : EndsAt cfg.domains u n) (hn : n + 1 < 2 ^ 64)
    (hl : (intTable cfg u).length ≤ n + 1) : (intTable cfg' u).length ≤ n + 1 := by
  unfold prepareInsert at h
  dsimp only at h
  split at h
  · cases h
  · cases h; exact hl
  · split at h
    · cases h; exact hl
    · split at h
      · cases h
      · rename_i e1 c1 h1
        split at h
        · cases h
        · rename_i e2 c2 h2
          split at h
          · cases h
          · split at h
            · cases h
            · rename_i h3
              cases h
              rw [intTable_of_maps (finishSub_intMaps h3)]
              exact assignIenum_bound h2 (by rw [(assignStr_grow h1).base.domains]; exact hu) hn
                (by rw [intTable_of_maps (assignStr_ints h1)]; exact hl)

theorem insert_enums {R : Rounding} {t t' : Tree} {id : Nat} {cs : List Constant} {e : Expr} {b : Bool}
    (h : t.insert R id cs e = .ok (b, t')) {u n : Nat} (hu : EndsAt t.cfg.domains u n) (hn : n + 1 < 2 ^ 64)
    (hl : (intTable t.cfg u).length ≤ n + 1) : (intTable t'.cfg u).length ≤ n + 1 := by
  unfold Tree.insert at h
  repeat' split at h
  all_goals first
    | (cases h; done)
    | (cases h; rename_i h1; exact prepareInsert_enums h1 hu hn hl)
    | (cases h; rename_i h1 _ _ _; exact prepareInsert_enums h1 hu hn hl)

theorem inserts_enums {R : Rounding} {ops : List Op} : ∀ {w w' : World}, (∀ o ∈ ops, ∃ q, o = .insert q) → w.run R ops = .ok w' →
    ∀ u n, EndsAt w.tree.cfg.domains u n → n + 1 < 2 ^ 64 →
      (intTable w.tree.cfg u).length ≤ n + 1 → (intTable w'.tree.cfg u).length ≤ n + 1 := by
  induction ops with
  | nil => intro w w' _ h; cases h; exact fun _ _ _ _ h => h
  | cons o os ih =>
    intro w w' ho h
    simp only [World.run] at h
    split at h
    · cases h
    · rename_i w1 h1
      obtain ⟨q, rfl⟩ := ho o List.mem_cons_self
      obtain ⟨b, hi⟩ := step_insert h1
      intro u n hu hn hl
      exact ih (fun o h => ho o (List.mem_cons_of_mem _ h)) h u n (by rw [insert_domains hi]; exact hu) hn (insert_enums hi hu hn hl)

/-- C69, the part that holds: in any history of `betree_insert` calls, on any declarations, the number of values kept for an enum attribute
declared with a limit never exceeds the limit, and they are distinct.  Missing: that an insertion which needs a value beyond the limit is
refused, which is false of the code (`C69_full_enum_accepts`). -/
theorem C69_enum_count_partial (R : Rounding) (cap min : Nat) (decls : List (Str × Decl × Bool)) (ops : List Op) (w : World)
    (h : (World.init (makeTree cap min decls)).run R ops = .ok w) (hops : ∀ o ∈ ops, ∃ q, o = .insert q)
    (v : Nat) (name : Str) (limit : Nat) (opt : Bool) (hd : decls[v]? = some (name, .intEnum limit, opt)) (hpos : 0 < limit) (hlim : limit < 2 ^ 64) :
    ∀ m ∈ w.tree.cfg.intMaps, m.attr.var = v → m.values.length ≤ limit ∧ m.values.Nodup := by
  intro m hm hv
  have hok := run_tablesOK h
  have ht : intTable w.tree.cfg m.attr.var = m.values := intTable_of_mem hok.intVars hm
  have he : EndsAt (World.init (makeTree cap min decls)).tree.cfg.domains v (limit - 1) := by
    have hmod : (limit + sizeMax) % 2 ^ 64 = limit - 1 := by unfold sizeMax; omega
    show EndsAt (makeTree cap min decls).cfg.domains v (limit - 1)
    unfold EndsAt
    rw [makeTree_domains]
    exact ⟨_, by rw [List.getElem?_mapIdx, hd]; rfl, by simp only [declDomain, Decl.bound, hmod]⟩
  have := inserts_enums hops h v (limit - 1) he (by omega) (by
    show (intTable (makeTree cap min decls).cfg v).length ≤ _
    unfold intTable findIntMap
    rw [(makeTree_maps cap min decls).2]
    simp)
  rw [← hv, ht] at this
  refine ⟨by omega, ?_⟩
  have := hok.intNodup m.attr.var
  rw [ht] at this
  exact this

/-! ### what the code does beyond the limit -/

/-- `e = k` -/
def exEnum (k : Int) : Expr := .leaf (.equality .eq ⟨"e".toList, 0⟩ (.int k))

/-- the enum attribute `e` with room for one value -/
def oneEnum : List (Str × Decl × Bool) := [("e".toList, .intEnum 1, false)]

/-- the numbers of values kept for the enum attributes -/
def enumCounts (decls : List (Str × Decl × Bool)) (ops : List Op) : Option (List (Nat × Nat)) :=
  match (World.init (makeTree 3 0 decls)).run exactRounding ops with
  | .error _ => none
  | .ok w => some (w.tree.cfg.intMaps.map fun m => (m.attr.var, m.values.length))

/-- An insertion that needs a value for which there is no room is accepted; the value gets the invalid id, and the request is reported on every
event with a value that is not known: `e = 2` on `e = 3`. -/
theorem C69_full_enum_accepts :
    acceptedIds oneEnum [.insert ⟨1, [], exEnum 1⟩, .insert ⟨2, [], exEnum 2⟩] = some [2, 1] ∧
    enumCounts oneEnum [.insert ⟨1, [], exEnum 1⟩, .insert ⟨2, [], exEnum 2⟩] = some [(0, 1)] ∧
    searchIds 3 oneEnum [.insert ⟨1, [], exEnum 1⟩, .insert ⟨2, [], exEnum 2⟩] [⟨"e".toList, .int 3⟩] = some [2] ∧
    ¬ sat exGeo [] (eventOf [⟨"e".toList, .int 3⟩]) (exEnum 2) := by
  refine ⟨by decide +kernel, by decide +kernel, by decide +kernel, ?_⟩
  have hv : (eventOf [⟨"e".toList, .int 3⟩]).get ⟨"e".toList, 0⟩ = some (.int 3) := rfl
  rintro (⟨x, h1, h2⟩ | ⟨x, h1, _⟩)
  · rw [hv] at h1
    cases h1
    exact absurd (show (3 : Int) = 2 from h2) (by decide)
  · rw [hv] at h1
    cases h1

/-- a history with three insertions meets the hypotheses: two values are kept -/
example : ∃ w, (World.init (makeTree 3 0 [("e".toList, .intEnum 2, false)])).run exactRounding
    [.insert ⟨1, [], exEnum 1⟩, .insert ⟨2, [], .or (exEnum 2) (exEnum 1)⟩, .insert ⟨3, [], exEnum 3⟩] = .ok w ∧
    ∀ m ∈ w.tree.cfg.intMaps, m.attr.var = 0 → m.values.length ≤ 2 ∧ m.values.Nodup := by
  have h : (match (World.init (makeTree 3 0 [("e".toList, .intEnum 2, false)])).run exactRounding
      [.insert ⟨1, [], exEnum 1⟩, .insert ⟨2, [], .or (exEnum 2) (exEnum 1)⟩, .insert ⟨3, [], exEnum 3⟩] with
      | .error _ => false
      | .ok _ => true) = true := by decide +kernel
  split at h
  · cases h
  · rename_i w hw
    exact ⟨w, hw, C69_enum_count_partial _ _ _ _ _ w hw (by simp) 0 _ 2 _ rfl (by decide) (by decide)⟩

example : enumCounts [("e".toList, .intEnum 2, false)]
    [.insert ⟨1, [], exEnum 1⟩, .insert ⟨2, [], .or (exEnum 2) (exEnum 1)⟩, .insert ⟨3, [], exEnum 3⟩] = some [(0, 2)] := by decide +kernel

end BeTree
