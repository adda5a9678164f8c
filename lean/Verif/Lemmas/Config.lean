import Verif.Model.Api
import Mathlib.Data.List.Basic
/-
Interning tables and how the passes over an expression change the configuration.
-/
namespace BeTree

/-- the texts interned for a variable, in order of their ids -/
def strTable (cfg : Config) (var : Nat) : List Str :=
  match findStrMap cfg.stringMaps var with
  | none => []
  | some m => m.values

/-- the enum integers interned for a variable, in order of their ids -/
def intTable (cfg : Config) (var : Nat) : List Int :=
  match findIntMap cfg.intMaps var with
  | none => []
  | some m => m.values

/-! ### association lists of tables -/

theorem findStrMap_append_new {maps : List StringMap} {v : AttrVar} (u : Nat) (h : findStrMap maps v.var = none) :
    findStrMap (maps ++ [{ attr := v, values := [] }]) u =
      if v.var = u then some { attr := v, values := [] } else findStrMap maps u := by
  unfold findStrMap at h ⊢
  rw [List.find?_append]
  by_cases hu : v.var = u
  · subst hu; rw [h]; simp
  · simp [hu]

theorem findStrMap_appendStr {maps : List StringMap} {var : Nat} {s : Str} (u : Nat) :
    findStrMap (appendStr maps var s) u =
      if u = var then (findStrMap maps u).map (fun m => { m with values := m.values ++ [s] }) else findStrMap maps u := by
  induction maps with
  | nil => simp [appendStr, findStrMap]
  | cons m ms ih =>
    unfold appendStr
    unfold findStrMap at ih ⊢
    by_cases hm : m.attr.var = var
    · rw [if_pos hm]
      by_cases hu : u = var
      · subst hu; simp [hm]
      · have : ¬ m.attr.var = u := fun hc => hu (hc ▸ hm)
        simp [hu, this]
    · rw [if_neg hm]
      by_cases hu : u = var
      · subst hu; simpa [hm] using ih
      · by_cases hmu : m.attr.var = u
        · simp [hmu, hu]
        · simpa [hmu, hu] using ih

theorem findIntMap_append_new {maps : List IntMap} {v : AttrVar} (u : Nat) (h : findIntMap maps v.var = none) :
    findIntMap (maps ++ [{ attr := v, values := [] }]) u =
      if v.var = u then some { attr := v, values := [] } else findIntMap maps u := by
  unfold findIntMap at h ⊢
  rw [List.find?_append]
  by_cases hu : v.var = u
  · subst hu; rw [h]; simp
  · simp [hu]

theorem findIntMap_appendInt {maps : List IntMap} {var : Nat} {s : Int} (u : Nat) :
    findIntMap (appendInt maps var s) u =
      if u = var then (findIntMap maps u).map (fun m => { m with values := m.values ++ [s] }) else findIntMap maps u := by
  induction maps with
  | nil => simp [appendInt, findIntMap]
  | cons m ms ih =>
    unfold appendInt
    unfold findIntMap at ih ⊢
    by_cases hm : m.attr.var = var
    · rw [if_pos hm]
      by_cases hu : u = var
      · subst hu; simp [hm]
      · have : ¬ m.attr.var = u := fun hc => hu (hc ▸ hm)
        simp [hu, this]
    · rw [if_neg hm]
      by_cases hu : u = var
      · subst hu; simpa [hm] using ih
      · by_cases hmu : m.attr.var = u
        · simp [hmu, hu]
        · simpa [hmu, hu] using ih

theorem findStrMap_var {maps : List StringMap} {u : Nat} {m : StringMap} (h : findStrMap maps u = some m) : m.attr.var = u := by
  simpa using List.find?_some h
theorem findIntMap_var {maps : List IntMap} {u : Nat} {m : IntMap} (h : findIntMap maps u = some m) : m.attr.var = u := by
  simpa using List.find?_some h

theorem appendStr_vars (maps : List StringMap) (var : Nat) (s : Str) :
    (appendStr maps var s).map (fun m => m.attr.var) = maps.map (fun m => m.attr.var) := by
  induction maps with
  | nil => rfl
  | cons m ms ih => unfold appendStr; split <;> simp [ih]
theorem appendInt_vars (maps : List IntMap) (var : Nat) (s : Int) :
    (appendInt maps var s).map (fun m => m.attr.var) = maps.map (fun m => m.attr.var) := by
  induction maps with
  | nil => rfl
  | cons m ms ih => unfold appendInt; split <;> simp [ih]

/-! ### what interning one string does -/

/-- the part of a configuration that interning does not touch -/
structure SameBase (a b : Config) : Prop where
  cap : b.lnodeMaxCap = a.lnodeMaxCap
  min : b.partitionMinSize = a.partitionMinSize
  domains : b.domains = a.domains
  predMap : b.predMap = a.predMap

theorem SameBase.refl (a : Config) : SameBase a a := ⟨rfl, rfl, rfl, rfl⟩
theorem SameBase.trans {a b c : Config} (h : SameBase a b) (h' : SameBase b c) : SameBase a c :=
  ⟨h'.cap.trans h.cap, h'.min.trans h.min, h'.domains.trans h.domains, h'.predMap.trans h.predMap⟩

/-- every variable has at most one map of each kind, and no table repeats an entry -/
structure TablesOK (cfg : Config) : Prop where
  strVars : (cfg.stringMaps.map (fun m => m.attr.var)).Nodup
  intVars : (cfg.intMaps.map (fun m => m.attr.var)).Nodup
  strNodup : ∀ v, (strTable cfg v).Nodup
  intNodup : ∀ v, (intTable cfg v).Nodup

/-- The outcome of interning `x` in the table `t` of a variable of domain bound `smax`: already there, appended, or
refused. -/
inductive Interned {α : Type} (t : List α) (x : α) (always : Bool) (smax : Except Fault Nat) : Nat → List α → Prop
  | old (i : Nat) (h : t[i]? = some x) : Interned t x always smax i t
  | new (h : x ∉ t) (hroom : always = true ∨ ∃ n, smax = .ok n ∧ (n + 1) % 2 ^ 64 ≠ t.length) :
      Interned t x always smax t.length (t ++ [x])
  | full (h : x ∉ t) (ha : always = false) (n : Nat) (hs : smax = .ok n) (hn : (n + 1) % 2 ^ 64 = t.length) :
      Interned t x always smax invalidId t

theorem idxOf?_some_get {α : Type} [BEq α] [LawfulBEq α] {l : List α} {x : α} {i : Nat} (h : l.idxOf? x = some i) :
    l[i]? = some x := by
  rw [List.idxOf?, List.findIdx?_eq_some_iff_getElem] at h
  obtain ⟨h1, h2, _⟩ := h
  rw [List.getElem?_eq_getElem h1]
  simpa using h2

theorem idxOf?_none_mem {α : Type} [BEq α] [LawfulBEq α] {l : List α} {x : α} (h : l.idxOf? x = none) : x ∉ l := by
  intro hm
  rw [List.idxOf?, List.findIdx?_eq_none_iff] at h
  simpa using h x hm

theorem idxOf?_of_get {α : Type} [BEq α] [LawfulBEq α] {l : List α} (hnd : l.Nodup) {x : α} {i : Nat} (h : l[i]? = some x) :
    l.idxOf? x = some i := by
  cases hi : l.idxOf? x with
  | none => exact absurd (List.mem_of_getElem? h) (idxOf?_none_mem hi)
  | some j =>
    have := idxOf?_some_get hi
    obtain ⟨h1, h2⟩ := List.getElem?_eq_some_iff.1 h
    obtain ⟨h3, h4⟩ := List.getElem?_eq_some_iff.1 this
    rw [(List.getElem_inj hnd).1 (h4.trans h2.symm)]

def domSmax (cfg : Config) (var : Nat) : Except Fault Nat :=
  match getDomain cfg var with
  | .error e => .error e
  | .ok d => d.bound.smax

theorem getIdForString_spec {cfg cfg' : Config} {v : AttrVar} {s : Str} {always : Bool} {id : Nat}
    (h : getIdForString cfg v s always = .ok (id, cfg')) :
    SameBase cfg cfg' ∧ cfg'.intMaps = cfg.intMaps ∧
    (∀ u, u ≠ v.var → strTable cfg' u = strTable cfg u) ∧
    Interned (strTable cfg v.var) s always (domSmax cfg v.var) id (strTable cfg' v.var) ∧
    ((cfg.stringMaps.map (fun m => m.attr.var)).Nodup → (cfg'.stringMaps.map (fun m => m.attr.var)).Nodup) := by
  have key : ∀ (maps : List StringMap) (t : List Str), s ∉ t → (∃ m, findStrMap maps v.var = some m ∧ m.values = t) →
      (∀ u, u ≠ v.var → findStrMap maps u = findStrMap cfg.stringMaps u) → strTable cfg v.var = t →
      ((cfg.stringMaps.map (fun m => m.attr.var)).Nodup → (maps.map (fun m => m.attr.var)).Nodup) →
      addStrId cfg v s always maps t.length = .ok (id, cfg') →
      SameBase cfg cfg' ∧ cfg'.intMaps = cfg.intMaps ∧
      (∀ u, u ≠ v.var → strTable cfg' u = strTable cfg u) ∧
      Interned (strTable cfg v.var) s always (domSmax cfg v.var) id (strTable cfg' v.var) ∧
      ((cfg.stringMaps.map (fun m => m.attr.var)).Nodup → (cfg'.stringMaps.map (fun m => m.attr.var)).Nodup) := by
    intro maps t hs hm hother htab hnd hadd
    obtain ⟨m, hm, hmv⟩ := hm
    rw [htab]
    have happ : ∀ u, findStrMap (appendStr maps v.var s) u =
        if u = v.var then some { m with values := t ++ [s] } else findStrMap maps u := by
      intro u
      rw [findStrMap_appendStr]
      split
      · rename_i hu; subst hu; rw [hm, ← hmv]; rfl
      · rfl
    unfold addStrId at hadd
    unfold domSmax
    cases hd : getDomain cfg v.var with
    | error e => rw [hd] at hadd; cases hadd
    | ok d =>
      rw [hd] at hadd
      dsimp only at hadd ⊢
      have hgrow : ∀ b : Config, b = { cfg with stringMaps := appendStr maps v.var s } →
          (∀ u, u ≠ v.var → strTable b u = strTable cfg u) ∧ strTable b v.var = t ++ [s] := by
        rintro b rfl
        refine ⟨?_, ?_⟩
        · intro u hu
          unfold strTable
          dsimp only
          rw [happ, if_neg hu, hother u hu]
        · unfold strTable
          dsimp only
          rw [happ, if_pos rfl]
      split at hadd
      · rename_i ha
        simp only [Except.ok.injEq, Prod.mk.injEq] at hadd
        obtain ⟨hid, hcfg⟩ := hadd
        obtain ⟨h1, h2⟩ := hgrow cfg' hcfg.symm
        refine ⟨by subst hcfg; exact ⟨rfl, rfl, rfl, rfl⟩, by subst hcfg; rfl, h1, ?_, ?_⟩
        · rw [h2, ← hid]; exact .new hs (Or.inl ha)
        · subst hcfg; intro hn; dsimp only; rw [appendStr_vars]; exact hnd hn
      · rename_i ha
        have ha : always = false := by simpa using ha
        split at hadd
        · cases hadd
        · rename_i smax hsm
          split at hadd
          · rename_i hfull
            simp only [Except.ok.injEq, Prod.mk.injEq] at hadd
            obtain ⟨hid, hcfg⟩ := hadd
            subst hcfg
            refine ⟨⟨rfl, rfl, rfl, rfl⟩, rfl, ?_, ?_, hnd⟩
            · intro u hu
              unfold strTable; dsimp only; rw [hother u hu]
            · have : strTable { cfg with stringMaps := maps } v.var = t := by
                unfold strTable; dsimp only; rw [hm]; exact hmv
              rw [this, ← hid]
              exact .full hs ha smax hsm hfull
          · rename_i hroom
            simp only [Except.ok.injEq, Prod.mk.injEq] at hadd
            obtain ⟨hid, hcfg⟩ := hadd
            obtain ⟨h1, h2⟩ := hgrow cfg' hcfg.symm
            refine ⟨by subst hcfg; exact ⟨rfl, rfl, rfl, rfl⟩, by subst hcfg; rfl, h1, ?_, ?_⟩
            · rw [h2, ← hid]; exact .new hs (Or.inr ⟨smax, hsm, hroom⟩)
            · subst hcfg; intro hn; dsimp only; rw [appendStr_vars]; exact hnd hn
  unfold getIdForString at h
  split at h
  · rename_i m hm
    have htab : strTable cfg v.var = m.values := by unfold strTable; rw [hm]
    split at h
    · cases h
    · rename_i j hj
      cases h
      refine ⟨SameBase.refl _, rfl, fun _ _ => rfl, ?_, fun hx => hx⟩
      unfold strMapGet at hj
      split at hj
      · cases hj
      · rw [htab]
        simp only [Except.ok.injEq] at hj
        exact .old _ (idxOf?_some_get hj)
    · rename_i hj
      unfold strMapGet at hj
      split at hj
      · cases hj
      · simp only [Except.ok.injEq] at hj
        exact key cfg.stringMaps m.values (idxOf?_none_mem hj) ⟨m, hm, rfl⟩ (fun _ _ => rfl) htab (fun hx => hx) h
  · rename_i hm
    have htab : strTable cfg v.var = [] := by unfold strTable; rw [hm]
    refine key _ [] (by simp) ⟨{ attr := v, values := [] }, ?_, rfl⟩ ?_ htab ?_ h
    · rw [findStrMap_append_new v.var hm, if_pos rfl]
    · intro u hu
      rw [findStrMap_append_new u hm, if_neg (fun hc => hu hc.symm)]
    · intro hn
      rw [List.map_append, List.nodup_append]
      refine ⟨hn, by simp, ?_⟩
      intro a ha b hb
      simp only [List.map_cons, List.map_nil, List.mem_singleton] at hb
      subst hb
      rintro rfl
      obtain ⟨m, hmm, hmv⟩ := List.mem_map.1 ha
      unfold findStrMap at hm
      have := List.find?_eq_none.1 hm m hmm
      simp [hmv] at this

theorem getIdForIenum_spec {cfg cfg' : Config} {v : AttrVar} {s : Int} {always : Bool} {id : Nat}
    (h : getIdForIenum cfg v s always = .ok (id, cfg')) :
    SameBase cfg cfg' ∧ cfg'.stringMaps = cfg.stringMaps ∧
    (∀ u, u ≠ v.var → intTable cfg' u = intTable cfg u) ∧
    Interned (intTable cfg v.var) s always (domSmax cfg v.var) id (intTable cfg' v.var) ∧
    ((cfg.intMaps.map (fun m => m.attr.var)).Nodup → (cfg'.intMaps.map (fun m => m.attr.var)).Nodup) := by
  have key : ∀ (maps : List IntMap) (t : List Int), s ∉ t → (∃ m, findIntMap maps v.var = some m ∧ m.values = t) →
      (∀ u, u ≠ v.var → findIntMap maps u = findIntMap cfg.intMaps u) → intTable cfg v.var = t →
      ((cfg.intMaps.map (fun m => m.attr.var)).Nodup → (maps.map (fun m => m.attr.var)).Nodup) →
      addIntId cfg v s always maps t.length = .ok (id, cfg') →
      SameBase cfg cfg' ∧ cfg'.stringMaps = cfg.stringMaps ∧
      (∀ u, u ≠ v.var → intTable cfg' u = intTable cfg u) ∧
      Interned (intTable cfg v.var) s always (domSmax cfg v.var) id (intTable cfg' v.var) ∧
      ((cfg.intMaps.map (fun m => m.attr.var)).Nodup → (cfg'.intMaps.map (fun m => m.attr.var)).Nodup) := by
    intro maps t hs hm hother htab hnd hadd
    obtain ⟨m, hm, hmv⟩ := hm
    rw [htab]
    have happ : ∀ u, findIntMap (appendInt maps v.var s) u =
        if u = v.var then some { m with values := t ++ [s] } else findIntMap maps u := by
      intro u
      rw [findIntMap_appendInt]
      split
      · rename_i hu; subst hu; rw [hm, ← hmv]; rfl
      · rfl
    unfold addIntId at hadd
    unfold domSmax
    cases hd : getDomain cfg v.var with
    | error e => rw [hd] at hadd; cases hadd
    | ok d =>
      rw [hd] at hadd
      dsimp only at hadd ⊢
      have hgrow : ∀ b : Config, b = { cfg with intMaps := appendInt maps v.var s } →
          (∀ u, u ≠ v.var → intTable b u = intTable cfg u) ∧ intTable b v.var = t ++ [s] := by
        rintro b rfl
        refine ⟨?_, ?_⟩
        · intro u hu
          unfold intTable
          dsimp only
          rw [happ, if_neg hu, hother u hu]
        · unfold intTable
          dsimp only
          rw [happ, if_pos rfl]
      split at hadd
      · rename_i ha
        simp only [Except.ok.injEq, Prod.mk.injEq] at hadd
        obtain ⟨hid, hcfg⟩ := hadd
        obtain ⟨h1, h2⟩ := hgrow cfg' hcfg.symm
        refine ⟨by subst hcfg; exact ⟨rfl, rfl, rfl, rfl⟩, by subst hcfg; rfl, h1, ?_, ?_⟩
        · rw [h2, ← hid]; exact .new hs (Or.inl ha)
        · subst hcfg; intro hn; dsimp only; rw [appendInt_vars]; exact hnd hn
      · rename_i ha
        have ha : always = false := by simpa using ha
        split at hadd
        · cases hadd
        · rename_i smax hsm
          split at hadd
          · rename_i hfull
            simp only [Except.ok.injEq, Prod.mk.injEq] at hadd
            obtain ⟨hid, hcfg⟩ := hadd
            subst hcfg
            refine ⟨⟨rfl, rfl, rfl, rfl⟩, rfl, ?_, ?_, hnd⟩
            · intro u hu
              unfold intTable; dsimp only; rw [hother u hu]
            · have : intTable { cfg with intMaps := maps } v.var = t := by
                unfold intTable; dsimp only; rw [hm]; exact hmv
              rw [this, ← hid]
              exact .full hs ha smax hsm hfull
          · rename_i hroom
            simp only [Except.ok.injEq, Prod.mk.injEq] at hadd
            obtain ⟨hid, hcfg⟩ := hadd
            obtain ⟨h1, h2⟩ := hgrow cfg' hcfg.symm
            refine ⟨by subst hcfg; exact ⟨rfl, rfl, rfl, rfl⟩, by subst hcfg; rfl, h1, ?_, ?_⟩
            · rw [h2, ← hid]; exact .new hs (Or.inr ⟨smax, hsm, hroom⟩)
            · subst hcfg; intro hn; dsimp only; rw [appendInt_vars]; exact hnd hn
  unfold getIdForIenum at h
  split at h
  · rename_i m hm
    have htab : intTable cfg v.var = m.values := by unfold intTable; rw [hm]
    split at h
    · rename_i j hj
      cases h
      refine ⟨SameBase.refl _, rfl, fun _ _ => rfl, ?_, fun hx => hx⟩
      rw [htab]
      exact .old _ (idxOf?_some_get hj)
    · rename_i hj
      exact key cfg.intMaps m.values (idxOf?_none_mem hj) ⟨m, hm, rfl⟩ (fun _ _ => rfl) htab (fun hx => hx) h
  · rename_i hm
    have htab : intTable cfg v.var = [] := by unfold intTable; rw [hm]
    refine key _ [] (by simp) ⟨{ attr := v, values := [] }, ?_, rfl⟩ ?_ htab ?_ h
    · rw [findIntMap_append_new v.var hm, if_pos rfl]
    · intro u hu
      rw [findIntMap_append_new u hm, if_neg (fun hc => hu hc.symm)]
    · intro hn
      rw [List.map_append, List.nodup_append]
      refine ⟨hn, by simp, ?_⟩
      intro a ha b hb
      simp only [List.map_cons, List.map_nil, List.mem_singleton] at hb
      subst hb
      rintro rfl
      obtain ⟨m, hmm, hmv⟩ := List.mem_map.1 ha
      unfold findIntMap at hm
      have := List.find?_eq_none.1 hm m hmm
      simp [hmv] at this

/-! ### the passes that intern -/

/-- What interning does to a configuration: tables grow at their ends, the rest is untouched. -/
structure Grow (a b : Config) : Prop where
  base : SameBase a b
  strs : ∀ v, strTable a v <+: strTable b v
  ints : ∀ v, intTable a v <+: intTable b v
  ok : TablesOK a → TablesOK b

theorem Grow.refl (a : Config) : Grow a a :=
  ⟨SameBase.refl a, fun _ => List.prefix_refl _, fun _ => List.prefix_refl _, fun h => h⟩
theorem Grow.trans {a b c : Config} (h : Grow a b) (h' : Grow b c) : Grow a c :=
  ⟨h.base.trans h'.base, fun v => (h.strs v).trans (h'.strs v), fun v => (h.ints v).trans (h'.ints v), fun x => h'.ok (h.ok x)⟩

theorem Interned.prefix {α : Type} {t t' : List α} {x : α} {always : Bool} {smax : Except Fault Nat} {id : Nat}
    (h : Interned t x always smax id t') : t <+: t' := by
  cases h with
  | old => exact List.prefix_refl _
  | new => exact List.prefix_append _ _
  | full => exact List.prefix_refl _

theorem Interned.nodup {α : Type} {t t' : List α} {x : α} {always : Bool} {smax : Except Fault Nat} {id : Nat}
    (h : Interned t x always smax id t') (hn : t.Nodup) : t'.Nodup := by
  cases h with
  | old => exact hn
  | new h _ =>
    rw [List.nodup_append]
    refine ⟨hn, by simp, ?_⟩
    intro a ha b hb
    simp only [List.mem_singleton] at hb
    subst hb
    rintro rfl
    exact h ha
  | full => exact hn

theorem Interned.get {α : Type} {t t' : List α} {x : α} {always : Bool} {smax : Except Fault Nat} {id : Nat}
    (h : Interned t x always smax id t') : t'[id]? = some x ∨ (id = invalidId ∧ x ∉ t' ∧ always = false) := by
  cases h with
  | old h => exact Or.inl (by assumption)
  | new => left; simp
  | full h ha => exact Or.inr ⟨rfl, h, ha⟩

theorem intTable_of_maps {a b : Config} (h : b.intMaps = a.intMaps) (v : Nat) : intTable b v = intTable a v := by
  unfold intTable; rw [h]
theorem strTable_of_maps {a b : Config} (h : b.stringMaps = a.stringMaps) (v : Nat) : strTable b v = strTable a v := by
  unfold strTable; rw [h]

theorem getIdForString_grow {cfg cfg' : Config} {v : AttrVar} {s : Str} {always : Bool} {id : Nat}
    (h : getIdForString cfg v s always = .ok (id, cfg')) : Grow cfg cfg' := by
  obtain ⟨h1, h2, h3, h4, h5⟩ := getIdForString_spec h
  refine ⟨h1, ?_, ?_, ?_⟩
  · intro u
    by_cases hu : u = v.var
    · subst hu; exact h4.prefix
    · rw [h3 u hu]; exact List.prefix_refl _
  · intro u; rw [intTable_of_maps h2]; exact List.prefix_refl _
  · intro ok
    refine ⟨h5 ok.strVars, by rw [h2]; exact ok.intVars, ?_, fun u => by rw [intTable_of_maps h2]; exact ok.intNodup u⟩
    intro u
    by_cases hu : u = v.var
    · subst hu; exact h4.nodup (ok.strNodup _)
    · rw [h3 u hu]; exact ok.strNodup u

theorem getIdForIenum_grow {cfg cfg' : Config} {v : AttrVar} {s : Int} {always : Bool} {id : Nat}
    (h : getIdForIenum cfg v s always = .ok (id, cfg')) : Grow cfg cfg' := by
  obtain ⟨h1, h2, h3, h4, h5⟩ := getIdForIenum_spec h
  refine ⟨h1, ?_, ?_, ?_⟩
  · intro u; rw [strTable_of_maps h2]; exact List.prefix_refl _
  · intro u
    by_cases hu : u = v.var
    · subst hu; exact h4.prefix
    · rw [h3 u hu]; exact List.prefix_refl _
  · intro ok
    refine ⟨by rw [h2]; exact ok.strVars, h5 ok.intVars, fun u => by rw [strTable_of_maps h2]; exact ok.strNodup u, ?_⟩
    intro u
    by_cases hu : u = v.var
    · subst hu; exact h4.nodup (ok.intNodup _)
    · rw [h3 u hu]; exact ok.intNodup u

theorem assignStrList_grow {v : AttrVar} {always : Bool} {l l' : List StrVal} {cfg cfg' : Config}
    (h : assignStrList cfg v always l = .ok (l', cfg')) : Grow cfg cfg' := by
  induction l generalizing cfg l' with
  | nil => cases h; exact Grow.refl _
  | cons s ss ih =>
    rw [assignStrList] at h
    split at h
    · cases h
    · rename_i id cfg1 h1
      split at h
      · cases h
      · rename_i ss' cfg2 h2
        cases h
        exact (getIdForString_grow h1).trans (ih h2)

theorem assignStrPred_grow {always : Bool} {p p' : Pred} {cfg cfg' : Config}
    (h : assignStrPred cfg always p = .ok (p', cfg')) : Grow cfg cfg' := by
  unfold assignStrPred at h
  repeat' split at h
  all_goals first
    | (cases h; done)
    | (rename_i h1; cases h; exact getIdForString_grow h1)
    | (rename_i h1; cases h; exact assignStrList_grow h1)
    | (cases h; exact Grow.refl _)

theorem assignStr_grow {always : Bool} {e e' : Expr} {cfg cfg' : Config}
    (h : assignStr cfg always e = .ok (e', cfg')) : Grow cfg cfg' := by
  induction e generalizing cfg cfg' e' with
  | leaf p =>
    rw [assignStr] at h
    split at h
    · cases h
    · rename_i h1; cases h; exact assignStrPred_grow h1
  | not e ih =>
    rw [assignStr] at h
    split at h
    · cases h
    · rename_i h1; cases h; exact ih h1
  | and l r ihl ihr | or l r ihl ihr =>
    rw [assignStr] at h
    split at h
    · cases h
    · rename_i h1
      split at h
      · cases h
      · rename_i h2; cases h; exact (ihl h1).trans (ihr h2)

theorem assignIenumPred_grow {always : Bool} {p p' : Pred} {cfg cfg' : Config}
    (h : assignIenumPred cfg always p = .ok (p', cfg')) : Grow cfg cfg' := by
  unfold assignIenumPred at h
  repeat' split at h
  all_goals first
    | (cases h; done)
    | (rename_i h1; cases h; exact getIdForIenum_grow h1)
    | (cases h; exact Grow.refl _)

theorem assignIenum_grow {always : Bool} {e e' : Expr} {cfg cfg' : Config}
    (h : assignIenum cfg always e = .ok (e', cfg')) : Grow cfg cfg' := by
  induction e generalizing cfg cfg' e' with
  | leaf p =>
    rw [assignIenum] at h
    split at h
    · cases h
    · rename_i h1; cases h; exact assignIenumPred_grow h1
  | not e ih =>
    rw [assignIenum] at h
    split at h
    · cases h
    · rename_i h1; cases h; exact ih h1
  | and l r ihl ihr | or l r ihl ihr =>
    rw [assignIenum] at h
    split at h
    · cases h
    · rename_i h1
      split at h
      · cases h
      · rename_i h2; cases h; exact (ihl h1).trans (ihr h2)

/-! ### whole API calls -/

/-- What an API call does to a configuration, as far as names, types and interning go. -/
structure CfgExt (a b : Config) : Prop where
  cap : b.lnodeMaxCap = a.lnodeMaxCap
  min : b.partitionMinSize = a.partitionMinSize
  doms : b.domains.map (fun d => (d.attr, d.bound.ty, d.allowUndefined)) =
    a.domains.map (fun d => (d.attr, d.bound.ty, d.allowUndefined))
  strs : ∀ v, strTable a v <+: strTable b v
  ints : ∀ v, intTable a v <+: intTable b v
  ok : TablesOK a → TablesOK b

theorem CfgExt.refl (a : Config) : CfgExt a a :=
  ⟨rfl, rfl, rfl, fun _ => List.prefix_refl _, fun _ => List.prefix_refl _, fun h => h⟩
theorem CfgExt.trans {a b c : Config} (h : CfgExt a b) (h' : CfgExt b c) : CfgExt a c :=
  ⟨h'.cap.trans h.cap, h'.min.trans h.min, h'.doms.trans h.doms, fun v => (h.strs v).trans (h'.strs v),
    fun v => (h.ints v).trans (h'.ints v), fun x => h'.ok (h.ok x)⟩
theorem Grow.ext {a b : Config} (h : Grow a b) : CfgExt a b :=
  ⟨h.base.cap, h.base.min, by rw [h.base.domains], h.strs, h.ints, h.ok⟩

theorem tablesOK_of_maps {a b : Config} (hs : b.stringMaps = a.stringMaps) (hi : b.intMaps = a.intMaps) (h : TablesOK a) :
    TablesOK b :=
  ⟨by rw [hs]; exact h.strVars, by rw [hi]; exact h.intVars, fun v => by rw [strTable_of_maps hs]; exact h.strNodup v,
    fun v => by rw [intTable_of_maps hi]; exact h.intNodup v⟩

theorem widenDomain_static {cfg : Config} {d d' : Domain} {b : SBound} (h : widenDomain cfg d b = .ok d') :
    d'.attr = d.attr ∧ d'.bound.ty = d.bound.ty ∧ d'.allowUndefined = d.allowUndefined := by
  unfold widenDomain at h
  repeat' split at h
  all_goals first | (cases h; done) | (cases h; exact ⟨rfl, rfl, rfl⟩)

theorem changeDomain_static {cfg : Config} {e : Expr} {d d' : Domain} (h : changeDomain cfg e d = .ok d') :
    d'.attr = d.attr ∧ d'.bound.ty = d.bound.ty ∧ d'.allowUndefined = d.allowUndefined := by
  unfold changeDomain at h
  repeat' split at h
  all_goals first | (cases h; done) | (cases h; exact ⟨rfl, rfl, rfl⟩) | exact widenDomain_static h

theorem changeDomains_static {cfg : Config} {e : Expr} {ds ds' : List Domain} (h : changeDomains cfg e ds = .ok ds') :
    ds'.map (fun d => (d.attr, d.bound.ty, d.allowUndefined)) = ds.map (fun d => (d.attr, d.bound.ty, d.allowUndefined)) := by
  induction ds generalizing ds' with
  | nil => cases h; rfl
  | cons d ds ih =>
    rw [changeDomains] at h
    split at h
    · cases h
    · rename_i d1 h1
      split at h
      · cases h
      · rename_i ds1 h2
        cases h
        obtain ⟨e1, e2, e3⟩ := changeDomain_static h1
        simp only [List.map_cons, ih h2, e1, e2, e3]

theorem changeBoundaries_ext {cfg cfg' : Config} {e : Expr} (h : changeBoundaries cfg e = .ok cfg') : CfgExt cfg cfg' := by
  unfold changeBoundaries at h
  split at h
  · cases h
  · rename_i ds hd
    cases h
    exact ⟨rfl, rfl, changeDomains_static hd, fun _ => List.prefix_refl _, fun _ => List.prefix_refl _,
      fun ok => tablesOK_of_maps (a := cfg) rfl rfl ok⟩

theorem finishSub_ext {cfg cfg' : Config} {id : Nat} {e : Expr} {s : Sub} (h : finishSub cfg id e = .ok (s, cfg')) :
    CfgExt cfg cfg' := by
  unfold finishSub at h
  split at h
  · cases h
  · dsimp only at h
    split at h
    · cases h
    · cases h
      exact ⟨rfl, rfl, rfl, fun _ => List.prefix_refl _, fun _ => List.prefix_refl _, fun ok => tablesOK_of_maps (a := cfg) rfl rfl ok⟩

theorem prepareInsert_ext {cfg cfg' : Config} {id : Nat} {cs : List Constant} {e : Expr} {s : Option Sub}
    (h : prepareInsert cfg id cs e = .ok (s, cfg')) : CfgExt cfg cfg' := by
  unfold prepareInsert at h
  dsimp only at h
  split at h
  · cases h
  · cases h; exact CfgExt.refl _
  · split at h
    · cases h; exact CfgExt.refl _
    · split at h
      · cases h
      · rename_i h1
        split at h
        · cases h
        · rename_i h2
          split at h
          · cases h
          · split at h
            · cases h
            · rename_i h3
              cases h
              exact ((assignStr_grow h1).ext.trans (assignIenum_grow h2).ext).trans (finishSub_ext h3)

theorem insert_ext {R : Rounding} {t t' : Tree} {id : Nat} {cs : List Constant} {e : Expr} {b : Bool}
    (h : t.insert R id cs e = .ok (b, t')) : CfgExt t.cfg t'.cfg := by
  unfold Tree.insert at h
  split at h
  · cases h
  · rename_i h1; cases h; exact prepareInsert_ext h1
  · rename_i h1
    split at h
    · cases h
    · cases h; exact prepareInsert_ext h1

theorem makeSub_ext {t t' : Tree} {id : Nat} {cs : List Constant} {e : Expr} {s : Option Sub}
    (h : t.makeSub id cs e = .ok (s, t')) : CfgExt t.cfg t'.cfg := by
  unfold Tree.makeSub at h
  dsimp only at h
  split at h
  · cases h
  · cases h; exact CfgExt.refl _
  · split at h
    · cases h
    · rename_i h1
      split at h
      · cases h
      · rename_i h2
        have h12 := (assignStr_grow h1).ext.trans (assignIenum_grow h2).ext
        split at h
        · cases h
        · split at h
          · cases h
          · cases h; exact h12
          · split at h
            · cases h; exact h12
            · split at h
              · cases h
              · rename_i h3
                split at h
                · cases h
                · rename_i h4
                  cases h
                  exact (h12.trans (changeBoundaries_ext h3)).trans (finishSub_ext h4)

theorem changeBoundaries_api_ext {t t' : Tree} {e : Expr} (h : t.changeBoundaries e = .ok t') : CfgExt t.cfg t'.cfg := by
  unfold Tree.changeBoundaries at h
  split at h
  · cases h
  · rename_i h1
    split at h
    · cases h
    · rename_i h2
      split at h
      · cases h
      · split at h
        · cases h
        · rename_i h3
          cases h
          exact ((assignStr_grow h1).ext.trans (assignIenum_grow h2).ext).trans (changeBoundaries_ext h3)

end BeTree
