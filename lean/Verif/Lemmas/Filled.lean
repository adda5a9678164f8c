import Verif.Lemmas.Widen
import Verif.Lemmas.MemWorld
import Verif.Lemmas.ConfigMemory
import Verif.Spec.ConfigMemory
/-
No table of strings or integers stays empty, unless a limit is zero.
-/
namespace BeTree
open Spec

structure Filled (cfg : Config) : Prop where
  doms : ∀ d ∈ cfg.domains, ∀ n, d.bound.hi = .s n → n < sizeMax
  strs : ∀ m ∈ cfg.stringMaps, m.values ≠ []
  ints : ∀ m ∈ cfg.intMaps, m.values ≠ []

theorem Filled.smax {cfg : Config} (h : Filled cfg) {v n : Nat} {d : Domain} (hd : getDomain cfg v = .ok d) (hn : d.bound.smax = .ok n) :
    n < sizeMax := by
  unfold getDomain at hd
  split at hd
  · cases hd
  · rename_i hg
    cases hd
    refine h.doms _ (List.mem_of_getElem? hg) n ?_
    unfold Bound.smax at hn
    split at hn
    · rename_i e
      cases hn
      exact e
    · cases hn

theorem getIdForString_filled (cfg : Config) (v : AttrVar) (s : Str) (al : Bool) (id : Nat) (cfg' : Config) (hc : Filled cfg)
    (h : getIdForString cfg v s al = .ok (id, cfg')) : Filled cfg' := by
  unfold getIdForString at h
  split at h
  · split at h
    · cases h
    · cases h; exact hc
    · rename_i m hf _ _
      unfold addStrId at h
      split at h
      · cases h
      · split at h
        · cases h; exact ⟨hc.doms, (appendStr_nonempty (v := v) hc.strs).1, hc.ints⟩
        · split at h
          · cases h
          · split at h
            · cases h; exact ⟨hc.doms, hc.strs, hc.ints⟩
            · cases h; exact ⟨hc.doms, (appendStr_nonempty (v := v) hc.strs).1, hc.ints⟩
  · rename_i hf
    unfold addStrId at h
    split at h
    · cases h
    · rename_i d hd
      split at h
      · cases h; exact ⟨hc.doms, (appendStr_nonempty (v := v) hc.strs).2 rfl hf, hc.ints⟩
      · split at h
        · cases h
        · rename_i n hn
          have hlt : n < sizeMax := hc.smax hd hn
          split at h
          · rename_i h0
            exfalso
            simp only [sizeMax] at hlt
            omega
          · cases h; exact ⟨hc.doms, (appendStr_nonempty (v := v) hc.strs).2 rfl hf, hc.ints⟩

theorem getIdForIenum_filled (cfg : Config) (v : AttrVar) (s : Int) (al : Bool) (id : Nat) (cfg' : Config) (hc : Filled cfg)
    (h : getIdForIenum cfg v s al = .ok (id, cfg')) : Filled cfg' := by
  unfold getIdForIenum at h
  split at h
  · split at h
    · cases h; exact hc
    · unfold addIntId at h
      split at h
      · cases h
      · split at h
        · cases h; exact ⟨hc.doms, hc.strs, (appendInt_nonempty (v := v) hc.ints).1⟩
        · split at h
          · cases h
          · split at h
            · cases h; exact ⟨hc.doms, hc.strs, hc.ints⟩
            · cases h; exact ⟨hc.doms, hc.strs, (appendInt_nonempty (v := v) hc.ints).1⟩
  · rename_i hf
    unfold addIntId at h
    split at h
    · cases h
    · rename_i d hd
      split at h
      · cases h; exact ⟨hc.doms, hc.strs, (appendInt_nonempty (v := v) hc.ints).2 rfl hf⟩
      · split at h
        · cases h
        · rename_i n hn
          have hlt : n < sizeMax := hc.smax hd hn
          split at h
          · rename_i h0
            exfalso
            simp only [sizeMax] at hlt
            omega
          · cases h; exact ⟨hc.doms, hc.strs, (appendInt_nonempty (v := v) hc.ints).2 rfl hf⟩

/-! ### sizes -/

theorem Config.TablesFit.of_ext {a b : Config} (h : CfgExt a b) (ha : TablesOK a) (hb : TablesFit b) : TablesFit a := by
  constructor
  · intro m hm
    rw [← strTable_of_mem ha.strVars hm]
    refine Nat.lt_of_le_of_lt (h.strs m.attr.var).length_le ?_
    unfold strTable
    split
    · simp only [sizeMax, List.length_nil]; omega
    · rename_i hf
      exact hb.1 _ (List.mem_of_find?_eq_some hf)
  · intro m hm
    rw [← intTable_of_mem ha.intVars hm]
    refine Nat.lt_of_le_of_lt (h.ints m.attr.var).length_le ?_
    unfold intTable
    split
    · simp only [sizeMax, List.length_nil]; omega
    · rename_i hf
      exact hb.2 _ (List.mem_of_find?_eq_some hf)

theorem widenDomain_filled {cfg : Config} (hc : Filled cfg) (hs : cfg.TablesFit) {d d' : Domain} {b : SBound}
    (hd : ∀ n, d.bound.hi = .s n → n < sizeMax) (h : widenDomain cfg d b = .ok d') : ∀ n, d'.bound.hi = .s n → n < sizeMax := by
  have hcs : ∀ v, ∀ c ∈ (cfg.stringMaps.filter (fun m => m.attr.var = v)).map (·.values.length), 1 ≤ c ∧ c < sizeMax := by
    intro v c h
    obtain ⟨m, hm, rfl⟩ := List.mem_map.1 h
    have hm := (List.mem_filter.1 hm).1
    exact ⟨List.length_pos_iff.2 (hc.strs m hm), hs.1 m hm⟩
  have hci : ∀ v, ∀ c ∈ (cfg.intMaps.filter (fun m => m.attr.var = v)).map (·.values.length), 1 ≤ c ∧ c < sizeMax := by
    intro v c h
    obtain ⟨m, hm, rfl⟩ := List.mem_map.1 h
    have hm := (List.mem_filter.1 hm).1
    exact ⟨List.length_pos_iff.2 (hc.ints m hm), hs.2 m hm⟩
  obtain ⟨attr, ⟨ty, dlo, dhi⟩, und⟩ := d
  obtain ⟨lo, hi⟩ := b
  unfold widenDomain at h
  cases ty <;> dsimp only at h hd
  case bool | segments | freq => cases h; exact hd
  case string | strList =>
    cases dhi <;> simp only [reduceCtorEq] at h
    rename_i smax
    cases h
    intro n hn
    cases hn
    exact (widenSmax_ok (hcs attr.var) (smax := smax)).1 (hd _ rfl)
  case intEnum =>
    cases dhi <;> simp only [reduceCtorEq] at h
    rename_i smax
    cases h
    intro n hn
    cases hn
    exact (widenSmax_ok (hci attr.var) (smax := smax)).1 (hd _ rfl)
  case int | intList | float =>
    cases dlo <;> cases dhi <;> cases lo <;> cases hi <;> simp only [reduceCtorEq] at h
    cases h
    intro n hn
    cases hn

theorem changeDomains_filled {cfg : Config} (hc : Filled cfg) (hs : cfg.TablesFit) {e : Expr} : ∀ {ds ds' : List Domain},
    (∀ d ∈ ds, ∀ n, d.bound.hi = .s n → n < sizeMax) → changeDomains cfg e ds = .ok ds' →
    ∀ d ∈ ds', ∀ n, d.bound.hi = .s n → n < sizeMax := by
  intro ds
  induction ds with
  | nil => intro ds' _ h; cases h; simp
  | cons d ds ih =>
    intro ds' hd h
    simp only [changeDomains] at h
    split at h
    · cases h
    · rename_i d1 h1
      split at h
      · cases h
      · rename_i ds1 h2
        cases h
        intro x hx
        rcases List.mem_cons.mp hx with rfl | hx
        · have hd0 := hd d (by simp)
          unfold changeDomain at h1
          split at h1
          · cases h1; exact hd0
          · cases h1; exact hd0
          · cases h1; exact hd0
          · split at h1
            · cases h1
            · cases h1; exact hd0
            · exact widenDomain_filled hc hs hd0 h1
        · exact ih (fun d hm => hd d (by simp [hm])) h2 x hx

theorem changeBoundaries_filled {cfg cfg' : Config} (hc : Filled cfg) (hs : cfg.TablesFit) {e : Expr}
    (h : changeBoundaries cfg e = .ok cfg') : Filled cfg' := by
  unfold changeBoundaries at h
  split at h
  · cases h
  · rename_i ds hd
    cases h
    exact ⟨changeDomains_filled hc hs hc.doms hd, hc.strs, hc.ints⟩

theorem finishSub_filled {a b : Config} {id : Nat} {e : Expr} {s : Sub} (hc : Filled a) (h : finishSub a id e = .ok (s, b)) : Filled b := by
  unfold finishSub at h
  split at h
  · cases h
  · dsimp only at h
    split at h
    · cases h
    · cases h; exact ⟨hc.doms, hc.strs, hc.ints⟩

theorem assign_filled {a b c : Config} {al al' : Bool} {e e1 e2 : Expr} (hc : Filled a) (h1 : assignStr a al e = .ok (e1, b))
    (h2 : assignIenum b al' e1 = .ok (e2, c)) : Filled c :=
  assignIenum_inv Filled getIdForIenum_filled (assignStr_inv Filled getIdForString_filled hc h1) h2

theorem prepareInsert_filled {cfg cfg' : Config} {id : Nat} {cs : List Constant} {e : Expr} {o : Option Sub} (hc : Filled cfg)
    (h : prepareInsert cfg id cs e = .ok (o, cfg')) : Filled cfg' := by
  unfold prepareInsert at h
  dsimp only at h
  split at h
  · cases h
  · cases h; exact hc
  · split at h
    · cases h; exact hc
    · split at h
      · cases h
      · rename_i h1
        split at h
        · cases h
        · rename_i h2
          split at h
          · cases h
          · split at h
            · cases h
            · rename_i h3
              cases h
              exact finishSub_filled (assign_filled hc h1 h2) h3

theorem makeSub_filled {t t' : Tree} {id : Nat} {cs : List Constant} {e : Expr} {o : Option Sub} (hc : Filled t.cfg)
    (ht : TablesOK t.cfg) (hs : t'.cfg.TablesFit) (h : t.makeSub id cs e = .ok (o, t')) : Filled t'.cfg := by
  unfold Tree.makeSub at h
  dsimp only at h
  split at h
  · cases h
  · cases h; exact hc
  · split at h
    · cases h
    · rename_i h1
      split at h
      · cases h
      · rename_i h2
        have c1 := assign_filled hc h1 h2
        have h12 := (assignStr_grow h1).ext.trans (assignIenum_grow h2).ext
        split at h
        · cases h
        · split at h
          · cases h
          · cases h; exact c1
          · split at h
            · cases h; exact c1
            · split at h
              · cases h
              · rename_i h3
                split at h
                · cases h
                · rename_i h4
                  cases h
                  have hsm := Config.TablesFit.of_ext ((changeBoundaries_ext h3).trans (finishSub_ext h4)) (h12.ok ht) hs
                  exact finishSub_filled (changeBoundaries_filled c1 hsm h3) h4

theorem changeBoundaries_api_filled {t t' : Tree} {e : Expr} (hc : Filled t.cfg) (ht : TablesOK t.cfg) (hs : t'.cfg.TablesFit)
    (h : t.changeBoundaries e = .ok t') : Filled t'.cfg := by
  unfold Tree.changeBoundaries at h
  split at h
  · cases h
  · rename_i h1
    split at h
    · cases h
    · rename_i h2
      have c1 := assign_filled hc h1 h2
      have h12 := (assignStr_grow h1).ext.trans (assignIenum_grow h2).ext
      split at h
      · cases h
      · split at h
        · cases h
        · rename_i h3
          cases h
          exact changeBoundaries_filled c1 (Config.TablesFit.of_ext (changeBoundaries_ext h3) (h12.ok ht) hs) h3

/-! ### the calls -/

theorem plainStep_filled {R : Rounding} {w w' : TextWorld} {o : MemOp} (h : w.plainStep R o = .ok w') :
    CfgExt w.tree.cfg w'.tree.cfg ∧ (Filled w.tree.cfg → TablesOK w.tree.cfg → w'.tree.cfg.TablesFit → Filled w'.tree.cfg) := by
  cases o with
  | search => cases h; exact ⟨CfgExt.refl _, fun h _ _ => h⟩
  | empty =>
    cases h
    exact ⟨⟨rfl, rfl, rfl, fun _ => List.prefix_refl _, fun _ => List.prefix_refl _, fun h => ⟨h.1, h.2, h.3, h.4⟩⟩, fun h _ _ => ⟨h.doms, h.strs, h.ints⟩⟩
  | call o =>
    cases o with
    | insert q =>
      simp only [TextWorld.plainStep, TextWorld.step, Tree.insertText] at h
      cases hp : parseText q.text with
      | error e => rw [hp] at h; cases h
      | ok r =>
        rw [hp] at h
        cases r with
        | none => cases h; exact ⟨CfgExt.refl _, fun h _ _ => h⟩
        | some e =>
          simp only [Tree.insert] at h
          cases hi : prepareInsert w.tree.cfg q.id q.consts e with
          | error x => rw [hi] at h; cases h
          | ok a =>
            obtain ⟨o, c⟩ := a
            rw [hi] at h
            have hx := prepareInsert_ext hi
            have hf : Filled w.tree.cfg → Filled c := fun hc => prepareInsert_filled hc hi
            cases o with
            | none => cases h; exact ⟨hx, fun h _ _ => hf h⟩
            | some s =>
              dsimp only at h
              cases hr : w.tree.root.insert R c s with
              | error x => rw [hr] at h; cases h
              | ok root => rw [hr] at h; cases h; exact ⟨hx, fun h _ _ => hf h⟩
    | makeSub q =>
      simp only [TextWorld.plainStep, TextWorld.step, Tree.makeSubText] at h
      cases hp : parseText q.text with
      | error e => rw [hp] at h; cases h
      | ok r =>
        rw [hp] at h
        cases r with
        | none => cases h; exact ⟨CfgExt.refl _, fun h _ _ => h⟩
        | some e =>
          dsimp only at h
          cases hi : w.tree.makeSub q.id q.consts e with
          | error x => rw [hi] at h; cases h
          | ok a =>
            obtain ⟨o, t⟩ := a
            rw [hi] at h
            cases o <;> cases h <;> exact ⟨makeSub_ext hi, fun hc ht hs => makeSub_filled hc ht hs hi⟩
    | changeBoundaries text =>
      simp only [TextWorld.plainStep, TextWorld.step, Tree.changeBoundariesText] at h
      cases hp : parseText text with
      | error e => rw [hp] at h; cases h
      | ok r =>
        rw [hp] at h
        cases r with
        | none => cases h; exact ⟨CfgExt.refl _, fun h _ _ => h⟩
        | some e =>
          dsimp only at h
          cases hm : w.tree.changeBoundaries e with
          | error x => rw [hm] at h; cases h
          | ok t' =>
            rw [hm] at h
            cases h
            exact ⟨changeBoundaries_api_ext hm, fun hc ht hs => changeBoundaries_api_filled hc ht hs hm⟩
    | insertSub k =>
      simp only [TextWorld.plainStep, TextWorld.step] at h
      cases hk : w.pool[k]? with
      | none => rw [hk] at h; cases h; exact ⟨CfgExt.refl _, fun h _ _ => h⟩
      | some p =>
        obtain ⟨q, s⟩ := p
        rw [hk] at h
        dsimp only at h
        simp only [Tree.insertSub] at h
        cases hi : w.tree.root.insert R w.tree.cfg s with
        | error e => rw [hi] at h; cases h
        | ok c' => rw [hi] at h; cases h; exact ⟨CfgExt.refl _, fun h _ _ => h⟩

theorem plainRun_ext {R : Rounding} : ∀ (os : List MemOp) {w w' : TextWorld}, w.plainRun R os = .ok w' → CfgExt w.tree.cfg w'.tree.cfg := by
  intro os
  induction os with
  | nil => intro w w' h; cases h; exact CfgExt.refl _
  | cons o os ih =>
    intro w w' h
    simp only [TextWorld.plainRun] at h
    cases hs : w.plainStep R o with
    | error x => rw [hs] at h; cases h
    | ok w1 => rw [hs] at h; exact (plainStep_filled hs).1.trans (ih h)

theorem plainRun_filled {R : Rounding} : ∀ (os : List MemOp) {w w' : TextWorld}, w.plainRun R os = .ok w' → Filled w.tree.cfg →
    TablesOK w.tree.cfg → w'.tree.cfg.TablesFit → Filled w'.tree.cfg := by
  intro os
  induction os with
  | nil => intro w w' h hc _ _; cases h; exact hc
  | cons o os ih =>
    intro w w' h hc ht hs
    simp only [TextWorld.plainRun] at h
    cases hst : w.plainStep R o with
    | error x => rw [hst] at h; cases h
    | ok w1 =>
      rw [hst] at h
      obtain ⟨hx, hf⟩ := plainStep_filled hst
      exact ih h (hf hc ht (Config.TablesFit.of_ext (plainRun_ext os h) (hx.ok ht) hs)) (hx.ok ht) hs

theorem makeTree_filled {cap min : Nat} {decls : List (Str × Decl × Bool)} (h : ∀ d ∈ decls, d.2.1.LimitNonzero) :
    Filled (makeTree cap min decls).cfg ∧ TablesOK (makeTree cap min decls).cfg := by
  simp only [makeTree]
  have : ∀ (cfg : Config), Filled cfg → TablesOK cfg → Filled (decls.foldl (fun cfg d => declare cfg d.1 d.2.1 d.2.2) cfg) ∧
      TablesOK (decls.foldl (fun cfg d => declare cfg d.1 d.2.1 d.2.2) cfg) := by
    induction decls with
    | nil => intro cfg hc ht; exact ⟨hc, ht⟩
    | cons d ds ih =>
      intro cfg hc ht
      refine ih (fun x hx => h x (List.mem_cons_of_mem _ hx)) _ ⟨?_, hc.strs, hc.ints⟩ (tablesOK_of_maps (a := cfg) rfl rfl ht)
      intro x hx
      simp only [declare, addDomain, List.mem_append, List.mem_singleton] at hx
      rcases hx with hx | rfl
      · exact hc.doms x hx
      · have hd := h d (by simp)
        intro n hn
        dsimp only at hn
        generalize d.2.1 = k at hd hn
        cases k <;> simp only [Decl.bound, Scalar.s.injEq, reduceCtorEq] at hn <;> simp only [Decl.LimitNonzero] at hd <;>
          simp only [sizeMax] at hn ⊢ <;> omega
  refine this _ ⟨?_, ?_, ?_⟩ ⟨?_, ?_, ?_, ?_⟩ <;> simp [makeConfig, strTable, intTable, findStrMap, findIntMap]

theorem FitsCfg.maps {H : Str → Nat} {cfg : Config} {img : CfgImg} (hf : FitsCfg H cfg img) (hc : Filled cfg) : ∀ m ∈ img.strs, m.map ≠ none := by
  intro i hi
  obtain ⟨k, hk⟩ := List.mem_iff_getElem?.mp hi
  have hlt : k < cfg.stringMaps.length := by
    rw [hf.strs.length_eq]
    exact (List.getElem?_eq_some_iff.mp hk).1
  have hm : cfg.stringMaps[k]? = some cfg.stringMaps[k] := List.getElem?_eq_getElem hlt
  obtain ⟨x, hx, _⟩ := (forall₂_at hf.strs hm hk).some (hc.strs _ (List.getElem_mem hlt))
  simp [hx]

end BeTree
