import Verif.Lemmas.ExprKey
import Verif.Model.PredMap
import Verif.Spec.Same
import Mathlib.Tactic.Tauto
/-
The predicate table.
-/
namespace BeTree
open Spec RB

theorem natCast_inj (a b : Nat) : (a : Rat) = b ↔ a = b := Nat.cast_inj
theorem intCast_inj (a b : Int) : (a : Rat) = b ↔ a = b := Int.cast_inj

theorem CmpOp.toNat_inj (a b : CmpOp) : a.toNat = b.toNat ↔ a = b := by cases a <;> cases b <;> decide
theorem EqOp.toNat_inj (a b : EqOp) : a.toNat = b.toNat ↔ a = b := by cases a <;> cases b <;> decide
theorem SetOp.toNat_inj (a b : SetOp) : a.toNat = b.toNat ↔ a = b := by cases a <;> cases b <;> decide
theorem ListOp.toNat_inj (a b : ListOp) : a.toNat = b.toNat ↔ a = b := by cases a <;> cases b <;> decide
theorem FreqType.toNat_inj (a b : FreqType) : a.toNat = b.toNat ↔ a = b := by cases a <;> cases b <;> decide
theorem SegOp.toNat_inj (a b : SegOp) : a.toNat = b.toNat ↔ a = b := by cases a <;> cases b <;> decide
theorem StrOp.toNat_inj (a b : StrOp) : a.toNat = b.toNat ↔ a = b := by cases a <;> cases b <;> decide
theorem NullOp.toNat_inj (a b : NullOp) : a.toNat = b.toNat ↔ a = b := by cases a <;> cases b <;> decide
theorem bool_toNat_inj (a b : Bool) : a.toNat = b.toNat ↔ a = b := by cases a <;> cases b <;> decide

theorem varCore_inj (a b : AttrVar) : varCore a = varCore b ↔ a.var = b.var := by simp [varCore]
theorem strCore_inj (a b : StrVal) : strCore a = strCore b ↔ a.str = b.str := by simp [strCore]
theorem enumCore_inj (a b : EnumVal) : enumCore a = enumCore b ↔ a.ienum = b.ienum := by simp [enumCore]

theorem map_inj_iff {α β γ : Type} (f : α → β) (g : α → γ) (h : ∀ a b, f a = f b ↔ g a = g b) (l m : List α) :
    l.map f = m.map f ↔ l.map g = m.map g := by
  induction l generalizing m with
  | nil => cases m <;> simp
  | cons x xs ih => cases m <;> simp [h, ih]

theorem map_len {α β : Type} (f : α → β) {l m : List α} (h : l.map f = m.map f) : l.length = m.length := by
  have := congrArg List.length h; simpa using this

theorem intKey_inj (l m : List Int) : intKey l = intKey m ↔ l = m := by
  constructor
  · intro h
    simp only [intKey, List.cons.injEq] at h
    have := (map_inj_iff _ id (fun a b => by simp) l m).1 h.2
    simpa using this
  · rintro rfl; rfl

theorem strKey_inj (l m : List StrVal) : strKey l = strKey m ↔ l.map strCore = m.map strCore := by
  simp only [strKey, List.cons.injEq]
  rw [map_inj_iff _ strCore (fun a b => by simp [strCore_inj]) l m]
  constructor
  · exact fun h => h.2
  · intro h; exact ⟨by rw [map_len _ h], h⟩

theorem pattern_inj (l m : Str) :
    l.map (fun c => (c.toNat : Rat)) = m.map (fun c => (c.toNat : Rat)) ↔ l = m := by
  have := map_inj_iff (fun c : Char => (c.toNat : Rat)) id (fun a b => by simp only [Nat.cast_inj, id]; exact Char.toNat_inj) l m
  simpa using this

theorem predKey_iff (g h : Nat) (p q : Pred) : exprKey (.leaf g p) = exprKey (.leaf h q) ↔ predCore p = predCore q := by
  cases p with
  | compare o v c =>
    cases q with
    | compare o' v' c' =>
      cases c <;> cases c' <;>
        simp [exprKey, predCore, CmpVal.key, CmpOp.toNat_inj, varCore_inj]
    | equality o' v' c' => cases c' <;> simp [exprKey, predCore]
    | _ => simp [exprKey, predCore]
  | equality o v c =>
    cases q with
    | equality o' v' c' =>
      cases c <;> cases c' <;>
        simp [exprKey, predCore, EqVal.key, EqOp.toNat_inj, varCore_inj, strCore_inj, enumCore_inj]
    | _ => cases c <;> simp [exprKey, predCore]
  | set o l r =>
    cases q with
    | set o' l' r' =>
      cases l <;> cases l' <;> cases r <;> cases r' <;>
        simp [exprKey, predCore, SetLeft.key, SetRight.key, SetLeft.tag, SetRight.tag, SetOp.toNat_inj, varCore_inj,
          strCore_inj, intKey_inj, strKey_inj]
    | equality o' v' c' => cases c' <;> simp [exprKey, predCore]
    | _ => simp [exprKey, predCore]
  | list o l r =>
    cases q with
    | list o' l' r' =>
      cases r <;> cases r' <;>
        simp [exprKey, predCore, ListVal.key, ListOp.toNat_inj, varCore_inj, strCore_inj, intKey_inj, strKey_inj]
    | equality o' v' c' => cases c' <;> simp [exprKey, predCore]
    | _ => simp [exprKey, predCore]
  | boolVar v =>
    cases q with
    | equality o' v' c' => cases c' <;> simp [exprKey, predCore]
    | _ => simp [exprKey, predCore, varCore_inj]
  | boolLit v =>
    cases q with
    | equality o' v' c' => cases c' <;> simp [exprKey, predCore]
    | _ => simp [exprKey, predCore, bool_toNat_inj]
  | freq f =>
    cases q with
    | equality o' v' c' => cases c' <;> simp [exprKey, predCore]
    | freq f' =>
      simp [exprKey, predCore, FreqType.toNat_inj, varCore_inj, strCore_inj]
      tauto
    | _ => simp [exprKey, predCore]
  | segment f =>
    cases q with
    | equality o' v' c' => cases c' <;> simp [exprKey, predCore]
    | segment f' =>
      simp [exprKey, predCore, SegOp.toNat_inj, varCore_inj, bool_toNat_inj]
      tauto
    | _ => simp [exprKey, predCore]
  | geo f =>
    cases q with
    | equality o' v' c' => cases c' <;> simp [exprKey, predCore]
    | geo f' =>
      simp [exprKey, predCore, varCore_inj, bool_toNat_inj]
      tauto
    | _ => simp [exprKey, predCore]
  | str f =>
    cases q with
    | equality o' v' c' => cases c' <;> simp [exprKey, predCore]
    | str f' =>
      simp [exprKey, predCore, StrOp.toNat_inj, varCore_inj, pattern_inj]
    | _ => simp [exprKey, predCore]
  | isNull o v =>
    cases q with
    | equality o' v' c' => cases c' <;> simp [exprKey, predCore]
    | isNull o' v' =>
      simp [exprKey, predCore, NullOp.toNat_inj, varCore_inj]
      tauto
    | _ => simp [exprKey, predCore]

theorem exprKey_setGid (g : Nat) (n : AExpr) : exprKey (n.setGid g) = exprKey n := by
  cases n with
  | leaf h p => simp only [AExpr.setGid]; exact (predKey_iff g h p p).2 rfl
  | _ => rfl

theorem gid_setGid (g : Nat) (n : AExpr) : (n.setGid g).gid = g := by cases n <;> rfl
theorem erase_setGid (g : Nat) (n : AExpr) : (n.setGid g).erase = n.erase := by cases n <;> rfl

/-- invariant of the predicate table -/
structure PMOK (pm : PredMap) : Prop where
  valid : Valid exprCmp pm.m
  gids : ∀ n ∈ pm.m.toList, n.gid < pm.predCount
  inj : ∀ a ∈ pm.m.toList, ∀ b ∈ pm.m.toList, a.gid = b.gid → a = b
  memoLen : pm.memo.length = pm.predCount
  memoLt : ∀ g k : Nat, pm.memo[g]? = some (some k) → k < pm.memoizeCount
  memoInj : ∀ g h k : Nat, pm.memo[g]? = some (some k) → pm.memo[h]? = some (some k) → g = h

theorem PMOK.empty : PMOK PredMap.empty :=
  ⟨⟨by simp [PredMap.empty, Ordered, toList], rfl, .nil, _, .nil⟩, by simp [PredMap.empty, toList], by simp [PredMap.empty, toList], rfl,
    by simp [PredMap.empty], by simp [PredMap.empty]⟩

/-- the table has a node that compares equal to `a` and carries the id of `a` -/
def Rep (m : RB AExpr) (a : AExpr) : Prop := ∃ f ∈ m.toList, exprKey f = exprKey a ∧ f.gid = a.gid

/-- `a` and all its sub-expressions have got their ids from the table -/
def Assigned (m : RB AExpr) : AExpr → Prop
  | .leaf g p => Rep m (.leaf g p)
  | .not g e => Rep m (.not g e) ∧ Assigned m e
  | .and g l r => Rep m (.and g l r) ∧ Assigned m l ∧ Assigned m r
  | .or g l r => Rep m (.or g l r) ∧ Assigned m l ∧ Assigned m r

theorem Assigned.rep {m : RB AExpr} {a : AExpr} (h : Assigned m a) : Rep m a := by
  cases a with
  | leaf g p => exact h
  | not g e => exact h.1
  | and g l r => exact h.1
  | or g l r => exact h.1

theorem Rep.mono {m m' : RB AExpr} (hs : ∀ x ∈ m.toList, x ∈ m'.toList) {a : AExpr} (h : Rep m a) : Rep m' a := by
  obtain ⟨f, h1, h2⟩ := h; exact ⟨f, hs f h1, h2⟩

theorem Assigned.mono {m m' : RB AExpr} (hs : ∀ x ∈ m.toList, x ∈ m'.toList) {a : AExpr} (h : Assigned m a) : Assigned m' a := by
  induction a with
  | leaf g p => exact Rep.mono hs h
  | not g e ih => exact ⟨h.1.mono hs, ih h.2⟩
  | and g l r ihl ihr => exact ⟨h.1.mono hs, ihl h.2.1, ihr h.2.2⟩
  | or g l r ihl ihr => exact ⟨h.1.mono hs, ihl h.2.1, ihr h.2.2⟩

/-- the table never changes the nodes it has -/
structure PMExt (pm pm' : PredMap) : Prop where
  nodes : ∀ x ∈ pm.m.toList, x ∈ pm'.m.toList
  preds : pm.predCount ≤ pm'.predCount
  memos : pm.memoizeCount ≤ pm'.memoizeCount

theorem PMExt.refl (pm : PredMap) : PMExt pm pm := ⟨fun _ h => h, Nat.le_refl _, Nat.le_refl _⟩
theorem PMExt.trans {a b c : PredMap} (h : PMExt a b) (k : PMExt b c) : PMExt a c :=
  ⟨fun x hx => k.nodes x (h.nodes x hx), h.preds.trans k.preds, h.memos.trans k.memos⟩

theorem assignNode_ok {pm : PredMap} (hp : PMOK pm) (n : AExpr) :
    ∃ g pm', assignNode pm n = .ok (n.setGid g, pm') ∧ PMOK pm' ∧ PMExt pm pm' ∧ Rep pm'.m (n.setGid g) := by
  unfold assignNode
  cases hf : RB.find exprCmp n pm.m with
  | none =>
    have hn := find_none exprCmpOK hp.valid.ordered hf
    obtain ⟨m', h1, h2, h3⟩ := insert_valid exprCmpOK (data := n.setGid pm.predCount) hp.valid
    simp only [h1]
    rcases h3 with ⟨_, x, hx, he⟩ | ⟨_, L, R, h3, h4⟩
    · exfalso
      refine hn x hx ?_
      rw [exprCmp_eq] at he ⊢
      rw [he, exprKey_setGid]
    have hmem : ∀ x, x ∈ m'.toList ↔ x = n.setGid pm.predCount ∨ x ∈ pm.m.toList := by
      intro x; rw [h3, h4]; simp only [List.mem_append, List.mem_cons]; tauto
    refine ⟨_, _, rfl, ⟨h2, ?_, ?_, ?_, ?_, ?_⟩, ⟨?_, ?_, ?_⟩, ?_⟩
    · intro x hx
      rcases (hmem x).1 hx with rfl | hx
      · rw [gid_setGid]; exact Nat.lt_succ_self _
      · exact Nat.lt_succ_of_lt (hp.gids x hx)
    · intro a ha b hb hab
      rcases (hmem a).1 ha with rfl | ha <;> rcases (hmem b).1 hb with rfl | hb
      · rfl
      · rw [gid_setGid] at hab; have := hp.gids b hb; omega
      · rw [gid_setGid] at hab; have := hp.gids a ha; omega
      · exact hp.inj a ha b hb hab
    · simp [hp.memoLen]
    · intro g k hg
      rw [List.getElem?_append] at hg
      split at hg
      · exact hp.memoLt g k hg
      · exfalso
        cases hd : g - pm.memo.length with
        | zero => simp [hd] at hg
        | succ d => simp [hd] at hg
    · intro g h k hg hh
      have aux : ∀ g : Nat, (pm.memo ++ [none])[g]? = some (some k) → pm.memo[g]? = some (some k) := by
        intro g hg
        rw [List.getElem?_append] at hg
        split at hg
        · exact hg
        · exfalso
          cases hd : g - pm.memo.length with
          | zero => simp [hd] at hg
          | succ d => simp [hd] at hg
      exact hp.memoInj g h k (aux g hg) (aux h hh)
    · intro x hx; exact (hmem x).2 (Or.inr hx)
    · exact Nat.le_succ _
    · exact Nat.le_refl _
    · exact ⟨_, (hmem _).2 (Or.inl rfl), rfl, rfl⟩
  | some f =>
    obtain ⟨hf1, hf2⟩ := find_some hf
    have hlt := hp.gids f hf1
    have hrep : ∀ m : RB AExpr, m = pm.m → Rep m (n.setGid f.gid) := by
      rintro _ rfl
      refine ⟨f, hf1, ?_, by rw [gid_setGid]⟩
      rw [exprKey_setGid]; exact (exprCmp_eq _ _).1 hf2
    have hget : ∃ o, pm.memo[f.gid]? = some o := by
      rw [← hp.memoLen] at hlt
      exact ⟨_, List.getElem?_eq_getElem hlt⟩
    obtain ⟨o, ho⟩ := hget
    simp only [ho]
    cases o with
    | some k => exact ⟨_, _, rfl, hp, PMExt.refl _, hrep _ rfl⟩
    | none =>
      refine ⟨_, _, rfl, ⟨hp.valid, hp.gids, hp.inj, ?_, ?_, ?_⟩, ⟨fun _ h => h, Nat.le_refl _, Nat.le_succ _⟩, hrep _ rfl⟩
      · simp [hp.memoLen]
      · intro g k hg
        simp only [List.getElem?_set] at hg
        split at hg
        · split at hg
          · cases hg; exact Nat.lt_succ_self _
          · cases hg
        · exact Nat.lt_succ_of_lt (hp.memoLt g k hg)
      · intro g h k hg hh
        simp only [List.getElem?_set] at hg hh
        split at hg
        · rename_i e1
          split at hh
          · rename_i e2; exact e1.symm.trans e2
          · split at hg
            · cases hg
              have := hp.memoLt h _ hh
              omega
            · cases hg
        · split at hh
          · split at hh
            · cases hh
              have := hp.memoLt g _ hg
              omega
            · cases hh
          · exact hp.memoInj g h k hg hh

theorem assignPred_ok {pm : PredMap} (hp : PMOK pm) (e : Expr) :
    ∃ a pm', assignPred pm e = .ok (a, pm') ∧ a.erase = e ∧ PMOK pm' ∧ PMExt pm pm' ∧ Assigned pm'.m a := by
  induction e generalizing pm with
  | leaf p =>
    obtain ⟨g, pm', h1, h2, h3, h4⟩ := assignNode_ok hp (.leaf invalidId p)
    exact ⟨_, _, h1, rfl, h2, h3, h4⟩
  | not e ih =>
    obtain ⟨a, pm1, h1, h2, h3, h4, h5⟩ := ih hp
    obtain ⟨g, pm', k1, k2, k3, k4⟩ := assignNode_ok h3 (.not invalidId a)
    refine ⟨.not g a, _, by simp only [assignPred, h1]; exact k1, by simp only [AExpr.erase, h2], k2, h4.trans k3, k4, h5.mono k3.nodes⟩
  | and l r ihl ihr =>
    obtain ⟨a, pm1, h1, h2, h3, h4, h5⟩ := ihl hp
    obtain ⟨b, pm2, j1, j2, j3, j4, j5⟩ := ihr h3
    obtain ⟨g, pm', k1, k2, k3, k4⟩ := assignNode_ok j3 (.and invalidId a b)
    refine ⟨.and g a b, _, by simp only [assignPred, h1, j1]; exact k1, by simp only [AExpr.erase, h2, j2], k2, (h4.trans j4).trans k3, k4,
      h5.mono (j4.trans k3).nodes, j5.mono k3.nodes⟩
  | or l r ihl ihr =>
    obtain ⟨a, pm1, h1, h2, h3, h4, h5⟩ := ihl hp
    obtain ⟨b, pm2, j1, j2, j3, j4, j5⟩ := ihr h3
    obtain ⟨g, pm', k1, k2, k3, k4⟩ := assignNode_ok j3 (.or invalidId a b)
    refine ⟨.or g a b, _, by simp only [assignPred, h1, j1]; exact k1, by simp only [AExpr.erase, h2, j2], k2, (h4.trans j4).trans k3, k4,
      h5.mono (j4.trans k3).nodes, j5.mono k3.nodes⟩

theorem gid_eq_iff_key {pm : PredMap} (hp : PMOK pm) {a b : AExpr} (ha : Rep pm.m a) (hb : Rep pm.m b) :
    a.gid = b.gid ↔ exprKey a = exprKey b := by
  obtain ⟨f, f1, f2, f3⟩ := ha
  obtain ⟨g, g1, g2, g3⟩ := hb
  constructor
  · intro h
    have := hp.inj f f1 g g1 (by rw [f3, g3, h])
    rw [← f2, ← g2, this]
  · intro h
    have h1 := (find_iff exprCmpOK hp.valid.ordered (data := a) f).2 ⟨f1, (exprCmp_eq _ _).2 f2⟩
    have h2 := (find_iff exprCmpOK hp.valid.ordered (data := a) g).2 ⟨g1, (exprCmp_eq _ _).2 (g2.trans h.symm)⟩
    rw [h1] at h2; cases h2
    rw [← f3, ← g3]

/-- the ids identify exactly the expressions that are the same -/
theorem gid_eq_iff {pm : PredMap} (hp : PMOK pm) {a b : AExpr} (ha : Assigned pm.m a) (hb : Assigned pm.m b) :
    a.gid = b.gid ↔ Same a.erase b.erase := by
  induction a generalizing b with
  | leaf g p =>
    rw [gid_eq_iff_key hp ha.rep hb.rep]
    cases b with
    | leaf h q =>
      rw [predKey_iff]; simp [Same, AExpr.erase, core]
    | _ => cases p <;> simp [exprKey, Same, AExpr.erase, core]
  | not g e ih =>
    rw [gid_eq_iff_key hp ha.rep hb.rep]
    cases b with
    | leaf h q => cases q <;> simp [exprKey, Same, AExpr.erase, core]
    | not h e' =>
      have := ih ha.2 hb.2
      simp only [Same] at this
      simp [exprKey, Same, AExpr.erase, core, this]
    | _ => simp [exprKey, Same, AExpr.erase, core]
  | and g l r ihl ihr =>
    rw [gid_eq_iff_key hp ha.rep hb.rep]
    cases b with
    | leaf h q => cases q <;> simp [exprKey, Same, AExpr.erase, core]
    | and h l' r' =>
      have h1 := ihl ha.2.1 hb.2.1
      have h2 := ihr ha.2.2 hb.2.2
      simp only [Same] at h1 h2
      simp [exprKey, Same, AExpr.erase, core, h1, h2]
    | _ => simp [exprKey, Same, AExpr.erase, core]
  | or g l r ihl ihr =>
    rw [gid_eq_iff_key hp ha.rep hb.rep]
    cases b with
    | leaf h q => cases q <;> simp [exprKey, Same, AExpr.erase, core]
    | or h l' r' =>
      have h1 := ihl ha.2.1 hb.2.1
      have h2 := ihr ha.2.2 hb.2.2
      simp only [Same] at h1 h2
      simp [exprKey, Same, AExpr.erase, core, h1, h2]
    | _ => simp [exprKey, Same, AExpr.erase, core]

end BeTree
