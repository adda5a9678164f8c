import Verif.Lemmas.Used
/-
Constants that are known already: what learns them, and what they are good for.
-/
namespace BeTree
open Spec

/-! ### `betree_change_boundaries` and `betree_make_sub` learn the constants of their expression -/

theorem interned_mem {α : Type} [DecidableEq α] {t t' : List α} {x : α} {smax : Except Fault Nat} {id : Nat}
    (h : Interned t x true smax id t') : x ∈ t' := by
  cases h with
  | old i hi => exact List.mem_of_getElem? hi
  | new _ _ => simp
  | full _ ha _ _ _ => cases ha

theorem getIdForString_learns {a b : Config} {v : AttrVar} {s : Str} {id : Nat} (h : getIdForString a v s true = .ok (id, b)) :
    s ∈ strTable b v.var := interned_mem (getIdForString_spec h).2.2.2.1

theorem assignStrList_learns {v : AttrVar} : ∀ {l l' : List StrVal} {a b : Config}, assignStrList a v true l = .ok (l', b) →
    ∀ s ∈ l, s.string ∈ strTable b v.var := by
  intro l
  induction l with
  | nil => intro l' a b _ s hs; cases hs
  | cons s ss ih =>
    intro l' a b h
    rw [assignStrList] at h
    split at h
    · cases h
    · rename_i h1
      split at h
      · cases h
      · rename_i h2
        cases h
        intro t ht
        rcases List.mem_cons.1 ht with rfl | ht
        · exact ((assignStrList_grow h2).strs _).subset (getIdForString_learns h1)
        · exact ih h2 t ht

theorem assignStrPred_learns {p p' : Pred} {a b : Config} (h : assignStrPred a true p = .ok (p', b)) :
    ∀ c ∈ predVarStrs p, c.2 ∈ strTable b c.1 := by
  cases p with
  | equality op v c =>
    cases c with
    | string s =>
      simp only [assignStrPred] at h
      split at h
      · cases h
      · rename_i h1; cases h; intro c hc; simp only [predVarStrs, List.mem_singleton] at hc; subst hc; exact getIdForString_learns h1
    | _ => intro c hc; cases hc
  | freq f =>
    simp only [assignStrPred] at h
    split at h
    · cases h
    · rename_i h1; cases h; intro c hc; simp only [predVarStrs, List.mem_singleton] at hc; subst hc; exact getIdForString_learns h1
  | list op v c =>
    cases c with
    | strList l =>
      simp only [assignStrPred] at h
      split at h
      · cases h
      · rename_i h1
        cases h
        intro c hc
        simp only [predVarStrs, List.mem_map] at hc
        obtain ⟨s, hs, rfl⟩ := hc
        exact assignStrList_learns h1 s hs
    | intList l => intro c hc; cases hc
  | set op l r =>
    cases l <;> cases r <;> simp only [assignStrPred] at h <;>
      first
        | (intro c hc; cases hc; done)
        | (split at h
           · cases h
           · rename_i h1
             cases h
             intro c hc
             simp only [predVarStrs, List.mem_singleton, List.mem_map] at hc
             first
               | (subst hc; exact getIdForString_learns h1)
               | (obtain ⟨s, hs, rfl⟩ := hc; exact assignStrList_learns h1 s hs))
  | _ => intro c hc; cases hc

theorem assignStr_learns {e e' : Expr} {a b : Config} (h : assignStr a true e = .ok (e', b)) :
    ∀ c ∈ varStrs e, c.2 ∈ strTable b c.1 := by
  induction e generalizing a b e' with
  | leaf p =>
    rw [assignStr] at h
    split at h
    · cases h
    · rename_i h1; cases h; exact assignStrPred_learns h1
  | not e ih =>
    rw [assignStr] at h
    split at h
    · cases h
    · rename_i h1; cases h; exact ih h1
  | and l r ihl ihr | or l r ihl ihr =>
    rw [assignStr] at h
    split at h
    · cases h
    · rename_i h1
      split at h
      · cases h
      · rename_i h2
        cases h
        intro c hc
        rcases List.mem_append.1 hc with hc | hc
        · exact ((assignStr_grow h2).strs _).subset (ihl h1 c hc)
        · exact ihr h2 c hc

/-- an enum -/
def IsEnum (ds : List Domain) (v : Nat) : Prop := ∃ d, ds[v]? = some d ∧ d.bound.ty = .intEnum

theorem assignIenum_learns {e e' : Expr} {a b : Config} (h : assignIenum a true e = .ok (e', b)) :
    ∀ c ∈ varInts e, IsEnum a.domains c.1 → c.2 ∈ intTable b c.1 := by
  induction e generalizing a b e' with
  | leaf p =>
    rw [assignIenum] at h
    split at h
    · cases h
    · rename_i h1
      cases h
      intro c hc hen
      cases p with
      | equality op v k =>
        cases k with
        | int i =>
          simp only [varInts, predVarInts, List.mem_singleton] at hc
          subst hc
          obtain ⟨d, hd, hty⟩ := hen
          dsimp only at hd
          simp only [assignIenumPred, getDomain, hd, hty, if_true] at h1
          split at h1
          · cases h1
          · rename_i h2; cases h1; exact interned_mem (getIdForIenum_spec h2).2.2.2.1
        | _ => cases hc
      | _ => cases hc
  | not e ih =>
    rw [assignIenum] at h
    split at h
    · cases h
    · rename_i h1; cases h; exact ih h1
  | and l r ihl ihr | or l r ihl ihr =>
    rw [assignIenum] at h
    split at h
    · cases h
    · rename_i h1
      split at h
      · cases h
      · rename_i h2
        cases h
        intro c hc hen
        rcases List.mem_append.1 hc with hc | hc
        · exact ((assignIenum_grow h2).ints _).subset (ihl h1 c hc hen)
        · refine ihr h2 c hc ?_
          rw [(assignIenum_grow h1).base.domains]; exact hen

/-- the constants of the expression are known -/
structure Knows (cfg : Config) (e : Expr) : Prop where
  strs : ∀ c ∈ strConsts e, c.2 ∈ strTable cfg (tryGetIdForAttr cfg c.1)
  ints : ∀ c ∈ enumConsts e, IsEnum cfg.domains (tryGetIdForAttr cfg c.1) → c.2 ∈ intTable cfg (tryGetIdForAttr cfg c.1)

theorem isEnum_ext {a b : Config} (h : CfgExt a b) {v : Nat} : IsEnum b.domains v ↔ IsEnum a.domains v := by
  have key := congrArg (fun l => (l[v]?).map fun x => x.2.1) h.doms
  simp only [List.getElem?_map, Option.map_map] at key
  unfold IsEnum
  constructor
  · rintro ⟨d, hd, ht⟩
    rw [hd] at key
    cases ha : a.domains[v]? with
    | none => rw [ha] at key; cases key
    | some d' =>
      rw [ha] at key
      simp only [Option.map_some, Function.comp, Option.some.injEq] at key
      exact ⟨d', rfl, by rw [← key]; exact ht⟩
  · rintro ⟨d, hd, ht⟩
    rw [hd] at key
    cases ha : b.domains[v]? with
    | none => rw [ha] at key; cases key
    | some d' =>
      rw [ha] at key
      simp only [Option.map_some, Function.comp, Option.some.injEq] at key
      exact ⟨d', rfl, by rw [key]; exact ht⟩

theorem Knows.ext {a b : Config} (h : CfgExt a b) {e : Expr} (hk : Knows a e) : Knows b e where
  strs c hc := by rw [tryGetId_ext h]; exact (h.strs _).subset (hk.strs c hc)
  ints c hc he := by
    rw [tryGetId_ext h] at he ⊢
    exact (h.ints _).subset (hk.ints c hc ((isEnum_ext h).1 he))

theorem knows_of_learned {a b : Config} (hx : CfgExt a b) {e : Expr}
    (h1 : ∀ c ∈ varStrs (assignVar a (parseBuild e)), c.2 ∈ strTable b c.1)
    (h2 : ∀ c ∈ varInts (assignVar a (parseBuild e)), IsEnum a.domains c.1 → c.2 ∈ intTable b c.1) : Knows b e := by
  rw [(varStrs_assignVar a _).1] at h1
  rw [(varStrs_assignVar a _).2] at h2
  constructor
  · intro c hc
    rw [tryGetId_ext hx]
    exact h1 _ (List.mem_map.2 ⟨c, ((consts_parse e).1 c).2 hc, rfl⟩)
  · intro c hc he
    rw [tryGetId_ext hx] at he ⊢
    exact h2 _ (List.mem_map.2 ⟨c, ((consts_parse e).2 c).2 hc, rfl⟩) ((isEnum_ext hx).1 he)

theorem changeBoundaries_knows {t t' : Tree} {e : Expr} (h : t.changeBoundaries (parseBuild e) = .ok t') : Knows t'.cfg e := by
  unfold Tree.changeBoundaries at h
  split at h
  · cases h
  · rename_i h1
    split at h
    · cases h
    · rename_i h2
      split at h
      · cases h
      · split at h
        · cases h
        · rename_i h3
          cases h
          have g1 := assignStr_grow h1
          have g2 := assignIenum_grow h2
          have x3 := changeBoundaries_ext h3
          refine knows_of_learned ((g1.trans g2).ext.trans x3) (fun c hc => ?_) (fun c hc he => ?_)
          · exact (x3.strs _).subset ((g2.strs _).subset (assignStr_learns h1 c hc))
          · rw [← assignStr_varInts h1] at hc
            exact (x3.ints _).subset (assignIenum_learns h2 c hc (by rw [g1.base.domains]; exact he))

theorem makeSub_knows {t t' : Tree} {id : Nat} {cs : List Constant} {e : Expr} {s : Sub}
    (h : t.makeSub id cs (parseBuild e) = .ok (some s, t')) : Knows t'.cfg e := by
  unfold Tree.makeSub at h
  dsimp only at h
  split at h
  · cases h
  · cases h
  · split at h
    · cases h
    · rename_i h1
      split at h
      · cases h
      · rename_i h2
        split at h
        · cases h
        · split at h
          · cases h
          · cases h
          · split at h
            · cases h
            · split at h
              · cases h
              · rename_i h3
                split at h
                · cases h
                · rename_i h4
                  cases h
                  have g1 := assignStr_grow h1
                  have g2 := assignIenum_grow h2
                  have x3 := (changeBoundaries_ext h3).trans (finishSub_ext h4)
                  refine knows_of_learned ((g1.trans g2).ext.trans x3) (fun c hc => ?_) (fun c hc he => ?_)
                  · exact (x3.strs _).subset ((g2.strs _).subset (assignStr_learns h1 c hc))
                  · rw [← assignStr_varInts h1] at hc
                    exact (x3.ints _).subset (assignIenum_learns h2 c hc (by rw [g1.base.domains]; exact he))

/-! ### constants that are known get their id -/

theorem interned_known {α : Type} [DecidableEq α] {t t' : List α} {x : α} {al : Bool} {smax : Except Fault Nat} {id : Nat}
    (hx : x ∈ t) (h : Interned t x al smax id t') (hs : t'.length < invalidId) : id ≠ invalidId := by
  cases h with
  | old i hi =>
    have := (List.getElem?_eq_some_iff.1 hi).1
    omega
  | new hn _ => exact absurd hx hn
  | full hn _ _ _ _ => exact absurd hx hn

theorem getIdForString_known {S a b T : Config} {v : AttrVar} {s : Str} {al : Bool} {id : Nat} (ha : Grow S a) (hg : Grow b T)
    (hT : Small T) (hx : s ∈ strTable S v.var) (h : getIdForString a v s al = .ok (id, b)) : id ≠ invalidId :=
  interned_known ((ha.strs _).subset hx) (getIdForString_spec h).2.2.2.1 (Nat.lt_of_le_of_lt (hg.strs _).length_le (hT.strs _))

theorem assignStrList_known {S T : Config} {v : AttrVar} {al : Bool} (hT : Small T) : ∀ {l l' : List StrVal} {a b : Config},
    (∀ s ∈ l, s.string ∈ strTable S v.var) → Grow S a → Grow b T → assignStrList a v al l = .ok (l', b) → ∀ s ∈ l', s.str ≠ invalidId := by
  intro l
  induction l with
  | nil => intro l' a b _ _ _ h; cases h; simp
  | cons s ss ih =>
    intro l' a b hf ha hb h
    rw [assignStrList] at h
    split at h
    · cases h
    · rename_i h1
      split at h
      · cases h
      · rename_i h2
        cases h
        intro t ht
        rcases List.mem_cons.1 ht with rfl | ht
        · exact getIdForString_known ha ((assignStrList_grow h2).trans hb) hT (hf s List.mem_cons_self) h1
        · exact ih (fun s hs => hf s (List.mem_cons_of_mem _ hs)) (ha.trans (getIdForString_grow h1)) hb h2 t ht

/-- what a predicate's constants must satisfy -/
def PKnown (S : Config) : Pred → Prop
  | .equality _ _ (.intEnum _) => False
  | p => (∀ c ∈ predVarStrs p, c.2 ∈ strTable S c.1) ∧ ∀ c ∈ predVarInts p, IsEnum S.domains c.1 → c.2 ∈ intTable S c.1

/-- after the strings -/
def PInts (S : Config) : Pred → Prop
  | .equality _ v (.int x) => IsEnum S.domains v.var → x ∈ intTable S v.var
  | p => Pred.AllIds p

theorem assignStr_low {P Q : Pred → Prop} {S T : Config} {al : Bool}
    (hpq : ∀ (a b : Config) (p p' : Pred), Grow S a → Grow b T → assignStrPred a al p = .ok (p', b) → P p → Q p')
    {e e' : Expr} {a b : Config} (ha : Grow S a) (hb : Grow b T) (h : assignStr a al e = .ok (e', b)) (hp : e.All P) :
    e'.All Q := by
  induction e generalizing a b e' with
  | leaf p =>
    rw [assignStr] at h
    split at h
    · cases h
    · rename_i h1; cases h; exact hpq _ _ _ _ ha hb h1 hp
  | not e ih =>
    rw [assignStr] at h
    split at h
    · cases h
    · rename_i h1; cases h; have := ih ha hb h1 hp; exact this
  | and l r ihl ihr | or l r ihl ihr =>
    rw [assignStr] at h
    split at h
    · cases h
    · rename_i h1
      split at h
      · cases h
      · rename_i h2
        cases h
        exact ⟨ihl ha ((assignStr_grow h2).trans hb) h1 hp.1, ihr (ha.trans (assignStr_grow h1)) hb h2 hp.2⟩

theorem assignIenum_low {P Q : Pred → Prop} {S T : Config} {al : Bool}
    (hpq : ∀ (a b : Config) (p p' : Pred), Grow S a → Grow b T → assignIenumPred a al p = .ok (p', b) → P p → Q p')
    {e e' : Expr} {a b : Config} (ha : Grow S a) (hb : Grow b T) (h : assignIenum a al e = .ok (e', b)) (hp : e.All P) :
    e'.All Q := by
  induction e generalizing a b e' with
  | leaf p =>
    rw [assignIenum] at h
    split at h
    · cases h
    · rename_i h1; cases h; exact hpq _ _ _ _ ha hb h1 hp
  | not e ih =>
    rw [assignIenum] at h
    split at h
    · cases h
    · rename_i h1; cases h; have := ih ha hb h1 hp; exact this
  | and l r ihl ihr | or l r ihl ihr =>
    rw [assignIenum] at h
    split at h
    · cases h
    · rename_i h1
      split at h
      · cases h
      · rename_i h2
        cases h
        exact ⟨ihl ha ((assignIenum_grow h2).trans hb) h1 hp.1, ihr (ha.trans (assignIenum_grow h1)) hb h2 hp.2⟩

theorem assignStrPred_known {S a b T : Config} {al : Bool} {p p' : Pred} (hT : Small T) (ha : Grow S a) (hb : Grow b T)
    (h : assignStrPred a al p = .ok (p', b)) (hp : PKnown S p) : PInts S p' := by
  cases p with
  | equality op v c =>
    cases c with
    | string s =>
      simp only [assignStrPred] at h
      split at h
      · cases h
      · rename_i h1; cases h; exact getIdForString_known ha hb hT (hp.1 (v.var, s.string) (by simp [predVarStrs])) h1
    | intEnum e => exact absurd hp id
    | int i => simp only [assignStrPred] at h; cases h; exact hp.2 (v.var, i) (by simp [predVarInts])
    | float f => simp only [assignStrPred] at h; cases h; trivial
  | freq f =>
    simp only [assignStrPred] at h
    split at h
    · cases h
    · rename_i h1; cases h; exact getIdForString_known ha hb hT (hp.1 (f.attr.var, f.ns.string) (by simp [predVarStrs])) h1
  | list op v c =>
    cases c with
    | strList l =>
      simp only [assignStrPred] at h
      split at h
      · cases h
      · rename_i h1
        cases h
        exact assignStrList_known hT (fun s hs => hp.1 (v.var, s.string) (List.mem_map.2 ⟨s, hs, rfl⟩)) ha hb h1
    | intList l => simp only [assignStrPred] at h; cases h; trivial
  | set op l r =>
    cases l <;> cases r <;> simp only [assignStrPred] at h <;> first | (cases h; done) | (cases h; trivial) | skip
    · rename_i s v
      split at h
      · cases h
      · rename_i h1; cases h; exact getIdForString_known ha hb hT (hp.1 (v.var, s.string) (by simp [predVarStrs])) h1
    · rename_i v l
      split at h
      · cases h
      · rename_i h1
        cases h
        exact assignStrList_known hT (fun s hs => hp.1 (v.var, s.string) (List.mem_map.2 ⟨s, hs, rfl⟩)) ha hb h1
  | _ => simp only [assignStrPred] at h; cases h; trivial

theorem assignIenumPred_known {S a b T : Config} {al : Bool} {p p' : Pred} (hT : Small T) (ha : Grow S a) (hb : Grow b T)
    (h : assignIenumPred a al p = .ok (p', b)) (hp : PInts S p) : Pred.AllIds p' := by
  unfold assignIenumPred at h
  split at h
  · rename_i op v i
    split at h
    · cases h
    · rename_i d hd
      have hdd : a.domains[v.var]? = some d := by
        unfold getDomain at hd
        split at hd
        · cases hd
        · rename_i h1; cases hd; exact h1
      split at h
      · rename_i hty
        split at h
        · cases h
        · rename_i h1
          cases h
          have hx : i ∈ intTable S v.var := hp ⟨d, by rw [← ha.base.domains]; exact hdd, hty⟩
          exact interned_known ((ha.ints _).subset hx) (getIdForIenum_spec h1).2.2.2.1
            (Nat.lt_of_le_of_lt (hb.ints _).length_le (hT.ints _))
      · cases h; trivial
  · rename_i hne
    cases h
    unfold PInts at hp
    split at hp
    · rename_i op v i; exact absurd rfl (hne op v i)
    · exact hp

theorem prepareInsert_known {cfg cfg' : Config} {id : Nat} {cs : List Constant} {e : Expr} {s : Sub}
    (hr : (assignVar cfg e).All (PKnown cfg)) (hs : Small cfg') (h : prepareInsert cfg id cs e = .ok (some s, cfg')) :
    s.expr.erase.AllIds := by
  unfold prepareInsert at h
  dsimp only at h
  split at h
  · cases h
  · cases h
  · split at h
    · cases h
    · rename_i hk
      split at h
      · cases h
      · rename_i h1
        split at h
        · cases h
        · rename_i h2
          split at h
          · cases h
          · rename_i hf
            split at h
            · cases h
            · rename_i h3
              cases h
              have hsm := Small.of_ext (finishSub_ext h3) hs
              have g1 := assignStr_grow h1
              have g2 := assignIenum_grow h2
              rw [(finishSub_fields h3).2.1]
              have r1 := assignConstants_all (Q := PKnown cfg) (fun p p' => assignConstantsPred_keep fun _ _ hx => hx) hk hr
              have r2 := assignStr_low (fun _ _ _ _ x1 x2 x3 x4 => assignStrPred_known hsm x1 x2 x3 x4) (Grow.refl _) g2 h1 r1
              have r3 := assignIenum_low (fun _ _ _ _ x1 x2 x3 x4 => assignIenumPred_known hsm x1 x2 x3 x4) g1 (Grow.refl _) h2 r2
              have r4 := sortLists_all (fun p => sortListsPred_ids) r3
              exact allIds_of_all (fixFloat_all (fun _ _ => fixFloatPred_ids) hf r4)

theorem knows_pknown {cfg : Config} {e : Expr} (hin : Expr.InRange e) (h : Knows cfg e) :
    e.All (fun p => PKnown cfg (assignVarPred cfg p)) := by
  induction e with
  | leaf p =>
    have h1 := (varStrs_assignVar cfg (.leaf p)).1
    have h2 := (varStrs_assignVar cfg (.leaf p)).2
    have key : (∀ c ∈ predVarStrs (assignVarPred cfg p), c.2 ∈ strTable cfg c.1) ∧
        ∀ c ∈ predVarInts (assignVarPred cfg p), IsEnum cfg.domains c.1 → c.2 ∈ intTable cfg c.1 := by
      constructor
      · intro c hc
        have : c ∈ varStrs (assignVar cfg (.leaf p)) := hc
        rw [h1] at this
        obtain ⟨c', hm, rfl⟩ := List.mem_map.1 this
        exact h.strs c' hm
      · intro c hc
        have : c ∈ varInts (assignVar cfg (.leaf p)) := hc
        rw [h2] at this
        obtain ⟨c', hm, rfl⟩ := List.mem_map.1 this
        exact h.ints c' hm
    show PKnown cfg (assignVarPred cfg p)
    cases p with
    | equality op v c => cases c <;> first | exact absurd hin id | exact key
    | set op l r => cases l <;> cases r <;> exact key
    | _ => exact key
  | not e ih => exact ih hin ⟨h.strs, h.ints⟩
  | and l r ihl ihr | or l r ihl ihr =>
    exact ⟨ihl hin.1 ⟨fun c hc => h.strs c (List.mem_append_left _ hc), fun c hc => h.ints c (List.mem_append_left _ hc)⟩,
      ihr hin.2 ⟨fun c hc => h.strs c (List.mem_append_right _ hc), fun c hc => h.ints c (List.mem_append_right _ hc)⟩⟩

/-- a plain insertion of an expression whose constants are known gives all of them their ids -/
theorem insert_known {cfg cfg' : Config} {id : Nat} {cs : List Constant} {e : Expr} {s : Sub} (hin : Expr.InRange e) (hk : Knows cfg e)
    (hs : Small cfg') (h : prepareInsert cfg id cs (parseBuild e) = .ok (some s, cfg')) : s.expr.erase.AllIds :=
  prepareInsert_known (assignVar_all (fun p hp => hp) (all_parse (knows_pknown hin hk))) hs h

end BeTree
